import Verif.Spec.TestProgram
import Verif.Props.Species
import Verif.Props.BreitWheeler
import Verif.Props.OpticalDepth
import Mathlib.Tactic.Linarith
import Mathlib.Tactic.Ring
import Mathlib.Tactic.FieldSimp
import Mathlib.Tactic.Positivity

namespace Picsar.TestProgram
open Picsar Picsar.Species Picsar.Spec Picsar.Props

/-- Map a routine that may fail over a list, left to right. -/
def mapR (g : Particle → Res Particle) : List Particle → Res (List Particle)
  | [] => .ok []
  | p :: l => do
    let q ← g p
    let l' ← mapR g l
    pure (q :: l')

theorem mapR_of_forall₂ {g : Particle → Res Particle} : ∀ {l l' : List Particle}, List.Forall₂ (fun p q => g p = .ok q) l l' →
    mapR g l = .ok l'
  | [], _, h => by cases h; rfl
  | p :: l, _, h => by
    cases h with
    | cons h1 h2 => simp only [mapR, h1, mapR_of_forall₂ h2, except_bind_ok, except_pure]

theorem forParts_res {body : ℕ → Arrays → Res Arrays} {g : Particle → Res Particle}
    (hb : ∀ (l : List Particle) (i : ℕ) (hi : i < l.length), body i (soa l) = (g l[i]) >>= fun q => .ok (soa (l.set i q))) :
    ∀ (suf pre : List Particle), forParts body (List.range' pre.length suf.length) (soa (pre ++ suf)) =
      (mapR g suf) >>= fun l' => .ok (soa (pre ++ l'))
  | [], pre => by simp [forParts, mapR]
  | p :: suf, pre => by
    rw [List.length_cons, List.range'_succ, forParts, hb _ _ (by simp)]
    have e : (pre ++ p :: suf)[pre.length]'(by simp) = p := by simp
    rw [e, mapR]
    cases hg : g p with
    | error e => rfl
    | ok q =>
      simp only [except_bind_ok]
      have e2 : (pre ++ p :: suf).set pre.length q = (pre ++ [q]) ++ suf := by simp
      have h := forParts_res hb suf (pre ++ [q])
      rw [List.length_append, List.length_singleton] at h
      rw [e2, h]
      cases mapR g suf with
      | error e => rfl
      | ok l' => simp

theorem forAll_res {body : ℕ → Arrays → Res Arrays} {g : Particle → Res Particle}
    (hb : ∀ (l : List Particle) (i : ℕ) (hi : i < l.length), body i (soa l) = (g l[i]) >>= fun q => .ok (soa (l.set i q)))
    (l : List Particle) : forParts body (List.range (soa l).num) (soa l) = (mapR g l) >>= fun l' => .ok (soa l') := by
  have h := forParts_res hb l []
  rw [soa_num, List.range_eq_range']
  simpa using h

/-- One photon of `photonPushPos`. -/
noncomputable def driftR (dt : ℝ) (p : Particle) : Res Particle :=
  match photonDrift dt p with
  | none => .error .exception
  | some q => .ok (setPos p q)

theorem photonPushPos_soa (dt : ℝ) (l : List Particle) :
    photonPushPos dt (soa l) = (mapR (driftR dt) l) >>= fun l' => .ok (soa l') := by
  unfold photonPushPos
  apply forAll_res
  intro l i hi
  rw [readParticle_soa hi]
  simp only [except_bind_ok, driftR]
  cases photonDrift dt l[i] with
  | none => rfl
  | some q => exact writePos_soa hi q

theorem writeDepth_soa {l : List Particle} {i : ℕ} (hi : i < l.length) (d : ℝ) (f : Bool) :
    writeDepth (soa l) i d f = .ok (soa (l.set i { l[i] with depth := d, flag := f })) := by
  unfold writeDepth soa
  simp only [wr, List.length_map, hi, if_true, except_bind_ok, pure, Except.pure, List.map_set, map_set_self hi]

/-- One photon of `opticalDepth`. -/
noncomputable def depthR (P : Setup) (p : Particle) : Res Particle :=
  BW.evolve P.U P.ctrl P.rate P.TT P.lambda (momOf p) (eOf p) (bOf p) P.dt p.depth >>= fun (ev : Evolved) =>
    if ev.event then
      match photonDrift ev.eventDt p with
      | none => .error .exception
      | some q => .ok (setPos { p with depth := ev.depth, flag := ev.event } q)
    else .ok { p with depth := ev.depth, flag := ev.event }

theorem opticalDepth_soa (P : Setup) (l : List Particle) :
    opticalDepth P (soa l) = (mapR (depthR P) l) >>= fun l' => .ok (soa l') := by
  unfold opticalDepth
  apply forAll_res
  intro l i hi
  rw [readParticle_soa hi]
  simp only [except_bind_ok, depthR]
  cases BW.evolve P.U P.ctrl P.rate P.TT P.lambda (momOf l[i]) (eOf l[i]) (bOf l[i]) P.dt l[i].depth with
  | error e => rfl
  | ok ev =>
    simp only [except_bind_ok]
    rw [writeDepth_soa hi]
    simp only [except_bind_ok, advance]
    split
    · cases photonDrift ev.eventDt l[i] with
      | none => rfl
      | some q =>
        have hi2 : i < (l.set i { l[i] with depth := ev.depth, flag := ev.event }).length := by simpa using hi
        have := writePos_soa hi2 q
        simp only [except_bind_ok]
        rw [this]
        simp
    · rfl

theorem photonDrift_some {dt : ℝ} {p : Particle} (h : 0 < (mom p).norm) :
    photonDrift dt p = some (p.x + dt / (mom p).norm * p.px, p.y + dt / (mom p).norm * p.py, p.z + dt / (mom p).norm * p.pz) := by
  have e : Real.sqrt (p.px * p.px + p.py * p.py + p.pz * p.pz) = (mom p).norm := rfl
  simp only [photonDrift, e, if_neg h.ne']
  rw [mul_one_div]

/-- What a followed photon is after one step, and that the code computes it. -/
theorem photon_step (P : Setup) (t : ℝ) (p : Particle) (hm : 0 < (mom p).norm) (ev : Evolved)
    (hev : BW.evolve P.U P.ctrl P.rate P.TT P.lambda (mom p) (eAt (P.em t p.x p.y p.z)) (bAt (P.em t p.x p.y p.z)) P.dt p.depth
      = .ok ev) :
    ∃ p1 q, driftR P.dt (setFields p (P.em t p.x p.y p.z)) = .ok p1 ∧ depthR P p1 = .ok q ∧ PhotonStep P t p q := by
  have h1 : photonDrift P.dt (setFields p (P.em t p.x p.y p.z)) =
      some (p.x + P.dt / (mom p).norm * p.px, p.y + P.dt / (mom p).norm * p.py, p.z + P.dt / (mom p).norm * p.pz) :=
    photonDrift_some (p := setFields p (P.em t p.x p.y p.z)) hm
  have e1 : driftR P.dt (setFields p (P.em t p.x p.y p.z)) = .ok (setPos (setFields p (P.em t p.x p.y p.z))
      (p.x + P.dt / (mom p).norm * p.px, p.y + P.dt / (mom p).norm * p.py, p.z + P.dt / (mom p).norm * p.pz)) := by
    rw [driftR, h1]
  generalize hp1 : setPos (setFields p (P.em t p.x p.y p.z))
      (p.x + P.dt / (mom p).norm * p.px, p.y + P.dt / (mom p).norm * p.py, p.z + P.dt / (mom p).norm * p.pz) = p1 at e1
  have hev1 : BW.evolve P.U P.ctrl P.rate P.TT P.lambda (momOf p1) (eOf p1) (bOf p1) P.dt p1.depth = .ok ev := by
    rw [← hp1]; exact hev
  have hm1 : mom p1 = mom p := by rw [← hp1]; rfl
  cases hb : ev.event with
  | false =>
    refine ⟨p1, { p1 with depth := ev.depth, flag := ev.event }, e1, ?_, ?_, hm1, ev, hev, rfl, rfl, hm, ?_⟩
    · rw [depthR, hev1]
      simp only [except_bind_ok, hb]
      rfl
    · rw [← hp1]; rfl
    · rw [← hp1, hb]
      simp only [setPos, setFields, Bool.false_eq_true, if_false, add_zero, and_self]
  | true =>
    have h2 : photonDrift ev.eventDt p1 = some (p1.x + ev.eventDt / (mom p1).norm * p1.px,
        p1.y + ev.eventDt / (mom p1).norm * p1.py, p1.z + ev.eventDt / (mom p1).norm * p1.pz) :=
      photonDrift_some (by rw [hm1]; exact hm)
    refine ⟨p1, setPos { p1 with depth := ev.depth, flag := ev.event } (p1.x + ev.eventDt / (mom p1).norm * p1.px,
        p1.y + ev.eventDt / (mom p1).norm * p1.py, p1.z + ev.eventDt / (mom p1).norm * p1.pz), e1, ?_, ?_, hm1, ev, hev, rfl, rfl, hm, ?_⟩
    · rw [depthR, hev1]
      simp only [except_bind_ok, hb, if_true]
      rw [h2]
    · rw [← hp1]; rfl
    · rw [hm1, ← hp1, hb]
      simp only [setPos, setFields, if_true]
      refine ⟨?_, ?_, ?_⟩ <;> ring

/-- Every photon with momentum whose engine call succeeds can be advanced. -/
theorem photons_step (P : Setup) (t : ℝ) : ∀ (l : List Particle), (∀ p ∈ l, 0 < (mom p).norm ∧ ∃ ev,
      BW.evolve P.U P.ctrl P.rate P.TT P.lambda (mom p) (eAt (P.em t p.x p.y p.z)) (bAt (P.em t p.x p.y p.z)) P.dt p.depth = .ok ev) →
    ∃ l1 l2, mapR (driftR P.dt) (l.map fun p => setFields p (P.em t p.x p.y p.z)) = .ok l1 ∧ mapR (depthR P) l1 = .ok l2 ∧
      List.Forall₂ (PhotonStep P t) l l2
  | [], _ => ⟨[], [], rfl, rfl, .nil⟩
  | p :: l, h => by
    obtain ⟨hm, ev, hev⟩ := h p (by simp)
    obtain ⟨p1, q, h1, h2, h3⟩ := photon_step P t p hm ev hev
    obtain ⟨l1, l2, h4, h5, h6⟩ := photons_step P t l fun p' hp' => h p' (by simp [hp'])
    refine ⟨p1 :: l1, q :: l2, ?_, ?_, .cons h3 h6⟩
    · simp only [List.map_cons, mapR, h1, h4, except_bind_ok, except_pure]
    · simp only [mapR, h2, h5, except_bind_ok, except_pure]

/-- The destruction loop on a list of photons each of which, if flagged, gives a pair. -/
theorem collectPairs_soa (P : Setup) (l : List Particle) : ∀ (is : List ℕ), (∀ i ∈ is, i < l.length) →
    ∀ (es ps : List Particle) (n : ℕ) (es' ps' : List Particle),
    PairsOf P n ((is.filterMap fun (i : ℕ) => l[i]?).filter (·.flag)) es' ps' →
    collectPairs P (soa l) is (soa es) (soa ps) n =
      .ok (is.filter fun i => (l[i]?.map (·.flag)).getD false, soa (es ++ es'), soa (ps ++ ps'), n + es'.length)
  | [], _, es, ps, n, es', ps', h => by
    cases h
    simp [collectPairs]
  | i :: is, hi, es, ps, n, es', ps', h => by
    have h0 := hi i (by simp)
    rw [collectPairs, readParticle_soa h0]
    simp only [except_bind_ok]
    rw [List.filterMap_cons, List.getElem?_eq_getElem h0] at h
    simp only [List.filter_cons] at h
    cases hf : l[i].flag with
    | false =>
      rw [hf] at h
      simp only [Bool.false_eq_true, if_false] at h
      have ih := collectPairs_soa P l is (fun j hj => hi j (by simp [hj])) es ps n es' ps' h
      simp only [pairProd, hf, if_true, except_bind_ok, ih, except_pure, List.filter_cons, List.getElem?_eq_getElem h0,
        Option.map_some, Option.getD_some, Bool.false_eq_true, if_false]
    | true =>
      rw [hf] at h
      simp only [if_true] at h
      cases h with
      | @cons _ _ e p _ es2 ps2 hp ht =>
        obtain ⟨r, hr, he, hp⟩ := hp
        have hr' : BW.generatePairs P.U P.ctrl P.pairs P.lambda (momOf l[i]) (eOf l[i]) (bOf l[i]) 1 [P.rng n] = .ok [some r] := hr
        have ih := collectPairs_soa P l is (fun j hj => hi j (by simp [hj])) (es ++ [e]) (ps ++ [p]) (n + 1) es2 ps2 ht
        simp only [pairProd, hf, if_false, Bool.true_eq_false, hr', except_bind_ok, List.getElem?_cons_zero, except_pure,
          addParticle_soa, List.filter_cons, List.getElem?_eq_getElem h0, Option.map_some, Option.getD_some, if_true]
        rw [← he, ← hp, ih]
        simp only [except_bind_ok, List.append_assoc, List.singleton_append, List.length_cons]
        rw [show n + 1 + es2.length = n + (es2.length + 1) by omega]

theorem filterMap_range (l : List Particle) : (List.range l.length).filterMap (fun (i : ℕ) => l[i]?) = l := by
  induction l using List.reverseRecOn with
  | nil => rfl
  | append_singleton l p ih =>
    rw [List.length_append, List.length_singleton, List.range_succ, List.filterMap_append]
    congr 1
    · conv_rhs => rw [← ih]
      apply List.filterMap_congr
      intro i hi
      rw [List.getElem?_append_left (by simpa using hi)]
    · simp

theorem destroy_soa (P : Setup) (l es ps : List Particle) (n : ℕ) (es' ps' : List Particle) (hl : l.length < 2 ^ 64)
    (h : PairsOf P n (l.filter (·.flag)) es' ps') :
    ∃ l', destroy P ⟨soa l, soa es, soa ps, n⟩ = .ok ⟨soa l', soa (es ++ es'), soa (ps ++ ps'), n + es'.length⟩ ∧
      l'.Perm (l.filter fun p => !p.flag) := by
  have hc := collectPairs_soa P l (List.range l.length) (by simp) es ps n es' ps' (by rw [filterMap_range]; exact h)
  obtain ⟨l', h1, h2⟩ := removeSorted_soa (l := l) (kills := (List.range l.length).filter fun i => (l[i]?.map (·.flag)).getD false)
    (List.Pairwise.filter _ List.pairwise_lt_range) (fun k hk => List.mem_range.mp (List.mem_filter.mp hk).1) hl
  refine ⟨l', ?_, ?_⟩
  · unfold destroy
    simp only [soa_num]
    rw [hc]
    simp only [except_bind_ok]
    rw [h1]
    rfl
  · rw [kept_filter] at h2
    exact h2

/-- The draws of a list of flagged photons each of which gives a pair. -/
theorem pairsOf_exists (P : Setup) : ∀ (qs : List Particle) (n : ℕ),
    (∀ q ∈ qs, ∀ u : ℝ, 0 ≤ u → u < 1 → ∃ e p, IsPairOf P u q e p) → (∀ n, 0 ≤ P.rng n ∧ P.rng n < 1) →
    ∃ es ps, PairsOf P n qs es ps
  | [], n, _, _ => ⟨[], [], .nil n⟩
  | q :: qs, n, h, hr => by
    obtain ⟨e, p, h1⟩ := h q (by simp) (P.rng n) (hr n).1 (hr n).2
    obtain ⟨es, ps, h2⟩ := pairsOf_exists P qs (n + 1) (fun q' hq' => h q' (by simp [hq'])) hr
    exact ⟨e :: es, p :: ps, .cons h1 h2⟩

/-- The engine never fails on a followed photon, and its verdict. -/
theorem evolve_followed {P : Setup} {cum : ℕ → ℕ → ℝ} (hP : WellSetUp P cum) {p : V3} {d : ℝ} (hp : 0 < p.norm) (hd : 0 ≤ d) (e b : V3) :
    ∃ ev, BW.evolve P.U P.ctrl P.rate P.TT P.lambda p e b P.dt d = .ok ev ∧ (ev.event = false → 0 ≤ ev.depth) ∧
      (ev.event = true → PhotonAboveThreshold P.U P.ctrl p e b P.lambda) := by
  by_cases ha : PhotonAboveThreshold P.U P.ctrl p e b P.lambda
  · have hc : 0 < chiPhoton P.U p e b P.lambda := lt_of_le_of_lt hP.chiMin ha.1
    have hen : 0 < photonEnergy P.U p := mul_pos hp hP.units.c
    obtain ⟨r, hr, hr0⟩ := C26_rate_pos P.U hP.units P.ctrl P.rate hP.rateMin hP.rates P.lambda _ _ hP.lambda hen hc
    obtain ⟨ev, h1, h2⟩ := C21_evolve_photon P.U P.ctrl P.rate P.TT P.lambda p e b ha r hr0
      (by unfold photonRate; rw [hP.rates.1]; exact hr) P.dt d hd
    exact ⟨ev, h1, fun h => (h2.2.2.2 h).2, fun _ => ha⟩
  · have hb : photonEnergy P.U p < 2 * (P.U.emass * P.U.c ^ 2) ∨ chiPhoton P.U p e b P.lambda ≤ P.ctrl.chiPhotMin := by
      by_contra hcon
      push Not at hcon
      exact ha ⟨hcon.2, hcon.1⟩
    refine ⟨_, (C23_below_threshold_photon P.U hP.units P.ctrl P.rate P.TT P.lambda p e b hb P.dt d).2, fun _ => hd, fun h => ?_⟩
    exact absurd h (by simp)

theorem forall₂_mem_right {R : Particle → Particle → Prop} : ∀ {l l' : List Particle}, List.Forall₂ R l l' → ∀ q ∈ l', ∃ p ∈ l, R p q
  | _, _, .nil, q, hq => by simp at hq
  | _, _, .cons h hs, q, hq => by
    rcases List.mem_cons.mp hq with rfl | hq
    · exact ⟨_, by simp, h⟩
    · obtain ⟨p, hp, hr⟩ := forall₂_mem_right hs q hq
      exact ⟨p, by simp [hp], hr⟩

end Picsar.TestProgram
