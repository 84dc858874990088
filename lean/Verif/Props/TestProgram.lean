import Verif.Lemmas.TestProgram
import Mathlib.Algebra.Order.BigOperators.Group.List
import Mathlib.Data.List.Perm.Basic

/-
C122-C125: the test program of the QED library, photons that turn into electron-positron pairs.
-/
namespace Picsar.Props
open Picsar Picsar.Species Picsar.Spec Picsar.TestProgram

/-! ### C122 -/

theorem followed_pair {P : Setup} {cum : ℕ → ℕ → ℝ} (hP : WellSetUp P cum) {t : ℝ} {p q : Particle} (hp : Followed P p)
    (h : PhotonStep P t p q) (hf : q.flag = true) (u : ℝ) (h0 : 0 ≤ u) (h1 : u < 1) :
    ∃ r : BW.Pair, BW.generatePairs P.U P.ctrl P.pairs P.lambda (mom q) ⟨q.ex, q.ey, q.ez⟩ ⟨q.bx, q.by', q.bz⟩ 1 [u] = .ok [some r] ∧
      IsConservingPair P.U (mom p) (chiPhoton P.U (mom p) (eAt (P.em t p.x p.y p.z)) (bAt (P.em t p.x p.y p.z)) P.lambda) 1 r := by
  obtain ⟨hfi, hm, ev, hev, hd, hfl, hn, -⟩ := h
  obtain ⟨ev', hev', -, hab⟩ := evolve_followed hP hp.moves hp.depth (eAt (P.em t p.x p.y p.z)) (bAt (P.em t p.x p.y p.z))
  have : ev' = ev := by rw [hev] at hev'; exact (Except.ok.inj hev').symm
  subst this
  have ha := hab (by rw [← hfl]; exact hf)
  have he : (⟨q.ex, q.ey, q.ez⟩ : V3) = eAt (P.em t p.x p.y p.z) := by rw [← hfi]; rfl
  have hb : (⟨q.bx, q.by', q.bz⟩ : V3) = bAt (P.em t p.x p.y p.z) := by rw [← hfi]; rfl
  obtain ⟨qs, g1, g2, g3⟩ := C24_generate_partial P.U hP.units P.ctrl P.pairs cum hP.pairs P.lambda (mom p)
    (eAt (P.em t p.x p.y p.z)) (bAt (P.em t p.x p.y p.z)) ha.2 (lt_of_le_of_lt hP.chiMin ha.1) 1 [u]
    (by intro v hv; rw [List.mem_singleton.mp hv]; exact ⟨h0, h1⟩) (fun _ _ => Or.inl (hp.offGrid t p.x p.y p.z))
  match qs, g2 with
  | [r], _ =>
    refine ⟨r, ?_, ?_⟩
    · rw [hm, he, hb, g1]; rfl
    · have := g3 r (by simp)
      simpa using this

/-- C122: one step of the program, whatever the populations, the fields and the draws. Every photon advances once (`PhotonStep`).
The photons whose decay the engine reports, and only they, are removed in this very step, and in their order each of them gives
one electron and one positron, generated by the engine at the place of the photon with the next draw. The other photons stay, each
once, with all they carry. The leptons that were there are pushed once, before the new ones are added. -/
theorem C122_step (P : Setup) (cum : ℕ → ℕ → ℝ) (hP : WellSetUp P cum) (i n : ℕ) (l es ps : List Particle)
    (hl : ∀ p ∈ l, Followed P p) (hlen : l.length < 2 ^ 64) :
    ∃ l2 l' es' ps', step P i ⟨soa l, soa es, soa ps, n⟩ = .ok ⟨soa l', soa (es.map (leptonStep P (i * P.dt) (-1)) ++ es'),
        soa (ps.map (leptonStep P (i * P.dt) 1) ++ ps'), n + es'.length⟩ ∧
      List.Forall₂ (PhotonStep P (i * P.dt)) l l2 ∧ l'.Perm (l2.filter fun p => !p.flag) ∧
      PairsOf P n (l2.filter fun p => p.flag) es' ps' := by
  obtain ⟨l1, l2, h1, h2, h3⟩ := photons_step P (i * P.dt) l fun p hp =>
    ⟨(hl p hp).moves, (evolve_followed hP (hl p hp).moves (hl p hp).depth _ _).imp fun _ h => h.1⟩
  obtain ⟨es', ps', h4⟩ := pairsOf_exists P (l2.filter (·.flag)) n (fun q hq u h0 h1 => by
      obtain ⟨hq1, hq2⟩ := List.mem_filter.mp hq
      obtain ⟨p, hp, hs⟩ := forall₂_mem_right h3 q hq1
      obtain ⟨r, hr, -⟩ := followed_pair hP (hl p hp) hs hq2 u h0 h1
      exact ⟨_, _, r, hr, rfl, rfl⟩) hP.draws
  have hlen2 : l2.length < 2 ^ 64 := by rw [← h3.length_eq]; exact hlen
  have eE : (0.5 * (-1) * P.dt / 1 : ℝ) = -1 * P.dt / 2 := by ring
  have eP : (0.5 * 1 * P.dt / 1 : ℝ) = 1 * P.dt / 2 := by ring
  obtain ⟨l', h5, h6⟩ := destroy_soa P l2 (es.map (leptonStep P (i * P.dt) (-1))) (ps.map (leptonStep P (i * P.dt) 1)) n es' ps' hlen2 h4
  refine ⟨l2, l', es', ps', ?_, h3, h6, h4⟩
  unfold step
  rw [calcFields_soa, calcFields_soa, calcFields_soa, eE, eP]
  simp only [except_bind_ok]
  rw [pushMom_soa, pushMom_soa]
  simp only [except_bind_ok]
  rw [photonPushPos_soa, h1]
  simp only [except_bind_ok]
  rw [pushPos_soa, pushPos_soa]
  simp only [except_bind_ok]
  rw [opticalDepth_soa, h2]
  simp only [except_bind_ok, List.map_map]
  exact h5

theorem pairsOf_length {P : Setup} : ∀ {n : ℕ} {qs es ps : List Particle}, PairsOf P n qs es ps →
    es.length = qs.length ∧ ps.length = qs.length
  | _, _, _, _, .nil _ => ⟨rfl, rfl⟩
  | _, _, _, _, .cons _ h => by
    obtain ⟨h1, h2⟩ := pairsOf_length h
    simp [h1, h2]

theorem leptonStep_energy (P : Setup) (t c : ℝ) (hm : ∀ x y z, (P.em t x y z).1 = 0 ∧ (P.em t x y z).2.1 = 0 ∧ (P.em t x y z).2.2.1 = 0)
    (p : Particle) : leptonEnergy P.U (mom (leptonStep P t c p)) = leptonEnergy P.U (mom p) := by
  have h := C77_magnetic_norm (c * P.dt / 2) (setFields p (P.em t p.x p.y p.z)) (hm _ _ _)
  have : (mom (leptonStep P t c p)).norm = (mom p).norm := by
    unfold V3.norm V3.norm2
    congr 1
    simp only [leptonStep, mom, setPos, setMom, ← pow_two]
    exact h
  unfold leptonEnergy
  rw [this]

theorem pairs_energy {P : Setup} {cum : ℕ → ℕ → ℝ} (hP : WellSetUp P cum) {t : ℝ} {l l2 : List Particle} (hl : ∀ p ∈ l, Followed P p)
    (h : List.Forall₂ (PhotonStep P t) l l2) : ∀ {n : ℕ} {qs es ps : List Particle}, PairsOf P n qs es ps → (∀ q ∈ qs, q ∈ l2 ∧ q.flag = true) →
    (es.map fun p => leptonEnergy P.U (mom p)).sum + (ps.map fun p => leptonEnergy P.U (mom p)).sum =
      (qs.map fun p => photonEnergy P.U (mom p)).sum
  | _, _, _, _, .nil _, _ => by simp
  | _, _, _, _, .cons (n := n) (q := q) (e := e) (p := p') ⟨r, hr, he, hp⟩ hs, hq => by
    have ih := pairs_energy hP hl h hs fun q' hq' => hq q' (by simp [hq'])
    obtain ⟨h1, h2⟩ := hq q (by simp)
    obtain ⟨p, hp1, hs1⟩ := forall₂_mem_right h q h1
    obtain ⟨r', hr', hc⟩ := followed_pair hP (hl p hp1) hs1 h2 (P.rng n) (hP.draws n).1 (hP.draws n).2
    rw [hr] at hr'
    have : r = r' := by simpa using hr'
    subst this
    have hen := hc.2.2.2.2.1
    have e1 : mom e = r.ele := by rw [he]; rfl
    have e2 : mom p' = r.pos := by rw [hp]; rfl
    simp only [List.map_cons, List.sum_cons, e1, e2, hs1.momentum]
    linarith

theorem photonStep_momenta {P : Setup} {t : ℝ} : ∀ {l l2 : List Particle}, List.Forall₂ (PhotonStep P t) l l2 → l2.map mom = l.map mom
  | _, _, .nil => rfl
  | _, _, .cons h hs => by simp [h.momentum, photonStep_momenta hs]

theorem followed_step {P : Setup} {cum : ℕ → ℕ → ℝ} (hP : WellSetUp P cum) {t : ℝ} {p q : Particle} (hp : Followed P p)
    (h : PhotonStep P t p q) (hf : q.flag = false) : Followed P q := by
  obtain ⟨hfi, hm, ev, hev, hd, hfl, hn, -⟩ := h
  obtain ⟨ev', hev', hnn, -⟩ := evolve_followed hP hp.moves hp.depth (eAt (P.em t p.x p.y p.z)) (bAt (P.em t p.x p.y p.z))
  have : ev' = ev := by rw [hev] at hev'; exact (Except.ok.inj hev').symm
  subst this
  refine ⟨by rw [hm]; exact hn, ?_, ?_⟩
  · rw [hd]; exact hnn (by rw [← hfl]; exact hf)
  · rw [hm]; exact hp.offGrid

theorem sum_filter_split (f : Particle → ℝ) (b : Particle → Bool) (l : List Particle) :
    ((l.filter fun p => !b p).map f).sum + ((l.filter b).map f).sum = (l.map f).sum := by
  induction l with
  | nil => simp
  | cons p l ih =>
    cases h : b p <;> simp [h, ← ih] <;> ring

theorem length_filter_split (b : Particle → Bool) (l : List Particle) :
    (l.filter fun p => !b p).length + (l.filter b).length = l.length := by
  induction l with
  | nil => simp
  | cons p l ih =>
    cases h : b p <;> simp [h] <;> omega

/-- C122: the program runs to the end for any number of steps, any fields, any population of photons it can follow and any draws.
Photons and electrons are together as many as at the start, electrons and positrons appear together, one draw is made for each pair,
and the momenta of the photons that are left are some of those of the start. If there is no electric field, the total energy is
the same as at the start. -/
theorem C122_run (P : Setup) (cum : ℕ → ℕ → ℝ) (hP : WellSetUp P cum) (n : ℕ) : ∀ (i k : ℕ) (l es ps : List Particle),
    (∀ p ∈ l, Followed P p) → l.length < 2 ^ 64 →
    ∃ l' es' ps', run P i n ⟨soa l, soa es, soa ps, k⟩ = .ok ⟨soa l', soa es', soa ps', k + (l.length - l'.length)⟩ ∧
      l'.length + es'.length = l.length + es.length ∧ l'.length + ps'.length = l.length + ps.length ∧
      List.Subperm (l'.map mom) (l.map mom) ∧ (∀ p ∈ l', Followed P p) ∧
      ((∀ t x y z, eAt (P.em t x y z) = ⟨0, 0, 0⟩) → totalEnergy P.U l' es' ps' = totalEnergy P.U l es ps) := by
  induction n with
  | zero =>
    intro i k l es ps hl _
    exact ⟨l, es, ps, by simp [run], rfl, rfl, List.Subperm.refl _, hl, fun _ => rfl⟩
  | succ n ih =>
    intro i k l es ps hl hlen
    obtain ⟨l2, l1, es1, ps1, h1, h2, h3, h4⟩ := C122_step P cum hP i k l es ps hl hlen
    have hl1 : ∀ p ∈ l1, Followed P p := by
      intro q hq
      obtain ⟨hq1, hq2⟩ := List.mem_filter.mp (h3.mem_iff.mp hq)
      obtain ⟨p, hp, hs⟩ := forall₂_mem_right h2 q hq1
      exact followed_step hP (hl p hp) hs (by simpa using hq2)
    have hc := length_filter_split (·.flag) l2
    have hc1 := h3.length_eq
    have hc2 := h2.length_eq
    obtain ⟨hc3, hc4⟩ := pairsOf_length h4
    obtain ⟨l', es', ps', g1, g2, g3, g4, g5, g6⟩ := ih (i + 1) (k + es1.length) l1 (es.map (leptonStep P (i * P.dt) (-1)) ++ es1)
      (ps.map (leptonStep P (i * P.dt) 1) ++ ps1) hl1 (by omega)
    refine ⟨l', es', ps', ?_, ?_, ?_, ?_, g5, ?_⟩
    · rw [run, h1]
      simp only [except_bind_ok]
      rw [g1]
      congr 2
      rw [List.length_append, List.length_map] at g2
      have : l'.length ≤ l1.length := by simpa using g4.length_le
      omega
    · rw [g2]; simp only [List.length_append, List.length_map]; omega
    · rw [g3]; simp only [List.length_append, List.length_map]; omega
    · refine g4.trans ?_
      rw [← photonStep_momenta h2]
      exact ((h3.map mom).subperm).trans ((List.filter_sublist.map mom).subperm)
    · intro hm
      have hm' : ∀ x y z, (P.em (i * P.dt) x y z).1 = 0 ∧ (P.em (i * P.dt) x y z).2.1 = 0 ∧ (P.em (i * P.dt) x y z).2.2.1 = 0 := by
        intro x y z
        have := hm (i * P.dt) x y z
        simp only [eAt, V3.mk.injEq] at this
        exact this
      rw [g6 hm]
      have s1 := pairs_energy hP hl h2 h4 fun q hq => by
        obtain ⟨a, b⟩ := List.mem_filter.mp hq
        exact ⟨a, b⟩
      have s2 := sum_filter_split (fun p => photonEnergy P.U (mom p)) (·.flag) l2
      have s3 := (h3.map fun p => photonEnergy P.U (mom p)).sum_eq
      have s4 : (l2.map fun p => photonEnergy P.U (mom p)).sum = (l.map fun p => photonEnergy P.U (mom p)).sum := by
        have := congrArg (fun m : List V3 => (m.map (photonEnergy P.U)).sum) (photonStep_momenta h2)
        simpa [List.map_map, Function.comp_def] using this
      unfold totalEnergy
      simp only [List.map_append, List.sum_append, List.map_map, Function.comp_def, leptonStep_energy P _ _ hm']
      linarith

/-! ### C123 -/

/-- Momentum and optical depth. -/
def md (p : Particle) : V3 × ℝ := (mom p, p.depth)

/-- Those of `xs` left after time `T` with decay rates `r`, and their depths. -/
noncomputable def left (r : V3 → ℝ) (T : ℝ) (xs : List (V3 × ℝ)) : List (V3 × ℝ) :=
  (xs.filter fun x => decide (r x.1 * T ≤ x.2)).map fun x => (x.1, x.2 - r x.1 * T)

theorem left_left {r : V3 → ℝ} {S T : ℝ} (hT : 0 ≤ T) : ∀ (xs : List (V3 × ℝ)), (∀ x ∈ xs, 0 ≤ r x.1) →
    left r T (left r S xs) = left r (S + T) xs
  | [], _ => rfl
  | x :: xs, h => by
    have ih := left_left (S := S) hT xs fun y hy => h y (by simp [hy])
    have hx := h x (by simp)
    have h2 := mul_nonneg hx hT
    unfold left at ih ⊢
    by_cases h1 : r x.1 * S ≤ x.2
    · by_cases h3 : r x.1 * T ≤ x.2 - r x.1 * S
      · have h4 : r x.1 * (S + T) ≤ x.2 := by rw [mul_add]; linarith
        simp only [List.filter_cons, h1, h3, h4, decide_true, if_true, List.map_cons, ih]
        congr 2
        ring
      · have h4 : ¬ r x.1 * (S + T) ≤ x.2 := by rw [mul_add]; intro h; exact h3 (by linarith)
        simp only [List.filter_cons, h1, h3, h4, decide_true, decide_false, if_true, Bool.false_eq_true, if_false, List.map_cons, ih]
    · have h4 : ¬ r x.1 * (S + T) ≤ x.2 := by rw [mul_add]; intro h; exact h1 (by linarith)
      simp only [List.filter_cons, h1, h4, decide_false, Bool.false_eq_true, if_false, ih]

theorem rate_nonneg {P : Setup} {cum : ℕ → ℕ → ℝ} (hP : WellSetUp P cum) {e b m : V3} (hm : 0 < m.norm) {r : ℝ} (h : HasRate P e b m r) :
    0 ≤ r := by
  rcases h with ⟨ha, hr⟩ | ⟨-, rfl⟩
  · have hc : 0 < chiPhoton P.U m e b P.lambda := lt_of_le_of_lt hP.chiMin ha.1
    have hen : 0 < photonEnergy P.U m := mul_pos hm hP.units.c
    obtain ⟨r', hr', h0⟩ := C26_rate_pos P.U hP.units P.ctrl P.rate hP.rateMin hP.rates P.lambda _ _ hP.lambda hen hc
    unfold photonRate at hr
    rw [hP.rates.1, if_pos rfl, hr'] at hr
    rw [← Except.ok.inj hr]
    exact h0.le
  · exact le_refl _

theorem rate_step {P : Setup} {cum : ℕ → ℕ → ℝ} (hP : WellSetUp P cum) {p : Particle} (hp : Followed P p) {e b : V3} {r : ℝ}
    (h : HasRate P e b (mom p) r) {ev : Evolved} (hev : BW.evolve P.U P.ctrl P.rate P.TT P.lambda (mom p) e b P.dt p.depth = .ok ev) :
    ev.depth = p.depth - r * P.dt ∧ (ev.event = true ↔ p.depth < r * P.dt) ∧ (ev.event = true → 0 < r ∧ ev.eventDt = p.depth / r) := by
  rcases h with ⟨ha, hr⟩ | ⟨ha, rfl⟩
  · have hr0 : 0 < r := by
      have hc : 0 < chiPhoton P.U (mom p) e b P.lambda := lt_of_le_of_lt hP.chiMin ha.1
      have hen : 0 < photonEnergy P.U (mom p) := mul_pos hp.moves hP.units.c
      obtain ⟨r', hr', h0⟩ := C26_rate_pos P.U hP.units P.ctrl P.rate hP.rateMin hP.rates P.lambda _ _ hP.lambda hen hc
      have hr2 := hr
      unfold photonRate at hr2
      rw [hP.rates.1, if_pos rfl, hr'] at hr2
      rw [← Except.ok.inj hr2]
      exact h0
    obtain ⟨ev', h1, h2⟩ := C21_evolve_photon P.U P.ctrl P.rate P.TT P.lambda (mom p) e b ha r hr0 hr P.dt p.depth hp.depth
    rw [hev] at h1
    rw [Except.ok.inj h1]
    exact ⟨h2.1, h2.2.1, fun h => ⟨hr0, (h2.2.2.1 h).1⟩⟩
  · have hb : photonEnergy P.U (mom p) < 2 * (P.U.emass * P.U.c ^ 2) ∨ chiPhoton P.U (mom p) e b P.lambda ≤ P.ctrl.chiPhotMin := by
      by_contra hcon
      push Not at hcon
      exact ha ⟨hcon.2, hcon.1⟩
    have := (C23_below_threshold_photon P.U hP.units P.ctrl P.rate P.TT P.lambda (mom p) e b hb P.dt p.depth).2
    rw [hev] at this
    rw [Except.ok.inj this]
    have := hp.depth
    refine ⟨by simp, ?_, by simp⟩
    simp only [Bool.false_eq_true, zero_mul, false_iff, not_lt]
    exact this

theorem step_left {P : Setup} {cum : ℕ → ℕ → ℝ} (hP : WellSetUp P cum) {F : ℝ × ℝ × ℝ × ℝ × ℝ × ℝ} (hF : ∀ t x y z, P.em t x y z = F)
    {r : V3 → ℝ} {t : ℝ} : ∀ {l l2 : List Particle}, (∀ p ∈ l, Followed P p ∧ HasRate P (eAt F) (bAt F) (mom p) (r (mom p))) →
    List.Forall₂ (PhotonStep P t) l l2 → (l2.filter fun p => !p.flag).map md = left r P.dt (l.map md)
  | [], _, _, .nil => rfl
  | p :: l, q :: l2, h, .cons hs hss => by
    have ih := step_left hP hF (fun p' hp' => h p' (by simp [hp'])) hss
    obtain ⟨hp, hr⟩ := h p (by simp)
    obtain ⟨hfi, hm, ev, hev, hd, hfl, hn, -⟩ := hs
    rw [hF] at hev
    obtain ⟨r1, r2, -⟩ := rate_step hP hp hr hev
    have e1 : (md p).1 = mom p := rfl
    have e2 : (md p).2 = p.depth := rfl
    rw [List.map_cons]
    unfold left at ih ⊢
    rw [List.filter_cons, List.filter_cons, e1, e2]
    by_cases hx : r (mom p) * P.dt ≤ p.depth
    · have hfq : q.flag = false := by
        rw [hfl]
        cases hb : ev.event with
        | false => rfl
        | true => exact absurd (r2.mp hb) (not_lt.mpr hx)
      simp only [hfq, hx, decide_true, if_true, Bool.not_false, List.map_cons, ih]
      congr 1
      unfold md
      rw [hm, hd, r1]
    · have hfq : q.flag = true := by rw [hfl]; exact r2.mpr (not_le.mp hx)
      simp only [hfq, hx, decide_false, Bool.not_true, Bool.false_eq_true, if_false, ih]

/-- C123: in uniform and constant fields, after any number `n` of steps exactly the photons are left whose optical depth is at least
their decay rate times the elapsed time, each with its momentum, and their depths have gone down by that amount. -/
theorem C123_survivors (P : Setup) (cum : ℕ → ℕ → ℝ) (hP : WellSetUp P cum) (hdt : 0 ≤ P.dt) (F : ℝ × ℝ × ℝ × ℝ × ℝ × ℝ)
    (hF : ∀ t x y z, P.em t x y z = F) (r : V3 → ℝ) (n : ℕ) : ∀ (i k : ℕ) (l es ps : List Particle),
    (∀ p ∈ l, Followed P p ∧ HasRate P (eAt F) (bAt F) (mom p) (r (mom p))) → l.length < 2 ^ 64 →
    ∃ l' ele pos k', run P i n ⟨soa l, soa es, soa ps, k⟩ = .ok ⟨soa l', ele, pos, k'⟩ ∧
      (l'.map fun p => (mom p, p.depth)).Perm
        ((l.filter fun p => decide (r (mom p) * (n * P.dt) ≤ p.depth)).map fun p => (mom p, p.depth - r (mom p) * (n * P.dt))) := by
  have key : ∀ (l : List Particle) (T : ℝ), ((l.filter fun p => decide (r (mom p) * T ≤ p.depth)).map fun p => (mom p, p.depth - r (mom p) * T))
      = left r T (l.map md) := by
    intro l T
    unfold left
    rw [List.filter_map, List.map_map]
    rfl
  simp only [key]
  induction n with
  | zero =>
    intro i k l es ps hl _
    refine ⟨l, soa es, soa ps, k, by simp [run], ?_⟩
    have : left r ((0 : ℕ) * P.dt) (l.map md) = l.map md := by
      unfold left
      have h1 : ((l.map md).filter fun x => decide (r x.1 * ((0 : ℕ) * P.dt) ≤ x.2)) = l.map md := by
        apply List.filter_eq_self.mpr
        intro x hx
        obtain ⟨p, hp, rfl⟩ := List.mem_map.mp hx
        simp only [Nat.cast_zero, zero_mul, mul_zero, decide_eq_true_eq]
        exact (hl p hp).1.depth
      rw [h1]
      simp
    rw [this]
    exact List.Perm.refl _
  | succ n ih =>
    intro i k l es ps hl hlen
    obtain ⟨l2, l1, es1, ps1, h1, h2, h3, h4⟩ := C122_step P cum hP i k l es ps (fun p hp => (hl p hp).1) hlen
    have hl1 : ∀ p ∈ l1, Followed P p ∧ HasRate P (eAt F) (bAt F) (mom p) (r (mom p)) := by
      intro q hq
      obtain ⟨hq1, hq2⟩ := List.mem_filter.mp (h3.mem_iff.mp hq)
      obtain ⟨p, hp, hs⟩ := forall₂_mem_right h2 q hq1
      refine ⟨followed_step hP (hl p hp).1 hs (by simpa using hq2), ?_⟩
      rw [hs.momentum]
      exact (hl p hp).2
    have hc := length_filter_split (·.flag) l2
    have hc1 := h3.length_eq
    have hc2 := h2.length_eq
    obtain ⟨l', ele, pos, k', g1, g2⟩ := ih (i + 1) (k + es1.length) l1 (es.map (leptonStep P (i * P.dt) (-1)) ++ es1)
      (ps.map (leptonStep P (i * P.dt) 1) ++ ps1) hl1 (by omega)
    refine ⟨l', ele, pos, k', ?_, ?_⟩
    · rw [run, h1]
      simp only [except_bind_ok]
      rw [g1]
    · refine g2.trans ?_
      have p1 : (left r (n * P.dt) (l1.map md)).Perm (left r (n * P.dt) ((l2.filter fun p => !p.flag).map md)) :=
        ((h3.map md).filter _).map _
      refine p1.trans ?_
      rw [step_left hP hF hl h2, left_left (mul_nonneg (Nat.cast_nonneg n) hdt)]
      · rw [show P.dt + n * P.dt = ((n + 1 : ℕ) : ℝ) * P.dt by push_cast; ring]
      · intro x hx
        obtain ⟨p, hp, rfl⟩ := List.mem_map.mp hx
        exact rate_nonneg hP (hl p hp).1.moves (hl p hp).2

/-- The photons at the start: at the origin, momenta `ms`, depths drawn with `us`. -/
noncomputable def startPhotons (us : ℕ → ℝ) (ms : List V3) : List Particle :=
  ms.zipIdx.map fun x => ⟨0, 0, 0, x.1.x, x.1.y, x.1.z, 0, 0, 0, 0, 0, 0, getOpticalDepth (us x.2), false⟩

theorem initPhotons_soa (ms : List V3) (us : ℕ → ℝ) : initPhotons ms us = soa (startPhotons us ms) := by
  have h : ∀ (ms : List V3) (l : List Particle), ms.foldl (fun (s : Arrays) (m : V3) => addParticle s 0 0 0 m.x m.y m.z) (soa l) =
      soa (l ++ ms.map fun m => ⟨0, 0, 0, m.x, m.y, m.z, 0, 0, 0, 0, 0, 0, 0, false⟩) := by
    intro ms
    induction ms with
    | nil => simp
    | cons m ms ih =>
      intro l
      rw [List.foldl_cons, addParticle_soa, ih]
      simp
  have e : Arrays.empty = soa [] := rfl
  unfold initPhotons
  rw [e, h]
  simp only [List.nil_append, soa, startPhotons, List.map_map, Function.comp_def, List.length_map, Arrays.mk.injEq]
  have hz : ∀ {β : Type} (f : V3 → β), ms.zipIdx.map (fun x => f x.1) = ms.map f := by
    intro β f
    have := congrArg (List.map f) (List.zipIdx_map_fst 0 ms)
    rw [List.map_map] at this
    exact this
  have hc : ∀ {β : Type} (c : β), ms.zipIdx.map (fun _ => c) = ms.map fun _ => c := fun c => hz fun _ => c
  refine ⟨?_, ?_, ?_, ?_, ?_, ?_, ?_, ?_, ?_, ?_, ?_, ?_, ?_, ?_⟩
  · exact (hc 0).symm
  · exact (hc 0).symm
  · exact (hc 0).symm
  · exact (hz (·.x)).symm
  · exact (hz (·.y)).symm
  · exact (hz (·.z)).symm
  · exact (hc 0).symm
  · exact (hc 0).symm
  · exact (hc 0).symm
  · exact (hc 0).symm
  · exact (hc 0).symm
  · exact (hc 0).symm
  · have := congrArg (List.map fun (i : ℕ) => getOpticalDepth (us i)) (List.zipIdx_map_snd 0 ms)
    rw [List.map_map, List.range'_eq_map_range] at this
    simp only [zero_add, List.map_map, Function.comp_def] at this
    exact this.symm
  · exact (hc false).symm

/-- C123: the law of exponential decay. The program starts with photons of any momenta whose depths are drawn with numbers `u` in
`[0,1)`; in uniform and constant fields, after `n` steps those are left whose draw is at least `1 - exp(- rate * n dt)`. -/
theorem C123_exponential (P : Setup) (cum : ℕ → ℕ → ℝ) (hP : WellSetUp P cum) (hdt : 0 ≤ P.dt) (F : ℝ × ℝ × ℝ × ℝ × ℝ × ℝ)
    (hF : ∀ t x y z, P.em t x y z = F) (r : V3 → ℝ) (us : ℕ → ℝ) (hus : ∀ i, 0 ≤ us i ∧ us i < 1) (ms : List V3)
    (hms : ∀ m ∈ ms, 0 < m.norm ∧ HasRate P (eAt F) (bAt F) m (r m) ∧ ¬ IsInteriorNode P.pairs.coords0
      (Real.log (BW.clampChi P.ctrl.tpairMin P.ctrl.tpairMax (chiPhoton P.U m (eAt F) (bAt F) P.lambda)))) (hlen : ms.length < 2 ^ 64)
    (n : ℕ) :
    ∃ l' ele pos k, run P 0 n ⟨initPhotons ms us, Arrays.empty, Arrays.empty, 0⟩ = .ok ⟨soa l', ele, pos, k⟩ ∧
      (l'.map mom).Perm ((ms.zipIdx.filter fun x => decide (1 - Real.exp (-(r x.1 * (n * P.dt))) ≤ us x.2)).map Prod.fst) := by
  obtain ⟨l', ele, pos, k, h1, h2⟩ := C123_survivors P cum hP hdt F hF r n 0 0 (startPhotons us ms) [] [] (by
      intro p hp
      obtain ⟨x, hx, rfl⟩ := List.mem_map.mp hp
      have hxm : x.1 ∈ ms := (List.mem_zipIdx_iff_getElem? .. |>.mp hx |> List.mem_of_getElem?)
      obtain ⟨a, b, c⟩ := hms x.1 hxm
      refine ⟨⟨a, C20_depth_nonneg _ (hus _).1 (hus _).2, ?_⟩, b⟩
      intro t x y z
      rw [hF]
      exact c) (by simpa [startPhotons] using hlen)
  refine ⟨l', ele, pos, k, ?_, ?_⟩
  · rw [initPhotons_soa]
    exact h1
  · have h3 := h2.map Prod.fst
    rw [List.map_map, List.map_map] at h3
    refine h3.trans ?_
    unfold startPhotons
    rw [List.filter_map, List.map_map]
    have e : (ms.zipIdx.filter ((fun p => decide (r (mom p) * (n * P.dt) ≤ p.depth)) ∘ fun (x : V3 × ℕ) =>
        (⟨0, 0, 0, x.1.x, x.1.y, x.1.z, 0, 0, 0, 0, 0, 0, getOpticalDepth (us x.2), false⟩ : Particle))) =
        ms.zipIdx.filter fun x => decide (1 - Real.exp (-(r x.1 * (n * P.dt))) ≤ us x.2) := by
      apply List.filter_congr
      intro x _
      simp only [Function.comp_def]
      apply decide_eq_decide.mpr
      show r x.1 * (n * P.dt) ≤ getOpticalDepth (us x.2) ↔ _
      unfold getOpticalDepth
      have hp : (0 : ℝ) < 1 - us x.2 := by linarith [(hus x.2).2]
      rw [le_neg, ← Real.exp_le_exp (x := Real.log _), Real.exp_log hp]
      constructor <;> intro h <;> linarith
    rw [e]
    exact List.Perm.refl _

/-! ### C124 -/

theorem ray_dist {p q : Particle} {a : ℝ} (hn : 0 < (mom p).norm) (hx : q.x = p.x + a / (mom p).norm * p.px)
    (hy : q.y = p.y + a / (mom p).norm * p.py) (hz : q.z = p.z + a / (mom p).norm * p.pz) : dist2 p q = a ^ 2 := by
  have h : (mom p).norm * (mom p).norm = p.px * p.px + p.py * p.py + p.pz * p.pz := (mom p).norm_sq
  unfold dist2
  rw [hx, hy, hz]
  generalize (mom p).norm = m at *
  have : (p.x + a / m * p.px - p.x) ^ 2 + (p.y + a / m * p.py - p.y) ^ 2 + (p.z + a / m * p.pz - p.z) ^ 2 =
      (a / m) ^ 2 * (p.px * p.px + p.py * p.py + p.pz * p.pz) := by ring
  rw [this, ← h]
  field_simp

/-- `e` was born from a photon of `l` during the step that started at time `t`: on its path, one full time step plus the time to its decay
away from where the photon was when the step started. -/
def BornBeyond (P : Setup) (t : ℝ) (l : List Particle) (e : Particle) : Prop :=
  ∃ p ∈ l, ∃ r, 0 < r ∧ HasRate P (eAt (P.em t p.x p.y p.z)) (bAt (P.em t p.x p.y p.z)) (mom p) r ∧ p.depth < r * P.dt ∧
    dist2 p e = (P.dt + p.depth / r) ^ 2 ∧ ∃ a, e.x - p.x = a * p.px ∧ e.y - p.y = a * p.py ∧ e.z - p.z = a * p.pz

theorem rate_exists {P : Setup} {cum : ℕ → ℕ → ℝ} (hP : WellSetUp P cum) {m : V3} (hm : 0 < m.norm) (e b : V3) : ∃ r, HasRate P e b m r := by
  by_cases ha : PhotonAboveThreshold P.U P.ctrl m e b P.lambda
  · have hc : 0 < chiPhoton P.U m e b P.lambda := lt_of_le_of_lt hP.chiMin ha.1
    have hen : 0 < photonEnergy P.U m := mul_pos hm hP.units.c
    obtain ⟨r', hr', h0⟩ := C26_rate_pos P.U hP.units P.ctrl P.rate hP.rateMin hP.rates P.lambda _ _ hP.lambda hen hc
    exact ⟨r', Or.inl ⟨ha, by unfold photonRate; rw [hP.rates.1, if_pos rfl]; exact hr'⟩⟩
  · exact ⟨0, Or.inr ⟨ha, rfl⟩⟩

theorem pairs_born {P : Setup} {cum : ℕ → ℕ → ℝ} (hP : WellSetUp P cum) {t : ℝ} {l l2 : List Particle} (hl : ∀ p ∈ l, Followed P p)
    (h : List.Forall₂ (PhotonStep P t) l l2) : ∀ {n : ℕ} {qs es ps : List Particle}, PairsOf P n qs es ps → (∀ q ∈ qs, q ∈ l2 ∧ q.flag = true) →
    (∀ e ∈ es, BornBeyond P t l e) ∧ (∀ e ∈ ps, BornBeyond P t l e)
  | _, _, _, _, .nil _, _ => by simp
  | _, _, _, _, .cons (n := n) (q := q) (e := e) (p := p') ⟨r, hr, he, hp⟩ hs, hq => by
    have ih := pairs_born hP hl h hs fun q' hq' => hq q' (by simp [hq'])
    obtain ⟨h1, h2⟩ := hq q (by simp)
    obtain ⟨p, hp1, hs1⟩ := forall₂_mem_right h q h1
    have hb : ∀ x : Particle, x.x = q.x → x.y = q.y → x.z = q.z → BornBeyond P t l x := by
      intro x hx hy hz
      obtain ⟨hfi, hm, ev, hev, hd, hfl, hn, q1, q2, q3⟩ := hs1
      obtain ⟨rt, hrt⟩ := rate_exists hP hn (eAt (P.em t p.x p.y p.z)) (bAt (P.em t p.x p.y p.z))
      obtain ⟨r1, r2, r3⟩ := rate_step hP (hl p hp1) hrt hev
      have hev' : ev.event = true := by rw [← hfl]; exact h2
      obtain ⟨r4, r5⟩ := r3 hev'
      rw [hev', if_pos rfl, r5] at q1 q2 q3
      refine ⟨p, hp1, rt, r4, hrt, r2.mp hev', ray_dist hn (hx.trans q1) (hy.trans q2) (hz.trans q3), (P.dt + p.depth / rt) / (mom p).norm, ?_, ?_, ?_⟩
      · rw [hx, q1]; ring
      · rw [hy, q2]; ring
      · rw [hz, q3]; ring
    constructor
    · intro x hx
      rcases List.mem_cons.mp hx with rfl | hx
      · exact hb x (by rw [he]) (by rw [he]) (by rw [he])
      · exact ih.1 x hx
    · intro x hx
      rcases List.mem_cons.mp hx with rfl | hx
      · exact hb x (by rw [hp]) (by rw [hp]) (by rw [hp])
      · exact ih.2 x hx

/-- C124, as far as it holds: in one step every photon that stays moves along its momentum by the time step (the speed of light is one),
and every pair is born on the path of its photon. How far is `BornBeyond`: too far, see below. -/
theorem C124_positions_partial (P : Setup) (cum : ℕ → ℕ → ℝ) (hP : WellSetUp P cum) (i n : ℕ) (l es ps : List Particle)
    (hl : ∀ p ∈ l, Followed P p) (hlen : l.length < 2 ^ 64) :
    ∃ l' es' ps' n', step P i ⟨soa l, soa es, soa ps, n⟩ = .ok ⟨soa l', soa (es.map (leptonStep P (i * P.dt) (-1)) ++ es'),
        soa (ps.map (leptonStep P (i * P.dt) 1) ++ ps'), n'⟩ ∧
      (∀ q ∈ l', ∃ p ∈ l, mom q = mom p ∧ dist2 p q = P.dt ^ 2) ∧
      (∀ e ∈ es', BornBeyond P (i * P.dt) l e) ∧ (∀ e ∈ ps', BornBeyond P (i * P.dt) l e) := by
  obtain ⟨l2, l', es', ps', h1, h2, h3, h4⟩ := C122_step P cum hP i n l es ps hl hlen
  obtain ⟨b1, b2⟩ := pairs_born hP hl h2 h4 fun q hq => by
    obtain ⟨a, b⟩ := List.mem_filter.mp hq
    exact ⟨a, b⟩
  refine ⟨l', es', ps', _, h1, ?_, b1, b2⟩
  intro q hq
  obtain ⟨hq1, hq2⟩ := List.mem_filter.mp (h3.mem_iff.mp hq)
  obtain ⟨p, hp, hs⟩ := forall₂_mem_right h2 q hq1
  obtain ⟨hfi, hm, ev, hev, hd, hfl, hn, q1, q2, q3⟩ := hs
  have hev' : ev.event = false := by rw [← hfl]; simpa using hq2
  rw [hev'] at q1 q2 q3
  simp only [Bool.false_eq_true, if_false, add_zero] at q1 q2 q3
  exact ⟨p, hp, hm, ray_dist hn q1 q2 q3⟩

/-- C124 is false of the code: whatever the photon, its rate `r` and its depth with `0 < depth < r dt`, the photon decays within the step, but
its pair is born outside the light cone of the photon: farther away than light travels in the whole step, and not where the photon was
when it decayed, at time `depth / r`. -/
theorem C124_light_cone_refuted (P : Setup) (cum : ℕ → ℕ → ℝ) (hP : WellSetUp P cum) (hdt : 0 < P.dt) (i n : ℕ) (p : Particle) (hp : Followed P p)
    (r : ℝ) (hr : HasRate P (eAt (P.em (i * P.dt) p.x p.y p.z)) (bAt (P.em (i * P.dt) p.x p.y p.z)) (mom p) r) (h0 : 0 < p.depth)
    (h1 : p.depth < r * P.dt) :
    ∃ e e' : Particle, step P i ⟨soa [p], soa [], soa [], n⟩ = .ok ⟨soa [], soa [e], soa [e'], n + 1⟩ ∧
      P.dt ^ 2 < dist2 p e ∧ P.dt ^ 2 < dist2 p e' ∧ dist2 p e ≠ (p.depth / r) ^ 2 := by
  have hr0 : 0 < r := by
    by_contra hneg
    have := mul_nonneg (neg_nonneg.mpr (not_lt.mp hneg)) hdt.le
    linarith
  obtain ⟨l2, l', es', ps', g1, g2, g3, g4⟩ := C122_step P cum hP i n [p] [] [] (by simpa using hp) (by norm_num)
  obtain ⟨b1, b2⟩ := pairs_born hP (by simpa using hp) g2 g4 fun q hq => by
    obtain ⟨a, b⟩ := List.mem_filter.mp hq
    exact ⟨a, b⟩
  have hd : 0 < p.depth / r := div_pos h0 hr0
  have hfar : ∀ e, BornBeyond P (i * P.dt) [p] e → dist2 p e = (P.dt + p.depth / r) ^ 2 := by
    rintro e ⟨p', hp', r', -, hr', -, hdist, -⟩
    rw [List.mem_singleton.mp hp'] at hr' hdist
    have : r' = r := by
      rcases hr with ⟨ha, hb⟩ | ⟨ha, hb⟩ <;> rcases hr' with ⟨ha', hb'⟩ | ⟨ha', hb'⟩
      · rw [hb] at hb'; exact (Except.ok.inj hb').symm
      · exact absurd ha ha'
      · exact absurd ha' ha
      · rw [hb, hb']
    rw [this] at hdist
    exact hdist
  cases g2 with
  | cons hs hnil =>
    cases hnil
    rename_i q
    have hf : q.flag = true := by
      obtain ⟨hfi, hm, ev, hev, hd, hfl, -⟩ := hs
      rw [hfl]
      exact (rate_step hP hp hr hev).2.1.mpr h1
    simp only [List.filter_cons, hf, Bool.not_true, Bool.false_eq_true, if_false, List.filter_nil, if_true] at g3 g4
    have hl' : l' = [] := g3.eq_nil
    cases g4 with
    | cons ha hb =>
      cases hb
      rename_i e e'
      have f1 := hfar e (b1 e (by simp))
      have f2 := hfar e' (b2 e' (by simp))
      refine ⟨e, e', ?_, ?_, ?_, ?_⟩
      · rw [g1, hl']; rfl
      · rw [f1]; nlinarith
      · rw [f2]; nlinarith
      · rw [f1]; nlinarith

/-! ### Non-vacuity of C122-C124 -/

/-- A setup: the engine of C24 in a uniform magnetic field, every draw one third, time step one. -/
noncomputable def tpSetup : Setup where
  U := exUnits
  ctrl := exBWCtrl
  rate := Lookup1d.mk' (((generateLogSpacedVec 1 16 3).filterMap id).map Real.log) (((generateLogSpacedVec 1 16 3).filterMap id).map fun _ => 0)
  TT := fun _ => 1
  pairs := BW.pairTable exBWCtrl fun chi x => x / chi
  lambda := 1
  dt := 1
  em := fun _ _ _ _ => (0, 0, 0, 0, 1 / 2, 0)
  rng := fun _ => 1 / 3

theorem tp_offNode : ¬ IsInteriorNode (BW.pairTable exBWCtrl fun chi x => x / chi).coords0 (Real.log 2) := by
  rintro ⟨i, h1, h2, h3⟩
  obtain ⟨j, k1, k2, k3⟩ := exBW_node
  have hlen : (BW.pairTable exBWCtrl fun chi x => x / chi).coords0.length = 3 := by
    obtain ⟨l, hl, hlen, _⟩ := logGrid_equispaced (lo := 1) (hi := 16) (n := 3) (by norm_num) (by norm_num) (by norm_num)
    have e : (generateLogSpacedVec exBWCtrl.tpairMin exBWCtrl.tpairMax exBWCtrl.tpairHowMany).filterMap id = l := hl
    simp only [BW.pairTable, e, List.length_map, hlen]
  have hi : i = 1 := by omega
  have hj : j = 1 := by omega
  subst hi; subst hj
  rw [h3] at k3
  simp only [Option.some.injEq] at k3
  have := Real.log_lt_log (by norm_num : (0 : ℝ) < 2) (by norm_num : (2 : ℝ) < 4)
  linarith

theorem tp_wellSetUp : ∃ cum, WellSetUp tpSetup cum := by
  obtain ⟨cum, hc⟩ := exBW_table
  refine ⟨cum, exUnits_pos, one_pos, by norm_num [tpSetup, exBWCtrl], by norm_num [tpSetup, exBWCtrl], ?_, hc, ?_⟩
  · exact genTable_isRateTable (lo := 1) (hi := 16) (n := 3) (by norm_num) (by norm_num) (by norm_num) fun _ => 0
  · intro n; norm_num [tpSetup]

theorem tp_chi : chiPhoton exUnits ⟨4, 0, 0⟩ (eAt (0, 0, 0, 0, 1 / 2, 0)) (bAt (0, 0, 0, 0, 1 / 2, 0)) 1 = 2 := by
  have := exChi 4 (1 / 2) (by norm_num)
  show chiPhoton exUnits ⟨4, 0, 0⟩ V3.zero ⟨0, 1 / 2, 0⟩ 1 = 2
  rw [this, abs_of_pos (by norm_num)]
  norm_num

theorem tp_norm : (⟨4, 0, 0⟩ : V3).norm = 4 := by
  have := exBW_energy
  simpa [Spec.photonEnergy, exUnits] using this

theorem tp_offGrid : ¬ IsInteriorNode tpSetup.pairs.coords0 (Real.log (BW.clampChi tpSetup.ctrl.tpairMin tpSetup.ctrl.tpairMax
    (chiPhoton tpSetup.U ⟨4, 0, 0⟩ (eAt (0, 0, 0, 0, 1 / 2, 0)) (bAt (0, 0, 0, 0, 1 / 2, 0)) tpSetup.lambda))) := by
  have e : chiPhoton tpSetup.U ⟨4, 0, 0⟩ (eAt (0, 0, 0, 0, 1 / 2, 0)) (bAt (0, 0, 0, 0, 1 / 2, 0)) tpSetup.lambda = 2 := tp_chi
  rw [e]
  have : BW.clampChi tpSetup.ctrl.tpairMin tpSetup.ctrl.tpairMax 2 = 2 := by norm_num [BW.clampChi, tpSetup, exBWCtrl]
  rw [this]
  exact tp_offNode

/-- A photon of the setup, of any depth. -/
noncomputable def tpPhoton (d : ℝ) : Particle := ⟨0, 0, 0, 4, 0, 0, 0, 0, 0, 0, 0, 0, d, false⟩

theorem tp_followed (d : ℝ) (hd : 0 ≤ d) : Followed tpSetup (tpPhoton d) :=
  ⟨by show 0 < (⟨4, 0, 0⟩ : V3).norm; rw [tp_norm]; norm_num, hd, fun _ _ _ _ => tp_offGrid⟩

theorem tp_rate : ∃ r, 0 < r ∧ HasRate tpSetup (eAt (0, 0, 0, 0, 1 / 2, 0)) (bAt (0, 0, 0, 0, 1 / 2, 0)) ⟨4, 0, 0⟩ r := by
  have hc : chiPhoton tpSetup.U ⟨4, 0, 0⟩ (eAt (0, 0, 0, 0, 1 / 2, 0)) (bAt (0, 0, 0, 0, 1 / 2, 0)) tpSetup.lambda = 2 := tp_chi
  have he : photonEnergy tpSetup.U ⟨4, 0, 0⟩ = 4 := exBW_energy
  obtain ⟨cum, hP⟩ := tp_wellSetUp
  obtain ⟨r, hr, h0⟩ := C26_rate_pos tpSetup.U hP.units tpSetup.ctrl tpSetup.rate hP.rateMin hP.rates tpSetup.lambda 4 2 one_pos (by norm_num) (by norm_num)
  refine ⟨r, h0, Or.inl ⟨⟨?_, ?_⟩, ?_⟩⟩
  · rw [hc]; norm_num [tpSetup, exBWCtrl]
  · rw [he]; norm_num [tpSetup, exUnits]
  · unfold photonRate
    rw [hP.rates.1, if_pos rfl, hc, he]
    exact hr

/-- C122, C123: of three such photons with depths 0, half the rate and twice the rate (time step one), one step leaves one photon, of depth
the rate, and two pairs; the total energy is still 12. -/
example : ∃ r > 0, ∃ q e1 e2 p1 p2, run tpSetup 0 1 ⟨soa [tpPhoton 0, tpPhoton (r / 2), tpPhoton (2 * r)], soa [], soa [], 0⟩ =
    .ok ⟨soa [q], soa [e1, e2], soa [p1, p2], 2⟩ ∧ q.depth = r ∧ totalEnergy exUnits [q] [e1, e2] [p1, p2] = 12 := by
  obtain ⟨cum, hP⟩ := tp_wellSetUp
  obtain ⟨r, h0, hr⟩ := tp_rate
  have hfol : ∀ p ∈ [tpPhoton 0, tpPhoton (r / 2), tpPhoton (2 * r)], Followed tpSetup p := by
    intro p hp
    simp only [List.mem_cons, List.not_mem_nil, or_false] at hp
    rcases hp with rfl | rfl | rfl
    · exact tp_followed _ le_rfl
    · exact tp_followed _ (by linarith)
    · exact tp_followed _ (by linarith)
  obtain ⟨l', es', ps', h1, h2, h3, -, -, h6⟩ := C122_run tpSetup cum hP 1 0 0 _ [] [] hfol (by norm_num)
  obtain ⟨l'', ele, pos, k, g1, g2⟩ := C123_survivors tpSetup cum hP (by norm_num [tpSetup]) (0, 0, 0, 0, 1 / 2, 0) (fun _ _ _ _ => rfl) (fun _ => r) 1 0 0
    [tpPhoton 0, tpPhoton (r / 2), tpPhoton (2 * r)] [] [] (fun p hp => ⟨hfol p hp, by
      simp only [List.mem_cons, List.not_mem_nil, or_false] at hp
      rcases hp with rfl | rfl | rfl <;> exact hr⟩) (by norm_num)
  rw [h1] at g1
  have hl : soa l' = soa l'' := by
    have := Except.ok.inj g1
    exact congrArg State.phot this
  have hn : l'.length = l''.length := by rw [← soa_num, ← soa_num, hl]
  have hdt : tpSetup.dt = 1 := rfl
  have f1 : ¬ (r * (((1 : ℕ) : ℝ) * 1) ≤ 0) := by push_cast; linarith
  have f2 : ¬ (r * (((1 : ℕ) : ℝ) * 1) ≤ r / 2) := by push_cast; linarith
  have f3 : r * (((1 : ℕ) : ℝ) * 1) ≤ 2 * r := by push_cast; linarith
  simp only [hdt, tpPhoton, List.filter_cons, f1, f2, f3, decide_false, decide_true, Bool.false_eq_true, if_false, if_true, List.filter_nil,
    List.map_cons, List.map_nil] at g2
  have hlen : l''.length = 1 := by simpa using g2.length_eq
  simp only [List.length_cons, List.length_nil] at h2 h3
  rw [hn, hlen] at h2 h3
  match l', hn.trans hlen with
  | [q], _ =>
    match es', (by omega : es'.length = 2) with
    | [e1, e2], _ =>
      match ps', (by omega : ps'.length = 2) with
      | [p1, p2], _ =>
        refine ⟨r, h0, q, e1, e2, p1, p2, h1, ?_, ?_⟩
        · have hd : [q.depth] = l''.map (·.depth) := congrArg Arrays.depth hl
          have := g2.map Prod.snd
          simp only [List.map_map, Function.comp_def, List.map_cons, List.map_nil] at this
          rw [← hd] at this
          have := List.perm_singleton.mp this
          simp only [List.cons.injEq, and_true] at this
          rw [this]; push_cast; ring
        · rw [show exUnits = tpSetup.U from rfl, h6 fun _ _ _ _ => rfl]
          have he : photonEnergy tpSetup.U ⟨4, 0, 0⟩ = 4 := exBW_energy
          simp only [totalEnergy, List.map_cons, List.map_nil, List.sum_cons, List.sum_nil, mom, tpPhoton, he]
          norm_num

/-- C123: the hypotheses of the decay law are met by two photons and any draws. -/
example (us : ℕ → ℝ) (hus : ∀ i, 0 ≤ us i ∧ us i < 1) (n : ℕ) : ∃ r > 0, ∃ l' ele pos k,
    run tpSetup 0 n ⟨initPhotons [⟨4, 0, 0⟩, ⟨4, 0, 0⟩] us, Arrays.empty, Arrays.empty, 0⟩ = .ok ⟨soa l', ele, pos, k⟩ ∧
    (l'.length = 2 ↔ 1 - Real.exp (-(r * n)) ≤ us 0 ∧ 1 - Real.exp (-(r * n)) ≤ us 1) := by
  obtain ⟨cum, hP⟩ := tp_wellSetUp
  obtain ⟨r, h0, hr⟩ := tp_rate
  obtain ⟨l', ele, pos, k, h1, h2⟩ := C123_exponential tpSetup cum hP (by norm_num [tpSetup]) _ (fun _ _ _ _ => rfl) (fun _ => r) us hus
    [⟨4, 0, 0⟩, ⟨4, 0, 0⟩] (by
      intro m hm
      simp only [List.mem_cons, List.not_mem_nil, or_false, or_self] at hm
      subst hm
      exact ⟨by rw [tp_norm]; norm_num, hr, tp_offGrid⟩) (by norm_num) n
  refine ⟨r, h0, l', ele, pos, k, h1, ?_⟩
  have hl := h2.length_eq
  rw [List.length_map] at hl
  rw [hl, show tpSetup.dt = 1 from rfl, mul_one]
  by_cases a : 1 - Real.exp (-(r * n)) ≤ us 0 <;> by_cases b : 1 - Real.exp (-(r * n)) ≤ us 1 <;>
    simp only [List.length_map, List.zipIdx_cons, List.zipIdx_nil, zero_add, List.filter_cons, List.filter_nil, a, b, decide_true, decide_false, if_true,
      Bool.false_eq_true, if_false, List.length_cons, List.length_nil] <;> norm_num

/-- C124: a photon that decays in the middle of its first step. -/
example : ∃ r > 0, ∃ e e', step tpSetup 0 ⟨soa [tpPhoton (r / 2)], soa [], soa [], 0⟩ = .ok ⟨soa [], soa [e], soa [e'], 1⟩ ∧
    1 < dist2 (tpPhoton (r / 2)) e := by
  obtain ⟨cum, hP⟩ := tp_wellSetUp
  obtain ⟨r, h0, hr⟩ := tp_rate
  obtain ⟨e, e', h1, h2, -, -⟩ := C124_light_cone_refuted tpSetup cum hP (by norm_num [tpSetup]) 0 0 (tpPhoton (r / 2)) (tp_followed _ (by linarith)) r hr
    (by show 0 < r / 2; linarith) (by show r / 2 < r * 1; linarith)
  refine ⟨r, h0, e, e', h1, ?_⟩
  rw [show tpSetup.dt = 1 from rfl] at h2
  linarith

/-! ### C125 -/

theorem repr_no_underscore (i : ℤ) : '_' ∉ (toString i).toList := by
  rw [Int.toString_eq_repr]
  cases i with
  | ofNat n =>
    show '_' ∉ (Nat.repr n).toList
    rw [Nat.toList_repr]
    exact Nat.underscore_not_in_toDigits
  | negSucc n =>
    show '_' ∉ ("-" ++ Nat.repr (n + 1)).toList
    rw [String.toList_append, Nat.toList_repr]
    intro h
    rcases List.mem_append.mp h with h | h
    · exact absurd h (by decide)
    · exact Nat.underscore_not_in_toDigits h

theorem toDigits_inj {m n : ℕ} (h : Nat.toDigits 10 m = Nat.toDigits 10 n) : m = n := by
  rw [← Nat.ofDigitChars_ten_toDigits (n := m), h, Nat.ofDigitChars_ten_toDigits]

theorem minus_not_digit (n : ℕ) : '-' ∉ Nat.toDigits 10 n := by
  intro h
  have := Nat.isDigit_of_mem_toDigits (by norm_num) (by norm_num) h
  exact absurd this (by decide)

theorem repr_inj {i j : ℤ} (h : (toString i).toList = (toString j).toList) : i = j := by
  rw [Int.toString_eq_repr, Int.toString_eq_repr] at h
  have e1 : ∀ n : ℕ, (Int.repr (.ofNat n)).toList = Nat.toDigits 10 n := fun n => Nat.toList_repr
  have e2 : ∀ n : ℕ, (Int.repr (.negSucc n)).toList = '-' :: Nat.toDigits 10 (n + 1) := by
    intro n
    show ("-" ++ Nat.repr (n + 1)).toList = _
    rw [String.toList_append, Nat.toList_repr]
    rfl
  cases i with
  | ofNat m =>
    cases j with
    | ofNat n => rw [e1, e1] at h; rw [toDigits_inj h]
    | negSucc n =>
      rw [e1, e2] at h
      exact absurd (h ▸ List.mem_cons_self : '-' ∈ Nat.toDigits 10 m) (minus_not_digit m)
  | negSucc m =>
    cases j with
    | ofNat n =>
      rw [e1, e2] at h
      exact absurd (h ▸ List.mem_cons_self : '-' ∈ Nat.toDigits 10 n) (minus_not_digit n)
    | negSucc n =>
      rw [e2, e2] at h
      have := toDigits_inj (List.cons.inj h).2
      rw [show m = n by omega]

/-- The last separator decides. -/
theorem split_last {a b c d : List Char} (h : a ++ '_' :: c = b ++ '_' :: d) (hc : '_' ∉ c) (hd : '_' ∉ d) : a = b ∧ c = d := by
  rcases List.append_eq_append_iff.mp h with ⟨x, h1, h2⟩ | ⟨x, h1, h2⟩
  · cases x with
    | nil => simp at h1 h2; exact ⟨h1.symm, h2⟩
    | cons y ys =>
      simp only [List.cons_append, List.cons.injEq] at h2
      exact absurd (h2.2 ▸ (by simp) : '_' ∈ c) hc
  · cases x with
    | nil => simp at h1 h2; exact ⟨h1, h2.symm⟩
    | cons y ys =>
      simp only [List.cons_append, List.cons.injEq] at h2
      exact absurd (h2.2 ▸ (by simp) : '_' ∈ d) hd

/-- C125: with one prefix, two outputs go to the same file only if they are of the same species name and the same step. No output
overwrites another, whatever characters the names have. -/
theorem C125_file_names (pre name name' : String) (s s' : ℤ) (h : fileName pre name s = fileName pre name' s') : name = name' ∧ s = s' := by
  have h1 := congrArg String.toList h
  simp only [fileName, String.toList_append] at h1
  have h2 := List.append_cancel_right h1
  have e : "_".toList = ['_'] := by decide
  rw [e] at h2
  simp only [List.append_assoc, List.cons_append] at h2
  have h3 := List.append_cancel_left h2
  have h4 := (List.cons.inj h3).2
  obtain ⟨h5, h6⟩ := split_last h4 (repr_no_underscore s) (repr_no_underscore s')
  exact ⟨String.toList_inj.mp h5, repr_inj h6⟩

example : fileName "out" "phot1" 12 = "out_phot1_12.dat" := by decide +kernel

/-- With two prefixes this is not so. -/
theorem C125_prefixes_refuted : ¬ ∀ (pre pre' name name' : String) (s : ℤ), fileName pre name s = fileName pre' name' s → pre = pre' := by
  intro h
  exact absurd (h "out" "out_a" "a_b" "b" 0 (by decide +kernel)) (by decide)

/-- C125: the file holds the number of particles and one line for each, in storage order, with the fourteen quantities of the particle; the labels name the
first thirteen of them. -/
theorem C125_contents_partial (header : String) (l : List Particle) : ∃ d, printOnDisk header (soa l) = .ok d ∧ d.header = header ∧
    d.n = l.length ∧ d.rows = l.map dumpCells ∧
    d.labels = ["x", "y", "z", "px", "py", "pz", "Ex", "Ey", "Ez", "Bx", "By", "Bz", "OptDepth"] := by
  have h : ∀ (pre suf : List Particle), dumpRows (soa (pre ++ suf)) (List.range' pre.length suf.length) = .ok (suf.map dumpCells) := by
    intro pre suf
    induction suf generalizing pre with
    | nil => simp [dumpRows]
    | cons p suf ih =>
      have h1 := ih (pre ++ [p])
      rw [List.length_append, List.length_singleton, List.append_assoc, List.singleton_append] at h1
      rw [List.length_cons, List.range'_succ, dumpRows, dumpRow, readParticle_soa (by simp), h1]
      simp [dumpCells]
  have h0 := h [] l
  refine ⟨⟨header, l.length, ["x", "y", "z", "px", "py", "pz", "Ex", "Ey", "Ez", "Bx", "By", "Bz", "OptDepth"], l.map dumpCells⟩, ?_, rfl, rfl, rfl, rfl⟩
  rw [printOnDisk, soa_num, List.range_eq_range']
  simp only [List.nil_append, List.length_nil] at h0
  rw [h0]
  rfl

/-- C125 is false of the code: the line of labels names thirteen columns, the lines of the particles have fourteen. -/
theorem C125_labels_refuted (header : String) (l : List Particle) (hl : l ≠ []) : ∃ d, printOnDisk header (soa l) = .ok d ∧
    ∃ row ∈ d.rows, row.length ≠ d.labels.length := by
  obtain ⟨d, h1, -, -, h4, h5⟩ := C125_contents_partial header l
  obtain ⟨p, hp⟩ := List.exists_mem_of_ne_nil l hl
  refine ⟨d, h1, dumpCells p, by rw [h4]; exact List.mem_map.mpr ⟨p, hp, rfl⟩, ?_⟩
  rw [h5]
  simp [dumpCells]

example : ∃ d, printOnDisk "photons" (soa [tpPhoton 1, tpPhoton 2]) = .ok d ∧ d.n = 2 ∧ d.rows.length = 2 := by
  obtain ⟨d, h1, -, h3, h4, -⟩ := C125_contents_partial "photons" [tpPhoton 1, tpPhoton 2]
  exact ⟨d, h1, h3, by rw [h4]; rfl⟩

end Picsar.Props
