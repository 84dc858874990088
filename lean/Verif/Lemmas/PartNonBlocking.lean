import Verif.Lemmas.PartMatch
import Verif.Lemmas.MpiLists
import Mathlib.Tactic.IntervalCases
/-
The non-blocking exchange of particles.
-/
namespace Picsar.PartExchange
open Picsar Picsar.Grid Picsar.Tiling Picsar.ParticleBcs

variable {n : ℕ}

/-! ### The loop over particles -/

/-- The particles of all species for one direction, in the order of packing. -/
def QQ (K : ℕ) (Q : ℕ → I3 → List (Part n)) (d : I3) : List (Part n) := (List.range K).flatMap fun is => Q is d

theorem QQ_succ (k : ℕ) (Q : ℕ → I3 → List (Part n)) (d : I3) : QQ (k + 1) Q d = QQ k Q d ++ Q k d := by
  unfold QQ; rw [List.range_succ, List.flatMap_append]; simp

theorem QQ_length (K : ℕ) (Q : ℕ → I3 → List (Part n)) (d : I3) : ((QQ K Q d).length : ℤ) = ((List.range K).map fun (is : ℕ) => ((Q is d).length : ℤ)).sum := by
  induction K with
  | zero => rfl
  | succ k ih => rw [QQ_succ, List.length_append, List.range_succ, List.map_append, List.sum_append]; push_cast; rw [ih]; simp

theorem QQ_congr {K : ℕ} {Q Q' : ℕ → I3 → List (Part n)} {d : I3} (h : ∀ is, is < K → Q is d = Q' is d) : QQ K Q d = QQ K Q' d := by
  induction K with
  | zero => rfl
  | succ k ih => rw [QQ_succ, QQ_succ, ih fun is h' => h is (by omega), h k (by omega)]

/-- State of a process after the loops over particles. -/
structure Scanned (K : ℕ) (P : Proc n) (sp : ℕ → Species n) (L : ℕ → I3 → List (Part n)) (s : NMem n) (M : ℕ → I3 → List (Part n)) (Q : ℕ → I3 → List (Part n)) : Prop where
  holds : ∀ is, is < K → HoldsAll (s.sp is) (M is)
  nt : ∀ is, is < K → (s.sp is).nt = (sp is).nt
  tot : ∀ is, is < K → total (sp is).nt (M is) = stays .nonBlocking P (sp is).nt (L is)
  np : ∀ is, is < K → (s.sp is).npart - Multiset.card (total (sp is).nt (M is)) = (sp is).npart - Multiset.card (total (sp is).nt (L is))
  hand : ∀ is d, is < K → (Q is d : Multiset (Part n)) = handed .nonBlocking P (sp is).nt (L is) d
  buf : ∀ d, BufHolds (s.buf d) (QQ K Q d)
  send : ∀ is d, is < K → s.send is d = (Q is d).length
  send0 : ∀ is d, K ≤ is → s.send is d = 0
  same : ∀ is, K ≤ is → s.sp is = sp is
  recv : s.recv = fun _ _ => 0
  inbox : s.inbox = fun _ => none
  rbuf : s.rbuf = fun _ => FArr.undef 0
  out : s.out = fun _ => []

theorem nstart_ok (K : ℕ) (P : Proc n) (sp : ℕ → Species n) (L : ℕ → I3 → List (Part n)) (h : ∀ is, is < K → HoldsAll (sp is) (L is)) :
    ∃ s M Q, nstart K P sp = .ok s ∧ Scanned K P sp L s M Q := by
  induction K with
  | zero =>
    refine ⟨_, fun _ _ => [], fun _ _ => [], rfl, ?_⟩
    exact ⟨fun is h => absurd h (by omega), fun is h => absurd h (by omega), fun is h => absurd h (by omega), fun is h => absurd h (by omega), fun is d h => absurd h (by omega),
      fun d => bufHolds_new, fun is d h => absurd h (by omega), fun is d h => rfl, fun is h => rfl, rfl, rfl, rfl, rfl⟩
  | succ k ih =>
    obtain ⟨s, M, Q, e, C⟩ := ih fun is h' => h is (by omega)
    have hk := h k (by omega)
    rw [← C.same k le_rfl] at hk
    obtain ⟨s', M', X, e', nt', h', t', pk, px, np'⟩ := scan_spec (scanTile_spec P) (s := ⟨s.sp k, s.buf, s.send k⟩) hk C.buf
    dsimp only at e' nt' t' px np'
    rw [C.same k le_rfl] at e' nt' t' px np'
    have ne : ∀ {is : ℕ}, is < k + 1 → is ≠ k → is < k := by intro is a b; omega
    refine ⟨⟨Function.update s.sp k s'.S, s'.buf, Function.update s.send k s'.send, s.recv, s.inbox, s.rbuf, s.out⟩, Function.update M k M', Function.update Q k X, ?_, ?_⟩
    · unfold nstart at e ⊢
      rw [List.range_succ, List.foldlM_append, e]
      simp only [except_bind_ok, List.foldlM_cons, List.foldlM_nil]
      unfold nscan scanSpecies
      rw [C.same k le_rfl, e']
      rfl
    · refine ⟨fun is hi => ?_, fun is hi => ?_, fun is hi => ?_, fun is hi => ?_, fun is d hi => ?_, fun d => ?_, fun is d hi => ?_, fun is d hi => ?_, fun is hi => ?_, C.recv, C.inbox, C.rbuf, C.out⟩ <;>
        try dsimp only
      · by_cases hs : is = k
        · subst hs; rw [Function.update_self, Function.update_self]; exact h'
        · rw [Function.update_of_ne hs, Function.update_of_ne hs]; exact C.holds is (ne hi hs)
      · by_cases hs : is = k
        · subst hs; rw [Function.update_self]; exact nt'
        · rw [Function.update_of_ne hs]; exact C.nt is (ne hi hs)
      · by_cases hs : is = k
        · subst hs; rw [Function.update_self]; exact t'
        · rw [Function.update_of_ne hs]; exact C.tot is (ne hi hs)
      · by_cases hs : is = k
        · subst hs; rw [Function.update_self, Function.update_self]; exact np'
        · rw [Function.update_of_ne hs, Function.update_of_ne hs]; exact C.np is (ne hi hs)
      · by_cases hs : is = k
        · subst hs; rw [Function.update_self]; exact px d
        · rw [Function.update_of_ne hs]; exact C.hand is d (ne hi hs)
      · rw [QQ_succ, Function.update_self, QQ_congr (Q' := Q) fun is hi => by rw [Function.update_of_ne (by omega)]]
        exact pk.buf d
      · by_cases hs : is = k
        · subst hs
          rw [Function.update_self, Function.update_self, pk.send d]
          dsimp only
          rw [C.send0 is d le_rfl]
          omega
        · rw [Function.update_of_ne hs, Function.update_of_ne hs]; exact C.send is d (ne hi hs)
      · rw [Function.update_of_ne (by omega)]; exact C.send0 is d (by omega)
      · rw [Function.update_of_ne (by omega)]; exact C.same is (by omega)

/-! ### After the first wait -/

theorem takeCnt_loop (K : ℕ) (v : I3 → List ℤ) (hv : ∀ d, (v d).length = K) : ∀ (l : List I3) (k : ℕ) (s : NMem n), l.Nodup →
    (∀ i (h : i < l.length), s.inbox (k + i) = some (.cnt (v l[i]))) →
    ∃ rc, (l.zipIdx k).foldlM (fun s e => takeCnt K e s) s = .ok ⟨s.sp, s.buf, s.send, rc, s.inbox, s.rbuf, s.out⟩ ∧
      ∀ is d, rc is d = if d ∈ l then (v d).getD is 0 else s.recv is d := by
  intro l
  induction l with
  | nil => intro k s _ _; exact ⟨s.recv, rfl, fun is d => by simp⟩
  | cons a l ih =>
    intro k s hn hi
    rw [List.nodup_cons] at hn
    have h0 := hi 0 (by simp)
    rw [List.getElem_cons_zero, Nat.add_zero] at h0
    obtain ⟨rc, e, hr⟩ := ih (k + 1) ⟨s.sp, s.buf, s.send, fun is d => if d = a then (v a).getD is 0 else s.recv is d, s.inbox, s.rbuf, s.out⟩ hn.2 (fun i h => by
      have := hi (i + 1) (by simp; omega)
      rw [List.getElem_cons_succ] at this
      dsimp only
      rw [← this]
      congr 1
      omega)
    refine ⟨rc, ?_, fun is d => ?_⟩
    · rw [List.zipIdx_cons, List.foldlM_cons]
      have : takeCnt K (a, k) s = .ok ⟨s.sp, s.buf, s.send, fun is d => if d = a then (v a).getD is 0 else s.recv is d, s.inbox, s.rbuf, s.out⟩ := by
        unfold takeCnt
        dsimp only
        rw [h0]
        dsimp only
        rw [if_pos (hv a)]
      rw [this]
      exact e
    · rw [hr is d]
      dsimp only
      by_cases hd : d ∈ l
      · rw [if_pos hd, if_pos (by simp [hd])]
      · rw [if_neg hd]
        by_cases ha : d = a
        · subst ha; simp
        · simp [ha, hd]

theorem prepare_loop (K : ℕ) {Q : ℕ → I3 → List (Part n)} : ∀ (l : List I3) (s : NMem n), l.Nodup → (∀ d, BufHolds (s.buf d) (QQ K Q d)) →
    (∀ d, ncount K s.send d = (QQ K Q d).length) → (∀ d ∈ l, s.out d = []) →
    ∃ rb o, l.foldlM (fun s d => prepare K d s) s = .ok ⟨s.sp, s.buf, s.send, s.recv, s.inbox, rb, o⟩ ∧
      (∀ d, rb d = if d ∈ l then FArr.undef (ncount K s.recv d * nvar n) else s.rbuf d) ∧ ∀ d, o d = if d ∈ l then flat (QQ K Q d) else s.out d := by
  intro l
  induction l with
  | nil => intro s _ _ _ _; exact ⟨s.rbuf, s.out, rfl, fun d => by simp, fun d => by simp⟩
  | cons a l ih =>
    intro s hn hb hc ho
    rw [List.nodup_cons] at hn
    have hp : prepare K a s = .ok ⟨s.sp, s.buf, s.send, s.recv, s.inbox, Function.update s.rbuf a (FArr.undef (ncount K s.recv a * nvar n)),
        Function.update s.out a (flat (QQ K Q a))⟩ := by
      unfold prepare
      have hnv : nvar n = (n : ℤ) + 7 := rfl
      by_cases hg : nvar n * ncount K s.send a > 0
      · rw [if_pos hg]
        have : (nvar n * ncount K s.send a).toNat = (flat (QQ K Q a)).length := by
          rw [hc a, flat_length, hnv]
          have : (((n : ℤ) + 7) * ((QQ K Q a).length : ℤ)) = ((((QQ K Q a).length * (n + 7) : ℕ)) : ℤ) := by push_cast; ring
          rw [this, Int.toNat_natCast]
        rw [this, slice_buf (hb a)]
        rfl
      · rw [if_neg hg]
        have h0 : QQ K Q a = [] := by
          rw [hc a, hnv] at hg
          by_contra hne
          have := List.length_pos_iff.mpr hne
          exact hg (by positivity)
        have h1 : Function.update s.out a (flat (QQ K Q a)) = s.out := by
          rw [h0, Function.update_eq_self_iff, ho a (by simp)]
          rfl
        rw [h1]
    obtain ⟨rb, o, e, hrb, hout⟩ := ih ⟨s.sp, s.buf, s.send, s.recv, s.inbox, Function.update s.rbuf a (FArr.undef (ncount K s.recv a * nvar n)),
        Function.update s.out a (flat (QQ K Q a))⟩ hn.2 hb hc (fun d hd => by
      have hne : d ≠ a := fun e => hn.1 (by rw [← e]; exact hd)
      dsimp only
      rw [Function.update_of_ne hne]
      exact ho d (by simp [hd]))
    refine ⟨rb, o, by rw [List.foldlM_cons, hp]; exact e, fun d => ?_, fun d => ?_⟩
    · rw [hrb d]
      dsimp only
      by_cases hd : d ∈ l
      · rw [if_pos hd, if_pos (by simp [hd])]
      · rw [if_neg hd]
        by_cases ha : d = a
        · subst ha; simp
        · simp [ha, hd]
    · rw [hout d]
      dsimp only
      by_cases hd : d ∈ l
      · rw [if_pos hd, if_pos (by simp [hd])]
      · rw [if_neg hd]
        by_cases ha : d = a
        · subst ha; simp
        · simp [ha, hd]

/-- Numbers of particles of all species. -/
def cnts (K : ℕ) (Q : ℕ → I3 → List (Part n)) (d : I3) : List ℤ := (List.range K).map fun (is : ℕ) => ((Q is d).length : ℤ)

theorem ncount_eq {K : ℕ} {f : ℕ → I3 → ℤ} {Q : ℕ → I3 → List (Part n)} {d e : I3} (h : ∀ is, is < K → f is d = (Q is e).length) : ncount K f d = (QQ K Q e).length := by
  rw [QQ_length]
  unfold ncount
  congr 1
  exact List.map_congr_left fun is hi => h is (List.mem_range.mp hi)

/-- State after the first wait. `W d` are the particles that arrive in slot `d`. -/
theorem nfin0_ok {K : ℕ} {s : NMem n} {Q W : ℕ → I3 → List (Part n)} (hb : ∀ d, BufHolds (s.buf d) (QQ K Q d)) (hs : ∀ is d, is < K → s.send is d = (Q is d).length)
    (ho : s.out = fun _ => []) (hi : ∀ i (h : i < dirs.length), s.inbox i = some (.cnt (cnts K W dirs[i]))) :
    ∃ s', nfin0 K s = .ok s' ∧ s'.sp = s.sp ∧ s'.send = s.send ∧ (∀ is d, is < K → d ∈ dirs → s'.recv is d = (W is d).length) ∧ s'.inbox = (fun _ => none) ∧
      (∀ d, d ∈ dirs → s'.rbuf d = FArr.undef ((QQ K W d).length * nvar n)) ∧ ∀ d, d ∈ dirs → s'.out d = flat (QQ K Q d) := by
  obtain ⟨rc, e1, h1⟩ := takeCnt_loop K (fun d => cnts K W d) (fun d => by unfold cnts; simp) dirs 0 s nodup_dirs (fun i h => by rw [Nat.zero_add]; exact hi i h)
  have hrc : ∀ is d, is < K → d ∈ dirs → rc is d = (W is d).length := by
    intro is d his hd
    rw [h1 is d, if_pos hd]
    unfold cnts
    simp [his]
  obtain ⟨rb, o, e2, h2, h3⟩ := prepare_loop K dirs ⟨s.sp, s.buf, s.send, rc, s.inbox, s.rbuf, s.out⟩ nodup_dirs hb (fun d => ncount_eq fun is hi => hs is d hi)
    (fun d _ => by dsimp only; rw [ho])
  refine ⟨⟨s.sp, s.buf, s.send, rc, fun _ => none, rb, o⟩, ?_, rfl, rfl, hrc, rfl, fun d hd => ?_, fun d hd => ?_⟩
  · unfold nfin0
    rw [e1]
    simp only [except_bind_ok]
    rw [e2]
    rfl
  · dsimp only
    rw [h2 d, if_pos hd]
    dsimp only
    rw [ncount_eq fun is hi => hrc is d hi hd]
  · dsimp only
    rw [h3 d, if_pos hd]

/-! ### After the second wait -/

theorem takeDat_loop (w : I3 → List ℝ) : ∀ (l : List I3) (k : ℕ) (s : NMem n), l.Nodup → (∀ i (h : i < l.length), s.inbox (k + i) = some (.dat (w l[i]))) →
    (∀ d ∈ l, ((w d).length : ℤ) ≤ (s.rbuf d).n) →
    ∃ rb, (l.zipIdx k).foldlM (fun s e => takeDat e s) s = .ok ⟨s.sp, s.buf, s.send, s.recv, s.inbox, rb, s.out⟩ ∧
      ∀ d, rb d = if d ∈ l then ⟨(s.rbuf d).n, (FArr.ofList (w d)).val⟩ else s.rbuf d := by
  intro l
  induction l with
  | nil => intro k s _ _ _; exact ⟨s.rbuf, rfl, fun d => by simp⟩
  | cons a l ih =>
    intro k s hn hi hw
    rw [List.nodup_cons] at hn
    have h0 := hi 0 (by simp)
    rw [List.getElem_cons_zero, Nat.add_zero] at h0
    obtain ⟨rb, e, hr⟩ := ih (k + 1) ⟨s.sp, s.buf, s.send, s.recv, s.inbox, Function.update s.rbuf a ⟨(s.rbuf a).n, (FArr.ofList (w a)).val⟩, s.out⟩ hn.2 (fun i h => by
      have := hi (i + 1) (by simp; omega)
      rw [List.getElem_cons_succ] at this
      dsimp only
      rw [← this]
      congr 1
      omega) (fun d hd => by
      have hne : d ≠ a := fun e => hn.1 (by rw [← e]; exact hd)
      dsimp only
      rw [Function.update_of_ne hne]
      exact hw d (by simp [hd]))
    refine ⟨rb, ?_, fun d => ?_⟩
    · rw [List.zipIdx_cons, List.foldlM_cons]
      have : takeDat (a, k) s = .ok ⟨s.sp, s.buf, s.send, s.recv, s.inbox, Function.update s.rbuf a ⟨(s.rbuf a).n, (FArr.ofList (w a)).val⟩, s.out⟩ := by
        unfold takeDat
        dsimp only
        rw [h0]
        dsimp only
        rw [if_pos (hw a (by simp))]
      rw [this]
      exact e
    · rw [hr d]
      dsimp only
      by_cases ha : d = a
      · subst ha
        rw [if_neg hn.1, if_pos (by simp), Function.update_self]
      · rw [Function.update_of_ne ha]
        simp [ha]

/-- The receive buffer holds the particles `W · d` one species after the other. -/
structure Received (K : ℕ) (b : FArr ℝ) (W : ℕ → I3 → List (Part n)) (d : I3) : Prop where
  size : b.n = (flat (QQ K W d)).length
  val : ∀ (i : ℕ) (h : i < (flat (QQ K W d)).length), b.val (i + 1) = some (flat (QQ K W d))[i]

theorem QQ_split {K : ℕ} (W : ℕ → I3 → List (Part n)) (d : I3) : ∀ {k : ℕ}, k < K → ∃ r, QQ K W d = QQ k W d ++ W k d ++ r := by
  induction K with
  | zero => intro k h; omega
  | succ K ih =>
    intro k h
    rw [QQ_succ]
    by_cases hk : k = K
    · subst hk; exact ⟨[], by simp⟩
    · obtain ⟨r, hr⟩ := ih (k := k) (by omega)
      exact ⟨r ++ W K d, by rw [hr, List.append_assoc]⟩

/-- The particles of one direction are added. -/
theorem addDir_ok {K : ℕ} {P : Proc n} {W : ℕ → I3 → List (Part n)} {d : I3} {s : NMem n} {M : ℕ → I3 → List (Part n)} (hh : ∀ is, is < K → HoldsAll (s.sp is) (M is))
    (hr : ∀ is, is < K → s.recv is d = (W is d).length) (hb : Received K (s.rbuf d) W d) (hi : ∀ is, is < K → ∀ p ∈ W is d, InBox ⟨1, 1, 1⟩ (s.sp is).nt (P.idx p)) :
    ∃ (sp' : ℕ → Species n) (M' : ℕ → I3 → List (Part n)), addDir K P d s = .ok ⟨sp', s.buf, s.send, s.recv, s.inbox, s.rbuf, s.out⟩ ∧ ∀ is, is < K → HoldsAll (sp' is) (M' is) ∧ (sp' is).nt = (s.sp is).nt ∧
      (sp' is).npart = (s.sp is).npart + (W is d).length ∧ total (s.sp is).nt (M' is) = total (s.sp is).nt (M is) + (W is d : Multiset (Part n)) := by
  have hnv : nvar n = (n : ℤ) + 7 := rfl
  have key : ∀ k, k ≤ K → ∃ (sp' : ℕ → Species n) (M' : ℕ → I3 → List (Part n)), (List.range k).foldlM (fun x is => addFrom P d is x) (s, 0) =
        .ok (⟨sp', s.buf, s.send, s.recv, s.inbox, s.rbuf, s.out⟩, ((flat (QQ k W d)).length : ℤ)) ∧ (∀ is, k ≤ is → sp' is = s.sp is) ∧
      ∀ is, is < k → HoldsAll (sp' is) (M' is) ∧ (sp' is).nt = (s.sp is).nt ∧
        (sp' is).npart = (s.sp is).npart + (W is d).length ∧ total (s.sp is).nt (M' is) = total (s.sp is).nt (M is) + (W is d : Multiset (Part n)) := by
    intro k
    induction k with
    | zero => intro _; exact ⟨s.sp, M, rfl, fun is _ => rfl, fun is h => absurd h (by omega)⟩
    | succ k ih =>
      intro hk
      obtain ⟨sp1, M1, e1, same1, f1⟩ := ih (by omega)
      obtain ⟨rest, hq⟩ := QQ_split W d (show k < K by omega)
      have hfl : flat (QQ K W d) = flat (QQ k W d) ++ flat (W k d) ++ flat rest := by rw [hq, flat_append, flat_append]
      have hlen : (flat (QQ K W d)).length = (flat (QQ k W d)).length + (flat (W k d)).length + (flat rest).length := by
        rw [hfl, List.length_append, List.length_append]
      obtain ⟨S', L', e2, h2, n2, np2, t2⟩ := unpackAll_ok (idx := P.idx) (b := s.rbuf d) (off := (flat (QQ k W d)).length) (S := sp1 k) (L := M k)
        (by rw [same1 k le_rfl]; exact hh k (by omega)) (W k d) (by rw [hb.size, hlen]; push_cast; omega)
        (fun i h => by
          have := hb.val ((flat (QQ k W d)).length + i) (by omega)
          rw [show (((flat (QQ k W d)).length : ℤ) + 1 + i) = (((flat (QQ k W d)).length + i : ℕ) : ℤ) + 1 by push_cast; ring, this]
          congr 1
          simp only [hfl]
          rw [List.getElem_append_left (by rw [List.length_append]; omega), List.getElem_append_right (by omega)]
          congr 1
          omega)
        (by rw [same1 k le_rfl]; exact hi k (by omega)) (m := nvar n * s.recv k d) (by rw [hr k (by omega)]; ring)
      rw [same1 k le_rfl] at n2 np2 t2
      refine ⟨Function.update sp1 k S', Function.update M1 k L', ?_, fun is his => ?_, fun is his => ?_⟩
      · rw [List.range_succ, List.foldlM_append, e1]
        simp only [except_bind_ok, List.foldlM_cons, List.foldlM_nil]
        unfold addFrom
        dsimp only
        rw [e2]
        simp only [except_bind_ok]
        congr 2
        rw [QQ_succ, flat_append, List.length_append, flat_length (W k d), hr k (by omega), hnv]
        push_cast
        ring
      · rw [Function.update_of_ne (by omega)]; exact same1 is (by omega)
      · by_cases hs : is = k
        · subst hs
          rw [Function.update_self, Function.update_self]
          exact ⟨h2, n2, np2, t2⟩
        · rw [Function.update_of_ne hs, Function.update_of_ne hs]
          exact f1 is (by omega)
  obtain ⟨sp', M', e, -, f⟩ := key K le_rfl
  refine ⟨sp', M', ?_, f⟩
  unfold addDir
  rw [e]
  rfl

theorem addAll_ok {K : ℕ} {P : Proc n} {W : ℕ → I3 → List (Part n)} : ∀ (l : List I3) (s : NMem n) (M : ℕ → I3 → List (Part n)), (∀ is, is < K → HoldsAll (s.sp is) (M is)) →
    (∀ is d, d ∈ l → is < K → s.recv is d = (W is d).length) → (∀ d ∈ l, Received K (s.rbuf d) W d) →
    (∀ is d, d ∈ l → is < K → ∀ p ∈ W is d, InBox ⟨1, 1, 1⟩ (s.sp is).nt (P.idx p)) →
    ∃ (s' : NMem n) (M' : ℕ → I3 → List (Part n)), l.foldlM (fun s d => addDir K P d s) s = .ok s' ∧ ∀ is, is < K → HoldsAll (s'.sp is) (M' is) ∧ (s'.sp is).nt = (s.sp is).nt ∧
      (s'.sp is).npart = (s.sp is).npart + Multiset.card (l.map fun d => (W is d : Multiset (Part n))).sum ∧
      total (s.sp is).nt (M' is) = total (s.sp is).nt (M is) + (l.map fun d => (W is d : Multiset (Part n))).sum := by
  intro l
  induction l with
  | nil => intro s M h _ _ _; exact ⟨s, M, rfl, fun is hi => ⟨h is hi, rfl, by simp, by simp⟩⟩
  | cons a l ih =>
    intro s M h hr hb hi
    obtain ⟨sp1, M1, e1, f1⟩ := addDir_ok (P := P) h (fun is his => hr is a (by simp) his) (hb a (by simp)) (fun is his => hi is a (by simp) his)
    obtain ⟨s2, M2, e2, f2⟩ := ih ⟨sp1, s.buf, s.send, s.recv, s.inbox, s.rbuf, s.out⟩ M1 (fun is his => (f1 is his).1) (fun is d hd => hr is d (by simp [hd]))
      (fun d hd => hb d (by simp [hd])) (fun is d hd his => by
        dsimp only
        rw [(f1 is his).2.1]
        exact hi is d (by simp [hd]) his)
    refine ⟨s2, M2, by rw [List.foldlM_cons, e1]; exact e2, fun is his => ?_⟩
    obtain ⟨a1, a2, a3, a4⟩ := f1 is his
    obtain ⟨b1, b2, b3, b4⟩ := f2 is his
    dsimp only at b2 b3 b4
    rw [a2] at b2 b4
    refine ⟨b1, b2, ?_, ?_⟩
    · rw [b3, a3, List.map_cons, List.sum_cons, Multiset.card_add, Multiset.coe_card]
      push_cast
      ring
    · rw [b4, a4, List.map_cons, List.sum_cons, add_assoc]

/-- State after the second wait. -/
theorem nfin1_ok {K : ℕ} {P : Proc n} {W : ℕ → I3 → List (Part n)} {s : NMem n} {M : ℕ → I3 → List (Part n)} (hh : ∀ is, is < K → HoldsAll (s.sp is) (M is))
    (hr : ∀ is d, is < K → d ∈ dirs → s.recv is d = (W is d).length) (hb : ∀ d, d ∈ dirs → s.rbuf d = FArr.undef ((QQ K W d).length * nvar n))
    (hi : ∀ is d, d ∈ dirs → is < K → ∀ p ∈ W is d, InBox ⟨1, 1, 1⟩ (s.sp is).nt (P.idx p))
    (hx : ∀ i (h : i < (slots K s).length), s.inbox i = some (.dat (flat (QQ K W (slots K s)[i])))) :
    ∃ (s' : NMem n) (M' : ℕ → I3 → List (Part n)), nfin1 K P s = .ok s' ∧ ∀ is, is < K → HoldsAll (s'.sp is) (M' is) ∧ (s'.sp is).nt = (s.sp is).nt ∧
      (s'.sp is).npart = (s.sp is).npart + Multiset.card (dirs.map fun d => (W is d : Multiset (Part n))).sum ∧
      total (s.sp is).nt (M' is) = total (s.sp is).nt (M is) + (dirs.map fun d => (W is d : Multiset (Part n))).sum := by
  have hnv : nvar n = (n : ℤ) + 7 := rfl
  have hfl : ∀ d, ((flat (QQ K W d)).length : ℤ) = (QQ K W d).length * nvar n := by intro d; rw [flat_length, hnv]; push_cast; ring
  obtain ⟨rb, e1, h1⟩ := takeDat_loop (fun d => flat (QQ K W d)) (slots K s) 0 s (nodup_dirs.filter _) (fun i h => by rw [Nat.zero_add]; exact hx i h) (fun d hd => by
    rw [hb d (List.mem_filter.mp hd).1, hfl]
    exact le_rfl)
  obtain ⟨s', M', e2, f⟩ := addAll_ok (P := P) (W := W) dirs ⟨s.sp, s.buf, s.send, s.recv, s.inbox, rb, s.out⟩ M hh (fun is d hd his => hr is d his hd) (fun d hd => by
    dsimp only
    rw [h1 d, hb d hd]
    by_cases hs : d ∈ slots K s
    · rw [if_pos hs]
      refine ⟨(hfl d).symm, fun i h => ?_⟩
      exact (FArr.holds_ofList (flat (QQ K W d))).2 i h
    · rw [if_neg hs]
      have h0 : QQ K W d = [] := by
        by_contra hne
        have hpos := List.length_pos_iff.mpr hne
        refine hs (List.mem_filter.mpr ⟨hd, ?_⟩)
        rw [ncount_eq fun is hi => hr is d hi hd, hnv]
        have : 0 < ((n : ℤ) + 7) * ((QQ K W d).length : ℤ) := by positivity
        simpa using this
      refine ⟨?_, fun i h => ?_⟩
      · rw [h0]; simp [flat, FArr.undef]
      · rw [h0] at h; simp [flat] at h) hi
  refine ⟨s', M', ?_, f⟩
  unfold nfin1
  rw [e1]
  simp only [except_bind_ok]
  exact e2

/-! ### The whole routine -/

variable {R : Type} [DecidableEq R]

omit [DecidableEq R] in
theorem absorb_eq {K : ℕ} {nb : R → I3 → R} {P : R → Proc n} (g : ℕ) (r : R) (val : ℕ → Msg) (k : ℕ) (s : NMem n) :
    ∃ s', MpiLists.absorb (nonBlocking K nb P) g r val k (.ok s) = .ok s' ∧ s'.sp = s.sp ∧ s'.buf = s.buf ∧ s'.send = s.send ∧ s'.recv = s.recv ∧ s'.rbuf = s.rbuf ∧ s'.out = s.out ∧
      ∀ i, i < k → s'.inbox i = some (val i) := by
  induction k with
  | zero => exact ⟨s, rfl, rfl, rfl, rfl, rfl, rfl, rfl, fun i h => absurd h (by omega)⟩
  | succ k ih =>
    obtain ⟨s', e, h1, h2, h3, h4, h5, h6, h7⟩ := ih
    refine ⟨⟨s'.sp, s'.buf, s'.send, s'.recv, Function.update s'.inbox k (some (val k)), s'.rbuf, s'.out⟩, ?_, h1, h2, h3, h4, h5, h6, fun i hi => ?_⟩
    · rw [MpiLists.absorb_succ, e]; rfl
    · dsimp only
      by_cases hik : i = k
      · subst hik; rw [Function.update_self]
      · rw [Function.update_of_ne hik]; exact h7 i (by omega)

theorem filter_map_comm {α β : Type} (l : List α) (f : α → β) (p : β → Bool) : (l.filter fun x => p (f x)).map f = (l.map f).filter p := by
  induction l with
  | nil => rfl
  | cons a l ih =>
    by_cases h : p (f a) = true
    · simp [h, ih]
    · simp [h, ih]

/-- Received messages when slots and messages are as in the two groups of the routine. -/
theorem matched_dirs {nb : R → I3 → R} (hm : Mutual nb) (s r : R) (p : R → I3 → Bool) (v : R → I3 → Msg) :
    MpiLists.sentTo ((dirs.filter fun d => p s d).map fun d => (nb s d, v s d)) r =
      ((dirs.filter fun e => p (nb r e) (md nb r e)).filter fun e => nb r e = s).map fun e => v (nb r e) (md nb r e) := by
  have h1 : MpiLists.sentTo ((dirs.filter fun d => p s d).map fun d => (nb s d, v s d)) r = ((toR nb s r).filter fun d => p s d).map (v s) := by
    unfold MpiLists.sentTo toR
    rw [List.filter_map, List.map_map, List.filter_filter, List.filter_filter]
    congr 1
    apply List.filter_congr
    intro d _
    simp [Bool.and_comm]
  have h2 : ((dirs.filter fun e => p (nb r e) (md nb r e)).filter fun e => nb r e = s) = (toR nb r s).filter fun e => p s (md nb r e) := by
    unfold toR
    rw [List.filter_filter, List.filter_filter]
    apply List.filter_congr
    intro e _
    by_cases he : nb r e = s
    · simp [he]
    · simp [he]
  rw [h1, h2, ← map_md hm r s, ← filter_map_comm, List.map_map]
  apply List.map_congr_left
  intro e he
  have := (mem_toR.mp (List.mem_filter.mp he).1).2
  simp [this]

theorem flatCond {K : ℕ} {f : ℕ → I3 → ℤ} {Q : ℕ → I3 → List (Part n)} {d e : I3} (h : ∀ is, is < K → f is d = (Q is e).length) :
    (decide (nvar n * ncount K f d > 0)) = decide (QQ K Q e ≠ []) := by
  rw [ncount_eq h]
  have hnv : nvar n = (n : ℤ) + 7 := rfl
  by_cases h0 : QQ K Q e = []
  · simp [h0]
  · have hpos := List.length_pos_iff.mpr h0
    have : 0 < ((n : ℤ) + 7) * ((QQ K Q e).length : ℤ) := by positivity
    rw [hnv]
    simp [h0, this]

/-- What arrives in slot `e` of process `r`. -/
def Wof (nb : R → I3 → R) (Q0 : R → ℕ → I3 → List (Part n)) (r : R) (is : ℕ) (e : I3) : List (Part n) := Q0 (nb r e) is (md nb r e)

/-- The message with the numbers. -/
def v0 (K : ℕ) (Q0 : R → ℕ → I3 → List (Part n)) (s : R) (d : I3) : Msg := .cnt (cnts K (Q0 s) d)

/-- The message with the data. -/
def v1 (K : ℕ) (Q0 : R → ℕ → I3 → List (Part n)) (s : R) (d : I3) : Msg := .dat (flat (QQ K (Q0 s) d))

theorem v0_W (K : ℕ) (nb : R → I3 → R) (Q0 : R → ℕ → I3 → List (Part n)) (r : R) (e : I3) :
    v0 K Q0 (nb r e) (md nb r e) = .cnt (cnts K (Wof nb Q0 r) e) := rfl

theorem QQ_W (K : ℕ) (nb : R → I3 → R) (Q0 : R → ℕ → I3 → List (Part n)) (r : R) (e : I3) :
    QQ K (Wof nb Q0 r) e = QQ K (Q0 (nb r e)) (md nb r e) := rfl

theorem v1_W (K : ℕ) (nb : R → I3 → R) (Q0 : R → ℕ → I3 → List (Part n)) (r : R) (e : I3) :
    v1 K Q0 (nb r e) (md nb r e) = .dat (flat (QQ K (Wof nb Q0 r) e)) := rfl

theorem dirAt_eq {i : ℕ} (hi : i < dirs.length) : dirAt i = dirs[i] := by
  unfold dirAt; rw [List.getD_eq_getElem?_getD, List.getElem?_eq_getElem hi, Option.getD_some]

section
omit [DecidableEq R]
variable (K : ℕ) (nb : R → I3 → R) (P : R → Proc n)

theorem nb_snd0 (r : R) (s : NMem n) : (nonBlocking K nb P).snd 0 r (.ok s) = dirs.map fun d => (nb r d, .cnt ((List.range K).map fun is => s.send is d)) := rfl

theorem nb_snd1 (r : R) (s : NMem n) : (nonBlocking K nb P).snd 1 r (.ok s) =
    (dirs.filter fun d => decide (nvar n * ncount K s.send d > 0)).map fun d => (nb r d, .dat (s.out d)) := rfl

theorem nb_rcv0 (r : R) (s : NMem n) : (nonBlocking K nb P).rcv 0 r (.ok s) = dirs.map (nb r) := rfl

theorem nb_rcv1 (r : R) (s : NMem n) : (nonBlocking K nb P).rcv 1 r (.ok s) = (slots K s).map (nb r) := rfl

theorem nb_bind (f : NMem n → Res (NMem n)) (s : NMem n) : Except.bind (.ok s : Res (NMem n)) f = f s := rfl

theorem nb_fin (g : ℕ) (r : R) (m : Res (NMem n)) : (nonBlocking K nb P).fin g r m = Except.bind m fun s => if g = 0 then nfin0 K s else nfin1 K (P r) s := rfl

theorem nb_fin0 (r : R) (s : NMem n) : (nonBlocking K nb P).fin 0 r (.ok s) = nfin0 K s := by
  rw [nb_fin, nb_bind, if_pos rfl]

theorem nb_fin1 (r : R) (s : NMem n) : (nonBlocking K nb P).fin 1 r (.ok s) = nfin1 K (P r) s := by
  rw [nb_fin, nb_bind, if_neg (by decide)]

theorem nb_sndPut (g : ℕ) (r : R) (m : Res (NMem n)) (i : ℕ) (x : Msg) : (nonBlocking K nb P).snd g r ((nonBlocking K nb P).put g r m i x) = (nonBlocking K nb P).snd g r m := by
  cases m <;> rfl

theorem nb_rcvPut (g : ℕ) (r : R) (m : Res (NMem n)) (i : ℕ) (x : Msg) : (nonBlocking K nb P).rcv g r ((nonBlocking K nb P).put g r m i x) = (nonBlocking K nb P).rcv g r m := by
  cases m <;> rfl

end

/-- Choice by the number of the group. -/
def pick {α : Type} (a b c : α) : ℕ → α
  | 0 => a
  | 1 => b
  | _ + 2 => c

attribute [local irreducible] dirs md QQ flat cnts slots nfin0 nfin1 nstart toR Wof v0 v1 dirAt

theorem step1_ok {K : ℕ} {nb : R → I3 → R} {P : R → Proc n} {sp : R → ℕ → Species n} {L : R → ℕ → I3 → List (Part n)} (hm : Mutual nb)
    (hl : ∀ is, is < K → Land .nonBlocking nb P (fun r => (sp r is).nt) fun r => L r is) {S0 : R → NMem n} {M0 Q0 : R → ℕ → I3 → List (Part n)}
    (C0 : ∀ r, Scanned K (P r) (sp r) (L r) (S0 r) (M0 r) (Q0 r)) {r : R} {s1 : NMem n} (sp1 : s1.sp = (S0 r).sp)
    (recv1 : ∀ is d, is < K → d ∈ dirs → s1.recv is d = (Wof nb Q0 r is d).length)
    (rbuf1 : ∀ d, d ∈ dirs → s1.rbuf d = FArr.undef ((QQ K (Wof nb Q0 r) d).length * nvar n)) {val : ℕ → Msg}
    (hval : ∀ i (h : i < (slots K s1).length), val i = .dat (flat (QQ K (Wof nb Q0 r) (slots K s1)[i]))) :
    ∃ s2 : NMem n, (nonBlocking K nb P).fin 1 r (MpiLists.absorb (nonBlocking K nb P) 1 r val (slots K s1).length (.ok s1)) = .ok s2 ∧
      ∀ is, is < K → Delivered .nonBlocking nb P (fun r => sp r is) (fun r => L r is) r (s2.sp is) := by
  obtain ⟨s', e, a1, a2, a3, a4, a5, a6, a7⟩ := absorb_eq (K := K) (nb := nb) (P := P) 1 r val (slots K s1).length s1
  have hsl : slots K s' = slots K s1 := by unfold slots; rw [a4]
  have hsp : ∀ is, s'.sp is = (S0 r).sp is := by intro is; rw [a1, sp1]
  obtain ⟨s2, M2, e2, f⟩ := nfin1_ok (K := K) (P := P r) (W := Wof nb Q0 r) (s := s') (M := M0 r) (fun is hi => by rw [hsp]; exact (C0 r).holds is hi)
    (fun is d hi hd => by rw [a4]; exact recv1 is d hi hd) (fun d hd => by rw [a5]; exact rbuf1 d hd)
    (fun is d hd hi p hp => by
      rw [hsp, (C0 r).nt is hi]
      obtain ⟨m1, m2⟩ := md_spec hm (r := r) hd
      have := hl is hi (nb r d) (md nb r d) m1 p (by rw [← (C0 (nb r d)).hand is _ hi]; unfold Wof at hp; exact hp)
      rw [m2] at this
      exact this)
    (fun i hi => by
      have hi' : i < (slots K s1).length := by rw [hsl] at hi; exact hi
      rw [a7 i hi', hval i hi']
      simp only [hsl])
  rw [e, nb_fin1]
  refine ⟨s2, e2, fun is hi => ?_⟩
  obtain ⟨b1, b2, b3, b4⟩ := f is hi
  rw [hsp] at b2 b3 b4
  rw [(C0 r).nt is hi] at b2 b4
  have hsum : (dirs.map fun d => (Wof nb Q0 r is d : Multiset (Part n))).sum =
      (dirs.map fun d => handed .nonBlocking (P (nb r (neg d))) (sp (nb r (neg d)) is).nt (L (nb r (neg d)) is) d).sum := by
    have hp := ((md_perm hm r).map fun x => handed .nonBlocking (P x.1) (sp x.1 is).nt (L x.1 is) x.2).sum_eq
    rw [List.map_map, List.map_map] at hp
    refine Eq.trans ?_ hp
    congr 1
    apply List.map_congr_left
    intro e he
    unfold Wof
    exact (C0 (nb r e)).hand is _ hi
  have np := (C0 r).np is hi
  have tot := (C0 r).tot is hi
  refine ⟨M2 is, b1, b2, ?_, ?_⟩
  · dsimp only
    rw [b4, tot, hsum]
  · dsimp only
    rw [b3, b4, Multiset.card_add]
    push_cast
    omega

theorem nb_trace {K : ℕ} {nb : R → I3 → R} {P : R → Proc n} {sp : R → ℕ → Species n} {L : R → ℕ → I3 → List (Part n)} (hm : Mutual nb)
    (h : ∀ r is, is < K → HoldsAll (sp r is) (L r is)) (hl : ∀ is, is < K → Land .nonBlocking nb P (fun r => (sp r is).nt) fun r => L r is) :
    ∃ T : MpiLists.Trace (nonBlocking K nb P) (fun r => nstart K (P r) (sp r)), ∀ r, ∃ s, T.M 2 r = .ok s ∧
      ∀ is, is < K → Delivered .nonBlocking nb P (fun r => sp r is) (fun r => L r is) r (s.sp is) := by
  choose S0 M0 Q0 e0 C0 using fun r => nstart_ok K (P r) (sp r) (L r) (h r)
  let val0 : R → ℕ → Msg := fun r i => v0 K Q0 (nb r (dirAt i)) (md nb r (dirAt i))
  -- first group
  have step0 : ∀ r, ∃ s1 : NMem n, (nonBlocking K nb P).fin 0 r (MpiLists.absorb (nonBlocking K nb P) 0 r (val0 r) dirs.length (.ok (S0 r))) = .ok s1 ∧ s1.sp = (S0 r).sp ∧
      s1.send = (S0 r).send ∧ (∀ is d, is < K → d ∈ dirs → s1.recv is d = (Wof nb Q0 r is d).length) ∧ s1.inbox = (fun _ => none) ∧
      (∀ d, d ∈ dirs → s1.rbuf d = FArr.undef ((QQ K (Wof nb Q0 r) d).length * nvar n)) ∧ ∀ d, d ∈ dirs → s1.out d = flat (QQ K (Q0 r) d) := by
    intro r
    obtain ⟨s', e, a1, a2, a3, a4, a5, a6, a7⟩ := absorb_eq (K := K) (nb := nb) (P := P) 0 r (val0 r) dirs.length (S0 r)
    rw [e, nb_fin0]
    obtain ⟨s1, e1, b1, b2, b3, b4, b5, b6⟩ := nfin0_ok (K := K) (s := s') (Q := Q0 r) (W := Wof nb Q0 r) (fun d => by rw [a2]; exact (C0 r).buf d)
      (fun is d hi => by rw [a3]; exact (C0 r).send is d hi) (by rw [a6]; exact (C0 r).out) (fun i hi => by
        rw [a7 i hi]
        show some (v0 K Q0 (nb r (dirAt i)) (md nb r (dirAt i))) = _
        rw [dirAt_eq hi, v0_W])
    exact ⟨s1, e1, by rw [b1, a1], by rw [b2, a3], b3, b4, b5, b6⟩
  choose S1 e1 sp1 send1 recv1 inbox1 rbuf1 out1 using step0
  have hslots : ∀ r, slots K (S1 r) = dirs.filter fun e => decide (QQ K (Q0 (nb r e)) (md nb r e) ≠ []) := by
    intro r
    unfold slots
    apply List.filter_congr
    intro e he
    rw [← QQ_W]
    exact flatCond (Q := Wof nb Q0 r) (e := e) fun is hi => recv1 r is e hi he
  let val1 : R → ℕ → Msg := fun r i => v1 K Q0 (nb r ((slots K (S1 r)).getD i ⟨0, 0, 0⟩)) (md nb r ((slots K (S1 r)).getD i ⟨0, 0, 0⟩))
  have step1 : ∀ r, ∃ s2 : NMem n, (nonBlocking K nb P).fin 1 r (MpiLists.absorb (nonBlocking K nb P) 1 r (val1 r) (slots K (S1 r)).length (.ok (S1 r))) = .ok s2 ∧
      ∀ is, is < K → Delivered .nonBlocking nb P (fun r => sp r is) (fun r => L r is) r (s2.sp is) := fun r =>
    step1_ok hm hl C0 (sp1 r) (recv1 r) (rbuf1 r) (fun i hi => by
      show v1 K Q0 (nb r ((slots K (S1 r)).getD i ⟨0, 0, 0⟩)) (md nb r ((slots K (S1 r)).getD i ⟨0, 0, 0⟩)) = _
      rw [List.getD_eq_getElem?_getD, List.getElem?_eq_getElem hi, Option.getD_some, v1_W])
  choose S2 e2 D2 using step1
  have hG : (nonBlocking K nb P).G = 2 := rfl
  refine ⟨⟨fun g r => pick (.ok (S0 r)) (.ok (S1 r)) (.ok (S2 r)) g, fun g r => pick (val0 r) (val1 r) (val1 r) g, ?_, ?_, nb_sndPut K nb P, nb_rcvPut K nb P, ?_⟩, fun r => ⟨S2 r, rfl, D2 r⟩⟩
  · funext r; exact (e0 r).symm
  · intro g r hg
    rw [hG] at hg
    match g, hg with
    | 0, _ =>
      simp only [pick]
      rw [nb_rcv0, List.length_map]
      exact (e1 r).symm
    | 1, _ =>
      simp only [pick]
      rw [nb_rcv1, List.length_map]
      exact (e2 r).symm
  · intro g s d hg
    rw [hG] at hg
    match g, hg with
    | 0, _ =>
      simp only [pick]
      rw [nb_snd0, nb_rcv0, List.length_map,
        MpiLists.gotFrom_slots dirs (nb d) (fun e => v0 K Q0 (nb d e) (md nb d e)) (val0 d) (fun i hi => by show v0 K Q0 (nb d (dirAt i)) (md nb d (dirAt i)) = _; rw [dirAt_eq hi])]
      have hmd := matched_dirs hm s d (fun _ _ => true) (v0 K Q0)
      simp only [List.filter_true] at hmd
      rw [← hmd]
      congr 1
      apply List.map_congr_left
      intro e _
      unfold v0 cnts
      congr 2
      apply List.map_congr_left
      intro is hi
      exact (C0 s).send is e (List.mem_range.mp hi)
    | 1, _ =>
      simp only [pick]
      rw [nb_snd1, nb_rcv1, List.length_map, MpiLists.gotFrom_slots (slots K (S1 d)) (nb d) (fun e => v1 K Q0 (nb d e) (md nb d e)) (val1 d) (fun i hi => by
        show v1 K Q0 (nb d ((slots K (S1 d)).getD i ⟨0, 0, 0⟩)) (md nb d ((slots K (S1 d)).getD i ⟨0, 0, 0⟩)) = _
        rw [List.getD_eq_getElem?_getD, List.getElem?_eq_getElem hi, Option.getD_some])]
      rw [hslots d, ← matched_dirs hm s d (fun s d => decide (QQ K (Q0 s) d ≠ [])) (v1 K Q0)]
      have hf : (dirs.filter fun e => decide (nvar n * ncount K (S1 s).send e > 0)) = dirs.filter fun e => decide (QQ K (Q0 s) e ≠ []) := by
        apply List.filter_congr
        intro e _
        exact flatCond fun is hi => by rw [send1 s]; exact (C0 s).send is e hi
      rw [hf]
      congr 1
      apply List.map_congr_left
      intro e he
      rw [out1 s e (List.mem_filter.mp he).1]
      unfold v1
      rfl

end Picsar.PartExchange
