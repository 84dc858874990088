import Verif.Lemmas.Deposition2d
import Verif.Model.CircDeposit
import Verif.Spec.CircDeposit

namespace Picsar.CircDeposit
open Picsar Picsar.Grid Picsar.Deposition Picsar.Deposition2d Picsar.CircGather Picsar.Spec

/-! ### Adding to one node on all modes -/

theorem addedC_congr {n : ℕ} {A : CArr} {f h : ℕ → ℤ → ℤ → ℂ} (e : ∀ m j l, m < n → f m j l = h m j l) : addedC n A f = addedC n A h := by
  simp only [addedC, CArr.mk.injEq, true_and]
  funext j l m
  by_cases hm : m < n
  · rw [if_pos hm, if_pos hm, e m j l hm]
  · rw [if_neg hm, if_neg hm]

theorem addedC_zero {n : ℕ} {A : CArr} : addedC n A (fun _ _ _ => 0) = A := by
  simp [addedC]

theorem bumpC_ok {n : ℕ} {A : CArr} {f : ℕ → ℤ → ℤ → ℂ} {j0 l0 : ℤ} {m : ℕ} {v : ℂ} (hm : m < n) (hb : A.Has j0 l0 m) :
    bumpC (addedC n A f) j0 l0 m v = .ok (addedC n A fun m' j l => f m' j l + if j = j0 ∧ l = l0 ∧ m' = m then v else 0) := by
  unfold bumpC
  rw [if_pos (show (addedC n A f).Has j0 l0 m from hb)]
  congr 1
  simp only [addedC, CArr.mk.injEq, true_and]
  funext j l m'
  by_cases h : j = j0 ∧ l = l0 ∧ m' = m
  · obtain ⟨rfl, rfl, rfl⟩ := h
    simp only [and_self, if_true, if_pos hm]
    ring
  · rw [if_neg h, if_neg h, add_zero]

theorem loopM_ok {S : Type} {n : ℕ} {A : CArr} {j0 l0 : ℤ} (step : S → S) (p : ℕ → S) (hp : ∀ m, p (m + 1) = step (p m)) (V : ℕ → S → ℂ)
    (hb : ∀ m < n, A.Has j0 l0 m) : ∀ (k b : ℕ) (f : ℕ → ℤ → ℤ → ℂ), b + k ≤ n →
    (List.range' b k).foldlM (fun (st : S × CArr) m => do
      let a ← bumpC st.2 j0 l0 m (V m st.1)
      pure (step st.1, a)) (p b, addedC n A f) =
      (.ok (p (b + k), addedC n A fun m j l => f m j l + if (j = j0 ∧ l = l0) ∧ b ≤ m ∧ m < b + k then V m (p m) else 0) : Res (S × CArr))
  | 0, b, f, _ => by
    simp only [List.range'_zero, List.foldlM_nil, add_zero, except_pure]
    congr 2
    apply addedC_congr
    intro m j l _
    rw [if_neg (by omega), add_zero]
  | k + 1, b, f, h => by
    rw [List.range'_succ, List.foldlM_cons]
    simp only
    rw [bumpC_ok (by omega) (hb b (by omega))]
    simp only [except_bind_ok, except_pure]
    rw [← hp]
    have ih := loopM_ok step p hp V hb k (b + 1)
      (fun m' j l => f m' j l + if j = j0 ∧ l = l0 ∧ m' = b then V b (p b) else 0) (by omega)
    simp only [except_pure] at ih
    rw [ih, show b + 1 + k = b + (k + 1) by ring]
    congr 2
    apply addedC_congr
    intro m j l _
    by_cases h1 : j = j0 ∧ l = l0
    · obtain ⟨rfl, rfl⟩ := h1
      by_cases h2 : m = b
      · subst h2
        simp
      · simp only [h2, and_false, if_false, add_zero, true_and]
        congr 1
        have : (b + 1 ≤ m ∧ m < b + (k + 1)) ↔ (b ≤ m ∧ m < b + (k + 1)) := by omega
        simp only [this]
    · have h2 : ¬ (j = j0 ∧ l = l0 ∧ m = b) := fun h => h1 ⟨h.1, h.2.1⟩
      simp only [h1, h2, false_and, if_false, add_zero]

/-- Mode 0, then the loop over the others. -/
theorem point_ok {S : Type} {n : ℕ} {A : CArr} {j0 l0 : ℤ} {f : ℕ → ℤ → ℤ → ℂ} (step : S → S) (p : ℕ → S) (hp : ∀ m, p (m + 1) = step (p m))
    (V : ℕ → S → ℂ) (v0 : ℂ) (hn : 1 ≤ n) (hb : ∀ m < n, A.Has j0 l0 m) :
    ∃ a, bumpC (addedC n A f) j0 l0 0 v0 = .ok a ∧
    (List.range' 1 (n - 1)).foldlM (fun (st : S × CArr) m => do
      let a ← bumpC st.2 j0 l0 m (V m st.1)
      pure (step st.1, a)) (p 1, a) =
      (.ok (p n, addedC n A fun m j l => f m j l + if j = j0 ∧ l = l0 then (if m = 0 then v0 else V m (p m)) else 0) : Res (S × CArr)) := by
  refine ⟨_, bumpC_ok (by omega) (hb 0 (by omega)), ?_⟩
  rw [loopM_ok step p hp V hb (n - 1) 1 _ (by omega), show 1 + (n - 1) = n by omega]
  congr 2
  apply addedC_congr
  intro m j l hm
  by_cases h1 : j = j0 ∧ l = l0
  · obtain ⟨rfl, rfl⟩ := h1
    by_cases h2 : m = 0
    · subst h2; simp
    · have h3 : 1 ≤ m := by omega
      simp [h2, h3, hm]
  · have h2 : ¬ (j = j0 ∧ l = l0 ∧ m = 0) := fun h => h1 ⟨h.1, h.2.1⟩
    simp only [h1, h2, false_and, if_false, add_zero]

/-! ### Ghost closed forms -/

noncomputable def TT (L : Loc2) (P : Phases) (g : Geo) (m : ℕ) (i k : ℤ) : ℂ :=
  -(2 * Complex.I * (((L.i0 + i : ℤ) + g.xmin * (1 / g.dx) : ℝ) : ℂ) * ((L.wqx / m : ℝ) : ℂ) *
      (L.sx0 i * L.sz0 k * (P.new ^ m - P.mid ^ m) + L.sx i * L.sz k * (P.mid ^ m - P.old ^ m)))

noncomputable def GR (L : Loc2) (P : Phases) (i k : ℤ) (m : ℕ) (j l : ℤ) : ℂ := (F2 L i k .jx ⟨j, 0, l⟩ : ℂ) * modeWeight m P.mid
noncomputable def GZ (L : Loc2) (P : Phases) (i k : ℤ) (m : ℕ) (j l : ℤ) : ℂ := (F2 L i k .jz ⟨j, 0, l⟩ : ℂ) * modeWeight m P.mid
noncomputable def GT (L : Loc2) (P : Phases) (g : Geo) (i k : ℤ) (m : ℕ) (j l : ℤ) : ℂ :=
  if m = 0 then (F2 L i k .jy ⟨j, 0, l⟩ : ℂ)
  else if InR2 L (j - L.i0) (l - L.k0) ∧ Bef2 i k (j - L.i0) (l - L.k0) then TT L P g m (j - L.i0) (l - L.k0) else 0

theorem F2_at (L : Loc2) {i k : ℤ} (hr : InR2 L i k) (c : Comp) (hc : c = .jx ∨ c = .jy ∨ c = .jz) (j l : ℤ) :
    F2 L (i + 1) k c ⟨j, 0, l⟩ = F2 L i k c ⟨j, 0, l⟩ + if j = L.i0 + i ∧ l = L.k0 + k then contrib2 L i k c else 0 := by
  rw [F2_step L hr]
  rcases hc with rfl | rfl | rfl <;> simp [pt]

theorem GR_step (L : Loc2) (P : Phases) {i k : ℤ} (hr : InR2 L i k) (m : ℕ) (j l : ℤ) :
    GR L P (i + 1) k m j l = GR L P i k m j l + if j = L.i0 + i ∧ l = L.k0 + k then (contrib2 L i k .jx : ℂ) * modeWeight m P.mid else 0 := by
  unfold GR
  rw [F2_at L hr .jx (by simp)]
  split_ifs <;> push_cast <;> ring

theorem GZ_step (L : Loc2) (P : Phases) {i k : ℤ} (hr : InR2 L i k) (m : ℕ) (j l : ℤ) :
    GZ L P (i + 1) k m j l = GZ L P i k m j l + if j = L.i0 + i ∧ l = L.k0 + k then (contrib2 L i k .jz : ℂ) * modeWeight m P.mid else 0 := by
  unfold GZ
  rw [F2_at L hr .jz (by simp)]
  split_ifs <;> push_cast <;> ring

theorem GT_step (L : Loc2) (P : Phases) (g : Geo) {i k : ℤ} (hr : InR2 L i k) (m : ℕ) (j l : ℤ) :
    GT L P g (i + 1) k m j l = GT L P g i k m j l +
      if j = L.i0 + i ∧ l = L.k0 + k then (if m = 0 then (wY2 L i k : ℂ) else TT L P g m i k) else 0 := by
  unfold GT
  by_cases hm : m = 0
  · simp only [if_pos hm]
    rw [F2_at L hr .jy (by simp)]
    simp only [contrib2]
    split_ifs <;> push_cast <;> ring
  · simp only [if_neg hm]
    by_cases h : j = L.i0 + i ∧ l = L.k0 + k
    · obtain ⟨rfl, rfl⟩ := h
      simp only [add_sub_cancel_left, and_self, if_true]
      rw [if_pos ⟨hr, by unfold Bef2; omega⟩, if_neg (by unfold Bef2; omega), zero_add]
    · rw [if_neg h, add_zero]
      congr 1
      simp only [eq_iff_iff]
      unfold InR2 Bef2
      omega

/-- The three arrays have room for the range of the loops. -/
def CoversC (n : ℕ) (L : Loc2) (A : CArr) : Prop := ∀ i k, InR2 L i k → ∀ m < n, A.Has (L.i0 + i) (L.k0 + k) m

structure InvC (n : ℕ) (L : Loc2) (P : Phases) (g : Geo) (σ : AccC) (i k : ℤ) (s : AccC) : Prop where
  r : s.jr = addedC n σ.jr (GR L P i k)
  t : s.jt = addedC n σ.jt (GT L P g i k)
  z : s.jz = addedC n σ.jz (GZ L P i k)
  sr : L.xl < i → i ≤ L.xh → s.sdr (i - 1) k = PX2 L (i - 1) k
  sz : ∀ a, L.xl ≤ a → a < i → k < L.zh → s.sdz a k = PZ2 L a k
  sz1 : ∀ a, L.xl ≤ a → a ≤ L.xh → L.zl < k → k ≤ L.zh → s.sdz a (k - 1) = PZ2 L a (k - 1)
  sr0 : s.sr0 = L.sx0
  sz0 : s.sz0 = L.sz0

theorem powers (e : ℂ) (m : ℕ) : e ^ (m + 1) = e ^ m * e := pow_succ e m

theorem weight_eq (v e : ℂ) (m : ℕ) : (if m = 0 then v else 2 * v * e ^ m) = v * modeWeight m e := by
  unfold modeWeight
  split_ifs <;> ring

theorem doR_ok {n : ℕ} (hn : 1 ≤ n) {L : Loc2} {P : Phases} {A : CArr} {f : ℕ → ℤ → ℤ → ℂ} {i k : ℤ} {s : AccC} (hi : L.xl ≤ i)
    (hm : s.jr = addedC n A f) (hx : L.xl < i → i ≤ L.xh → s.sdr (i - 1) k = PX2 L (i - 1) k)
    (hb : ∀ m < n, A.Has (L.i0 + i) (L.k0 + k) m) :
    ∃ s1, doR L n P i k s = .ok s1 ∧
      s1.jr = addedC n A (fun m j l => f m j l + if j = L.i0 + i ∧ l = L.k0 + k then (contrib2 L i k .jx : ℂ) * modeWeight m P.mid else 0) ∧
      (i < L.xh → s1.sdr i k = PX2 L i k) ∧ s1.sdz = s.sdz ∧ s1.sr0 = s.sr0 ∧ s1.sz0 = s.sz0 ∧ s1.jt = s.jt ∧ s1.jz = s.jz := by
  unfold doR
  by_cases h : i < L.xh
  · simp only [if_pos h]
    have hv : (if i > L.xl then wX2 L i k + s.sdr (i - 1) k else wX2 L i k) = PX2 L i k :=
      acc_step hi (fun a => wX2 L a k) (fun h' => hx h' h.le)
    simp only [wX2] at hv
    rw [hv, hm]
    obtain ⟨a, e1, e2⟩ := point_ok (f := f) (fun e => e * P.mid) (fun m => P.mid ^ m) (powers P.mid)
      (fun _ e => 2 * (PX2 L i k : ℂ) * e) (PX2 L i k : ℂ) hn hb
    rw [e1]
    simp only [except_bind_ok]
    rw [pow_one] at e2
    rw [e2]
    simp only [except_bind_ok, except_pure]
    refine ⟨_, rfl, ?_, fun _ => by simp, rfl, rfl, rfl, rfl, rfl⟩
    dsimp only
    apply addedC_congr
    intro m j l _
    rw [weight_eq]
    simp only [contrib2, if_pos h]
  · simp only [if_neg h]
    refine ⟨s, rfl, ?_, fun h' => (h h').elim, rfl, rfl, rfl, rfl, rfl⟩
    rw [hm]
    apply addedC_congr
    intro m j l _
    simp [contrib2, h]

theorem doZ_ok {n : ℕ} (hn : 1 ≤ n) {L : Loc2} {P : Phases} {A : CArr} {f : ℕ → ℤ → ℤ → ℂ} {i k : ℤ} {s : AccC} (hk : L.zl ≤ k)
    (hm : s.jz = addedC n A f) (hz : L.zl < k → k ≤ L.zh → s.sdz i (k - 1) = PZ2 L i (k - 1))
    (hb : ∀ m < n, A.Has (L.i0 + i) (L.k0 + k) m) :
    ∃ s1, doZ L n P i k s = .ok s1 ∧
      s1.jz = addedC n A (fun m j l => f m j l + if j = L.i0 + i ∧ l = L.k0 + k then (contrib2 L i k .jz : ℂ) * modeWeight m P.mid else 0) ∧
      (k < L.zh → s1.sdz i k = PZ2 L i k) ∧ (∀ a b, (a, b) ≠ (i, k) → s1.sdz a b = s.sdz a b) ∧ s1.sdr = s.sdr ∧ s1.sr0 = s.sr0 ∧
      s1.sz0 = s.sz0 ∧ s1.jr = s.jr ∧ s1.jt = s.jt := by
  unfold doZ
  by_cases h : k < L.zh
  · simp only [if_pos h]
    have hv : (if k > L.zl then wZ2 L i k + s.sdz i (k - 1) else wZ2 L i k) = PZ2 L i k :=
      acc_step hk (fun c => wZ2 L i c) (fun h' => hz h' h.le)
    simp only [wZ2] at hv
    rw [hv, hm]
    obtain ⟨a, e1, e2⟩ := point_ok (f := f) (fun e => e * P.mid) (fun m => P.mid ^ m) (powers P.mid)
      (fun _ e => 2 * (PZ2 L i k : ℂ) * e) (PZ2 L i k : ℂ) hn hb
    rw [e1]
    simp only [except_bind_ok]
    rw [pow_one] at e2
    rw [e2]
    simp only [except_bind_ok, except_pure]
    refine ⟨_, rfl, ?_, fun _ => by simp, ?_, rfl, rfl, rfl, rfl, rfl⟩
    · dsimp only
      apply addedC_congr
      intro m j l _
      rw [weight_eq]
      simp only [contrib2, if_pos h]
    · intro a b hab
      show Function.update s.sdz i _ a b = _
      by_cases ha : a = i
      · subst ha
        rw [Function.update_self, Function.update_of_ne]
        rintro rfl
        exact hab rfl
      · rw [Function.update_of_ne ha]
  · simp only [if_neg h]
    refine ⟨s, rfl, ?_, fun h' => (h h').elim, fun _ _ _ => rfl, rfl, rfl, rfl, rfl, rfl⟩
    rw [hm]
    apply addedC_congr
    intro m j l _
    simp [contrib2, h]

theorem doT_ok {n : ℕ} (hn : 1 ≤ n) {L : Loc2} {P : Phases} {g : Geo} {A : CArr} {f : ℕ → ℤ → ℤ → ℂ} {i k : ℤ} {s : AccC}
    (hm : s.jt = addedC n A f) (hb : ∀ m < n, A.Has (L.i0 + i) (L.k0 + k) m) :
    doT L n P g i k s = .ok { s with jt := addedC n A (fun m j l => f m j l +
      if j = L.i0 + i ∧ l = L.k0 + k then (if m = 0 then (wY2 L i k : ℂ) else TT L P g m i k) else 0) } := by
  obtain ⟨a, e1, e2⟩ := point_ok (f := f) (fun (e : ℂ × ℂ × ℂ) => (e.1 * P.new, e.2.1 * P.mid, e.2.2 * P.old))
    (fun m => (P.new ^ m, P.mid ^ m, P.old ^ m)) (fun m => by simp only [pow_succ])
    (fun m e => -(2 * Complex.I * (((L.i0 + i : ℤ) + g.xmin * (1 / g.dx) : ℝ) : ℂ) * ((L.wqx / m : ℝ) : ℂ) *
      (L.sx0 i * L.sz0 k * (e.1 - e.2.1) + L.sx i * L.sz k * (e.2.1 - e.2.2)))) (wY2 L i k : ℂ) hn hb
  simp only [pow_one] at e2
  unfold doT
  rw [hm]
  change (bumpC (addedC n A f) (L.i0 + i) (L.k0 + k) 0 (wY2 L i k : ℂ) >>= _) = _
  rw [e1]
  simp only [except_bind_ok]
  rw [e2]
  rfl

theorem cellC_ok {n : ℕ} (hn : 1 ≤ n) {D : Dims} {L : Loc2} {P : Phases} {g : Geo} {σ : AccC} (hl : LocOk2 D L) (hr' : CoversC n L σ.jr)
    (ht' : CoversC n L σ.jt) (hz' : CoversC n L σ.jz) {i k : ℤ} (hr : InR2 L i k) {s : AccC} (I : InvC n L P g σ i k s) :
    ∃ s', cellC D L n P g i k s = .ok s' ∧ InvC n L P g σ (i + 1) k s' := by
  obtain ⟨r1, r2, r5, r6⟩ := id hr
  obtain ⟨l1, l2, l5, l6⟩ := hl
  obtain ⟨s1, e1, m1, x1, a1, a2, a3, a4, a5⟩ := doR_ok (P := P) hn (s := s) r1 I.r I.sr (hr' i k hr)
  have e2 := doT_ok (P := P) (g := g) hn (s := s1) (by rw [a4, I.t]) (ht' i k hr)
  obtain ⟨s3, e3, m3, z3, y3, c1, c2, c3, c4, c5⟩ := doZ_ok (P := P) hn (i := i) (k := k) (A := σ.jz) (f := GZ L P i k) (s := { s1 with jt := (addedC n σ.jt
      (fun m j l => GT L P g i k m j l + if j = L.i0 + i ∧ l = L.k0 + k then (if m = 0 then (wY2 L i k : ℂ) else TT L P g m i k) else 0)) })
    r5 (by show s1.jz = _; rw [a5, I.z]) (fun p q => by show s1.sdz i _ = _; rw [a1]; exact I.sz1 i r1 r2 p q) (hz' i k hr)
  refine ⟨s3, ?_, ?_, ?_, ?_, ?_, ?_, ?_, ?_, ?_⟩
  · unfold cellC
    rw [if_pos ⟨by omega, by omega, by omega, by omega⟩, e1]
    simp only [except_bind_ok]
    rw [e2]
    simp only [except_bind_ok]
    rw [e3]
  · rw [c4]
    show s1.jr = _
    rw [m1]
    exact addedC_congr fun m j l _ => (GR_step L P hr m j l).symm
  · rw [c5]
    exact addedC_congr fun m j l _ => (GT_step L P g hr m j l).symm
  · rw [m3]
    exact addedC_congr fun m j l _ => (GZ_step L P hr m j l).symm
  · intro h1 h2
    rw [c1]
    show s1.sdr _ _ = _
    rw [show i + 1 - 1 = i by ring, x1 (by omega)]
  · intro a h1 h2 h3
    by_cases ha : a = i
    · subst ha; exact z3 h3
    · rw [y3 a k (by simp [ha])]
      show s1.sdz a k = _
      rw [a1]
      exact I.sz a h1 (by omega) h3
  · intro a h1 h2 h3 h4
    rw [y3 a (k - 1) (by simp)]
    show s1.sdz a _ = _
    rw [a1]
    exact I.sz1 a h1 h2 h3 h4
  · rw [c2]
    show s1.sr0 = _
    rw [a2, I.sr0]
  · rw [c3]
    show s1.sz0 = _
    rw [a3, I.sz0]

theorem GT_row (L : Loc2) (P : Phases) (g : Geo) (k : ℤ) : GT L P g (L.xh + 1) k = GT L P g L.xl (k + 1) := by
  funext m j l
  unfold GT
  rw [F2_row]
  congr 2
  simp only [eq_iff_iff]
  unfold InR2 Bef2
  omega

theorem planeC_ok {n : ℕ} (hn : 1 ≤ n) {D : Dims} {L : Loc2} {P : Phases} {g : Geo} {s : AccC} (hl : LocOk2 D L) (hr' : CoversC n L s.jr)
    (ht' : CoversC n L s.jt) (hz' : CoversC n L s.jz) (hx : L.xl ≤ L.xh) (hz : L.zl ≤ L.zh) (h1 : s.sr0 = L.sx0) (h2 : s.sz0 = L.sz0) :
    ∃ s', planeC D L n P g s = .ok s' ∧ s'.jr = addedC n s.jr (GR L P L.xl (L.zh + 1)) ∧ s'.jt = addedC n s.jt (GT L P g L.xl (L.zh + 1)) ∧
      s'.jz = addedC n s.jz (GZ L P L.xl (L.zh + 1)) ∧ s'.sr0 = L.sx0 ∧ s'.sz0 = L.sz0 := by
  obtain ⟨s1, e1, I1⟩ := foldlM_irange_inv
    (body := fun (s : AccC) (k : ℤ) => (irange L.xl L.xh).foldlM (fun (s : AccC) (i : ℤ) => cellC D L n P g i k s) s)
    (fun k s' => InvC n L P g s L.xl k s') _ L.zh (lo := L.zl) rfl (by omega)
    (fun k t g1 g2 I => by
      obtain ⟨s1, e1, I1⟩ := foldlM_irange_inv (body := fun (s : AccC) (i : ℤ) => cellC D L n P g i k s)
        (fun i t => InvC n L P g s i k t) _ L.xh rfl (by omega)
        (fun i t h1 h2 I => cellC_ok hn hl hr' ht' hz' ⟨h1, h2, g1, g2⟩ I) t I
      refine ⟨s1, e1, ?_, ?_, ?_, fun h => by omega, fun a h1 h2 => by omega, ?_, I1.sr0, I1.sz0⟩
      · rw [I1.r]
        exact addedC_congr fun m j l _ => by unfold GR; rw [F2_row]
      · rw [I1.t, GT_row]
      · rw [I1.z]
        exact addedC_congr fun m j l _ => by unfold GZ; rw [F2_row]
      · intro a h1 h2 h3 h4
        rw [show k + 1 - 1 = k by ring]
        exact I1.sz a h1 (by omega) (by omega)) s (by
      refine ⟨?_, ?_, ?_, fun h => by omega, fun a h1 h2 => by omega, fun a h1 h2 h3 => by omega, h1, h2⟩
      · have : GR L P L.xl L.zl = fun _ _ _ => 0 := by funext m j l; simp [GR, F2_start]
        rw [this, addedC_zero]
      · have : GT L P g L.xl L.zl = fun _ _ _ => 0 := by
          funext m j l
          unfold GT
          have h0 : ¬ (InR2 L (j - L.i0) (l - L.k0) ∧ Bef2 L.xl L.zl (j - L.i0) (l - L.k0)) := by unfold InR2 Bef2; omega
          rw [F2_start, if_neg h0]
          simp
        rw [this, addedC_zero]
      · have : GZ L P L.xl L.zl = fun _ _ _ => 0 := by funext m j l; simp [GZ, F2_start]
        rw [this, addedC_zero])
  exact ⟨s1, e1, I1.r, I1.t, I1.z, I1.sr0, I1.sz0⟩

/-! ### What one particle adds -/

theorem phaseAt_eq (dr x y : ℝ) : phaseAt (1 / dr) x y = unitAt dr x y := by
  unfold phaseAt unitAt
  simp only
  have e : √(x * x + y * y) = √(x ^ 2 + y ^ 2) := by congr 1; ring
  rw [e, show √(x ^ 2 + y ^ 2) * (1 / dr) = √(x ^ 2 + y ^ 2) / dr by ring]
  by_cases h : 1 / 10 ^ 10 < √(x ^ 2 + y ^ 2) / dr
  · rw [if_pos h, if_pos h]
    congr 1 <;> ring
  · rw [if_neg h, if_neg h]

theorem phasesC_eq (g : Geo) (p : Part) : phasesC g p = ⟨unitOf g p, unitMid g p, unitOf g (before g p)⟩ := by
  unfold phasesC
  simp only [phaseAt_eq]
  congr 1
  unfold unitMid
  simp only [before]
  congr 1 <;> ring

theorem moveC_eq {g : Geo} (hx : 0 < g.dx) (ht : 0 < g.dt) (p : Part) :
    moveC g p = { moveOf true g p with vy := midVelocity g p } := by
  unfold moveC moveOf midVelocity
  rw [phasesC_eq]
  simp only [cells, across, before, Move.mk.injEq, if_true]
  have e : ∀ u : ℝ, u * u = u ^ 2 := fun u => by ring
  simp only [e]
  refine ⟨?_, by ring, by ring, by ring, by ring⟩
  field_simp
  ring

theorem GR_full {a b : ℕ} {D : Dims} {g : Geo} {p : Part} {L : Loc2}
    (Q : Prep2 a b D g p.w { moveOf true g p with vy := midVelocity g p } L) (m : ℕ) (j l : ℤ) :
    GR L (phasesC g p) L.xl (L.zh + 1) m j l = currentR a b g p m j l := by
  unfold GR currentR
  rw [F2_end, FF2_cur Q, current2_eq, phasesC_eq]
  rfl

theorem GZ_full {a b : ℕ} {D : Dims} {g : Geo} {p : Part} {L : Loc2}
    (Q : Prep2 a b D g p.w { moveOf true g p with vy := midVelocity g p } L) (m : ℕ) (j l : ℤ) :
    GZ L (phasesC g p) L.xl (L.zh + 1) m j l = currentZ a b g p m j l := by
  unfold GZ currentZ
  rw [F2_end, FF2_cur Q, current2_eq, phasesC_eq]
  rfl

theorem GT_full {a b : ℕ} {D : Dims} {g : Geo} (hx : 0 < g.dx) {p : Part} {L : Loc2}
    (Q : Prep2 a b D g p.w { moveOf true g p with vy := midVelocity g p } L) (m : ℕ) (j l : ℤ) :
    GT L (phasesC g p) g L.xl (L.zh + 1) m j l = currentT a b g p m j l := by
  unfold GT currentT
  by_cases hm : m = 0
  · simp only [if_pos hm]
    rw [F2_end, FF2_cur Q]
    simp only [cur2, if_true, moveOf]
  · simp only [if_neg hm]
    have e : (if InR2 L (j - L.i0) (l - L.k0) ∧ Bef2 L.xl (L.zh + 1) (j - L.i0) (l - L.k0) then
        TT L (phasesC g p) g m (j - L.i0) (l - L.k0) else 0) = TT L (phasesC g p) g m (j - L.i0) (l - L.k0) := by
      by_cases h : InR2 L (j - L.i0) (l - L.k0)
      · rw [if_pos ⟨h, by unfold Bef2; unfold InR2 at h; omega⟩]
      · rw [if_neg (fun h' => h h'.1)]
        have : (j - L.i0 < L.xl ∨ L.xh < j - L.i0) ∨ (l - L.k0 < L.zl ∨ L.zh < l - L.k0) := by unfold InR2 at h; omega
        rcases this with h | h
        · have h0 := Q.x.zero _ h
          simp [TT, h0.1, h0.2]
        · have h0 := Q.z.zero _ h
          simp [TT, h0.1, h0.2]
    rw [e]
    unfold TT
    rw [phasesC_eq, Q.x.new, Q.x.old, Q.z.new, Q.z.old, Q.wqx, add_sub_cancel]
    simp only [moveOf]
    have hxr : ((j : ℝ) + g.xmin * (1 / g.dx)) = (g.xmin + j * g.dx) / g.dx := by field_simp; ring
    have hq : g.q * p.w * (1 / (g.dt * g.dz)) / m = g.q * p.w / (g.dt * g.dz) / m := by ring
    rw [hxr, hq]
    push_cast
    ring

/-! ### The particle loop -/

theorem coversC_ok {a b n : ℕ} (ha : a ≤ 3) (hb : b ≤ 3) {D : Dims} {g : Geo} {p : Part} {L : Loc2}
    (Q : Prep2 a b D g p.w { moveOf true g p with vy := midVelocity g p } L) {A : CArr} (h : FitC a b n g A p) : CoversC n L A := by
  intro i k hr m hm
  obtain ⟨h0, ⟨f1, f3⟩, ⟨f2, f4⟩⟩ := h
  obtain ⟨r1, r2, r3, r4⟩ := hr
  have a1 := fits_dir ha f1
  have a2 := fits_dir ha f2
  have a3 := fits_dir hb f3
  have a4 := fits_dir hb f4
  have x0 := Q.x.node
  have x1 := Q.x.low
  have x2 := Q.x.high
  have z0 := Q.z.node
  have z1 := Q.z.low
  have z2 := Q.z.high
  simp only [moveOf] at x0 x1 x2 z0 z1 z2
  refine ⟨?_, ?_, ?_, ?_, ?_⟩ <;> omega

theorem addedC_total {n : ℕ} {A : CArr} {f : Part → ℕ → ℤ → ℤ → ℂ} {p : Part} {ps : List Part} :
    addedC n (addedC n A (f p)) (total f ps) = addedC n A (total f (p :: ps)) := by
  simp only [addedC, CArr.mk.injEq, true_and]
  funext j l m
  by_cases h : m < n
  · simp only [if_pos h, total, List.map_cons, List.sum_cons]
    ring
  · simp only [if_neg h]

theorem addedC_nil {n : ℕ} {A : CArr} {f : Part → ℕ → ℤ → ℤ → ℂ} : addedC n A (total f []) = A := by
  simp [addedC, total]

theorem loopC_ok {clight : ℝ} {a b n : ℕ} (ha : a ≤ 3) (hb : b ≤ 3) (hn : 1 ≤ n) {g : Geo} (hx : 0 < g.dx) (hz : 0 < g.dz) (ht : 0 < g.dt) :
    ∀ (ps : List Part) (s : AccC), (∀ p ∈ ps, Subluminal clight p) →
    (∀ p ∈ ps, FitC a b n g s.jr p ∧ FitC a b n g s.jt p ∧ FitC a b n g s.jz p) → Off a s.sr0 → Off b s.sz0 →
    ∃ s', loopC clight a b n g ps s = .ok s' ∧ s'.jr = addedC n s.jr (total (currentR a b g) ps) ∧
      s'.jt = addedC n s.jt (total (currentT a b g) ps) ∧ s'.jz = addedC n s.jz (total (currentZ a b g) ps)
  | [], s, _, _, _, _ => ⟨s, rfl, addedC_nil.symm, addedC_nil.symm, addedC_nil.symm⟩
  | p :: ps, s, h1, h2, o1, o2 => by
    have hsub := h1 p (by simp)
    have c0 : 0 ≤ clight * g.dt / g.dx := by have := hsub.1; positivity
    have c1 : 0 ≤ clight * g.dt / g.dz := by have := hsub.1; positivity
    obtain ⟨L, e1, Q⟩ := prep2_ok (D := dimsN clight a b g) (g := g) (w := p.w) (m := { moveOf true g p with vy := midVelocity g p }) ha hb o1 o2
      (roomN_far c0 (cells_near hx (across_near g true ht hsub)))
      (roomN_far c1 (cells_near hz (z_near ht hsub)))
    obtain ⟨f1, f2, f3⟩ := h2 p (by simp)
    obtain ⟨s1, e2, m1, m2, m3, x1, z1⟩ := planeC_ok (P := phasesC g p) (g := g) hn (s := { s with sr0 := L.sx0, sz0 := L.sz0 }) Q.loc
      (coversC_ok ha hb Q f1) (coversC_ok ha hb Q f2) (coversC_ok ha hb Q f3) Q.x.le Q.z.le rfl rfl
    have k1 : s1.jr = addedC n s.jr (currentR a b g p) := by
      rw [m1]; exact addedC_congr fun m j l _ => GR_full Q m j l
    have k2 : s1.jt = addedC n s.jt (currentT a b g p) := by
      rw [m2]; exact addedC_congr fun m j l _ => GT_full hx Q m j l
    have k3 : s1.jz = addedC n s.jz (currentZ a b g p) := by
      rw [m3]; exact addedC_congr fun m j l _ => GZ_full Q m j l
    obtain ⟨s2, e3, n1, n2, n3⟩ := loopC_ok ha hb hn hx hz ht ps s1 (fun q hq => h1 q (by simp [hq])) (by
      intro q hq
      rw [k1, k2, k3]
      exact h2 q (by simp [hq])) (by rw [x1]; exact Q.x.off) (by rw [z1]; exact Q.z.off)
    refine ⟨s2, ?_, ?_, ?_, ?_⟩
    · unfold loopC
      rw [moveC_eq hx ht, e1]
      simp only [except_bind_ok]
      rw [e2]
      simp only [except_bind_ok]
      exact e3
    · rw [n1, k1, addedC_total]
    · rw [n2, k2, addedC_total]
    · rw [n3, k3, addedC_total]

theorem deposeC_ok {clight : ℝ} {a b n : ℕ} (ha : a ≤ 3) (hb : b ≤ 3) (hn : 1 ≤ n) {g : Geo} (hx : 0 < g.dx) (hz : 0 < g.dz) (ht : 0 < g.dt)
    {ps : List Part} {jr jt jz : CArr} (h1 : ∀ p ∈ ps, Subluminal clight p)
    (h2 : ∀ p ∈ ps, FitC a b n g jr p ∧ FitC a b n g jt p ∧ FitC a b n g jz p) :
    deposeC clight a b n g ps jr jt jz =
      .ok (addedC n jr (total (currentR a b g) ps), addedC n jt (total (currentT a b g) ps), addedC n jz (total (currentZ a b g) ps)) := by
  obtain ⟨s', e, m1, m2, m3⟩ := loopC_ok ha hb hn hx hz ht ps ⟨fun _ _ => 0, fun _ _ => 0, fun _ => 0, fun _ => 0, jr, jt, jz⟩ h1 h2
    (fun _ _ => rfl) (fun _ _ => rfl)
  unfold deposeC
  rw [e]
  simp only [except_bind_ok, except_pure]
  rw [m1, m2, m3]

/-! ### Continuity -/

theorem one_continuity {a b : ℕ} {g : Geo} (hx : 0 < g.dx) (hz : 0 < g.dz) (ht : 0 < g.dt) (p : Part) (m : ℕ) (j l : ℤ)
    (hr : m ≠ 0 → g.xmin + j * g.dx ≠ 0) :
    (currentR a b g p m j l - currentR a b g p m (j - 1) l) / g.dx +
      (currentZ a b g p m j l - currentZ a b g p m j (l - 1)) / g.dz -
      Complex.I * m * currentT a b g p m j l / ((g.xmin + j * g.dx : ℝ) : ℂ) =
    -((density2 a b true g p j l : ℂ) * modeWeight m (unitOf g p) -
      (density2 a b true g (before g p) j l : ℂ) * modeWeight m (unitOf g (before g p))) / g.dt := by
  have hx' : (g.dx : ℂ) ≠ 0 := by exact_mod_cast hx.ne'
  have hz' : (g.dz : ℂ) ≠ 0 := by exact_mod_cast hz.ne'
  have ht' : (g.dt : ℂ) ≠ 0 := by exact_mod_cast ht.ne'
  have i2 : Complex.I * Complex.I = -1 := Complex.I_mul_I
  have dR : ∀ m, currentR a b g p m j l - currentR a b g p m (j - 1) l =
      ((g.q * p.w / (g.dt * g.dz) * (shape a (cells (across true (before g p)) g.xmin g.dx) j - shape a (cells (across true p) g.xmin g.dx) j) *
        mean b (cells p.z g.zmin g.dz) (cells (before g p).z g.zmin g.dz) l : ℝ) : ℂ) * modeWeight m (unitMid g p) := by
    intro m
    unfold currentR
    rw [← flux2_diff]
    simp only [current2, if_true]
    push_cast
    ring
  have dZ : ∀ m, currentZ a b g p m j l - currentZ a b g p m j (l - 1) =
      ((g.q * p.w / (g.dt * g.dx) * mean a (cells (across true p) g.xmin g.dx) (cells (across true (before g p)) g.xmin g.dx) j *
        (shape b (cells (before g p).z g.zmin g.dz) l - shape b (cells p.z g.zmin g.dz) l) : ℝ) : ℂ) * modeWeight m (unitMid g p) := by
    intro m
    unfold currentZ
    rw [← flux2_diff]
    simp only [current2, if_true]
    push_cast
    ring
  rw [dR, dZ]
  have hw : (before g p).w = p.w := rfl
  unfold density2 mean
  rw [hw]
  by_cases hm : m = 0
  · subst hm
    simp only [modeWeight, if_true]
    push_cast
    field_simp
    ring
  · have hm' : (m : ℂ) ≠ 0 := by exact_mod_cast hm
    have hr' : ((g.xmin : ℂ) + j * g.dx) ≠ 0 := by exact_mod_cast hr hm
    unfold currentT
    simp only [modeWeight, if_neg hm]
    generalize shape a (cells (across true (before g p)) g.xmin g.dx) j = A
    generalize shape a (cells (across true p) g.xmin g.dx) j = B
    generalize shape b (cells (before g p).z g.zmin g.dz) l = C
    generalize shape b (cells p.z g.zmin g.dz) l = E
    generalize unitOf g p ^ m = e1
    generalize unitMid g p ^ m = e2
    generalize unitOf g (before g p) ^ m = e3
    have eT : Complex.I * (m : ℂ) * -(2 * Complex.I * (((g.xmin + j * g.dx) / g.dx : ℝ) : ℂ) * ((g.q * p.w / (g.dt * g.dz) / m : ℝ) : ℂ) *
        (((B * E : ℝ) : ℂ) * (e1 - e2) + ((A * C : ℝ) : ℂ) * (e2 - e3))) / ((g.xmin + j * g.dx : ℝ) : ℂ) =
        2 * (g.q * p.w : ℂ) / (g.dx * g.dt * g.dz) * (B * E * (e1 - e2) + A * C * (e2 - e3)) := by
      push_cast
      field_simp
      linear_combination (-(g.q : ℂ) * p.w * ((B : ℂ) * E * (e1 - e2) + A * C * (e2 - e3))) * i2
    rw [eT]
    push_cast
    field_simp
    ring

end Picsar.CircDeposit
