import Verif.Lemmas.Deposition

namespace Picsar.Deposition
open Picsar Picsar.Grid Picsar.Spec


/-- Memory with `f c` added to every array. -/
def addF (σ : Mem) (f : Comp → I3 → ℝ) : Mem := fun c => { σ c with val := fun p => (σ c).val p + f c p }

/-- The value `v` at one point of one array. -/
noncomputable def pt (c : Comp) (P : I3) (v : ℝ) : Comp → I3 → ℝ := fun c' p => if c' = c ∧ p = P then v else 0

theorem bumpMem_ok {σ : Mem} {f : Comp → I3 → ℝ} {c : Comp} {P : I3} {v : ℝ} (h : InBox (σ c).lo (σ c).hi P) :
    bumpMem (addF σ f) c P v = .ok (addF σ (fun c' p => f c' p + pt c P v c' p)) := by
  unfold bumpMem bump
  have h1 : (addF σ f c).get P = .ok ((σ c).val P + f c P) := if_pos h
  rw [h1]
  simp only [except_bind_ok]
  have h2 : (addF σ f c).set P ((σ c).val P + f c P + v) =
      .ok { addF σ f c with val := Function.update (addF σ f c).val P ((σ c).val P + f c P + v) } := if_pos h
  rw [h2]
  simp only [except_bind_ok, except_pure]
  congr 1
  funext c'
  by_cases hc : c' = c
  · subst hc
    rw [Function.update_self]
    simp only [addF, Arr.mk.injEq, true_and]
    funext p
    by_cases hp : p = P
    · subst hp
      simp [pt]
      ring
    · simp [pt, hp]
  · rw [Function.update_of_ne hc]
    simp [addF, pt, hc]

/-! ### Ghost closed forms -/

noncomputable def wX (L : Loc) (i j k : ℤ) : ℝ :=
  L.wqx * (L.sx i - L.sx0 i) * ((L.sy0 j + 1 / 2 * (L.sy j - L.sy0 j)) * L.sz0 k +
    (1 / 2 * L.sy0 j + 1 / 3 * (L.sy j - L.sy0 j)) * (L.sz k - L.sz0 k))

noncomputable def wY (L : Loc) (i j k : ℤ) : ℝ :=
  L.wqy * (L.sy j - L.sy0 j) * ((L.sz0 k + 1 / 2 * (L.sz k - L.sz0 k)) * L.sx0 i +
    (1 / 2 * L.sz0 k + 1 / 3 * (L.sz k - L.sz0 k)) * (L.sx i - L.sx0 i))

noncomputable def wZ (L : Loc) (i j k : ℤ) : ℝ :=
  L.wqz * (L.sz k - L.sz0 k) * ((L.sx0 i + 1 / 2 * (L.sx i - L.sx0 i)) * L.sy0 j +
    (1 / 2 * L.sx0 i + 1 / 3 * (L.sx i - L.sx0 i)) * (L.sy j - L.sy0 j))

noncomputable def PX (L : Loc) (i j k : ℤ) : ℝ := ∑ a ∈ Finset.Icc L.xl i, wX L a j k
noncomputable def PY (L : Loc) (i j k : ℤ) : ℝ := ∑ b ∈ Finset.Icc L.yl j, wY L i b k
noncomputable def PZ (L : Loc) (i j k : ℤ) : ℝ := ∑ c ∈ Finset.Icc L.zl k, wZ L i j c

theorem sum_Icc_last {lo i : ℤ} (h : lo ≤ i) (f : ℤ → ℝ) :
    ∑ a ∈ Finset.Icc lo i, f a = f i + ∑ a ∈ Finset.Icc lo (i - 1), f a := by
  have : Finset.Icc lo i = insert i (Finset.Icc lo (i - 1)) := by
    ext a
    simp only [Finset.mem_insert, Finset.mem_Icc]
    omega
  rw [this, Finset.sum_insert (by simp)]

theorem acc_step {lo i : ℤ} (h : lo ≤ i) (f : ℤ → ℝ) {m : ℝ} (hm : lo < i → m = ∑ a ∈ Finset.Icc lo (i - 1), f a) :
    (if i > lo then f i + m else f i) = ∑ a ∈ Finset.Icc lo i, f a := by
  rw [sum_Icc_last h]
  split_ifs with h1
  · rw [hm h1]
  · have : lo = i := by omega
    subst this
    simp

/-- Triple `(a,b,c)` comes before `(i,j,k)` in loop order. -/
def Bef (i j k a b c : ℤ) : Prop := c < k ∨ (c = k ∧ (b < j ∨ (b = j ∧ a < i)))

instance (i j k a b c : ℤ) : Decidable (Bef i j k a b c) := by unfold Bef; infer_instance

/-- In the loop ranges. -/
def InR (L : Loc) (a b c : ℤ) : Prop := L.xl ≤ a ∧ a ≤ L.xh ∧ L.yl ≤ b ∧ b ≤ L.yh ∧ L.zl ≤ c ∧ c ≤ L.zh

instance (L : Loc) (a b c : ℤ) : Decidable (InR L a b c) := by unfold InR; infer_instance

/-- Contribution of one loop index to one array. -/
noncomputable def contrib (L : Loc) (a b c : ℤ) : Comp → ℝ
  | .jx => if a < L.xh then PX L a b c else 0
  | .jy => if b < L.yh then PY L a b c else 0
  | .jz => if c < L.zh then PZ L a b c else 0
  | _ => 0

/-- What has been added to the arrays when the loops stand at `(i,j,k)`. -/
noncomputable def F (L : Loc) (i j k : ℤ) : Comp → I3 → ℝ := fun c p =>
  if InR L (p.j - L.i0) (p.k - L.j0) (p.l - L.k0) ∧ Bef i j k (p.j - L.i0) (p.k - L.j0) (p.l - L.k0)
  then contrib L (p.j - L.i0) (p.k - L.j0) (p.l - L.k0) c else 0

/-- What one particle adds to the arrays. -/
noncomputable def FF (L : Loc) : Comp → I3 → ℝ := fun c p =>
  if InR L (p.j - L.i0) (p.k - L.j0) (p.l - L.k0) then contrib L (p.j - L.i0) (p.k - L.j0) (p.l - L.k0) c else 0

/-- Loop invariant. -/
structure Inv (L : Loc) (σ : Mem) (i j k : ℤ) (s : Acc) : Prop where
  mem : s.mem = addF σ (F L i j k)
  x : L.xl < i → i ≤ L.xh → s.sdxim1 = PX L (i - 1) j k
  y : ∀ a, L.xl ≤ a → a < i → j < L.yh → s.sdyj a = PY L a j k
  y1 : ∀ a, L.xl ≤ a → a ≤ L.xh → L.yl < j → j ≤ L.yh → s.sdyjm1 a = PY L a (j - 1) k
  z : ∀ a b, L.xl ≤ a → a ≤ L.xh → L.yl ≤ b → b ≤ L.yh → (b < j ∨ (b = j ∧ a < i)) → k < L.zh → s.sdzk a b = PZ L a b k
  z1 : ∀ a b, L.xl ≤ a → a ≤ L.xh → L.yl ≤ b → b ≤ L.yh → L.zl < k → k ≤ L.zh → s.sdzkm1 a b = PZ L a b (k - 1)

/-- The grid arrays cover the loop ranges. -/
def Covers (L : Loc) (σ : Mem) : Prop := ∀ i j k, InR L i j k →
  ∀ c, c = .jx ∨ c = .jy ∨ c = .jz → InBox (σ c).lo (σ c).hi ⟨L.i0 + i, L.j0 + j, L.k0 + k⟩

theorem doX_ok {L : Loc} {σ : Mem} {f : Comp → I3 → ℝ} {i j k : ℤ} {s : Acc} (hi : L.xl ≤ i) (hm : s.mem = addF σ f)
    (hx : L.xl < i → i ≤ L.xh → s.sdxim1 = PX L (i - 1) j k)
    (hb : InBox (σ .jx).lo (σ .jx).hi ⟨L.i0 + i, L.j0 + j, L.k0 + k⟩) :
    ∃ s1, doX L i j k s = .ok s1 ∧
      s1.mem = addF σ (fun c p => f c p + pt .jx ⟨L.i0 + i, L.j0 + j, L.k0 + k⟩ (contrib L i j k .jx) c p) ∧
      (i < L.xh → s1.sdxi = PX L i j k) ∧ s1.sdyj = s.sdyj ∧ s1.sdyjm1 = s.sdyjm1 ∧ s1.sdzk = s.sdzk ∧
      s1.sdzkm1 = s.sdzkm1 := by
  unfold doX
  by_cases h : i < L.xh
  · simp only [if_pos h]
    have hv : (if i > L.xl then wX L i j k + s.sdxim1 else wX L i j k) = PX L i j k :=
      acc_step hi (fun a => wX L a j k) (fun h' => hx h' h.le)
    simp only [wX] at hv
    rw [hv, hm, bumpMem_ok hb]
    refine ⟨_, rfl, ?_, fun _ => rfl, rfl, rfl, rfl, rfl⟩
    simp only [contrib, if_pos h]
  · simp only [if_neg h]
    refine ⟨s, rfl, ?_, fun h' => (h h').elim, rfl, rfl, rfl, rfl⟩
    rw [hm]
    congr 1
    funext c p
    simp [contrib, if_neg h, pt]

theorem doY_ok {L : Loc} {σ : Mem} {f : Comp → I3 → ℝ} {i j k : ℤ} {s : Acc} (hj : L.yl ≤ j) (hm : s.mem = addF σ f)
    (hy : L.yl < j → j ≤ L.yh → s.sdyjm1 i = PY L i (j - 1) k)
    (hb : InBox (σ .jy).lo (σ .jy).hi ⟨L.i0 + i, L.j0 + j, L.k0 + k⟩) :
    ∃ s1, doY L i j k s = .ok s1 ∧
      s1.mem = addF σ (fun c p => f c p + pt .jy ⟨L.i0 + i, L.j0 + j, L.k0 + k⟩ (contrib L i j k .jy) c p) ∧
      (j < L.yh → s1.sdyj = Function.update s.sdyj i (PY L i j k)) ∧ s1.sdxi = s.sdxi ∧
      s1.sdyjm1 = s.sdyjm1 ∧ s1.sdzk = s.sdzk ∧ s1.sdzkm1 = s.sdzkm1 := by
  unfold doY
  by_cases h : j < L.yh
  · simp only [if_pos h]
    have hv : (if j > L.yl then wY L i j k + s.sdyjm1 i else wY L i j k) = PY L i j k :=
      acc_step hj (fun b => wY L i b k) (fun h' => hy h' h.le)
    simp only [wY] at hv
    rw [hv, hm, bumpMem_ok hb]
    refine ⟨_, rfl, ?_, fun _ => rfl, rfl, rfl, rfl, rfl⟩
    simp only [contrib, if_pos h]
  · simp only [if_neg h]
    refine ⟨s, rfl, ?_, fun h' => (h h').elim, rfl, rfl, rfl, rfl⟩
    rw [hm]
    congr 1
    funext c p
    simp [contrib, if_neg h, pt]

theorem doZ_ok {L : Loc} {σ : Mem} {f : Comp → I3 → ℝ} {i j k : ℤ} {s : Acc} (hk : L.zl ≤ k) (hm : s.mem = addF σ f)
    (hz : L.zl < k → k ≤ L.zh → s.sdzkm1 i j = PZ L i j (k - 1))
    (hb : InBox (σ .jz).lo (σ .jz).hi ⟨L.i0 + i, L.j0 + j, L.k0 + k⟩) :
    ∃ s1, doZ L i j k s = .ok s1 ∧
      s1.mem = addF σ (fun c p => f c p + pt .jz ⟨L.i0 + i, L.j0 + j, L.k0 + k⟩ (contrib L i j k .jz) c p) ∧
      (k < L.zh → s1.sdzk = Function.update s.sdzk i (Function.update (s.sdzk i) j (PZ L i j k))) ∧ s1.sdxi = s.sdxi ∧
      s1.sdyj = s.sdyj ∧ s1.sdyjm1 = s.sdyjm1 ∧ s1.sdzkm1 = s.sdzkm1 := by
  unfold doZ
  by_cases h : k < L.zh
  · simp only [if_pos h]
    have hv : (if k > L.zl then wZ L i j k + s.sdzkm1 i j else wZ L i j k) = PZ L i j k :=
      acc_step hk (fun c => wZ L i j c) (fun h' => hz h' h.le)
    simp only [wZ] at hv
    rw [hv, hm, bumpMem_ok hb]
    refine ⟨_, rfl, ?_, fun _ => rfl, rfl, rfl, rfl, rfl⟩
    simp only [contrib, if_pos h]
  · simp only [if_neg h]
    refine ⟨s, rfl, ?_, fun h' => (h h').elim, rfl, rfl, rfl, rfl⟩
    rw [hm]
    congr 1
    funext c p
    simp [contrib, if_neg h, pt]

theorem F_step (L : Loc) {i j k : ℤ} (hr : InR L i j k) (c : Comp) (p : I3) :
    F L (i + 1) j k c p = F L i j k c p + pt .jx ⟨L.i0 + i, L.j0 + j, L.k0 + k⟩ (contrib L i j k .jx) c p +
      pt .jy ⟨L.i0 + i, L.j0 + j, L.k0 + k⟩ (contrib L i j k .jy) c p +
      pt .jz ⟨L.i0 + i, L.j0 + j, L.k0 + k⟩ (contrib L i j k .jz) c p := by
  by_cases hp : p = ⟨L.i0 + i, L.j0 + j, L.k0 + k⟩
  · subst hp
    simp only [F, pt, add_sub_cancel_left]
    rw [if_pos ⟨hr, by unfold Bef; omega⟩, if_neg (by unfold Bef; omega)]
    cases c <;> simp [contrib]
  · simp only [F, pt, hp, and_false, if_false, add_zero]
    have : Bef (i + 1) j k (p.j - L.i0) (p.k - L.j0) (p.l - L.k0) ↔ Bef i j k (p.j - L.i0) (p.k - L.j0) (p.l - L.k0) := by
      unfold Bef
      constructor
      · intro h
        have : ¬ (p.j - L.i0 = i ∧ p.k - L.j0 = j ∧ p.l - L.k0 = k) := by
          rintro ⟨a, b, c⟩
          apply hp
          obtain ⟨pj, pk, pl⟩ := p
          simp only [I3.mk.injEq]
          simp only at a b c
          omega
        omega
      · intro h; omega
    simp only [this]

/-- The local indices are inside the local arrays. -/
def LocOk (n : ℕ) (L : Loc) : Prop :=
  locLo n ≤ L.xl ∧ L.xh ≤ locHi n ∧ locLo n ≤ L.yl ∧ L.yh ≤ locHi n ∧ locLo n ≤ L.zl ∧ L.zh ≤ locHi n

theorem cell_ok {n : ℕ} {L : Loc} {σ : Mem} (hl : LocOk n L) (hc : Covers L σ) {i j k : ℤ} (hr : InR L i j k) {s : Acc}
    (I : Inv L σ i j k s) : ∃ s', cell n L i j k s = .ok s' ∧ Inv L σ (i + 1) j k s' := by
  obtain ⟨r1, r2, r3, r4, r5, r6⟩ := id hr
  obtain ⟨l1, l2, l3, l4, l5, l6⟩ := hl
  obtain ⟨s1, e1, m1, x1, a1, a2, a3, a4⟩ := doX_ok (s := s) r1 I.mem I.x (hc i j k hr .jx (by simp))
  obtain ⟨s2, e2, m2, y2, b1, b2, b3, b4⟩ := doY_ok (i := i) (k := k) (s := s1) r3 m1
    (fun p q => by rw [a2]; exact I.y1 i r1 r2 p q) (hc i j k hr .jy (by simp))
  obtain ⟨s3, e3, m3, z3, c1, c2, c3, c4⟩ := doZ_ok (i := i) (j := j) (s := s2) r5 m2
    (fun p q => by rw [b4, a4]; exact I.z1 i j r1 r2 r3 r4 p q) (hc i j k hr .jz (by simp))
  refine ⟨{ s3 with sdxim1 := s3.sdxi }, ?_, ?_⟩
  · unfold cell
    rw [if_pos ⟨by omega, by omega, by omega, by omega, by omega, by omega⟩, e1]
    simp only [except_bind_ok]
    rw [e2]
    simp only [except_bind_ok]
    rw [e3]
    rfl
  · refine ⟨?_, ?_, ?_, ?_, ?_, ?_⟩
    · show s3.mem = _
      rw [m3]
      congr 1
      funext c p
      rw [F_step L hr c p]
    · intro h1 h2
      show s3.sdxi = _
      rw [c1, b1, x1 (by omega)]
      simp
    · intro a h1 h2 h3
      show s3.sdyj a = _
      rw [c2, y2 h3, a1]
      by_cases ha : a = i
      · subst ha; simp
      · rw [Function.update_of_ne ha]
        exact I.y a h1 (by omega) h3
    · intro a h1 h2 h3 h4
      show s3.sdyjm1 a = _
      rw [c3, b2, a2]
      exact I.y1 a h1 h2 h3 h4
    · intro a b h1 h2 h3 h4 h5 h6
      show s3.sdzk a b = _
      rw [z3 h6, b3, a3]
      by_cases ha : a = i
      · subst ha
        rw [Function.update_self]
        by_cases hb : b = j
        · subst hb; simp
        · rw [Function.update_of_ne hb]
          exact I.z a b h1 h2 h3 h4 (by omega) h6
      · rw [Function.update_of_ne ha]
        exact I.z a b h1 h2 h3 h4 (by omega) h6
    · intro a b h1 h2 h3 h4 h5 h6
      show s3.sdzkm1 a b = _
      rw [c4, b4, a4]
      exact I.z1 a b h1 h2 h3 h4 h5 h6

theorem row_ok {n : ℕ} {L : Loc} {σ : Mem} (hl : LocOk n L) (hc : Covers L σ) (hx : L.xl ≤ L.xh) {j k : ℤ}
    (hj : L.yl ≤ j ∧ j ≤ L.yh) (hk : L.zl ≤ k ∧ k ≤ L.zh) {s : Acc} (I : Inv L σ L.xl j k s) :
    ∃ s', row n L j k s = .ok s' ∧ Inv L σ L.xl (j + 1) k s' := by
  obtain ⟨s1, e1, I1⟩ := foldlM_irange_inv (body := fun (s : Acc) (i : ℤ) => cell n L i j k s)
    (fun i s => Inv L σ i j k s) _ L.xh rfl (by omega)
    (fun i s h1 h2 I => cell_ok hl hc ⟨h1, h2, hj.1, hj.2, hk.1, hk.2⟩ I) s I
  refine ⟨{ s1 with sdyjm1 := s1.sdyj }, ?_, ?_⟩
  · unfold row
    rw [e1]
    rfl
  · refine ⟨?_, ?_, ?_, ?_, ?_, ?_⟩
    · show s1.mem = _
      rw [I1.mem]
      congr 1
      funext c p
      unfold F
      congr 1
      simp only [eq_iff_iff]
      unfold InR Bef
      omega
    · intro h; omega
    · intro a h1 h2; omega
    · intro a h1 h2 h3 h4
      show s1.sdyj a = _
      rw [I1.y a h1 (by omega) (by omega)]
      simp
    · intro a b h1 h2 h3 h4 h5 h6
      exact I1.z a b h1 h2 h3 h4 (by omega) h6
    · intro a b h1 h2 h3 h4 h5 h6
      exact I1.z1 a b h1 h2 h3 h4 h5 h6

theorem plane_ok {n : ℕ} {L : Loc} {σ : Mem} (hl : LocOk n L) (hc : Covers L σ) (hx : L.xl ≤ L.xh) (hy : L.yl ≤ L.yh) {k : ℤ}
    (hk : L.zl ≤ k ∧ k ≤ L.zh) {s : Acc} (I : Inv L σ L.xl L.yl k s) :
    ∃ s', plane n L k s = .ok s' ∧ Inv L σ L.xl L.yl (k + 1) s' := by
  obtain ⟨s1, e1, I1⟩ := foldlM_irange_inv (body := fun (s : Acc) (j : ℤ) => row n L j k s)
    (fun j s => Inv L σ L.xl j k s) _ L.yh rfl (by omega)
    (fun j s h1 h2 I => row_ok hl hc hx ⟨h1, h2⟩ hk I) s I
  refine ⟨{ s1 with sdzkm1 := s1.sdzk }, ?_, ?_⟩
  · unfold plane
    rw [e1]
    rfl
  · refine ⟨?_, ?_, ?_, ?_, ?_, ?_⟩
    · show s1.mem = _
      rw [I1.mem]
      congr 1
      funext c p
      unfold F
      congr 1
      simp only [eq_iff_iff]
      unfold InR Bef
      omega
    · intro h; omega
    · intro a h1 h2; omega
    · intro a h1 h2 h3; omega
    · intro a b h1 h2 h3 h4 h5; omega
    · intro a b h1 h2 h3 h4 h5 h6
      show s1.sdzk a b = _
      rw [I1.z a b h1 h2 h3 h4 (by omega) (by omega)]
      simp

theorem volume_ok {n : ℕ} {L : Loc} {s : Acc} (hl : LocOk n L) (hc : Covers L s.mem) (hx : L.xl ≤ L.xh) (hy : L.yl ≤ L.yh)
    (hz : L.zl ≤ L.zh) : ∃ s', volume n L s = .ok s' ∧ s'.mem = addF s.mem (FF L) := by
  obtain ⟨s1, e1, I1⟩ := foldlM_irange_inv (body := fun (s : Acc) (k : ℤ) => plane n L k s)
    (fun k s' => Inv L s.mem L.xl L.yl k s') _ L.zh rfl (by omega)
    (fun k s h1 h2 I => plane_ok hl hc hx hy ⟨h1, h2⟩ I) s (by
      refine ⟨?_, fun h => by omega, fun a h1 h2 => by omega, fun a h1 h2 h3 => by omega,
        fun a b h1 h2 h3 h4 h5 => by omega, fun a b h1 h2 h3 h4 h5 => by omega⟩
      have : F L L.xl L.yl L.zl = fun _ _ => 0 := by
        funext c p
        unfold F
        rw [if_neg]
        unfold InR Bef
        omega
      rw [this]
      funext c
      simp [addF])
  refine ⟨s1, e1, ?_⟩
  rw [I1.mem]
  congr 1
  funext c p
  unfold F FF
  congr 1
  simp only [eq_iff_iff]
  unfold InR Bef
  omega

/-! ### Divergence of one particle's current -/

/-- The shape factors vanish outside the loop ranges and old and new ones have the same sum. -/
structure Good (L : Loc) : Prop where
  x : L.xl ≤ L.xh
  y : L.yl ≤ L.yh
  z : L.zl ≤ L.zh
  x0 : ∀ a, a < L.xl ∨ L.xh < a → L.sx0 a = 0 ∧ L.sx a = 0
  y0 : ∀ a, a < L.yl ∨ L.yh < a → L.sy0 a = 0 ∧ L.sy a = 0
  z0 : ∀ a, a < L.zl ∨ L.zh < a → L.sz0 a = 0 ∧ L.sz a = 0
  xs : ∑ a ∈ Finset.Icc L.xl L.xh, L.sx a = ∑ a ∈ Finset.Icc L.xl L.xh, L.sx0 a
  ys : ∑ a ∈ Finset.Icc L.yl L.yh, L.sy a = ∑ a ∈ Finset.Icc L.yl L.yh, L.sy0 a
  zs : ∑ a ∈ Finset.Icc L.zl L.zh, L.sz a = ∑ a ∈ Finset.Icc L.zl L.zh, L.sz0 a

/-- A running sum of a function that sums to zero over the range has that function as difference, everywhere. -/
theorem running_diff {lo hi : ℤ} (h : lo ≤ hi) (f : ℤ → ℝ) (h0 : ∀ a, a < lo ∨ hi < a → f a = 0)
    (hs : ∑ a ∈ Finset.Icc lo hi, f a = 0) (i : ℤ) :
    (if lo ≤ i ∧ i < hi then ∑ a ∈ Finset.Icc lo i, f a else 0) -
      (if lo ≤ i - 1 ∧ i - 1 < hi then ∑ a ∈ Finset.Icc lo (i - 1), f a else 0) = f i := by
  by_cases h1 : i < lo
  · rw [if_neg (by omega), if_neg (by omega), h0 i (Or.inl h1)]; ring
  by_cases h2 : hi < i
  · rw [if_neg (by omega), if_neg (by omega), h0 i (Or.inr h2)]; ring
  by_cases h3 : i = hi
  · subst h3
    rw [if_neg (by omega)]
    rw [sum_Icc_last h] at hs
    by_cases h4 : lo = i
    · rw [if_neg (by omega)]
      subst h4
      simp at hs
      rw [hs]; ring
    · rw [if_pos (by omega)]; linarith
  · rw [if_pos (by omega), sum_Icc_last (by omega)]
    by_cases h4 : lo = i
    · rw [if_neg (by omega)]
      subst h4
      simp
    · rw [if_pos (by omega)]; ring

theorem FF_jx (L : Loc) (G : Good L) (a b c : ℤ) : FF L .jx ⟨a, b, c⟩ =
    if L.xl ≤ a - L.i0 ∧ a - L.i0 < L.xh then
      ∑ i ∈ Finset.Icc L.xl (a - L.i0), wX L i (b - L.j0) (c - L.k0) else 0 := by
  simp only [FF, contrib, PX]
  by_cases hb : L.yl ≤ b - L.j0 ∧ b - L.j0 ≤ L.yh
  · by_cases hc : L.zl ≤ c - L.k0 ∧ c - L.k0 ≤ L.zh
    · by_cases ha : L.xl ≤ a - L.i0 ∧ a - L.i0 < L.xh
      · rw [if_pos ha, if_pos ⟨by omega, by omega, hb.1, hb.2, hc.1, hc.2⟩, if_pos ha.2]
      · rw [if_neg ha]
        split_ifs with h1 h2
        · unfold InR at h1; omega
        · rfl
        · rfl
    · have hz := G.z0 (c - L.k0) (by omega)
      rw [if_neg (by unfold InR; omega)]
      split_ifs
      · symm; apply Finset.sum_eq_zero
        intro i _
        simp [wX, hz.1, hz.2]
      · rfl
  · have hz := G.y0 (b - L.j0) (by omega)
    rw [if_neg (by unfold InR; omega)]
    split_ifs
    · symm; apply Finset.sum_eq_zero
      intro i _
      simp [wX, hz.1, hz.2]
    · rfl

theorem FF_jy (L : Loc) (G : Good L) (a b c : ℤ) : FF L .jy ⟨a, b, c⟩ =
    if L.yl ≤ b - L.j0 ∧ b - L.j0 < L.yh then
      ∑ j ∈ Finset.Icc L.yl (b - L.j0), wY L (a - L.i0) j (c - L.k0) else 0 := by
  simp only [FF, contrib, PY]
  by_cases hb : L.xl ≤ a - L.i0 ∧ a - L.i0 ≤ L.xh
  · by_cases hc : L.zl ≤ c - L.k0 ∧ c - L.k0 ≤ L.zh
    · by_cases ha : L.yl ≤ b - L.j0 ∧ b - L.j0 < L.yh
      · rw [if_pos ha, if_pos ⟨hb.1, hb.2, by omega, by omega, hc.1, hc.2⟩, if_pos ha.2]
      · rw [if_neg ha]
        split_ifs with h1 h2
        · unfold InR at h1; omega
        · rfl
        · rfl
    · have hz := G.z0 (c - L.k0) (by omega)
      rw [if_neg (by unfold InR; omega)]
      split_ifs
      · symm; apply Finset.sum_eq_zero
        intro i _
        simp [wY, hz.1, hz.2]
      · rfl
  · have hz := G.x0 (a - L.i0) (by omega)
    rw [if_neg (by unfold InR; omega)]
    split_ifs
    · symm; apply Finset.sum_eq_zero
      intro i _
      simp [wY, hz.1, hz.2]
    · rfl

theorem FF_jz (L : Loc) (G : Good L) (a b c : ℤ) : FF L .jz ⟨a, b, c⟩ =
    if L.zl ≤ c - L.k0 ∧ c - L.k0 < L.zh then
      ∑ k ∈ Finset.Icc L.zl (c - L.k0), wZ L (a - L.i0) (b - L.j0) k else 0 := by
  simp only [FF, contrib, PZ]
  by_cases hb : L.xl ≤ a - L.i0 ∧ a - L.i0 ≤ L.xh
  · by_cases hc : L.yl ≤ b - L.j0 ∧ b - L.j0 ≤ L.yh
    · by_cases ha : L.zl ≤ c - L.k0 ∧ c - L.k0 < L.zh
      · rw [if_pos ha, if_pos ⟨hb.1, hb.2, hc.1, hc.2, by omega, by omega⟩, if_pos ha.2]
      · rw [if_neg ha]
        split_ifs with h1 h2
        · unfold InR at h1; omega
        · rfl
        · rfl
    · have hz := G.y0 (b - L.j0) (by omega)
      rw [if_neg (by unfold InR; omega)]
      split_ifs
      · symm; apply Finset.sum_eq_zero
        intro i _
        simp [wZ, hz.1, hz.2]
      · rfl
  · have hz := G.x0 (a - L.i0) (by omega)
    rw [if_neg (by unfold InR; omega)]
    split_ifs
    · symm; apply Finset.sum_eq_zero
      intro i _
      simp [wZ, hz.1, hz.2]
    · rfl

theorem FF_dx (L : Loc) (G : Good L) (a b c : ℤ) :
    FF L .jx ⟨a, b, c⟩ - FF L .jx ⟨a - 1, b, c⟩ = wX L (a - L.i0) (b - L.j0) (c - L.k0) := by
  rw [FF_jx L G, FF_jx L G]
  have h := running_diff G.x (fun i => wX L i (b - L.j0) (c - L.k0))
    (fun i hi => by simp [wX, (G.x0 i hi).1, (G.x0 i hi).2])
    (by
      simp only [wX]
      rw [← Finset.sum_mul, ← Finset.mul_sum, Finset.sum_sub_distrib, G.xs]
      ring) (a - L.i0)
  rw [show a - 1 - L.i0 = a - L.i0 - 1 by ring]
  exact h

theorem FF_dy (L : Loc) (G : Good L) (a b c : ℤ) :
    FF L .jy ⟨a, b, c⟩ - FF L .jy ⟨a, b - 1, c⟩ = wY L (a - L.i0) (b - L.j0) (c - L.k0) := by
  rw [FF_jy L G, FF_jy L G]
  have h := running_diff G.y (fun i => wY L (a - L.i0) i (c - L.k0))
    (fun i hi => by simp [wY, (G.y0 i hi).1, (G.y0 i hi).2])
    (by
      simp only [wY]
      rw [← Finset.sum_mul, ← Finset.mul_sum, Finset.sum_sub_distrib, G.ys]
      ring) (b - L.j0)
  rw [show b - 1 - L.j0 = b - L.j0 - 1 by ring]
  exact h

theorem FF_dz (L : Loc) (G : Good L) (a b c : ℤ) :
    FF L .jz ⟨a, b, c⟩ - FF L .jz ⟨a, b, c - 1⟩ = wZ L (a - L.i0) (b - L.j0) (c - L.k0) := by
  rw [FF_jz L G, FF_jz L G]
  have h := running_diff G.z (fun i => wZ L (a - L.i0) (b - L.j0) i)
    (fun i hi => by simp [wZ, (G.z0 i hi).1, (G.z0 i hi).2])
    (by
      simp only [wZ]
      rw [← Finset.sum_mul, ← Finset.mul_sum, Finset.sum_sub_distrib, G.zs]
      ring) (c - L.k0)
  rw [show c - 1 - L.k0 = c - L.k0 - 1 by ring]
  exact h

end Picsar.Deposition

namespace Picsar.Deposition
open Picsar Picsar.Grid Picsar.Spec

theorem node_bounds {n : ℕ} (x : ℝ) : x - 1 ≤ node n x ∧ (node n x : ℝ) ≤ x + 1 / 2 ∧ (n ≠ 2 → (node n x : ℝ) ≤ x) ∧
    (n ≠ 2 → x - 1 < node n x) ∧ (n = 2 → x - 1 / 2 ≤ node n x) := by
  unfold node
  by_cases hn : n = 2
  · have := nint_bounds x
    simp only [if_pos hn]
    refine ⟨by linarith, this.2, fun h => (h hn).elim, fun h => (h hn).elim, fun _ => this.1⟩
  · have h1 := Int.floor_le x
    have h2 := Int.lt_floor_add_one x
    simp only [if_neg hn]
    exact ⟨by linarith, by linarith, fun _ => h1, fun _ => by linarith, fun h => (hn h).elim⟩

/-- What `prep` computes for a particle that moved less than a cell. -/
structure Prepared (n : ℕ) (g : Geo) (p : Part) (L : Loc) : Prop where
  good : Good L
  loc : LocOk n L
  i0 : L.i0 = node n ((p.x - g.xmin) / g.dx)
  j0 : L.j0 = node n ((p.y - g.ymin) / g.dy)
  k0 : L.k0 = node n ((p.z - g.zmin) / g.dz)
  sx0 : ∀ a : ℤ, L.sx0 (a - L.i0) = bspline n ((p.x - g.xmin) / g.dx - a)
  sy0 : ∀ a : ℤ, L.sy0 (a - L.j0) = bspline n ((p.y - g.ymin) / g.dy - a)
  sz0 : ∀ a : ℤ, L.sz0 (a - L.k0) = bspline n ((p.z - g.zmin) / g.dz - a)
  sx : ∀ a : ℤ, L.sx (a - L.i0) = bspline n (((before g p).x - g.xmin) / g.dx - a)
  sy : ∀ a : ℤ, L.sy (a - L.j0) = bspline n (((before g p).y - g.ymin) / g.dy - a)
  sz : ∀ a : ℤ, L.sz (a - L.k0) = bspline n (((before g p).z - g.zmin) / g.dz - a)
  wqx : L.wqx = g.q * p.w * (1 / (g.dt * g.dy * g.dz))
  wqy : L.wqy = g.q * p.w * (1 / (g.dt * g.dx * g.dz))
  wqz : L.wqz = g.q * p.w * (1 / (g.dt * g.dx * g.dy))

theorem dir_ok {n : ℕ} (hn : n = 1 ∨ n = 2 ∨ n = 3) {X Xo : ℝ} (h : |Xo - X| < 1) :
    fill n 0 (wts n (X - node n X)) = .ok (shapeFn (wts n (X - node n X)) 0) ∧
    fill n (node n Xo - node n X) (wts n (Xo - node n Xo)) =
      .ok (shapeFn (wts n (Xo - node n Xo)) (node n Xo - node n X)) ∧
    (∀ a : ℤ, shapeFn (wts n (X - node n X)) 0 (a - node n X) = bspline n (X - a)) ∧
    (∀ a : ℤ, shapeFn (wts n (Xo - node n Xo)) (node n Xo - node n X) (a - node n X) = bspline n (Xo - a)) ∧
    min 0 (node n Xo - node n X) - ((n / 2 : ℕ) : ℤ) ≤ max 0 (node n Xo - node n X) + (((n + 1) / 2 : ℕ) : ℤ) ∧
    locLo n ≤ min 0 (node n Xo - node n X) - ((n / 2 : ℕ) : ℤ) ∧
    max 0 (node n Xo - node n X) + (((n + 1) / 2 : ℕ) : ℤ) ≤ locHi n ∧
    (∀ a : ℤ, a < min 0 (node n Xo - node n X) - ((n / 2 : ℕ) : ℤ) ∨
        max 0 (node n Xo - node n X) + (((n + 1) / 2 : ℕ) : ℤ) < a →
      shapeFn (wts n (X - node n X)) 0 a = 0 ∧ shapeFn (wts n (Xo - node n Xo)) (node n Xo - node n X) a = 0) ∧
    ∑ a ∈ Finset.Icc (min 0 (node n Xo - node n X) - ((n / 2 : ℕ) : ℤ))
        (max 0 (node n Xo - node n X) + (((n + 1) / 2 : ℕ) : ℤ)),
        shapeFn (wts n (Xo - node n Xo)) (node n Xo - node n X) a =
      ∑ a ∈ Finset.Icc (min 0 (node n Xo - node n X) - ((n / 2 : ℕ) : ℤ))
        (max 0 (node n Xo - node n X) + (((n + 1) / 2 : ℕ) : ℤ)), shapeFn (wts n (X - node n X)) 0 a := by
  have hd := node_near (n := n) h
  rw [abs_le] at hd
  have hlo : locLo n ≤ -1 - ((n / 2 : ℕ) : ℤ) := by rcases hn with rfl | rfl | rfl <;> simp [locLo]
  have hhi : 1 + (((n + 1) / 2 : ℕ) : ℤ) ≤ locHi n := by rcases hn with rfl | rfl | rfl <;> simp [locHi]
  obtain ⟨nd0, of0⟩ := wts_fst hn (X - node n X)
  obtain ⟨nd1, of1⟩ := wts_fst hn (Xo - node n Xo)
  have r0 : ∀ w ∈ wts n (X - node n X), min 0 (node n Xo - node n X) - ((n / 2 : ℕ) : ℤ) ≤ w.1 + 0 ∧
      w.1 + 0 ≤ max 0 (node n Xo - node n X) + (((n + 1) / 2 : ℕ) : ℤ) := by
    intro w hw; have := of0 w hw; constructor <;> omega
  have r1 : ∀ w ∈ wts n (Xo - node n Xo), min 0 (node n Xo - node n X) - ((n / 2 : ℕ) : ℤ) ≤
      w.1 + (node n Xo - node n X) ∧
      w.1 + (node n Xo - node n X) ≤ max 0 (node n Xo - node n X) + (((n + 1) / 2 : ℕ) : ℤ) := by
    intro w hw; have := of1 w hw; constructor <;> omega
  refine ⟨fill_ok nd0 (fun w hw => ?_), fill_ok nd1 (fun w hw => ?_), fun a => ?_, fun a => ?_, by omega, by omega, by omega,
    fun a ha => ⟨shapeFn_zero r0 ha, shapeFn_zero r1 ha⟩, ?_⟩
  · have := r0 w hw; constructor <;> omega
  · have := r1 w hw; constructor <;> omega
  · have := shapeFn_bspline hn X (node n X) (a - node n X)
    rw [sub_self] at this
    rw [this]
    congr 2
    push_cast; ring
  · rw [shapeFn_bspline hn Xo (node n X) (a - node n X)]
    congr 2
    push_cast; ring
  · rw [shapeFn_sum r0, shapeFn_sum r1, wts_sum hn, wts_sum hn]

theorem prep_ok {n : ℕ} (hn : n = 1 ∨ n = 2 ∨ n = 3) {g : Geo} (hg : Geo.Ok g) {p : Part} (hs : Slow g p) :
    ∃ L, prep n g p = .ok L ∧ Prepared n g p L := by
  obtain ⟨gx, gy, gz⟩ := hg
  obtain ⟨sx, sy, sz⟩ := hs
  have key : ∀ {u m d v : ℝ}, 0 < d → |g.dt * v| < d →
      ((u - m) * (1 / d) = (u - m) / d) ∧
      ((u - m) * (1 / d) - g.dt * (1 / d) * v = (u - g.dt * v - m) / d) ∧ |(u - g.dt * v - m) / d - (u - m) / d| < 1 := by
    intro u m d v hd hv
    refine ⟨by ring, by field_simp; ring, ?_⟩
    have : (u - g.dt * v - m) / d - (u - m) / d = -(g.dt * v) / d := by field_simp; ring
    rw [this, abs_div, abs_neg, abs_of_pos hd, div_lt_one hd]
    exact hv
  obtain ⟨x1, x2, x3⟩ := key (u := p.x) (m := g.xmin) gx sx
  obtain ⟨y1, y2, y3⟩ := key (u := p.y) (m := g.ymin) gy sy
  obtain ⟨z1, z2, z3⟩ := key (u := p.z) (m := g.zmin) gz sz
  obtain ⟨a1, a2, a3, a4, a5, a6, a7, a8, a9⟩ := dir_ok hn x3
  obtain ⟨b1, b2, b3, b4, b5, b6, b7, b8, b9⟩ := dir_ok hn y3
  obtain ⟨c1, c2, c3, c4, c5, c6, c7, c8, c9⟩ := dir_ok hn z3
  unfold prep
  simp only [x2, y2, z2]
  simp only [x1, y1, z1]
  rw [a1, b1, c1, a2, b2, c2]
  simp only [except_bind_ok, except_pure]
  exact ⟨_, rfl, ⟨a5, b5, c5, a8, b8, c8, a9, b9, c9⟩, ⟨a6, a7, b6, b7, c6, c7⟩, rfl, rfl, rfl, a3, b3, c3, a4, b4, c4, rfl, rfl, rfl⟩

theorem covers_dir {n : ℕ} (hn : n = 1 ∨ n = 2 ∨ n = 3) {X : ℝ} {lo hi i : ℤ} (h1 : lo + reach n ≤ X)
    (h2 : X ≤ hi - reach n) (h3 : locLo n ≤ i) (h4 : i ≤ locHi n) : lo ≤ node n X + i ∧ node n X + i ≤ hi := by
  obtain ⟨b1, b2, b3, b4, b5⟩ := node_bounds (n := n) X
  have c3 : (locLo n : ℝ) ≤ i := by exact_mod_cast h3
  have c4 : (i : ℝ) ≤ locHi n := by exact_mod_cast h4
  have : (lo : ℝ) ≤ (node n X + i : ℤ) ∧ ((node n X + i : ℤ) : ℝ) ≤ hi := by
    push_cast
    rcases hn with rfl | rfl | rfl
    · have := b3 (by norm_num)
      norm_num [reach, locLo, locHi] at *
      constructor <;> linarith
    · have := b5 rfl
      norm_num [reach, locLo, locHi] at *
      constructor <;> linarith
    · have := b3 (by norm_num)
      norm_num [reach, locLo, locHi] at *
      constructor <;> linarith
  exact_mod_cast this

theorem covers_ok {n : ℕ} (hn : n = 1 ∨ n = 2 ∨ n = 3) {g : Geo} {p : Part} {L : Loc} (P : Prepared n g p L) {σ : Mem}
    (hi : ∀ c, c = .jx ∨ c = .jy ∨ c = .jz → Inside (reach n) g (σ c) p) : Covers L σ := by
  intro i j k hr c hc
  obtain ⟨i1, i2, i3, i4, i5, i6⟩ := hi c hc
  obtain ⟨r1, r2, r3, r4, r5, r6⟩ := hr
  obtain ⟨l1, l2, l3, l4, l5, l6⟩ := P.loc
  have hx := covers_dir hn i1 i2 (le_trans l1 r1) (le_trans r2 l2)
  have hy := covers_dir hn i3 i4 (le_trans l3 r3) (le_trans r4 l4)
  have hz := covers_dir hn i5 i6 (le_trans l5 r5) (le_trans r6 l6)
  rw [P.i0, P.j0, P.k0]
  exact ⟨hx.1, hx.2, hy.1, hy.2, hz.1, hz.2⟩

/-- Divergence of what one particle adds. -/
theorem particle_div {n : ℕ} {g : Geo} (hg : Geo.Ok g) (hdt : g.dt ≠ 0) {p : Part} {L : Loc} (P : Prepared n g p L)
    (j k l : ℤ) :
    (FF L .jx ⟨j, k, l⟩ - FF L .jx ⟨j - 1, k, l⟩) / g.dx + (FF L .jy ⟨j, k, l⟩ - FF L .jy ⟨j, k - 1, l⟩) / g.dy +
      (FF L .jz ⟨j, k, l⟩ - FF L .jz ⟨j, k, l - 1⟩) / g.dz =
      (density n g (before g p) j k l - density n g p j k l) / g.dt := by
  obtain ⟨gx, gy, gz⟩ := hg
  rw [FF_dx L P.good, FF_dy L P.good, FF_dz L P.good]
  simp only [wX, wY, wZ, P.sx0, P.sy0, P.sz0, P.sx, P.sy, P.sz, P.wqx, P.wqy, P.wqz, density]
  have hw : (before g p).w = p.w := rfl
  rw [hw]
  field_simp
  ring

/-- Effect of the whole routine. -/
theorem deposeLoop_ok {n : ℕ} (hn : n = 1 ∨ n = 2 ∨ n = 3) {g : Geo} (hg : Geo.Ok g) (hdt : g.dt ≠ 0) :
    ∀ (ps : List Part) (s : Acc), (∀ p ∈ ps, Slow g p) →
    (∀ p ∈ ps, ∀ c, c = .jx ∨ c = .jy ∨ c = .jz → Inside (reach n) g (s.mem c) p) →
    ∃ s' f, deposeLoop n g ps s = .ok s' ∧ s'.mem = addF s.mem f ∧
      (∀ c, c ≠ .jx → c ≠ .jy → c ≠ .jz → ∀ i, f c i = 0) ∧
      ∀ j k l : ℤ, (f .jx ⟨j, k, l⟩ - f .jx ⟨j - 1, k, l⟩) / g.dx + (f .jy ⟨j, k, l⟩ - f .jy ⟨j, k - 1, l⟩) / g.dy +
        (f .jz ⟨j, k, l⟩ - f .jz ⟨j, k, l - 1⟩) / g.dz =
        (densities n g (ps.map (before g)) j k l - densities n g ps j k l) / g.dt
  | [], s, _, _ => by
    refine ⟨s, fun _ _ => 0, rfl, ?_, fun _ _ _ _ _ => rfl, fun j k l => ?_⟩
    · funext c; simp [addF]
    · simp [densities]
  | p :: ps, s, h1, h2 => by
    obtain ⟨L, e1, P⟩ := prep_ok hn hg (h1 p (by simp))
    obtain ⟨s1, e2, m1⟩ := volume_ok (s := s) P.loc (covers_ok hn P (h2 p (by simp))) P.good.x P.good.y P.good.z
    obtain ⟨s2, f, e3, m2, o2, d2⟩ := deposeLoop_ok hn hg hdt ps s1 (fun q hq => h1 q (by simp [hq])) (by
      intro q hq c hc
      rw [m1]
      exact h2 q (by simp [hq]) c hc)
    refine ⟨s2, fun c i => FF L c i + f c i, ?_, ?_, ?_, ?_⟩
    · unfold deposeLoop
      rw [e1]
      simp only [except_bind_ok]
      rw [e2]
      simp only [except_bind_ok]
      exact e3
    · rw [m2, m1]
      funext c
      simp only [addF, Arr.mk.injEq, true_and]
      funext i; ring
    · intro c c1 c2 c3 i
      simp only
      rw [o2 c c1 c2 c3, add_zero]
      unfold FF
      split_ifs
      · cases c <;> simp_all [contrib]
      · rfl
    · intro j k l
      have a := particle_div hg hdt P j k l
      have b := d2 j k l
      simp only [densities, List.map_cons, List.sum_cons] at b ⊢
      have e : ∀ u v w x : ℝ, (u + w - (v + x)) / g.dt = (u - v) / g.dt + (w - x) / g.dt := by intro u v w x; ring
      rw [e, ← a, ← b]
      ring

/-! ### Charge deposition -/

/-- Array with `f` added. -/
def addA (a : Arr) (f : I3 → ℝ) : Arr := { a with val := fun p => a.val p + f p }

theorem bump_ok {a : Arr} {P : I3} {v : ℝ} (h : InBox a.lo a.hi P) :
    bump a P v = .ok (addA a (fun p => if p = P then v else 0)) := by
  unfold bump
  have h1 : a.get P = .ok (a.val P) := if_pos h
  rw [h1]
  simp only [except_bind_ok]
  have h2 : a.set P (a.val P + v) = .ok { a with val := Function.update a.val P (a.val P + v) } := if_pos h
  rw [h2]
  congr 1
  simp only [addA, Arr.mk.injEq, true_and]
  funext p
  by_cases hp : p = P
  · subst hp; simp
  · simp [hp]

theorem bumps_ok : ∀ (ss : List (I3 × ℝ)) (a : Arr), (∀ s ∈ ss, InBox a.lo a.hi s.1) →
    ss.foldlM (fun (a : Arr) (s : I3 × ℝ) => bump a s.1 s.2) a =
      (.ok (addA a fun p => (ss.map fun s => if p = s.1 then s.2 else 0).sum) : Res Arr)
  | [], a, _ => by simp [addA]
  | s :: ss, a, h => by
    rw [List.foldlM_cons, bump_ok (h s (by simp))]
    simp only [except_bind_ok]
    rw [bumps_ok ss (addA a fun p => if p = s.1 then s.2 else 0) (fun t ht => h t (by simp [ht]))]
    congr 1
    simp only [addA, List.map_cons, List.sum_cons, Arr.mk.injEq, true_and]
    funext p
    ring

theorem sum_mul_shape (ws : List (ℤ × ℝ)) (d a : ℤ) (K : ℝ) :
    (ws.map fun w => if a = w.1 + d then w.2 * K else 0).sum = shapeFn ws d a * K := by
  induction ws with
  | nil => simp [shapeFn]
  | cons w ws ih =>
    simp only [shapeFn, List.map_cons, List.sum_cons] at ih ⊢
    rw [ih]
    split_ifs <;> ring

theorem sum_flatMap {α β : Type} (l : List α) (f : α → List β) (g : β → ℝ) :
    ((l.flatMap f).map g).sum = (l.map fun a => ((f a).map g).sum).sum := by
  induction l with
  | nil => simp
  | cons a l ih => simp [ih]

theorem rhoStmts_sum (n : ℕ) (wq x y z : ℝ) (j k l : ℤ) :
    ((rhoStmts n wq x y z).map fun s => if (⟨j, k, l⟩ : I3) = s.1 then s.2 else 0).sum =
      shapeFn (wts n (x - node n x)) (node n x) j * shapeFn (wts n (y - node n y)) (node n y) k *
        shapeFn (wts n (z - node n z)) (node n z) l * wq := by
  unfold rhoStmts
  rw [sum_flatMap]
  have hc : ∀ c : ℤ × ℝ, ((((wts n (y - node n y)).flatMap fun b => (wts n (x - node n x)).map fun a =>
      ((⟨node n x + a.1, node n y + b.1, node n z + c.1⟩ : I3), a.2 * b.2 * c.2 * wq))).map
        fun s => if (⟨j, k, l⟩ : I3) = s.1 then s.2 else 0).sum =
      if l = c.1 + node n z then c.2 * (shapeFn (wts n (x - node n x)) (node n x) j *
        shapeFn (wts n (y - node n y)) (node n y) k * wq) else 0 := by
    intro c
    rw [sum_flatMap]
    have hb : ∀ b : ℤ × ℝ, (((wts n (x - node n x)).map fun a =>
        ((⟨node n x + a.1, node n y + b.1, node n z + c.1⟩ : I3), a.2 * b.2 * c.2 * wq)).map
          fun s => if (⟨j, k, l⟩ : I3) = s.1 then s.2 else 0).sum =
        if k = b.1 + node n y then b.2 * (shapeFn (wts n (x - node n x)) (node n x) j *
          (if l = c.1 + node n z then c.2 * wq else 0)) else 0 := by
      intro b
      rw [List.map_map]
      have ha : ∀ a : ℤ × ℝ, ((fun s : I3 × ℝ => if (⟨j, k, l⟩ : I3) = s.1 then s.2 else 0) ∘ fun a : ℤ × ℝ =>
          ((⟨node n x + a.1, node n y + b.1, node n z + c.1⟩ : I3), a.2 * b.2 * c.2 * wq)) a =
          if j = a.1 + node n x then a.2 * (if k = b.1 + node n y then
            (if l = c.1 + node n z then b.2 * c.2 * wq else 0) else 0) else 0 := by
        intro a
        simp only [Function.comp_apply, I3.mk.injEq]
        rw [show node n x + a.1 = a.1 + node n x by ring, show node n y + b.1 = b.1 + node n y by ring,
          show node n z + c.1 = c.1 + node n z by ring]
        split_ifs <;> first | rfl | (simp_all; done) | (simp_all; ring)
      rw [List.map_congr_left (fun a _ => ha a), sum_mul_shape]
      split_ifs <;> ring
    rw [List.map_congr_left (fun b _ => hb b), sum_mul_shape]
    split_ifs <;> ring
  rw [List.map_congr_left (fun c _ => hc c), sum_mul_shape]
  ring

theorem rho_dir {n : ℕ} (hn : n = 1 ∨ n = 2 ∨ n = 3) {X : ℝ} {lo hi : ℤ} (h1 : lo + reachRho n ≤ X)
    (h2 : X ≤ hi - reachRho n) {w : ℤ × ℝ} (hw : w ∈ wts n (X - node n X)) :
    lo ≤ node n X + w.1 ∧ node n X + w.1 ≤ hi := by
  obtain ⟨b1, b2, b3, b4, b5⟩ := node_bounds (n := n) X
  obtain ⟨c3, c4⟩ := (wts_fst hn (X - node n X)).2 w hw
  have c3' : (-((n / 2 : ℕ) : ℤ) : ℝ) ≤ w.1 := by exact_mod_cast c3
  have c4' : (w.1 : ℝ) ≤ (((n + 1) / 2 : ℕ) : ℤ) := by exact_mod_cast c4
  have : (lo : ℝ) ≤ (node n X + w.1 : ℤ) ∧ ((node n X + w.1 : ℤ) : ℝ) ≤ hi := by
    push_cast
    rcases hn with rfl | rfl | rfl
    · have := b3 (by norm_num)
      norm_num [reachRho] at *
      have c0 : (0 : ℝ) ≤ w.1 := by exact_mod_cast c3
      constructor <;> linarith
    · have := b5 rfl
      norm_num [reachRho] at *
      constructor <;> linarith
    · have := b3 (by norm_num)
      norm_num [reachRho] at *
      constructor <;> linarith
  exact_mod_cast this

theorem deposeRho_ok {n : ℕ} (hn : n = 1 ∨ n = 2 ∨ n = 3) {g : Geo} : ∀ (ps : List Part) (rho : Arr),
    (∀ p ∈ ps, Inside (reachRho n) g rho p) →
    deposeRho n g ps rho = .ok (addA rho fun i => densities n g ps i.j i.k i.l)
  | [], rho, _ => by simp [deposeRho, addA, densities]
  | p :: ps, rho, h => by
    unfold deposeRho
    simp only [show ∀ u m d : ℝ, (u - m) * (1 / d) = (u - m) / d from fun u m d => by ring]
    obtain ⟨i1, i2, i3, i4, i5, i6⟩ := h p (by simp)
    rw [bumps_ok]
    · simp only [except_bind_ok]
      rw [deposeRho_ok hn ps (addA rho _) (fun q hq => h q (by simp [hq]))]
      congr 1
      simp only [addA, Arr.mk.injEq, true_and]
      funext i
      obtain ⟨j, k, l⟩ := i
      rw [rhoStmts_sum]
      have e : ∀ (X : ℝ) (a : ℤ), shapeFn (wts n (X - node n X)) (node n X) a = bspline n (X - a) := by
        intro X a
        have := shapeFn_bspline hn X 0 a
        simpa using this
      rw [e, e, e]
      simp only [densities, List.map_cons, List.sum_cons, density]
      ring
    · intro s hs
      simp only [rhoStmts, List.mem_flatMap, List.mem_map] at hs
      obtain ⟨c, hc, b, hb, a, ha, rfl⟩ := hs
      have hx := rho_dir hn i1 i2 ha
      have hy := rho_dir hn i3 i4 hb
      have hz := rho_dir hn i5 i6 hc
      exact ⟨hx.1, hx.2, hy.1, hy.2, hz.1, hz.2⟩

end Picsar.Deposition
