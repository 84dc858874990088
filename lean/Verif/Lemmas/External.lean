import Verif.Spec.External
import Verif.Lemmas.MaxwellGeo
import Verif.Lemmas.Stencil
import Mathlib.Tactic.Ring
import Mathlib.Tactic.FieldSimp
import Mathlib.Tactic.NormNum
import Mathlib.Tactic.LinearCombination

namespace Picsar.External
open Picsar Picsar.Grid Picsar.Maxwell Picsar.Spec Finset

/-- Number of terms kept by the test in the differences of the magnetic field. -/
def reachE (n g i : ℤ) : ℕ := (min (n + g - i) (i + g + 1)).toNat

/-- Number of terms kept by the test in the differences of the electric field. -/
def reachB (n g i : ℤ) : ℕ := (min (n + g - i + 1) (i + g)).toNat

theorem sum_kept {cnt T : ℕ} {P : ℕ → Bool} {g : ℕ → ℝ} (h : ∀ m, P m = true ↔ m < T) :
    ∑ m ∈ range cnt, (if P m then g m else 0) = ∑ m ∈ range (min cnt T), g m := by
  rw [← Finset.sum_filter]
  refine Finset.sum_congr ?_ fun _ _ => rfl
  ext m
  simp only [mem_filter, mem_range, h]
  omega

theorem keptE_iff (n g i : ℤ) (m : ℕ) : (!(decide (i + ((m + 1 : ℕ) : ℤ) > n + g) || decide (i - ((m + 1 : ℕ) : ℤ) + 1 < -g))) = true ↔
    m < reachE n g i := by
  unfold reachE
  simp only [Bool.not_eq_true', Bool.or_eq_false_iff, decide_eq_false_iff_not]
  omega

theorem keptB_iff (n g i : ℤ) (m : ℕ) : (!(decide (i + ((m + 1 : ℕ) : ℤ) - 1 > n + g) || decide (i - ((m + 1 : ℕ) : ℤ) < -g))) = true ↔
    m < reachB n g i := by
  unfold reachB
  simp only [Bool.not_eq_true', Bool.or_eq_false_iff, decide_eq_false_iff_not]
  omega

theorem dxB_den (p : NOrder) (cnt : I3 → ℕ) (c : Comp) (σ : Mem) (j k l : ℤ) : (dxB p cnt c).den σ ⟨j, k, l⟩ =
    fwdN (min (cnt ⟨j, k, l⟩) (reachE p.nx p.gx j)) p.cx p.ist (fun a => at' σ c a k l) j := by
  unfold dxB keptE
  rw [sum_den, fwdN, sum_Icc_one]
  simp only [cond_den, cst_den]
  rw [sum_kept (fun m => keptE_iff p.nx p.gx j m)]
  refine Finset.sum_congr rfl fun m _ => ?_
  simp only [mul_den, sub_den, cst_den, rd_den, I3.sh, add_zero, at']
  rw [← add_assoc, ← sub_eq_add_neg]

theorem dyB_den (p : NOrder) (cnt : I3 → ℕ) (c : Comp) (σ : Mem) (j k l : ℤ) : (dyB p cnt c).den σ ⟨j, k, l⟩ =
    fwdN (min (cnt ⟨j, k, l⟩) (reachE p.ny p.gy k)) p.cy p.ist (fun a => at' σ c j a l) k := by
  unfold dyB keptE
  rw [sum_den, fwdN, sum_Icc_one]
  simp only [cond_den, cst_den]
  rw [sum_kept (fun m => keptE_iff p.ny p.gy k m)]
  refine Finset.sum_congr rfl fun m _ => ?_
  simp only [mul_den, sub_den, cst_den, rd_den, I3.sh, add_zero, at']
  rw [← add_assoc, ← sub_eq_add_neg]

theorem dzB_den (p : NOrder) (cnt : I3 → ℕ) (c : Comp) (σ : Mem) (j k l : ℤ) : (dzB p cnt c).den σ ⟨j, k, l⟩ =
    fwdN (min (cnt ⟨j, k, l⟩) (reachE p.nz p.gz l)) p.cz p.ist (fun a => at' σ c j k a) l := by
  unfold dzB keptE
  rw [sum_den, fwdN, sum_Icc_one]
  simp only [cond_den, cst_den]
  rw [sum_kept (fun m => keptE_iff p.nz p.gz l m)]
  refine Finset.sum_congr rfl fun m _ => ?_
  simp only [mul_den, sub_den, cst_den, rd_den, I3.sh, add_zero, at']
  rw [← add_assoc, ← sub_eq_add_neg]

theorem dxE_den (p : NOrder) (c : Comp) (σ : Mem) (j k l : ℤ) : (dxE p c).den σ ⟨j, k, l⟩ =
    bwdN (min (nterms p.ox p.nx p.gx j) (reachB p.nx p.gx j)) p.cx p.ist (fun a => at' σ c a k l) j := by
  unfold dxE keptB
  rw [sum_den, bwdN, sum_Icc_one]
  simp only [cond_den, cst_den]
  rw [sum_kept (fun m => keptB_iff p.nx p.gx j m)]
  refine Finset.sum_congr rfl fun m _ => ?_
  simp only [mul_den, sub_den, cst_den, rd_den, I3.sh, add_zero, at']
  rw [← add_sub_assoc, ← sub_eq_add_neg]

theorem dyE_den (p : NOrder) (c : Comp) (σ : Mem) (j k l : ℤ) : (dyE p c).den σ ⟨j, k, l⟩ =
    bwdN (min (nterms p.oy p.ny p.gy k) (reachB p.ny p.gy k)) p.cy p.ist (fun a => at' σ c j a l) k := by
  unfold dyE keptB
  rw [sum_den, bwdN, sum_Icc_one]
  simp only [cond_den, cst_den]
  rw [sum_kept (fun m => keptB_iff p.ny p.gy k m)]
  refine Finset.sum_congr rfl fun m _ => ?_
  simp only [mul_den, sub_den, cst_den, rd_den, I3.sh, add_zero, at']
  rw [← add_sub_assoc, ← sub_eq_add_neg]

theorem dzE_den (p : NOrder) (c : Comp) (σ : Mem) (j k l : ℤ) : (dzE p c).den σ ⟨j, k, l⟩ =
    bwdN (min (nterms p.oz p.nz p.gz l) (reachB p.nz p.gz l)) p.cz p.ist (fun a => at' σ c j k a) l := by
  unfold dzE keptB
  rw [sum_den, bwdN, sum_Icc_one]
  simp only [cond_den, cst_den]
  rw [sum_kept (fun m => keptB_iff p.nz p.gz l m)]
  refine Finset.sum_congr rfl fun m _ => ?_
  simp only [mul_den, sub_den, cst_den, rd_den, I3.sh, add_zero, at']
  rw [← add_sub_assoc, ← sub_eq_add_neg]

/-! ### Safety -/

/-- A point of the arrays. -/
def InArr (p : NOrder) (i : I3) : Prop := InBox ⟨-p.gx, -p.gy, -p.gz⟩ ⟨p.nx + p.gx, p.ny + p.gy, p.nz + p.gz⟩ i

theorem diffB_safe {p : NOrder} {σ : Mem} (ha : NOrder.Arrays p σ) (hist : p.ist = 1) {i : I3} (hi : InArr p i) (cnt : I3 → ℕ) (c : Comp) :
    (dxB p cnt c).Safe σ i ∧ (dyB p cnt c).Safe σ i ∧ (dzB p cnt c).Safe σ i := by
  obtain ⟨l, h⟩ := ha c
  obtain ⟨b1, b2, b3, b4, b5, b6⟩ := hi
  simp only at b1 b2 b3 b4 b5 b6
  refine ⟨?_, ?_, ?_⟩
  · unfold dxB
    rw [sum_safe]
    intro m _
    unfold keptE
    rw [cond_safe]
    split
    · next hk =>
      rw [keptE_iff] at hk
      unfold reachE at hk
      simp only [sub_safe, mul_safe, cst_safe, rd_safe, true_and, l, h, InBox, I3.sh]
      omega
    · trivial
  · unfold dyB
    rw [sum_safe]
    intro m _
    unfold keptE
    rw [cond_safe]
    split
    · next hk =>
      rw [keptE_iff] at hk
      unfold reachE at hk
      simp only [sub_safe, mul_safe, cst_safe, rd_safe, true_and, l, h, InBox, I3.sh]
      omega
    · trivial
  · unfold dzB
    rw [sum_safe]
    intro m _
    unfold keptE
    rw [cond_safe]
    split
    · next hk =>
      rw [keptE_iff] at hk
      unfold reachE at hk
      simp only [sub_safe, mul_safe, cst_safe, rd_safe, true_and, l, h, InBox, I3.sh]
      omega
    · trivial

theorem diffE_safe {p : NOrder} {σ : Mem} (ha : NOrder.Arrays p σ) (hist : p.ist = 1) {i : I3} (hi : InArr p i) (c : Comp) :
    (dxE p c).Safe σ i ∧ (dyE p c).Safe σ i ∧ (dzE p c).Safe σ i := by
  obtain ⟨l, h⟩ := ha c
  obtain ⟨b1, b2, b3, b4, b5, b6⟩ := hi
  simp only at b1 b2 b3 b4 b5 b6
  refine ⟨?_, ?_, ?_⟩
  · unfold dxE
    rw [sum_safe]
    intro m _
    unfold keptB
    rw [cond_safe]
    split
    · next hk =>
      rw [keptB_iff] at hk
      unfold reachB at hk
      simp only [sub_safe, mul_safe, cst_safe, rd_safe, true_and, l, h, InBox, I3.sh]
      omega
    · trivial
  · unfold dyE
    rw [sum_safe]
    intro m _
    unfold keptB
    rw [cond_safe]
    split
    · next hk =>
      rw [keptB_iff] at hk
      unfold reachB at hk
      simp only [sub_safe, mul_safe, cst_safe, rd_safe, true_and, l, h, InBox, I3.sh]
      omega
    · trivial
  · unfold dzE
    rw [sum_safe]
    intro m _
    unfold keptB
    rw [cond_safe]
    split
    · next hk =>
      rw [keptB_iff] at hk
      unfold reachB at hk
      simp only [sub_safe, mul_safe, cst_safe, rd_safe, true_and, l, h, InBox, I3.sh]
      omega
    · trivial

theorem rd_in {p : NOrder} {σ : Mem} (ha : NOrder.Arrays p σ) {i : I3} (hi : InArr p i) (c : Comp) :
    (Ex.rd c 0 0 0).Safe σ i ∧ InBox (σ c).lo (σ c).hi i := by
  obtain ⟨l, h⟩ := ha c
  simp only [rd_safe, I3.sh, add_zero, l, h]
  exact ⟨hi, hi⟩

theorem eRanges_in (p : NOrder) (i : I3) (h : InBox (eRanges p).xlo (eRanges p).xhi i ∨ InBox (eRanges p).ylo (eRanges p).yhi i ∨
    InBox (eRanges p).zlo (eRanges p).zhi i) : InArr p i := by
  simp only [eRanges, InBox, InArr] at h ⊢
  omega

theorem bRanges_in (p : NOrder) (i : I3) (h : InBox (bRanges p).xlo (bRanges p).xhi i ∨ InBox (bRanges p).ylo (bRanges p).yhi i ∨
    InBox (bRanges p).zlo (bRanges p).zhi i) : InArr p i := by
  simp only [bRanges, InBox, InArr] at h ⊢
  omega

theorem diffB_local (p : NOrder) (cnt : I3 → ℕ) {c t : Comp} (h : c ≠ t) :
    (dxB p cnt c).LocalTo t ∧ (dyB p cnt c).LocalTo t ∧ (dzB p cnt c).LocalTo t := by
  refine ⟨?_, ?_, ?_⟩ <;> simp [dxB, dyB, dzB, keptE, h]

theorem diffE_local (p : NOrder) {c t : Comp} (h : c ≠ t) :
    (dxE p c).LocalTo t ∧ (dyE p c).LocalTo t ∧ (dzE p c).LocalTo t := by
  refine ⟨?_, ?_, ?_⟩ <;> simp [dxE, dyE, dzE, keptB, h]

theorem diffB_only (p : NOrder) (cnt : I3 → ℕ) {c : Comp} {S : Comp → Prop} (h : S c) :
    (dxB p cnt c).Only S ∧ (dyB p cnt c).Only S ∧ (dzB p cnt c).Only S := by
  refine ⟨?_, ?_, ?_⟩ <;> simp [dxB, dyB, dzB, keptE, h]

theorem diffE_only (p : NOrder) {c : Comp} {S : Comp → Prop} (h : S c) :
    (dxE p c).Only S ∧ (dyE p c).Only S ∧ (dzE p c).Only S := by
  refine ⟨?_, ?_, ?_⟩ <;> simp [dxE, dyE, dzE, keptB, h]

theorem evecX_ok {p : NOrder} (hist : p.ist = 1) (dt : ℝ) {o : Orders} (ho : o.Of (eRanges p)) {σ : Mem} (ha : NOrder.Arrays p σ) :
    ∃ τ, evecX dt p o σ = .ok τ ∧ ThreeRes .ex .ey .ez
      (.rd .ex 0 0 0 - cst dt * .rd .jx 0 0 0 + dyB p (fun _ => p.oy / 2) .bz - dzB p (fun _ => p.oz / 2) .by')
      (.rd .ey 0 0 0 - cst dt * .rd .jy 0 0 0 - dxB p (fun i => nterms p.ox p.nx p.gx i.j) .bz
        + dzB p (fun i => nterms p.oz p.nz p.gz i.l) .bx)
      (.rd .ez 0 0 0 - cst dt * .rd .jz 0 0 0 + dxB p (fun i => nterms p.ox p.nx p.gx i.j) .by'
        - dyB p (fun i => nterms p.oy p.ny p.gy i.k) .bx) (eRanges p) σ τ := by
  refine three_ok ho (by decide) (by decide) (by decide) ?_ ?_ ?_ ?_ ?_ ?_ ?_ ?_
  · exact ⟨⟨⟨by simp, by simp⟩, (diffB_local p _ (by decide)).2.1⟩, (diffB_local p _ (by decide)).2.2⟩
  · exact ⟨⟨⟨by simp, by simp⟩, (diffB_local p _ (by decide)).1⟩, (diffB_local p _ (by decide)).2.2⟩
  · exact ⟨⟨⟨by simp, by simp⟩, (diffB_local p _ (by decide)).1⟩, (diffB_local p _ (by decide)).2.1⟩
  · exact ⟨⟨⟨by simp, by simp⟩, (diffB_only p _ (by decide)).1⟩, (diffB_only p _ (by decide)).2.2⟩
  · exact ⟨⟨⟨by simp, by simp⟩, (diffB_only p _ (by decide)).1⟩, (diffB_only p _ (by decide)).2.1⟩
  · intro i hi
    have hi' := eRanges_in p i (Or.inl hi)
    exact ⟨⟨⟨⟨(rd_in ha hi' _).1, trivial, (rd_in ha hi' _).1⟩, (diffB_safe ha hist hi' _ _).2.1⟩, (diffB_safe ha hist hi' _ _).2.2⟩,
      (rd_in ha hi' _).2⟩
  · intro i hi
    have hi' := eRanges_in p i (Or.inr (Or.inl hi))
    exact ⟨⟨⟨⟨(rd_in ha hi' _).1, trivial, (rd_in ha hi' _).1⟩, (diffB_safe ha hist hi' _ _).1⟩, (diffB_safe ha hist hi' _ _).2.2⟩,
      (rd_in ha hi' _).2⟩
  · intro i hi
    have hi' := eRanges_in p i (Or.inr (Or.inr hi))
    exact ⟨⟨⟨⟨(rd_in ha hi' _).1, trivial, (rd_in ha hi' _).1⟩, (diffB_safe ha hist hi' _ _).1⟩, (diffB_safe ha hist hi' _ _).2.1⟩,
      (rd_in ha hi' _).2⟩

theorem bvecX_ok {p : NOrder} (hist : p.ist = 1) {o : Orders} (ho : o.Of (bRanges p)) {σ : Mem} (ha : NOrder.Arrays p σ) :
    ∃ τ, bvecX p o σ = .ok τ ∧ ThreeRes .bx .by' .bz (.rd .bx 0 0 0 - dyE p .ez + dzE p .ey) (.rd .by' 0 0 0 + dxE p .ez - dzE p .ex)
      (.rd .bz 0 0 0 - dxE p .ey + dyE p .ex) (bRanges p) σ τ := by
  refine three_ok ho (by decide) (by decide) (by decide) ?_ ?_ ?_ ?_ ?_ ?_ ?_ ?_
  · exact ⟨⟨by simp, (diffE_local p (by decide)).2.1⟩, (diffE_local p (by decide)).2.2⟩
  · exact ⟨⟨by simp, (diffE_local p (by decide)).1⟩, (diffE_local p (by decide)).2.2⟩
  · exact ⟨⟨by simp, (diffE_local p (by decide)).1⟩, (diffE_local p (by decide)).2.1⟩
  · exact ⟨⟨by simp, (diffE_only p (by decide)).1⟩, (diffE_only p (by decide)).2.2⟩
  · exact ⟨⟨by simp, (diffE_only p (by decide)).1⟩, (diffE_only p (by decide)).2.1⟩
  · intro i hi
    have hi' := bRanges_in p i (Or.inl hi)
    exact ⟨⟨⟨(rd_in ha hi' _).1, (diffE_safe ha hist hi' _).2.1⟩, (diffE_safe ha hist hi' _).2.2⟩, (rd_in ha hi' _).2⟩
  · intro i hi
    have hi' := bRanges_in p i (Or.inr (Or.inl hi))
    exact ⟨⟨⟨(rd_in ha hi' _).1, (diffE_safe ha hist hi' _).1⟩, (diffE_safe ha hist hi' _).2.2⟩, (rd_in ha hi' _).2⟩
  · intro i hi
    have hi' := bRanges_in p i (Or.inr (Or.inr hi))
    exact ⟨⟨⟨(rd_in ha hi' _).1, (diffE_safe ha hist hi' _).1⟩, (diffE_safe ha hist hi' _).2.1⟩, (rd_in ha hi' _).2⟩

/-! ### Differences of the specification -/

theorem fwdN_ahead (h : ℕ) (dt d : ℝ) (u : ℤ → ℝ) (i : ℤ) :
    fwdN h (fun l => dt / d * Stencil.weight (2 * h) true l) 1 u i = dt * ahead h d u i := by
  unfold fwdN ahead
  rw [Finset.mul_sum]
  refine Finset.sum_congr rfl fun l hl => ?_
  rw [mem_Icc] at hl
  beta_reduce
  rw [Stencil.weight_staggered h l hl.1 hl.2, ← pairWeight]
  ring

theorem bwdN_behind (h : ℕ) (dt d : ℝ) (u : ℤ → ℝ) (i : ℤ) :
    bwdN h (fun l => dt / d * Stencil.weight (2 * h) true l) 1 u i = dt * behind h d u i := by
  unfold bwdN behind
  rw [Finset.mul_sum]
  refine Finset.sum_congr rfl fun l hl => ?_
  rw [mem_Icc] at hl
  beta_reduce
  rw [Stencil.weight_staggered h l hl.1 hl.2, ← pairWeight]
  ring

theorem full_counts (h : ℕ) (n g i : ℤ) (h1 : -g + h ≤ i) (h2 : i ≤ n + g - h) (hh : 1 ≤ h) :
    nterms (2 * h) n g i = h ∧ min (2 * h / 2) (reachE n g i) = h ∧ min h (reachE n g i) = h ∧ min h (reachB n g i) = h := by
  unfold nterms reachE reachB
  push_cast
  omega

theorem view_arrays (q : Request) (a : Caller) : NOrder.Arrays (params q) (view q a) := fun _ => ⟨rfl, rfl⟩

theorem solve_ok (q : Request) {oE oB : Orders} (ho : Schedules q oE oB) (a : Caller) :
    ∃ σ τ, solve q oE oB a = .ok (release τ a) ∧ ThreeRes .ex .ey .ez
      (.rd .ex 0 0 0 - cst q.dt * .rd .jx 0 0 0 + dyB (params q) (fun _ => (params q).oy / 2) .bz
        - dzB (params q) (fun _ => (params q).oz / 2) .by')
      (.rd .ey 0 0 0 - cst q.dt * .rd .jy 0 0 0 - dxB (params q) (fun i => nterms (params q).ox (params q).nx (params q).gx i.j) .bz
        + dzB (params q) (fun i => nterms (params q).oz (params q).nz (params q).gz i.l) .bx)
      (.rd .ez 0 0 0 - cst q.dt * .rd .jz 0 0 0 + dxB (params q) (fun i => nterms (params q).ox (params q).nx (params q).gx i.j) .by'
        - dyB (params q) (fun i => nterms (params q).oy (params q).ny (params q).gy i.k) .bx) (eRanges (params q)) (view q a) σ ∧
      ThreeRes .bx .by' .bz (.rd .bx 0 0 0 - dyE (params q) .ez + dzE (params q) .ey)
        (.rd .by' 0 0 0 + dxE (params q) .ez - dzE (params q) .ex) (.rd .bz 0 0 0 - dxE (params q) .ey + dyE (params q) .ex)
        (bRanges (params q)) σ τ := by
  obtain ⟨σ, e1, r1⟩ := evecX_ok (p := params q) rfl q.dt ho.1 (view_arrays q a)
  have ha : NOrder.Arrays (params q) σ := fun c => ⟨(r1.bounds c).1, (r1.bounds c).2⟩
  obtain ⟨τ, e2, r2⟩ := bvecX_ok (p := params q) rfl ho.2 ha
  refine ⟨σ, τ, ?_, r1, r2⟩
  unfold solve
  rw [e1]
  simp only [except_bind_ok]
  rw [e2]
  rfl

theorem solve_spec (q : Request) (h : Halves) (hh : h.For q) {oE oB : Orders} (ho : Schedules q oE oB) (a : Caller) :
    ∃ b, solve q oE oB a = .ok b ∧ (∀ n, n = 0 ∨ 7 ≤ n → b n = a n) ∧
      ∀ i1 i2 i3, FullPoint h q i1 i2 i3 → AmpereAt (-1) h q a b i1 i2 i3 ∧ FaradayAt (-1) h q a b i1 i2 i3 := by
  obtain ⟨σ, τ, e, r1, r2⟩ := solve_ok q ho a
  have other : ∀ c, c ≠ .ex → c ≠ .ey → c ≠ .ez → c ≠ .bx → c ≠ .by' → c ≠ .bz → τ c = view q a c := fun c a1 a2 a3 a4 a5 a6 =>
    (r2.other c a4 a5 a6).trans (r1.other c a1 a2 a3)
  have tx : τ .ex = σ .ex := r2.other _ (by decide) (by decide) (by decide)
  have ty : τ .ey = σ .ey := r2.other _ (by decide) (by decide) (by decide)
  have tz : τ .ez = σ .ez := r2.other _ (by decide) (by decide) (by decide)
  have sx : σ .bx = view q a .bx := r1.other _ (by decide) (by decide) (by decide)
  have sy : σ .by' = view q a .by' := r1.other _ (by decide) (by decide) (by decide)
  have sz : σ .bz = view q a .bz := r1.other _ (by decide) (by decide) (by decide)
  obtain ⟨o1, o2, o3, p1, p2, p3⟩ := hh
  have cx : (params q).cx = fun l => q.dt / q.d3 * Stencil.weight (2 * h.h3) true l := by simp only [params, o3]
  have cy : (params q).cy = fun l => q.dt / q.d2 * Stencil.weight (2 * h.h2) true l := by simp only [params, o2]
  have cz : (params q).cz = fun l => q.dt / q.d1 * Stencil.weight (2 * h.h1) true l := by simp only [params, o1]
  have ox : (params q).ox = 2 * h.h3 := o3
  have oy : (params q).oy = 2 * h.h2 := o2
  have oz : (params q).oz = 2 * h.h1 := o1
  refine ⟨release τ a, e, ?_, ?_⟩
  · intro n hn
    funext i1 i2 i3
    match n, hn with
    | 0, _ => rfl
    | 7, _ => exact congrArg (fun x : Arr => x.val ⟨i3, i2, i1⟩) (other .jz (by decide) (by decide) (by decide) (by decide) (by decide) (by decide))
    | 8, _ => exact congrArg (fun x : Arr => x.val ⟨i3, i2, i1⟩) (other .jy (by decide) (by decide) (by decide) (by decide) (by decide) (by decide))
    | 9, _ => exact congrArg (fun x : Arr => x.val ⟨i3, i2, i1⟩) (other .jx (by decide) (by decide) (by decide) (by decide) (by decide) (by decide))
    | n + 10, _ => rfl
    | 1, h => exact absurd h (by omega)
    | 2, h => exact absurd h (by omega)
    | 3, h => exact absurd h (by omega)
    | 4, h => exact absurd h (by omega)
    | 5, h => exact absurd h (by omega)
    | 6, h => exact absurd h (by omega)
  · rintro i1 i2 i3 ⟨⟨l1, u1⟩, ⟨l2, u2⟩, ⟨l3, u3⟩⟩
    obtain ⟨x1, x2, x3, x4⟩ := full_counts h.h3 q.n3 q.g3 i3 l3 u3 p3
    obtain ⟨y1, y2, y3, y4⟩ := full_counts h.h2 q.n2 q.g2 i2 l2 u2 p2
    obtain ⟨z1, z2, z3, z4⟩ := full_counts h.h1 q.n1 q.g1 i1 l1 u1 p1
    have nx : (params q).nx = q.n3 := rfl
    have ny : (params q).ny = q.n2 := rfl
    have nz : (params q).nz = q.n1 := rfl
    have gx : (params q).gx = q.g3 := rfl
    have gy : (params q).gy = q.g2 := rfl
    have gz : (params q).gz = q.g1 := rfl
    have ist : (params q).ist = 1 := rfl
    refine ⟨⟨?_, ?_, ?_⟩, ?_, ?_, ?_⟩
    · change (τ .ez).val ⟨i3, i2, i1⟩ = _
      rw [tz, r1.z, if_pos (by simp only [eRanges, InBox, params]; omega)]
      simp only [add_den, sub_den, mul_den, cst_den, rd_den, I3.sh, add_zero, dxB_den, dyB_den, ox, oy, nx, ny, gx, gy, x1, y1, x3, y3, cx, cy, ist,
        fwdN_ahead, curl1, part2, part3, aheads, at', view, source]
      ring
    · change (τ .ey).val ⟨i3, i2, i1⟩ = _
      rw [ty, r1.y, if_pos (by simp only [eRanges, InBox, params]; omega)]
      simp only [add_den, sub_den, mul_den, cst_den, rd_den, I3.sh, add_zero, dxB_den, dzB_den, ox, oz, nx, nz, gx, gz, x1, z1, x3, z3, cx, cz, ist,
        fwdN_ahead, curl2, part1, part3, aheads, at', view, source]
      ring
    · change (τ .ex).val ⟨i3, i2, i1⟩ = _
      rw [tx, r1.x, if_pos (by simp only [eRanges, InBox, params]; omega)]
      simp only [add_den, sub_den, mul_den, cst_den, rd_den, I3.sh, add_zero, dyB_den, dzB_den, oy, oz, ny, nz, gy, gz, y2, z2, cy, cz, ist,
        fwdN_ahead, curl3, part1, part2, aheads, at', view, source]
      ring
    · change (τ .bz).val ⟨i3, i2, i1⟩ = _
      rw [r2.z, if_pos (by simp only [bRanges, InBox, params]; omega)]
      simp only [add_den, sub_den, rd_den, I3.sh, add_zero, dxE_den, dyE_den, ox, oy, nx, ny, gx, gy, x1, y1, x4, y4, cx, cy, ist, bwdN_behind,
        curl1, part2, part3, behinds, at', release, sz, view, source, tx, ty]
      ring
    · change (τ .by').val ⟨i3, i2, i1⟩ = _
      rw [r2.y, if_pos (by simp only [bRanges, InBox, params]; omega)]
      simp only [add_den, sub_den, rd_den, I3.sh, add_zero, dxE_den, dzE_den, ox, oz, nx, nz, gx, gz, x1, z1, x4, z4, cx, cz, ist, bwdN_behind,
        curl2, part1, part3, behinds, at', release, sy, view, source, tx, tz]
      ring
    · change (τ .bx).val ⟨i3, i2, i1⟩ = _
      rw [r2.x, if_pos (by simp only [bRanges, InBox, params]; omega)]
      simp only [add_den, sub_den, rd_den, I3.sh, add_zero, dyE_den, dzE_den, oy, oz, ny, nz, gy, gz, y1, z1, y4, z4, cy, cz, ist, bwdN_behind,
        curl3, part1, part2, behinds, at', release, sx, view, source, ty, tz]
      ring

/-! ### Divergences -/

theorem ahead_fwd (h : ℕ) (d : ℝ) (u : ℤ → ℝ) (i : ℤ) : ahead h d u i = fwdN h (fun l => pairWeight h l / d) 1 u i := by
  unfold ahead fwdN
  exact Finset.sum_congr rfl fun l _ => by ring

theorem behind_bwd (h : ℕ) (d : ℝ) (u : ℤ → ℝ) (i : ℤ) : behind h d u i = bwdN h (fun l => pairWeight h l / d) 1 u i := by
  unfold behind bwdN
  exact Finset.sum_congr rfl fun l _ => by ring

/-- What is needed of a difference: linear, local, and commuting with those along the other axes. -/
structure Nice (h : Halves) (D : Diff) : Prop where
  lin1 : ∀ (a b c : ℝ) (u v w : ℤ → ℝ) i, D.D1 (fun x => a * u x + b * v x + c * w x) i = a * D.D1 u i + b * D.D1 v i + c * D.D1 w i
  lin2 : ∀ (a b c : ℝ) (u v w : ℤ → ℝ) i, D.D2 (fun x => a * u x + b * v x + c * w x) i = a * D.D2 u i + b * D.D2 v i + c * D.D2 w i
  lin3 : ∀ (a b c : ℝ) (u v w : ℤ → ℝ) i, D.D3 (fun x => a * u x + b * v x + c * w x) i = a * D.D3 u i + b * D.D3 v i + c * D.D3 w i
  loc1 : ∀ (u v : ℤ → ℝ) (i : ℤ), (∀ a : ℤ, |a| ≤ h.h1 → u (i + a) = v (i + a)) → D.D1 u i = D.D1 v i
  loc2 : ∀ (u v : ℤ → ℝ) (i : ℤ), (∀ a : ℤ, |a| ≤ h.h2 → u (i + a) = v (i + a)) → D.D2 u i = D.D2 v i
  loc3 : ∀ (u v : ℤ → ℝ) (i : ℤ), (∀ a : ℤ, |a| ≤ h.h3 → u (i + a) = v (i + a)) → D.D3 u i = D.D3 v i
  com12 : ∀ (g : ℤ → ℤ → ℝ) i j, D.D1 (fun x => D.D2 (g x) j) i = D.D2 (fun y => D.D1 (fun x => g x y) i) j
  com13 : ∀ (g : ℤ → ℤ → ℝ) i j, D.D1 (fun x => D.D3 (g x) j) i = D.D3 (fun y => D.D1 (fun x => g x y) i) j
  com23 : ∀ (g : ℤ → ℤ → ℝ) i j, D.D2 (fun x => D.D3 (g x) j) i = D.D3 (fun y => D.D2 (fun x => g x y) i) j

theorem nice_aheads (h : Halves) (q : Request) : Nice h (aheads h q) := by
  constructor <;> simp only [aheads, ahead_fwd]
  · exact fun a b c u v w i => fwdN_lin _ _ _ a b c u v w i
  · exact fun a b c u v w i => fwdN_lin _ _ _ a b c u v w i
  · exact fun a b c u v w i => fwdN_lin _ _ _ a b c u v w i
  · exact fun u v i H => fwdN_congr le_rfl (Or.inr rfl) H
  · exact fun u v i H => fwdN_congr le_rfl (Or.inr rfl) H
  · exact fun u v i H => fwdN_congr le_rfl (Or.inr rfl) H
  · exact fun g i j => fwdN_comm _ _ _ _ _ _ g i j
  · exact fun g i j => fwdN_comm _ _ _ _ _ _ g i j
  · exact fun g i j => fwdN_comm _ _ _ _ _ _ g i j

theorem bwdN_lin3 (n : ℕ) (c : ℕ → ℝ) (s : ℤ) (a b d : ℝ) (u v w : ℤ → ℝ) (i : ℤ) :
    bwdN n c s (fun t => a * u t + b * v t + d * w t) i = a * bwdN n c s u i + b * bwdN n c s v i + d * bwdN n c s w i := by
  have := bwdN_lin n c s a b d 0 u v w w i
  simpa using this

theorem nice_behinds (h : Halves) (q : Request) : Nice h (behinds h q) := by
  constructor <;> simp only [behinds, behind_bwd]
  · exact fun a b c u v w i => bwdN_lin3 _ _ _ a b c u v w i
  · exact fun a b c u v w i => bwdN_lin3 _ _ _ a b c u v w i
  · exact fun a b c u v w i => bwdN_lin3 _ _ _ a b c u v w i
  · exact fun u v i H => bwdN_congr le_rfl (Or.inr rfl) H
  · exact fun u v i H => bwdN_congr le_rfl (Or.inr rfl) H
  · exact fun u v i H => bwdN_congr le_rfl (Or.inr rfl) H
  · exact fun g i j => bwdN_comm _ _ _ _ _ _ g i j
  · exact fun g i j => bwdN_comm _ _ _ _ _ _ g i j
  · exact fun g i j => bwdN_comm _ _ _ _ _ _ g i j

/-- Agreement of two fields on the points needed for a divergence. -/
def OnCross (h : Halves) (i1 i2 i3 : ℤ) (P1 P2 P3 : ℤ → ℤ → ℤ → Prop) : Prop :=
  (∀ a : ℤ, |a| ≤ h.h1 → P1 (i1 + a) i2 i3) ∧ (∀ a : ℤ, |a| ≤ h.h2 → P2 i1 (i2 + a) i3) ∧ (∀ a : ℤ, |a| ≤ h.h3 → P3 i1 i2 (i3 + a))

theorem div3_update {h : Halves} {D : Diff} (hD : Nice h D) (u1 u2 u3 v1 v2 v3 w1 w2 w3 e1 e2 e3 : Field) (s t : ℝ) (i1 i2 i3 : ℤ)
    (H : OnCross h i1 i2 i3
      (fun x y z => u1 x y z = v1 x y z + s * w1 x y z + t * curl1 D e1 e2 e3 x y z)
      (fun x y z => u2 x y z = v2 x y z + s * w2 x y z + t * curl2 D e1 e2 e3 x y z)
      (fun x y z => u3 x y z = v3 x y z + s * w3 x y z + t * curl3 D e1 e2 e3 x y z)) :
    div3 D u1 u2 u3 i1 i2 i3 = div3 D v1 v2 v3 i1 i2 i3 + s * div3 D w1 w2 w3 i1 i2 i3 := by
  obtain ⟨H1, H2, H3⟩ := H
  have k1 : part1 D u1 i1 i2 i3 = part1 D v1 i1 i2 i3 + s * part1 D w1 i1 i2 i3 + t * part1 D (curl1 D e1 e2 e3) i1 i2 i3 := by
    unfold part1
    rw [hD.loc1 _ (fun x => 1 * v1 x i2 i3 + s * w1 x i2 i3 + t * curl1 D e1 e2 e3 x i2 i3) i1 (fun a ha => by rw [H1 a ha]; ring), hD.lin1]
    ring
  have k2 : part2 D u2 i1 i2 i3 = part2 D v2 i1 i2 i3 + s * part2 D w2 i1 i2 i3 + t * part2 D (curl2 D e1 e2 e3) i1 i2 i3 := by
    unfold part2
    rw [hD.loc2 _ (fun x => 1 * v2 i1 x i3 + s * w2 i1 x i3 + t * curl2 D e1 e2 e3 i1 x i3) i2 (fun a ha => by rw [H2 a ha]; ring), hD.lin2]
    ring
  have k3 : part3 D u3 i1 i2 i3 = part3 D v3 i1 i2 i3 + s * part3 D w3 i1 i2 i3 + t * part3 D (curl3 D e1 e2 e3) i1 i2 i3 := by
    unfold part3
    rw [hD.loc3 _ (fun x => 1 * v3 i1 i2 x + s * w3 i1 i2 x + t * curl3 D e1 e2 e3 i1 i2 x) i3 (fun a ha => by rw [H3 a ha]; ring), hD.lin3]
    ring
  have c1 : part1 D (curl1 D e1 e2 e3) i1 i2 i3 = D.D1 (fun x => D.D2 (fun y => e3 x y i3) i2) i1 - D.D1 (fun x => D.D3 (fun y => e2 x i2 y) i3) i1 := by
    have := hD.lin1 1 (-1) 0 (fun x => D.D2 (fun y => e3 x y i3) i2) (fun x => D.D3 (fun y => e2 x i2 y) i3) (fun _ => 0) i1
    unfold part1 curl1 part2 part3
    rw [hD.loc1 _ (fun x => 1 * D.D2 (fun y => e3 x y i3) i2 + -1 * D.D3 (fun y => e2 x i2 y) i3 + 0 * 0) i1 (fun a _ => by ring), this]
    ring
  have c2 : part2 D (curl2 D e1 e2 e3) i1 i2 i3 = D.D2 (fun x => D.D3 (fun y => e1 i1 x y) i3) i2 - D.D2 (fun x => D.D1 (fun y => e3 y x i3) i1) i2 := by
    have := hD.lin2 1 (-1) 0 (fun x => D.D3 (fun y => e1 i1 x y) i3) (fun x => D.D1 (fun y => e3 y x i3) i1) (fun _ => 0) i2
    unfold part2 curl2 part1 part3
    rw [hD.loc2 _ (fun x => 1 * D.D3 (fun y => e1 i1 x y) i3 + -1 * D.D1 (fun y => e3 y x i3) i1 + 0 * 0) i2 (fun a _ => by ring), this]
    ring
  have c3 : part3 D (curl3 D e1 e2 e3) i1 i2 i3 = D.D3 (fun x => D.D1 (fun y => e2 y i2 x) i1) i3 - D.D3 (fun x => D.D2 (fun y => e1 i1 y x) i2) i3 := by
    have := hD.lin3 1 (-1) 0 (fun x => D.D1 (fun y => e2 y i2 x) i1) (fun x => D.D2 (fun y => e1 i1 y x) i2) (fun _ => 0) i3
    unfold part3 curl3 part1 part2
    rw [hD.loc3 _ (fun x => 1 * D.D1 (fun y => e2 y i2 x) i1 + -1 * D.D2 (fun y => e1 i1 y x) i2 + 0 * 0) i3 (fun a _ => by ring), this]
    ring
  have d1 := hD.com12 (fun x y => e3 x y i3) i1 i2
  have d2 := hD.com13 (fun x y => e2 x i2 y) i1 i3
  have d3 := hD.com23 (fun x y => e1 i1 x y) i2 i3
  unfold div3
  rw [k1, k2, k3, c1, c2, c3]
  linear_combination t * d1 - t * d2 + t * d3

theorem div3_congr {h : Halves} {D : Diff} (hD : Nice h D) (u1 u2 u3 v1 v2 v3 : Field) (i1 i2 i3 : ℤ)
    (H : OnCross h i1 i2 i3 (fun x y z => u1 x y z = v1 x y z) (fun x y z => u2 x y z = v2 x y z) (fun x y z => u3 x y z = v3 x y z)) :
    div3 D u1 u2 u3 i1 i2 i3 = div3 D v1 v2 v3 i1 i2 i3 := by
  obtain ⟨H1, H2, H3⟩ := H
  unfold div3 part1 part2 part3
  rw [hD.loc1 _ (fun x => v1 x i2 i3) i1 H1, hD.loc2 _ (fun x => v2 i1 x i3) i2 H2, hD.loc3 _ (fun x => v3 i1 i2 x) i3 H3]

theorem inner_cross {h : Halves} {q : Request} {i1 i2 i3 : ℤ} (hi : InnerPoint h q i1 i2 i3) :
    OnCross h i1 i2 i3 (Interior q) (Interior q) (Interior q) := by
  obtain ⟨⟨a1, a2⟩, ⟨a3, a4⟩, ⟨a5, a6⟩⟩ := hi
  refine ⟨fun a ha => ?_, fun a ha => ?_, fun a ha => ?_⟩ <;>
  · rw [abs_le] at ha
    unfold Interior
    omega

theorem interior_full {h : Halves} {q : Request} (hg : EnoughGuards h q) {i1 i2 i3 : ℤ} (hi : Interior q i1 i2 i3) : FullPoint h q i1 i2 i3 := by
  obtain ⟨g1, g2, g3⟩ := hg
  unfold Interior at hi
  unfold FullPoint
  omega

end Picsar.External
