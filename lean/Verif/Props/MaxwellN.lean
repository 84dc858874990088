import Verif.Lemmas.MaxwellGeo
import Mathlib.Tactic.Ring
import Mathlib.Tactic.FieldSimp
import Mathlib.Tactic.NormNum
import Mathlib.Tactic.LinearCombination

/-
C44, C45 for the Yee solver of arbitrary order in 3D, with stencils truncated at the ends of the arrays.
-/
namespace Picsar.Props
open Picsar Picsar.Grid Picsar.Maxwell Picsar.Spec

/-- The loops of the routine do not leave the arrays (`nxs ≤ nxguards`, ...). -/
def RangesIn (p : NOrder) (r : Ranges) : Prop :=
  ∀ i : I3, InBox r.xlo r.xhi i ∨ InBox r.ylo r.yhi i ∨ InBox r.zlo r.zhi i →
    InBox ⟨-p.gx, -p.gy, -p.gz⟩ ⟨p.nx + p.gx, p.ny + p.gy, p.nz + p.gz⟩ i

theorem sumSafe_x {p : NOrder} {σ : Mem} (ha : NOrder.Arrays p σ) (hist : p.ist = 0 ∨ p.ist = 1) {i : I3}
    (hi : InBox ⟨-p.gx, -p.gy, -p.gz⟩ ⟨p.nx + p.gx, p.ny + p.gy, p.nz + p.gz⟩ i) (w : ℕ → ℝ) (c : Comp) :
    (Ex.sum (fun i => nterms p.ox p.nx p.gx i.j) (fun (m : ℕ) => cst (w m) * (.rd c m 0 0 - .rd c (-m + p.ist) 0 0))).Safe σ i ∧
    (Ex.sum (fun i => nterms p.ox p.nx p.gx i.j) (fun (m : ℕ) => cst (w m) * (.rd c (m - p.ist) 0 0 - .rd c (-m) 0 0))).Safe σ i := by
  obtain ⟨l, h⟩ := ha c
  obtain ⟨b1, b2, b3, b4, b5, b6⟩ := hi
  simp only at b1 b2 b3 b4 b5 b6
  refine ⟨?_, ?_⟩ <;>
  · rw [sum_safe]
    intro m hm
    simp only [sub_safe, mul_safe, cst_safe, rd_safe, true_and, l, h, InBox, I3.sh]
    unfold nterms at hm
    omega

theorem sumSafe_y {p : NOrder} {σ : Mem} (ha : NOrder.Arrays p σ) (hist : p.ist = 0 ∨ p.ist = 1) {i : I3}
    (hi : InBox ⟨-p.gx, -p.gy, -p.gz⟩ ⟨p.nx + p.gx, p.ny + p.gy, p.nz + p.gz⟩ i) (w : ℕ → ℝ) (c : Comp) :
    (Ex.sum (fun i => nterms p.oy p.ny p.gy i.k) (fun (m : ℕ) => cst (w m) * (.rd c 0 m 0 - .rd c 0 (-m + p.ist) 0))).Safe σ i ∧
    (Ex.sum (fun i => nterms p.oy p.ny p.gy i.k) (fun (m : ℕ) => cst (w m) * (.rd c 0 (m - p.ist) 0 - .rd c 0 (-m) 0))).Safe σ i := by
  obtain ⟨l, h⟩ := ha c
  obtain ⟨b1, b2, b3, b4, b5, b6⟩ := hi
  simp only at b1 b2 b3 b4 b5 b6
  refine ⟨?_, ?_⟩ <;>
  · rw [sum_safe]
    intro m hm
    simp only [sub_safe, mul_safe, cst_safe, rd_safe, true_and, l, h, InBox, I3.sh]
    unfold nterms at hm
    omega

theorem sumSafe_z {p : NOrder} {σ : Mem} (ha : NOrder.Arrays p σ) (hist : p.ist = 0 ∨ p.ist = 1) {i : I3}
    (hi : InBox ⟨-p.gx, -p.gy, -p.gz⟩ ⟨p.nx + p.gx, p.ny + p.gy, p.nz + p.gz⟩ i) (w : ℕ → ℝ) (c : Comp) :
    (Ex.sum (fun i => nterms p.oz p.nz p.gz i.l) (fun (m : ℕ) => cst (w m) * (.rd c 0 0 m - .rd c 0 0 (-m + p.ist)))).Safe σ i ∧
    (Ex.sum (fun i => nterms p.oz p.nz p.gz i.l) (fun (m : ℕ) => cst (w m) * (.rd c 0 0 (m - p.ist) - .rd c 0 0 (-m)))).Safe σ i := by
  obtain ⟨l, h⟩ := ha c
  obtain ⟨b1, b2, b3, b4, b5, b6⟩ := hi
  simp only at b1 b2 b3 b4 b5 b6
  refine ⟨?_, ?_⟩ <;>
  · rw [sum_safe]
    intro m hm
    simp only [sub_safe, mul_safe, cst_safe, rd_safe, true_and, l, h, InBox, I3.sh]
    unfold nterms at hm
    omega

theorem rdSafe {p : NOrder} {σ : Mem} (ha : NOrder.Arrays p σ) {i : I3}
    (hi : InBox ⟨-p.gx, -p.gy, -p.gz⟩ ⟨p.nx + p.gx, p.ny + p.gy, p.nz + p.gz⟩ i) (c : Comp) :
    (Ex.rd c 0 0 0).Safe σ i ∧ InBox (σ c).lo (σ c).hi i := by
  obtain ⟨l, h⟩ := ha c
  simp only [rd_safe, I3.sh, add_zero, l, h]
  exact ⟨hi, hi⟩

/-- The sums of the code are the high-order differences of the specification. -/
theorem sum_fwd_x (p : NOrder) (σ : Mem) (c : Comp) (j k l : ℤ) :
    (Ex.sum (fun i => nterms p.ox p.nx p.gx i.j) (fun (m : ℕ) => cst (p.cx m) * (.rd c m 0 0 - .rd c (-m + p.ist) 0 0))).den σ ⟨j, k, l⟩
      = fwdN (usable (p.ox / 2) p.nx p.gx j) p.cx p.ist (fun a => at' σ c a k l) j := by
  rw [sum_den, fwdN, sum_Icc_one, nterms_usable]
  refine Finset.sum_congr rfl fun m _ => ?_
  simp only [mul_den, sub_den, cst_den, rd_den, I3.sh, add_zero, at']
  rw [← add_assoc, ← sub_eq_add_neg]

theorem sum_fwd_y (p : NOrder) (σ : Mem) (c : Comp) (j k l : ℤ) :
    (Ex.sum (fun i => nterms p.oy p.ny p.gy i.k) (fun (m : ℕ) => cst (p.cy m) * (.rd c 0 m 0 - .rd c 0 (-m + p.ist) 0))).den σ ⟨j, k, l⟩
      = fwdN (usable (p.oy / 2) p.ny p.gy k) p.cy p.ist (fun a => at' σ c j a l) k := by
  rw [sum_den, fwdN, sum_Icc_one, nterms_usable]
  refine Finset.sum_congr rfl fun m _ => ?_
  simp only [mul_den, sub_den, cst_den, rd_den, I3.sh, add_zero, at']
  rw [← add_assoc, ← sub_eq_add_neg]

theorem sum_fwd_z (p : NOrder) (σ : Mem) (c : Comp) (j k l : ℤ) :
    (Ex.sum (fun i => nterms p.oz p.nz p.gz i.l) (fun (m : ℕ) => cst (p.cz m) * (.rd c 0 0 m - .rd c 0 0 (-m + p.ist)))).den σ ⟨j, k, l⟩
      = fwdN (usable (p.oz / 2) p.nz p.gz l) p.cz p.ist (fun a => at' σ c j k a) l := by
  rw [sum_den, fwdN, sum_Icc_one, nterms_usable]
  refine Finset.sum_congr rfl fun m _ => ?_
  simp only [mul_den, sub_den, cst_den, rd_den, I3.sh, add_zero, at']
  rw [← add_assoc, ← sub_eq_add_neg]

theorem sum_bwd_x (p : NOrder) (σ : Mem) (c : Comp) (j k l : ℤ) :
    (Ex.sum (fun i => nterms p.ox p.nx p.gx i.j) (fun (m : ℕ) => cst (p.cx m) * (.rd c (m - p.ist) 0 0 - .rd c (-m) 0 0))).den σ ⟨j, k, l⟩
      = bwdN (usable (p.ox / 2) p.nx p.gx j) p.cx p.ist (fun a => at' σ c a k l) j := by
  rw [sum_den, bwdN, sum_Icc_one, nterms_usable]
  refine Finset.sum_congr rfl fun m _ => ?_
  simp only [mul_den, sub_den, cst_den, rd_den, I3.sh, add_zero, at']
  rw [← add_sub_assoc, ← sub_eq_add_neg]

theorem sum_bwd_y (p : NOrder) (σ : Mem) (c : Comp) (j k l : ℤ) :
    (Ex.sum (fun i => nterms p.oy p.ny p.gy i.k) (fun (m : ℕ) => cst (p.cy m) * (.rd c 0 (m - p.ist) 0 - .rd c 0 (-m) 0))).den σ ⟨j, k, l⟩
      = bwdN (usable (p.oy / 2) p.ny p.gy k) p.cy p.ist (fun a => at' σ c j a l) k := by
  rw [sum_den, bwdN, sum_Icc_one, nterms_usable]
  refine Finset.sum_congr rfl fun m _ => ?_
  simp only [mul_den, sub_den, cst_den, rd_den, I3.sh, add_zero, at']
  rw [← add_sub_assoc, ← sub_eq_add_neg]

theorem sum_bwd_z (p : NOrder) (σ : Mem) (c : Comp) (j k l : ℤ) :
    (Ex.sum (fun i => nterms p.oz p.nz p.gz i.l) (fun (m : ℕ) => cst (p.cz m) * (.rd c 0 0 (m - p.ist) - .rd c 0 0 (-m)))).den σ ⟨j, k, l⟩
      = bwdN (usable (p.oz / 2) p.nz p.gz l) p.cz p.ist (fun a => at' σ c j k a) l := by
  rw [sum_den, bwdN, sum_Icc_one, nterms_usable]
  refine Finset.sum_congr rfl fun m _ => ?_
  simp only [mul_den, sub_den, cst_den, rd_den, I3.sh, add_zero, at']
  rw [← add_sub_assoc, ← sub_eq_add_neg]

/-- **C44** Yee solver of arbitrary order in 3D: memory safe for every order, guard width and loop range inside the arrays, and
the divergence of B formed with the scheme's own (possibly truncated) differences is kept wherever the stencil is updated. -/
theorem C44_norder_3d (p : NOrder) (hist : p.ist = 0 ∨ p.ist = 1) (r : Ranges) (hr : RangesIn p r) (o : Orders) (ho : o.Of r)
    (σ : Mem) (ha : NOrder.Arrays p σ) :
    ∃ τ, bvecN p o σ = .ok τ ∧ (∀ c, c ≠ .bx → c ≠ .by' → c ≠ .bz → τ c = σ c) ∧
      ∀ j k l, CrossUpdated p r j k l → divBN p τ j k l = divBN p σ j k l := by
  obtain ⟨τ, h1, h2⟩ := three_ok (σ := σ) (r := r) ho (cx := .bx) (cy := .by') (cz := .bz)
    (rx := .rd .bx 0 0 0
      - .sum (fun (i : I3) => nterms p.oy p.ny p.gy i.k) (fun (i : ℕ) => cst (p.cy i) * (.rd .ez 0 i 0 - .rd .ez 0 (-i + p.ist) 0))
      + .sum (fun (i : I3) => nterms p.oz p.nz p.gz i.l) (fun (i : ℕ) => cst (p.cz i) * (.rd .ey 0 0 i - .rd .ey 0 0 (-i + p.ist))))
    (ry := .rd .by' 0 0 0
      + .sum (fun (i : I3) => nterms p.ox p.nx p.gx i.j) (fun (i : ℕ) => cst (p.cx i) * (.rd .ez i 0 0 - .rd .ez (-i + p.ist) 0 0))
      - .sum (fun (i : I3) => nterms p.oz p.nz p.gz i.l) (fun (i : ℕ) => cst (p.cz i) * (.rd .ex 0 0 i - .rd .ex 0 0 (-i + p.ist))))
    (rz := .rd .bz 0 0 0
      - .sum (fun (i : I3) => nterms p.ox p.nx p.gx i.j) (fun (i : ℕ) => cst (p.cx i) * (.rd .ey i 0 0 - .rd .ey (-i + p.ist) 0 0))
      + .sum (fun (i : I3) => nterms p.oy p.ny p.gy i.k) (fun (i : ℕ) => cst (p.cy i) * (.rd .ex 0 i 0 - .rd .ex 0 (-i + p.ist) 0)))
    (by decide) (by decide) (by decide) (by simp) (by simp) (by simp) (by simp) (by simp)
    (fun i hi => by
      have hi' := hr i (Or.inl hi)
      exact ⟨⟨⟨(rdSafe ha hi' _).1, (sumSafe_y ha hist hi' _ _).1⟩, (sumSafe_z ha hist hi' _ _).1⟩, (rdSafe ha hi' _).2⟩)
    (fun i hi => by
      have hi' := hr i (Or.inr (Or.inl hi))
      exact ⟨⟨⟨(rdSafe ha hi' _).1, (sumSafe_x ha hist hi' _ _).1⟩, (sumSafe_z ha hist hi' _ _).1⟩, (rdSafe ha hi' _).2⟩)
    (fun i hi => by
      have hi' := hr i (Or.inr (Or.inr hi))
      exact ⟨⟨⟨(rdSafe ha hi' _).1, (sumSafe_x ha hist hi' _ _).1⟩, (sumSafe_y ha hist hi' _ _).1⟩, (rdSafe ha hi' _).2⟩)
  refine ⟨τ, h1, h2.other, ?_⟩
  rintro j k l ⟨cx, cy, cz⟩
  set DX := fun (u : ℤ → ℝ) => fwdN (usable (p.ox / 2) p.nx p.gx j) p.cx p.ist u j with hDX
  set DY := fun (u : ℤ → ℝ) => fwdN (usable (p.oy / 2) p.ny p.gy k) p.cy p.ist u k with hDY
  set DZ := fun (u : ℤ → ℝ) => fwdN (usable (p.oz / 2) p.nz p.gz l) p.cz p.ist u l with hDZ
  have e1 : DX (fun a => at' τ .bx a k l) = DX (fun a => 1 * at' σ .bx a k l + (-1) * DY (fun b => at' σ .ez a b l)
      + 1 * DZ (fun b => at' σ .ey a k b)) := by
    refine fwdN_congr (usable_le _ _ _ _) hist fun a ha' => ?_
    rw [at', h2.x, if_pos (cx a (by push_cast at ha'; exact ha'))]
    simp only [add_den, sub_den, rd_den, I3.sh, add_zero, sum_fwd_y, sum_fwd_z]
    rw [hDY, hDZ, at']
    ring
  have e2 : DY (fun b => at' τ .by' j b l) = DY (fun b => 1 * at' σ .by' j b l + 1 * DX (fun a => at' σ .ez a b l)
      + (-1) * DZ (fun c => at' σ .ex j b c)) := by
    refine fwdN_congr (usable_le _ _ _ _) hist fun a ha' => ?_
    rw [at', h2.y, if_pos (cy a (by push_cast at ha'; exact ha'))]
    simp only [add_den, sub_den, rd_den, I3.sh, add_zero, sum_fwd_x, sum_fwd_z]
    rw [hDX, hDZ, at']
    ring
  have e3 : DZ (fun c => at' τ .bz j k c) = DZ (fun c => 1 * at' σ .bz j k c + (-1) * DX (fun a => at' σ .ey a k c)
      + 1 * DY (fun b => at' σ .ex j b c)) := by
    refine fwdN_congr (usable_le _ _ _ _) hist fun a ha' => ?_
    rw [at', h2.z, if_pos (cz a (by push_cast at ha'; exact ha'))]
    simp only [add_den, sub_den, rd_den, I3.sh, add_zero, sum_fwd_x, sum_fwd_y]
    rw [hDX, hDY, at']
    ring
  change DX (fun a => at' τ .bx a k l) + DY (fun b => at' τ .by' j b l) + DZ (fun c => at' τ .bz j k c) =
    DX (fun a => at' σ .bx a k l) + DY (fun b => at' σ .by' j b l) + DZ (fun c => at' σ .bz j k c)
  rw [e1, e2, e3]
  simp only [hDX, hDY, hDZ]
  rw [fwdN_lin, fwdN_lin, fwdN_lin]
  have c1 := fwdN_comm (usable (p.ox / 2) p.nx p.gx j) (usable (p.oy / 2) p.ny p.gy k) p.cx p.cy p.ist p.ist
    (fun a b => at' σ .ez a b l) j k
  have c2 := fwdN_comm (usable (p.ox / 2) p.nx p.gx j) (usable (p.oz / 2) p.nz p.gz l) p.cx p.cz p.ist p.ist
    (fun a b => at' σ .ey a k b) j l
  have c3 := fwdN_comm (usable (p.oy / 2) p.ny p.gy k) (usable (p.oz / 2) p.nz p.gz l) p.cy p.cz p.ist p.ist
    (fun a b => at' σ .ex j a b) k l
  linear_combination -c1 + c2 - c3

/-- **C45** Yee solver of arbitrary order in 3D: memory safe, and with a current that satisfies the continuity equation for
the scheme's own differences (coefficients `p.cx` contain `c² dt/dx`), `div E - rho/eps0` is kept. -/
theorem C45_norder_3d (p : NOrder) (hist : p.ist = 0 ∨ p.ist = 1) (c mu0 eps0 dt : ℝ) (hdt : dt ≠ 0)
    (hc : eps0 * mu0 * c ^ 2 = 1) (r : Ranges) (hr : RangesIn p r) (o : Orders) (ho : o.Of r)
    (σ : Mem) (ha : NOrder.Arrays p σ) :
    ∃ τ, evecN (mu0 * c ^ 2 * dt) p o σ = .ok τ ∧ (∀ c, c ≠ .ex → c ≠ .ey → c ≠ .ez → τ c = σ c) ∧
      ∀ (rho0 rho1 : ℝ) (j k l : ℤ), CrossUpdated p r j k l →
        (rho1 - rho0) / dt + divNodeN p .jx .jy .jz σ j k l / (c ^ 2 * dt) = 0 →
        divNodeN p .ex .ey .ez τ j k l / (c ^ 2 * dt) - rho1 / eps0 = divNodeN p .ex .ey .ez σ j k l / (c ^ 2 * dt) - rho0 / eps0 := by
  obtain ⟨τ, h1, h2⟩ := three_ok (σ := σ) (r := r) ho (cx := .ex) (cy := .ey) (cz := .ez)
    (rx := .rd .ex 0 0 0 - cst (mu0 * c ^ 2 * dt) * .rd .jx 0 0 0
      + .sum (fun (i : I3) => nterms p.oy p.ny p.gy i.k) (fun (i : ℕ) => cst (p.cy i) * (.rd .bz 0 (i - p.ist) 0 - .rd .bz 0 (-i) 0))
      - .sum (fun (i : I3) => nterms p.oz p.nz p.gz i.l) (fun (i : ℕ) => cst (p.cz i) * (.rd .by' 0 0 (i - p.ist) - .rd .by' 0 0 (-i))))
    (ry := .rd .ey 0 0 0 - cst (mu0 * c ^ 2 * dt) * .rd .jy 0 0 0
      - .sum (fun (i : I3) => nterms p.ox p.nx p.gx i.j) (fun (i : ℕ) => cst (p.cx i) * (.rd .bz (i - p.ist) 0 0 - .rd .bz (-i) 0 0))
      + .sum (fun (i : I3) => nterms p.oz p.nz p.gz i.l) (fun (i : ℕ) => cst (p.cz i) * (.rd .bx 0 0 (i - p.ist) - .rd .bx 0 0 (-i))))
    (rz := .rd .ez 0 0 0 - cst (mu0 * c ^ 2 * dt) * .rd .jz 0 0 0
      + .sum (fun (i : I3) => nterms p.ox p.nx p.gx i.j) (fun (i : ℕ) => cst (p.cx i) * (.rd .by' (i - p.ist) 0 0 - .rd .by' (-i) 0 0))
      - .sum (fun (i : I3) => nterms p.oy p.ny p.gy i.k) (fun (i : ℕ) => cst (p.cy i) * (.rd .bx 0 (i - p.ist) 0 - .rd .bx 0 (-i) 0)))
    (by decide) (by decide) (by decide) (by simp) (by simp) (by simp) (by simp) (by simp)
    (fun i hi => by
      have hi' := hr i (Or.inl hi)
      exact ⟨⟨⟨⟨(rdSafe ha hi' _).1, trivial, (rdSafe ha hi' _).1⟩, (sumSafe_y ha hist hi' _ _).2⟩, (sumSafe_z ha hist hi' _ _).2⟩,
        (rdSafe ha hi' _).2⟩)
    (fun i hi => by
      have hi' := hr i (Or.inr (Or.inl hi))
      exact ⟨⟨⟨⟨(rdSafe ha hi' _).1, trivial, (rdSafe ha hi' _).1⟩, (sumSafe_x ha hist hi' _ _).2⟩, (sumSafe_z ha hist hi' _ _).2⟩,
        (rdSafe ha hi' _).2⟩)
    (fun i hi => by
      have hi' := hr i (Or.inr (Or.inr hi))
      exact ⟨⟨⟨⟨(rdSafe ha hi' _).1, trivial, (rdSafe ha hi' _).1⟩, (sumSafe_x ha hist hi' _ _).2⟩, (sumSafe_y ha hist hi' _ _).2⟩,
        (rdSafe ha hi' _).2⟩)
  refine ⟨τ, h1, h2.other, ?_⟩
  rintro rho0 rho1 j k l ⟨cx, cy, cz⟩ hcont
  have he : eps0 ≠ 0 := by rintro rfl; simp at hc
  have hc0 : c ≠ 0 := by rintro rfl; simp at hc
  set DX := fun (u : ℤ → ℝ) => bwdN (usable (p.ox / 2) p.nx p.gx j) p.cx p.ist u j with hDX
  set DY := fun (u : ℤ → ℝ) => bwdN (usable (p.oy / 2) p.ny p.gy k) p.cy p.ist u k with hDY
  set DZ := fun (u : ℤ → ℝ) => bwdN (usable (p.oz / 2) p.nz p.gz l) p.cz p.ist u l with hDZ
  have e1 : DX (fun a => at' τ .ex a k l) = DX (fun a => 1 * at' σ .ex a k l + (-(mu0 * c ^ 2 * dt)) * at' σ .jx a k l
      + 1 * DY (fun b => at' σ .bz a b l) + (-1) * DZ (fun b => at' σ .by' a k b)) := by
    refine bwdN_congr (usable_le _ _ _ _) hist fun a ha' => ?_
    rw [at', h2.x, if_pos (cx a (by push_cast at ha'; exact ha'))]
    simp only [add_den, sub_den, mul_den, cst_den, rd_den, I3.sh, add_zero, sum_bwd_y, sum_bwd_z]
    rw [hDY, hDZ, at', at']
    ring
  have e2 : DY (fun b => at' τ .ey j b l) = DY (fun b => 1 * at' σ .ey j b l + (-(mu0 * c ^ 2 * dt)) * at' σ .jy j b l
      + (-1) * DX (fun a => at' σ .bz a b l) + 1 * DZ (fun c => at' σ .bx j b c)) := by
    refine bwdN_congr (usable_le _ _ _ _) hist fun a ha' => ?_
    rw [at', h2.y, if_pos (cy a (by push_cast at ha'; exact ha'))]
    simp only [add_den, sub_den, mul_den, cst_den, rd_den, I3.sh, add_zero, sum_bwd_x, sum_bwd_z]
    rw [hDX, hDZ, at', at']
    ring
  have e3 : DZ (fun c => at' τ .ez j k c) = DZ (fun d => 1 * at' σ .ez j k d + (-(mu0 * c ^ 2 * dt)) * at' σ .jz j k d
      + 1 * DX (fun a => at' σ .by' a k d) + (-1) * DY (fun b => at' σ .bx j b d)) := by
    refine bwdN_congr (usable_le _ _ _ _) hist fun a ha' => ?_
    rw [at', h2.z, if_pos (cz a (by push_cast at ha'; exact ha'))]
    simp only [add_den, sub_den, mul_den, cst_den, rd_den, I3.sh, add_zero, sum_bwd_x, sum_bwd_y]
    rw [hDX, hDY, at', at']
    ring
  have key : divNodeN p .ex .ey .ez τ j k l = divNodeN p .ex .ey .ez σ j k l
      - (mu0 * c ^ 2 * dt) * divNodeN p .jx .jy .jz σ j k l := by
    change DX (fun a => at' τ .ex a k l) + DY (fun b => at' τ .ey j b l) + DZ (fun c => at' τ .ez j k c) =
      (DX (fun a => at' σ .ex a k l) + DY (fun b => at' σ .ey j b l) + DZ (fun c => at' σ .ez j k c)) - (mu0 * c ^ 2 * dt) *
      (DX (fun a => at' σ .jx a k l) + DY (fun b => at' σ .jy j b l) + DZ (fun c => at' σ .jz j k c))
    rw [e1, e2, e3]
    simp only [hDX, hDY, hDZ]
    rw [bwdN_lin, bwdN_lin, bwdN_lin]
    have c1 := bwdN_comm (usable (p.ox / 2) p.nx p.gx j) (usable (p.oy / 2) p.ny p.gy k) p.cx p.cy p.ist p.ist
      (fun a b => at' σ .bz a b l) j k
    have c2 := bwdN_comm (usable (p.ox / 2) p.nx p.gx j) (usable (p.oz / 2) p.nz p.gz l) p.cx p.cz p.ist p.ist
      (fun a b => at' σ .by' a k b) j l
    have c3 := bwdN_comm (usable (p.oy / 2) p.ny p.gy k) (usable (p.oz / 2) p.nz p.gz l) p.cy p.cz p.ist p.ist
      (fun a b => at' σ .bx j a b) k l
    linear_combination c1 - c2 + c3
  rw [key]
  field_simp at hcont ⊢
  rw [show mu0 = 1 / (eps0 * c ^ 2) by field_simp; linarith]
  field_simp
  linear_combination -dt * hcont

/-- Concrete case: order 4, staggered, 8³ cells, 3 guard cells. -/
example : ∃ (p : NOrder), p.ist = 1 ∧ p.ox = 4 ∧ NOrder.Arrays p (fun _ => ⟨⟨-3, -3, -3⟩, ⟨11, 11, 11⟩, fun i => i.j⟩) ∧
    RangesIn p (uniform ⟨-1, -1, -1⟩ ⟨9, 9, 9⟩) ∧ CrossUpdated p (uniform ⟨-1, -1, -1⟩ ⟨9, 9, 9⟩) 3 4 5 := by
  refine ⟨⟨8, 8, 8, 3, 3, 3, 4, 4, 4, 1, fun m => 1 / m, fun m => 1 / m, fun m => 1 / m⟩, rfl, rfl, fun c => ⟨rfl, rfl⟩, ?_, ?_⟩
  · intro i hi
    simp only [InBox, uniform] at hi ⊢
    omega
  · refine ⟨fun a ha => ?_, fun a ha => ?_, fun a ha => ?_⟩ <;>
    · rw [abs_le] at ha
      simp only [InBox, uniform]
      norm_num at ha ⊢
      omega

end Picsar.Props
