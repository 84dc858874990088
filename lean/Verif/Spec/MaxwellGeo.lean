import Verif.Spec.Maxwell
import Mathlib.Order.Interval.Finset.Nat

/-
Discrete divergences for the other geometries and stencils of the field solvers.
-/
namespace Picsar.Spec
open Picsar Picsar.Grid Picsar.Maxwell

/-! ### Two dimensions (x, z): no dependence on y -/

/-- Divergence of B in cell `(j,l)`. -/
noncomputable def divB2 (dx dz : ℝ) (σ : Mem) (j l : ℤ) : ℝ :=
  (at' σ .bx (j + 1) 0 l - at' σ .bx j 0 l) / dx + (at' σ .bz j 0 (l + 1) - at' σ .bz j 0 l) / dz

/-- Divergence of E at node `(j,l)`. -/
noncomputable def divE2 (dx dz : ℝ) (σ : Mem) (j l : ℤ) : ℝ :=
  (at' σ .ex j 0 l - at' σ .ex (j - 1) 0 l) / dx + (at' σ .ez j 0 l - at' σ .ez j 0 (l - 1)) / dz

/-- Divergence of the current at node `(j,l)`. -/
noncomputable def divJ2 (dx dz : ℝ) (σ : Mem) (j l : ℤ) : ℝ :=
  (at' σ .jx j 0 l - at' σ .jx (j - 1) 0 l) / dx + (at' σ .jz j 0 l - at' σ .jz j 0 (l - 1)) / dz

/-! ### Cylindrical coordinates (r, z), axisymmetric -/

/-- Radius of the grid point of (possibly fractional) index `s`. -/
noncomputable def radius (rmin dr s : ℝ) : ℝ := rmin + s * dr

/-- `(1/r) d(r Br)/dr + dBz/dz` in cell `(j,l)`. -/
noncomputable def divBrz (rmin dr dz : ℝ) (σ : Mem) (j l : ℤ) : ℝ :=
  (radius rmin dr (j + 1) * at' σ .bx (j + 1) 0 l - radius rmin dr j * at' σ .bx j 0 l) /
      (radius rmin dr (j + 1 / 2) * dr) + (at' σ .bz j 0 (l + 1) - at' σ .bz j 0 l) / dz

/-- `(1/r) d(r Vr)/dr + dVz/dz` at node `(j,l)` off the axis, for a vector field stored in the arrays `cr`, `cz`. -/
noncomputable def divNodeRz (cr cz : Comp) (rmin dr dz : ℝ) (σ : Mem) (j l : ℤ) : ℝ :=
  (radius rmin dr (j + 1 / 2) * at' σ cr j 0 l - radius rmin dr (j - 1 / 2) * at' σ cr (j - 1) 0 l) /
      (radius rmin dr j * dr) + (at' σ cz j 0 l - at' σ cz j 0 (l - 1)) / dz

/-- Divergence on the axis: flux through the cylinder of radius `dr/2` divided by its volume, `2π(dr/2)Vr / (π(dr/2)²) = 4 Vr/dr`. -/
noncomputable def divAxisRz (cr cz : Comp) (dr dz : ℝ) (σ : Mem) (l : ℤ) : ℝ :=
  4 * at' σ cr 0 0 l / dr + (at' σ cz 0 0 l - at' σ cz 0 0 (l - 1)) / dz

/-! ### Stencils -/

/-- All the points within `s` cells of `(j,k,l)` are updated in the three components. -/
def BallUpdated (s : ℤ) (r : Ranges) (j k l : ℤ) : Prop :=
  ∀ a b c : ℤ, |a| ≤ s → |b| ≤ s → |c| ≤ s →
    InBox r.xlo r.xhi ⟨j + a, k + b, l + c⟩ ∧ InBox r.ylo r.yhi ⟨j + a, k + b, l + c⟩ ∧
      InBox r.zlo r.zhi ⟨j + a, k + b, l + c⟩

/-- Difference along x, averaged over the neighbours in y and z with weights `α` (itself), `β1` (y), `β2` (z), `γ` (diagonals). -/
noncomputable def starX (α β1 β2 γ : ℝ) (g : ℤ → ℤ → ℤ → ℝ) (j k l : ℤ) : ℝ :=
  let d := fun b c => g (j + 1) (k + b) (l + c) - g j (k + b) (l + c)
  α * d 0 0 + β1 * (d 1 0 + d (-1) 0) + β2 * (d 0 1 + d 0 (-1)) + γ * (d 1 1 + d (-1) 1 + d 1 (-1) + d (-1) (-1))

/-- Difference along y, averaged over the neighbours in x (`β1`) and z (`β2`). -/
noncomputable def starY (α β1 β2 γ : ℝ) (g : ℤ → ℤ → ℤ → ℝ) (j k l : ℤ) : ℝ :=
  let d := fun a c => g (j + a) (k + 1) (l + c) - g (j + a) k (l + c)
  α * d 0 0 + β1 * (d 1 0 + d (-1) 0) + β2 * (d 0 1 + d 0 (-1)) + γ * (d 1 1 + d (-1) 1 + d 1 (-1) + d (-1) (-1))

/-- Difference along z, averaged over the neighbours in x (`β1`) and y (`β2`). -/
noncomputable def starZ (α β1 β2 γ : ℝ) (g : ℤ → ℤ → ℤ → ℝ) (j k l : ℤ) : ℝ :=
  let d := fun a b => g (j + a) (k + b) (l + 1) - g (j + a) (k + b) l
  α * d 0 0 + β1 * (d 1 0 + d (-1) 0) + β2 * (d 0 1 + d 0 (-1)) + γ * (d 1 1 + d (-1) 1 + d 1 (-1) + d (-1) (-1))

/-- The x, y, z differences of the Cole-Karkkainen-Cowan scheme with coefficients `k`. -/
noncomputable def ckcX (q : Ckc) := starX q.ax q.bxy q.bxz q.gx
/-- y difference. -/
noncomputable def ckcY (q : Ckc) := starY q.ay q.byx q.byz q.gy
/-- z difference. -/
noncomputable def ckcZ (q : Ckc) := starZ q.az q.bzx q.bzy q.gz

/-- Divergence of B formed with the differences of the scheme. -/
noncomputable def divBckc (q : Ckc) (σ : Mem) (j k l : ℤ) : ℝ :=
  ckcX q (at' σ .bx) j k l + ckcY q (at' σ .by') j k l + ckcZ q (at' σ .bz) j k l

/-- The same in 2D. -/
noncomputable def divBckc2 (q : Ckc2) (σ : Mem) (j l : ℤ) : ℝ :=
  starX q.ax 0 q.bxz 0 (at' σ .bx) j 0 l + starZ q.az q.bzx 0 0 (at' σ .bz) j 0 l

/-- Forward high-order difference of a sequence: `sum_{m=1}^{n} c_m (u(i+m) - u(i-m+ist))`. -/
noncomputable def fwdN (n : ℕ) (c : ℕ → ℝ) (ist : ℤ) (u : ℤ → ℝ) (i : ℤ) : ℝ :=
  ∑ m ∈ Finset.Icc 1 n, c m * (u (i + m) - u (i - m + ist))

/-- Backward high-order difference: `sum_{m=1}^{n} c_m (u(i+m-ist) - u(i-m))`. -/
noncomputable def bwdN (n : ℕ) (c : ℕ → ℝ) (ist : ℤ) (u : ℤ → ℝ) (i : ℤ) : ℝ :=
  ∑ m ∈ Finset.Icc 1 n, c m * (u (i + m - ist) - u (i - m))

/-- Number of terms usable at position `i` of an array `-g : n+g` for a scheme of order `2 h`. -/
def usable (h : ℕ) (n g i : ℤ) : ℕ := (min (min (h : ℤ) (n - i + g)) (i + g)).toNat

/-- Divergence of B with the scheme's own (possibly truncated) differences. -/
noncomputable def divBN (p : NOrder) (σ : Mem) (j k l : ℤ) : ℝ :=
  fwdN (usable (p.ox / 2) p.nx p.gx j) p.cx p.ist (fun a => at' σ .bx a k l) j +
  fwdN (usable (p.oy / 2) p.ny p.gy k) p.cy p.ist (fun a => at' σ .by' j a l) k +
  fwdN (usable (p.oz / 2) p.nz p.gz l) p.cz p.ist (fun a => at' σ .bz j k a) l

/-- Divergence of a vector field stored in `cx, cy, cz` at node `(j,k,l)` with the scheme's own differences. -/
noncomputable def divNodeN (p : NOrder) (cx cy cz : Comp) (σ : Mem) (j k l : ℤ) : ℝ :=
  bwdN (usable (p.ox / 2) p.nx p.gx j) p.cx p.ist (fun a => at' σ cx a k l) j +
  bwdN (usable (p.oy / 2) p.ny p.gy k) p.cy p.ist (fun a => at' σ cy j a l) k +
  bwdN (usable (p.oz / 2) p.nz p.gz l) p.cz p.ist (fun a => at' σ cz j k a) l

/-- The arrays of the solver manager: `-nxguards : nx+nxguards`, etc. -/
def NOrder.Arrays (p : NOrder) (σ : Mem) : Prop :=
  ∀ c, (σ c).lo = ⟨-p.gx, -p.gy, -p.gz⟩ ∧ (σ c).hi = ⟨p.nx + p.gx, p.ny + p.gy, p.nz + p.gz⟩

/-- All the points at most `order/2` away along an axis are updated. -/
def CrossUpdated (p : NOrder) (r : Ranges) (j k l : ℤ) : Prop :=
  (∀ a : ℤ, |a| ≤ p.ox / 2 → InBox r.xlo r.xhi ⟨j + a, k, l⟩) ∧
  (∀ a : ℤ, |a| ≤ p.oy / 2 → InBox r.ylo r.yhi ⟨j, k + a, l⟩) ∧
  (∀ a : ℤ, |a| ≤ p.oz / 2 → InBox r.zlo r.zhi ⟨j, k, l + a⟩)

end Picsar.Spec
