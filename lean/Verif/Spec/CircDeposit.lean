import Verif.Spec.Deposition2d
import Verif.Spec.CircGather
import Mathlib.Analysis.Complex.Trigonometric

/-
Specification vocabulary for the deposition on azimuthal modes: a density is `Re Σ_m a_m exp(-i m θ)`; the charge of a particle at the angle `θ`
contributes `exp(i m θ)` to mode `m`, twice for `m > 0`.
-/
namespace Picsar.Spec
open Picsar Picsar.Grid Picsar.Deposition Picsar.CircGather

/-- `exp(iθ)` at the point `(x,y)`; 1 within `1e-10` cells of the axis. -/
noncomputable def unitAt (dr x y : ℝ) : ℂ :=
  if 1 / 10 ^ 10 < √(x ^ 2 + y ^ 2) / dr then ⟨x / √(x ^ 2 + y ^ 2), y / √(x ^ 2 + y ^ 2)⟩ else 1

/-- Weight of mode `m` for a particle at the phase `e`. -/
noncomputable def modeWeight (m : ℕ) (e : ℂ) : ℂ := if m = 0 then 1 else 2 * e ^ m

/-- `exp(iθ)` of a particle, and in the middle of its move. -/
noncomputable def unitOf (g : Geo) (p : Part) : ℂ := unitAt g.dx p.x p.y

noncomputable def unitMid (g : Geo) (p : Part) : ℂ := unitAt g.dx ((p.x + (before g p).x) / 2) ((p.y + (before g p).y) / 2)

/-- Charge per cell at node `(j,l)` on mode `m` (before the division by the length of the circle). -/
noncomputable def densityM (a b : ℕ) (g : Geo) (ps : List Part) (m : ℕ) (j l : ℤ) : ℂ :=
  (ps.map fun p => (density2 a b true g p j l : ℂ) * modeWeight m (unitOf g p)).sum

/-- Azimuthal velocity in the middle of the move. -/
noncomputable def midVelocity (g : Geo) (p : Part) : ℝ := p.uy * p.gaminv * (unitMid g p).re - p.ux * p.gaminv * (unitMid g p).im

/-- Current of one macroparticle on mode `m`: Esirkepov's plane current (r, z) times the weight of the mode in the middle of the move; along the
azimuthal direction the average of the shape for mode 0 and the current of A. Davidson et al., J. Comput. Phys. 281 (2015), for the others. -/
noncomputable def currentR (a b : ℕ) (g : Geo) (p : Part) (m : ℕ) (j l : ℤ) : ℂ :=
  (current2 a b true g p .jx ⟨j, 0, l⟩ : ℂ) * modeWeight m (unitMid g p)

noncomputable def currentZ (a b : ℕ) (g : Geo) (p : Part) (m : ℕ) (j l : ℤ) : ℂ :=
  (current2 a b true g p .jz ⟨j, 0, l⟩ : ℂ) * modeWeight m (unitMid g p)

noncomputable def currentT (a b : ℕ) (g : Geo) (p : Part) (m : ℕ) (j l : ℤ) : ℂ :=
  let x := cells (across true p) g.xmin g.dx
  let xo := cells (across true (before g p)) g.xmin g.dx
  let z := cells p.z g.zmin g.dz
  let zo := cells (before g p).z g.zmin g.dz
  if m = 0 then ((g.q * p.w * midVelocity g p / (g.dx * g.dz) * average2 a b x xo z zo j l : ℝ) : ℂ)
  else -(2 * Complex.I * ((g.xmin + j * g.dx) / g.dx : ℝ) * (g.q * p.w / (g.dt * g.dz) / m : ℝ) *
    ((shape a x j * shape b z l : ℝ) * (unitOf g p ^ m - unitMid g p ^ m) +
      (shape a xo j * shape b zo l : ℝ) * (unitMid g p ^ m - unitOf g (before g p) ^ m)))

/-- Sum over the particles. -/
noncomputable def total (f : Part → ℕ → ℤ → ℤ → ℂ) (ps : List Part) (m : ℕ) (j l : ℤ) : ℂ := (ps.map fun p => f p m j l).sum

/-- The array has room for the shape of the particle. -/
def FitsC (a b : ℕ) (g : Geo) (A : CArr) (p : Part) : Prop :=
  Fits a A.jlo A.jhi (cells (across true p) g.xmin g.dx) ∧ Fits b A.llo A.lhi (cells p.z g.zmin g.dz)

/-- The array has `n` modes and room for the shape of the particle after and before its move. -/
def FitC (a b n : ℕ) (g : Geo) (A : CArr) (p : Part) : Prop := A.nm = n ∧ FitsC a b g A p ∧ FitsC a b g A (before g p)

/-- `f` added to the `n` modes of an array. -/
def addedC (n : ℕ) (A : CArr) (f : ℕ → ℤ → ℤ → ℂ) : CArr :=
  { A with val := fun j l m => if m < n then A.val j l m + f m j l else A.val j l m }

/-- Divergence of mode `m` of a current in cylindrical coordinates (`∂/∂θ` is `-i m`): `Jr` half a cell above the nodes in r, `Jz` half a cell above
the nodes in z. -/
noncomputable def divergenceM (rmin dr dz : ℝ) (jr jt jz : CArr) (m : ℕ) (j l : ℤ) : ℂ :=
  ((rmin + (j + 1 / 2) * dr : ℝ) * jr.val j l m - (rmin + (j - 1 / 2) * dr : ℝ) * jr.val (j - 1) l m) / ((rmin + j * dr : ℝ) * (dr : ℂ)) -
    Complex.I * m * jt.val j l m / ((rmin + j * dr : ℝ) : ℂ) + (jz.val j l m - jz.val j (l - 1) m) / (dz : ℂ)

/-- Charge density of mode `m` at a node off the axis: charge per cell of the plane over the length of the circle. On a grid that starts on the axis
the charge below the axis belongs to the mirror node, at the opposite angle. -/
noncomputable def ringDensity (a b : ℕ) (g : Geo) (ps : List Part) (m : ℕ) (j l : ℤ) : ℂ :=
  (densityM a b g ps m j l + if g.xmin = 0 then (-1) ^ m * densityM a b g ps m (-j) l else 0) / ((2 * Real.pi * (g.xmin + j * g.dx) : ℝ) : ℂ)

/-- Charge per volume on the axis, mode 0: the cell is a cylinder of radius `dr/2` (option 1: the corrected volume). -/
noncomputable def axisDensity (ty : ℤ) (a b : ℕ) (g : Geo) (ps : List Part) (l : ℤ) : ℂ :=
  densityM a b g ps 0 0 l / ((Real.pi * g.dx / (if ty = 1 then 3 else 4) : ℝ) : ℂ)

/-- Nothing deposited yet. -/
def EmptyC (A : CArr) : Prop := ∀ j l m, A.val j l m = 0

/-- An array that a grid starting on the axis may use: it contains the axis, and no more rows below than above. -/
def AxisArr (a : CArr) : Prop := a.jlo ≤ 0 ∧ 0 ≤ a.jhi ∧ -a.jlo ≤ a.jhi

/-- An array that contains the first row, with no row on the axis; its rows are displaced by `s` cells. -/
def NoAxis (s rmin dr : ℝ) (a : CArr) : Prop := a.jlo ≤ 0 ∧ 0 ≤ a.jhi ∧ ∀ j : ℤ, a.jlo ≤ j → j ≤ a.jhi → rmin + (j + s) * dr ≠ 0

end Picsar.Spec
