import Verif.Spec.Deposition
import Mathlib.Data.Int.Interval

/-
Specification vocabulary for the current deposition: Esirkepov's current of a particle that moved from one position to another,
written with the B-spline shape factors (T. Zh. Esirkepov, Comput. Phys. Comm. 135 (2001) 144).
-/
namespace Picsar.Spec
open Picsar Picsar.Grid Picsar.Deposition

/-- Part of the shape that crossed from the nodes up to `j` to the nodes beyond `j` when the particle moved from `xo` to `x` (cells). No shape
factor reaches below the first node of the sum. -/
noncomputable def flux (n : ℕ) (x xo : ℝ) (j : ℤ) : ℝ :=
  ∑ m ∈ Finset.Icc (⌊min x xo⌋ - 2) j, (bspline n (xo - m) - bspline n (x - m))

/-- Average of the transverse shape over the motion from `(yo, zo)` to `(y, z)`. -/
noncomputable def average (n : ℕ) (y yo z zo : ℝ) (k l : ℤ) : ℝ :=
  bspline n (y - k) * bspline n (z - l) + 1 / 2 * (bspline n (yo - k) - bspline n (y - k)) * bspline n (z - l) +
    1 / 2 * bspline n (y - k) * (bspline n (zo - l) - bspline n (z - l)) +
    1 / 3 * (bspline n (yo - k) - bspline n (y - k)) * (bspline n (zo - l) - bspline n (z - l))

/-- Position in cells of a coordinate. -/
noncomputable def cells (x xmin dx : ℝ) : ℝ := (x - xmin) / dx

/-- Current density of one macroparticle at a node. -/
noncomputable def current (n : ℕ) (g : Geo) (p : Part) (c : Comp) (i : I3) : ℝ :=
  let x := cells p.x g.xmin g.dx
  let y := cells p.y g.ymin g.dy
  let z := cells p.z g.zmin g.dz
  let xo := cells (before g p).x g.xmin g.dx
  let yo := cells (before g p).y g.ymin g.dy
  let zo := cells (before g p).z g.zmin g.dz
  match c with
  | .jx => g.q * p.w / (g.dt * g.dy * g.dz) * flux n x xo i.j * average n y yo z zo i.k i.l
  | .jy => g.q * p.w / (g.dt * g.dx * g.dz) * flux n y yo i.k * average n x xo z zo i.j i.l
  | .jz => g.q * p.w / (g.dt * g.dx * g.dy) * flux n z zo i.l * average n x xo y yo i.j i.k
  | _ => 0

/-- Current density of a set of particles of one species. -/
noncomputable def currents (n : ℕ) (g : Geo) (ps : List Part) (c : Comp) (i : I3) : ℝ := (ps.map fun p => current n g p c i).sum

/-- The array leaves room for the shape of order `n` (half width `(n+1)/2`) around the particle. -/
def Room (n : ℕ) (g : Geo) (lo hi : I3) (p : Part) : Prop :=
  lo.j + ((n : ℝ) + 1) / 2 < cells p.x g.xmin g.dx ∧ cells p.x g.xmin g.dx < hi.j - ((n : ℝ) + 1) / 2 ∧
  lo.k + ((n : ℝ) + 1) / 2 < cells p.y g.ymin g.dy ∧ cells p.y g.ymin g.dy < hi.k - ((n : ℝ) + 1) / 2 ∧
  lo.l + ((n : ℝ) + 1) / 2 < cells p.z g.zmin g.dz ∧ cells p.z g.zmin g.dz < hi.l - ((n : ℝ) + 1) / 2

end Picsar.Spec
