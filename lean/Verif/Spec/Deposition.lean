import Verif.Model.Deposition
import Verif.Spec.Maxwell

/-
Specification vocabulary for the deposition routines: the standard B-spline shape factors and the charge density they give.
-/
namespace Picsar.Spec
open Picsar Picsar.Grid Picsar.Deposition

/-- B-spline shape factor of order 1, 2 or 3 at distance `u` (in cells). -/
noncomputable def bspline (n : ℕ) (u : ℝ) : ℝ :=
  match n with
  | 1 => if |u| ≤ 1 then 1 - |u| else 0
  | 2 => if |u| ≤ 1 / 2 then 3 / 4 - u ^ 2 else if |u| ≤ 3 / 2 then (3 / 2 - |u|) ^ 2 / 2 else 0
  | 3 => if |u| ≤ 1 then 2 / 3 - u ^ 2 + |u| ^ 3 / 2 else if |u| ≤ 2 then (2 - |u|) ^ 3 / 6 else 0
  | _ => 0

/-- Charge density at node `(j,k,l)` of one macroparticle with B-spline shape of order `n`. -/
noncomputable def density (n : ℕ) (g : Geo) (p : Part) (j k l : ℤ) : ℝ :=
  g.q * p.w / (g.dx * g.dy * g.dz) * bspline n ((p.x - g.xmin) / g.dx - j) * bspline n ((p.y - g.ymin) / g.dy - k) *
    bspline n ((p.z - g.zmin) / g.dz - l)

/-- Charge density of a set of particles. -/
noncomputable def densities (n : ℕ) (g : Geo) (ps : List Part) (j k l : ℤ) : ℝ :=
  (ps.map fun p => density n g p j k l).sum

/-- Where the particle was one time step earlier. -/
noncomputable def before (g : Geo) (p : Part) : Part :=
  { p with x := p.x - g.dt * (p.ux * p.gaminv), y := p.y - g.dt * (p.uy * p.gaminv), z := p.z - g.dt * (p.uz * p.gaminv) }

/-- The particle moved by less than one cell in every direction. -/
def Slow (g : Geo) (p : Part) : Prop :=
  |g.dt * (p.ux * p.gaminv)| < g.dx ∧ |g.dt * (p.uy * p.gaminv)| < g.dy ∧ |g.dt * (p.uz * p.gaminv)| < g.dz

/-- Positive cell sizes. -/
def Geo.Ok (g : Geo) : Prop := 0 < g.dx ∧ 0 < g.dy ∧ 0 < g.dz

/-- The array extends at least `m` cells around the particle. -/
def Inside (m : ℝ) (g : Geo) (a : Arr) (p : Part) : Prop :=
  a.lo.j + m ≤ (p.x - g.xmin) / g.dx ∧ (p.x - g.xmin) / g.dx ≤ a.hi.j - m ∧
  a.lo.k + m ≤ (p.y - g.ymin) / g.dy ∧ (p.y - g.ymin) / g.dy ≤ a.hi.k - m ∧
  a.lo.l + m ≤ (p.z - g.zmin) / g.dz ∧ (p.z - g.zmin) / g.dz ≤ a.hi.l - m

/-- Cells needed around a particle by the current deposition of order `n`. -/
noncomputable def reach (n : ℕ) : ℝ := if n = 1 then 2 else 3

/-- Cells needed around a particle by the charge deposition of order `n`. -/
noncomputable def reachRho (n : ℕ) : ℝ := if n = 1 then 1 else 2

end Picsar.Spec
