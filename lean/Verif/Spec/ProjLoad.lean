import Verif.Model.ProjLoad
/-
What the load of a plane of cells is.
-/
namespace Picsar.ProjLoad

/-- The position `v` lies in plane `c` of the cells along axis `a`. -/
def InPlane (g : Grid) (a : Axis) (c : ℕ) (v : ℝ) : Prop := g.gmin a + c * g.d a ≤ v ∧ v < g.gmin a + (c + 1) * g.d a

/-- All particles lie in the grid, as seen along axis `a`. -/
def AllInside (g : Grid) (a : Axis) (procs : List (List Pos)) : Prop :=
  ∀ ps ∈ procs, ∀ p ∈ ps, g.gmin a ≤ p.get a ∧ p.get a < g.gmin a + g.n a * g.d a

open Classical in
/-- Number of particles of all processes in plane `c`. -/
noncomputable def inPlane (g : Grid) (a : Axis) (c : ℕ) (procs : List (List Pos)) : ℕ := procs.flatten.countP fun p => decide (InPlane g a c (p.get a))

/-- Number of cells of the grid; the y axis does not count in two dimensions. -/
def cells (g : Grid) : ℕ := if g.dim2 then g.n .x * g.n .z else g.n .x * g.n .y * g.n .z

/-- The y axis is no axis of a two-dimensional grid. -/
def IsAxis (g : Grid) (a : Axis) : Prop := g.dim2 = true → a ≠ .y

end Picsar.ProjLoad
