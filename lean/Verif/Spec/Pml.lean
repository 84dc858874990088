import Verif.Model.Pml
/-
Where the absorbing layers are and how deep a point lies in them.
-/
namespace Picsar.Pml
open Picsar Picsar.Grid

/-- Parameters that make sense: the layers fit into the domain with its guard cells, and the shift does not exceed the guard cells. -/
structure Par.Ok (P : Par) : Prop where
  guards : 0 ≤ P.guards
  shift : 0 ≤ P.shift ∧ P.shift ≤ P.guards
  pml : 0 ≤ P.pml
  fits : P.pml < P.n + P.guards + P.c
  n : 0 ≤ P.n
  cdx : 0 < P.cdx
  dt : 0 < P.dt

/-- Number of cells by which the layers reach into the guard cells. -/
def Par.reach (P : Par) : ℤ := if P.hybrid then 0 else P.guards - P.shift

/-- Inner edges of the layers: the lower one begins at `-reach` and is `pml` cells thick, the upper one ends `pml` cells after its inner edge. -/
noncomputable def Par.lowEdge (P : Par) : ℝ := P.pml - P.reach
noncomputable def Par.upEdge (P : Par) : ℝ := P.n - 1 + P.reach - P.pml

/-- Depth of position `q` (in cells; nodes at integers, midpoints at half-integers) in the layers, zero outside. A position in both layers counts for the
upper one. -/
noncomputable def Par.depth (P : Par) (q : ℝ) : ℝ :=
  if P.upEdge < q ∧ q ≤ P.upEdge + P.pml then q - P.upEdge
  else if P.lowEdge - P.pml ≤ q ∧ q < P.lowEdge then P.lowEdge - q
  else 0

/-- Damping per step at depth `d`. -/
noncomputable def Par.damping (P : Par) (d : ℝ) : ℝ := Real.exp (-(4 / 25 * P.cdx * d ^ 2) * P.dt)

/-- Nodes carry E, midpoints carry B. -/
noncomputable def posE (i : ℤ) : ℝ := i
noncomputable def posB (i : ℤ) : ℝ := i + 1 / 2

/-- The factors of a direction are in (0,1]. -/
def Contracting (a : RArr) : Prop := ∀ i, a.lo ≤ i → i ≤ a.hi → 0 < a.val i ∧ a.val i ≤ 1

end Picsar.Pml
