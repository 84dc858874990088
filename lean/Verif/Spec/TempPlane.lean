import Verif.Spec.TempEnergy
/-
The norm of a quantity on a plane.
-/
namespace Picsar.Energy
open Picsar Picsar.Grid

/-- Sum of the squares over the nodes `1..nx`, `1..nz` of plane `y`. -/
noncomputable def planeSquares (nx nz y : ℤ) (F : I3 → ℝ) : ℝ := ∑ l ∈ Finset.Icc 1 nz, ∑ j ∈ Finset.Icc 1 nx, F ⟨j, y, l⟩ ^ 2

end Picsar.Energy
