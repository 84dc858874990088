import Verif.Model.Remap2d
/-
Nodes of a process in a plane.
-/
namespace Picsar.Remap
open Picsar Picsar.Grid

/-- There is at least one node. -/
def Lim2.Ok (L : Lim2) : Prop := L.x1 ≤ L.x2 ∧ L.z1 ≤ L.z2

/-- Node `(x, z)` of the global grid belongs to the subdomain with limits `L` (both end nodes included). -/
def Lim2.Has (L : Lim2) (x z : ℤ) : Prop := L.x1 ≤ x ∧ x ≤ L.x2 ∧ L.z1 ≤ z ∧ z ≤ L.z2

/-- The element of node `(x, z)` in the array of a process with limits `L`. -/
def Lim2.loc (L : Lim2) (x z : ℤ) : I3 := ⟨x - L.x1, 0, z - L.z1⟩

end Picsar.Remap
