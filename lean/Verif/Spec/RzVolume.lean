import Verif.Spec.Deposition2d
import Verif.Spec.MaxwellGeo
import Verif.Model.RzVolume

/-
Specification vocabulary for the division by the cell volumes in r-z.
-/
namespace Picsar.Spec
open Picsar Picsar.Grid Picsar.Deposition

/-- Volume of the cell around the node of index `j`: the ring between the radii `r - dr/2` and `r + dr/2`, of height `dz`; on the axis the
cylinder of radius `dr/2`. -/
noncomputable def ringVolume (rmin dr dz : ℝ) (j : ℤ) : ℝ :=
  Real.pi * ((rmin + j * dr + dr / 2) ^ 2 - (max (rmin + j * dr - dr / 2) 0) ^ 2) * dz

/-- Mirror image added: what was deposited at `j` and, below the axis, at `-j`. -/
def mirrored (a : Arr) (j l : ℤ) : ℝ := a.val ⟨j, 0, l⟩ + if 1 ≤ j ∧ a.lo.j ≤ -j then a.val ⟨-j, 0, l⟩ else 0

/-- A memory holding the three currents. -/
def currentsOf (jr jt jz : Arr) : Mem := fun c => match c with
  | .jx => jr
  | .jy => jt
  | _ => jz

end Picsar.Spec
