import Verif.Model.TempEnergy
import Verif.Spec.Energy
/-
Energies of a species and of a plane.
-/
namespace Picsar.Energy
open Picsar Picsar.Grid

/-- Kinetic energy of the particles of all tiles, each with momentum and weight. -/
noncomputable def kineticTotal (m c : ℝ) (nt : I3) (P : I3 → List ((ℝ × ℝ × ℝ) × ℝ)) : ℝ :=
  boxSum ⟨1, 1, 1⟩ nt fun u => ((P u).map fun q => kinetic m c q.2 q.1).sum

/-- What is stored of the particles. -/
noncomputable def stored (c : ℝ) (P : I3 → List ((ℝ × ℝ × ℝ) × ℝ)) (u : I3) : List (ℝ × ℝ) := (P u).map fun q => (gaminv c q.1, q.2)

/-- Energy of a field component, per unit length along y, on the nodes `1..nx`, `1..nz` of plane `y`. -/
noncomputable def planeEnergy (c0 dx dz : ℝ) (nx nz y : ℤ) (F : I3 → ℝ) : ℝ :=
  c0 / 2 * dx * dz * ∑ l ∈ Finset.Icc 1 nz, ∑ j ∈ Finset.Icc 1 nx, F ⟨j, y, l⟩ ^ 2

end Picsar.Energy
