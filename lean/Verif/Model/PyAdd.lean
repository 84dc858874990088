import Verif.Model.Tiling
/-
`py_add_particles_to_species`, src/parallelization/tiling/tiling.F90:1382-1399.
-/
namespace Picsar.Tiling
open Picsar Picsar.Grid

variable {n : ℕ}

/-- `py_add_particles_to_species` (tiling.F90:1394-1397). Simplification: `npiid` is `npid` (other values make the assignment in tiling.F90:448 invalid). -/
noncomputable def pyAdd (g : Geo) (ps : List (Part n)) (S : Species n) : Res (Species n) := ps.foldlM (fun S p => addSpecies g.idx p S) S

end Picsar.Tiling
