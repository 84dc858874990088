import Verif.Model.Energy
import Verif.Model.ChargeVec
/-
The local values of the energies in the temporal diagnostics: `get_loc_kinetic_energy`, `get_loc_field_energy_2d` (src/diags/diags.F90) and their use in
`output_temporal_diagnostics` (src/ios/simple_io.F90:268-370).
-/
namespace Picsar.Energy
open Picsar Picsar.Grid

/-- One particle, given by `part_gaminv` and `pid(wpid)` (diags.F90:908-911). -/
noncomputable def addKin (s : ℝ) (p : ℝ × ℝ) : Res ℝ := if p.1 = 0 then .error .divByZero else .ok (s + (1 / p.1 - 1) * p.2)

/-- `get_loc_kinetic_energy` (diags.F90:867-925): tiles, blocks of `LVEC2 = 16` particles, particles. -/
noncomputable def locKin (nt : I3) (tiles : I3 → List (ℝ × ℝ)) : Res ℝ :=
  (box ⟨1, 1, 1⟩ nt).foldlM (fun (s : ℝ) (u : I3) =>
    (List.range (ChargeVec.nblocks 16 (tiles u).length)).foldlM (fun (s : ℝ) (b : ℕ) => (ChargeVec.block 16 (tiles u) b).foldlM addKin s) s) 0

/-- The local value for one species (simple_io.F90:270-275): the same factor for every species. -/
noncomputable def kinDiag (emass clight : ℝ) (nt : I3) (tiles : I3 → List (ℝ × ℝ)) : Res ℝ := do
  let e ← locKin nt tiles
  .ok (e * emass * clight ^ 2)

/-- Sequence association: the element of the actual argument `a` that is element `(j, 1, l)` of the dummy argument
`field(-nxguard:nx2+nxguard, 1, -nzguard:nz2+nzguard)` (diags.F90:1039-1040). Both are stored by columns. -/
def assoc (a : Arr) (nx nxg nzg j l : ℤ) : I3 :=
  let o := (j + nxg) + (nx + 2 * nxg + 1) * (l + nzg)
  let w := a.hi.j - a.lo.j + 1
  let h := a.hi.k - a.lo.k + 1
  ⟨a.lo.j + o % w, a.lo.k + o / w % h, a.lo.l + o / (w * h)⟩

/-- `get_loc_field_energy_2d` (diags.F90:1042-1056), multiplied by `c0`, which is `eps0` or `imu0` (simple_io.F90:284-361). -/
noncomputable def fieldDiag2 (c0 dx dz : ℝ) (a : Arr) (nx nz nxg nzg : ℤ) : Res ℝ := do
  let s ← (box ⟨1, 1, 1⟩ ⟨nx, 1, nz⟩).foldlM (fun (s : ℝ) (i : I3) => do
    let v ← a.get (assoc a nx nxg nzg i.j i.l)
    .ok (s + v * v * (1 / 2))) 0
  .ok (s * dx * dz * c0)

/-- `ALLOCATE(ex(-nxguards:nx+nxguards, -nyguards:ny+nyguards, -nzguards:nz+nzguards))` (mpi_routines.F90:1786) in two dimensions, where `ny = 1` and
`nyguards = 0` (mpi_routines.F90:1530-1537); the same for the other components. -/
def field2 (nx nz nxg nzg : ℤ) (F : I3 → ℝ) : Arr := ⟨⟨-nxg, 0, -nzg⟩, ⟨nx + nxg, 1, nz + nzg⟩, F⟩

end Picsar.Energy
