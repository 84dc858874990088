import Verif.Model.Grid
/-
Energy diagnostics: `compute_em_energy` (src/field_solvers/Maxwell/maxwell_solver_manager.F90), `get_field_energy`, `get_kinetic_energy`
(src/diags/diags.F90), `compute_kin_energy` (src/particle_pushers/kin_energy.F90). Real arithmetic; sums in the order of the loops (OpenMP reductions
may use another order, which does not matter for exact sums).
-/
namespace Picsar.Energy
open Picsar Picsar.Grid

/-- `SUM(ABS(a(0:nx-1, 0:ny-1, 0:nz-1)**2))` (maxwell_solver_manager.F90:110-124). -/
noncomputable def sumSq (a : Arr) (n : I3) : Res ℝ :=
  (box ⟨0, 0, 0⟩ ⟨n.j - 1, n.k - 1, n.l - 1⟩).foldlM (fun s i => do
    let v ← a.get i
    .ok (s + |v ^ 2|)) 0

/-- Constants: `eps0`, `mu0`, `dx*dy*dz`. -/
structure Const where
  eps0 : ℝ
  mu0 : ℝ
  vol : ℝ

/-- `compute_em_energy` up to the reduction: `(electro_energy_mpi, magnetic_energy_mpi)` (maxwell_solver_manager.F90:106-126). -/
noncomputable def emEnergy (C : Const) (M : Mem) (n : I3) : Res (ℝ × ℝ) := do
  let ex ← sumSq (M .ex) n
  let ey ← sumSq (M .ey) n
  let ez ← sumSq (M .ez) n
  let bx ← sumSq (M .bx) n
  let by' ← sumSq (M .by') n
  let bz ← sumSq (M .bz) n
  .ok ((ex * C.vol + ey * C.vol + ez * C.vol) * (1 / 2) * C.eps0, (bx * C.vol + by' * C.vol + bz * C.vol) * (1 / 2) / C.mu0)

/-- `get_loc_field_energy` and the local part of `get_field_energy` (diags.F90:1072-1100, 1171-1210): sum over `1:nx2, 1:ny2, 1:nz2`; the volume
is multiplied before or after the reduction. -/
noncomputable def fieldSum (a : Arr) (n : I3) : Res ℝ :=
  (box ⟨1, 1, 1⟩ n).foldlM (fun s i => do
    let v ← a.get i
    .ok (s + v * v * (1 / 2))) 0

/-- `MPI_ALLREDUCE(..., MPI_SUM, ...)`: the sum over all processes, a fault of one process is a fault of the reduction. -/
def allreduce (l : List (Res ℝ)) : Res ℝ := l.foldlM (fun s r => do
  let v ← r
  .ok (s + v)) 0

/-! ### Kinetic energy -/

/-- What is used of a tile: `part_gaminv(1:np_tile)` and `kin_energy_tile`, which has no initial value (src/modules/modules.F90:341). -/
structure KTile where
  gam : List ℝ
  kin : Option ℝ

/-- What is used of a species: `is_antenna`, `mass`, `nppcell`, tiles. -/
structure KSpecies where
  antenna : Bool
  mass : ℝ
  nppcell : ℤ
  tiles : I3 → KTile

/-- `compute_kin_energy_vector` (kin_energy.F90:109-143), with `mc2 = mass*clight**2*ppid`. -/
noncomputable def kinVec (gam : List ℝ) (mc2 : ℝ) : Res ℝ :=
  gam.foldlM (fun (s g : ℝ) => if g = 0 then .error .divByZero else .ok (s + (1 / g - 1) * mc2)) 0

/-- Body of the first loop nest for one tile of one species (kin_energy.F90:71-78); `w` is `nc*dx*dy*dz`, `c` is `clight`. -/
noncomputable def kinTile (w c : ℝ) (S : KSpecies) (u : I3) : Res KSpecies :=
  if S.antenna then .ok S else
  if (S.tiles u).gam.length = 0 then .ok S else
  if S.nppcell = 0 then .error .divByZero else do
  let e ← kinVec (S.tiles u).gam (S.mass * c ^ 2 * (w / S.nppcell))
  .ok ⟨S.antenna, S.mass, S.nppcell, Function.update S.tiles u ⟨(S.tiles u).gam, some e⟩⟩

/-- Body of the second loop nest (kin_energy.F90:88-92): antenna species are not left out here. -/
def kinAdd (S : KSpecies) (u : I3) (sp : ℝ) : Res ℝ :=
  if (S.tiles u).gam.length = 0 then .ok sp else
  match (S.tiles u).kin with
  | some e => .ok (sp + e)
  | none => .error .uninitialised

/-- Both loop nests for one species. In the code the species are the innermost loop; they do not share data. -/
noncomputable def kinSpecies (w c : ℝ) (nt : I3) (S : KSpecies) : Res ℝ := do
  let S ← (box ⟨1, 1, 1⟩ nt).foldlM (kinTile w c) S
  (box ⟨1, 1, 1⟩ nt).foldlM (fun sp u => kinAdd S u sp) 0

/-- `compute_kin_energy` up to the reduction: `kin_energy_mpi` (kin_energy.F90:57-102). -/
noncomputable def kinEnergy (w c : ℝ) (nt : I3) (Ss : List KSpecies) : Res ℝ := allreduce (Ss.map (kinSpecies w c nt))

/-- The loop of `get_kinetic_energy` on one process (diags.F90:961-1006) for the particles of all tiles, `(part_gaminv, pid(wpid))` each. The OpenMP
reduction adds to the value the variable had before the loop; in the code it has none (`loc = none`). -/
noncomputable def getKin (loc : Option ℝ) (ps : List (ℝ × ℝ)) : Res ℝ := do
  let e ← ps.foldlM (fun (s : ℝ) (p : ℝ × ℝ) => if p.1 = 0 then .error .divByZero else .ok (s + (1 / p.1 - 1) * p.2)) 0
  match loc with
  | some v => .ok (v + e)
  | none => .error .uninitialised

end Picsar.Energy
