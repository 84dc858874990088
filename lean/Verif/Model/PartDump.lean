import Verif.Model.FieldFile
import Mathlib.Data.Fin.VecNotation

/-
The particle dumps of src/ios/simple_io.F90: `write_particles_to_file`, `get_particles_to_dump`, `concatenate_particle_variable`,
`write_particle_variable`. Real numbers; one position of a file is 8 bytes, since all offsets are multiples of `SIZEOF(arr(1))`.
The list of tiles is in the order of the loops over `iz, iy, ix`; a tile is the list of its `np_tile` particles.
-/
namespace Picsar.PartDump
open Picsar

/-- One particle: the attributes read by the dump (`part_x` ... `part_uz`, `pid(:, wpid)`). -/
structure Part where
  x : ℝ
  y : ℝ
  z : ℝ
  ux : ℝ
  uy : ℝ
  uz : ℝ
  w : ℝ

/-- The cases of `concatenate_particle_variable` (simple_io.F90:783-846); `var` counts from 0. -/
def Part.var (p : Part) : Fin 7 → ℝ := ![p.x, p.y, p.z, p.ux, p.uy, p.uz, p.w]

/-- The limits of a `particle_dump`: `dump_x_min`, `dump_x_max`, ... in the order x, y, z, ux, uy, uz. -/
structure Window where
  min : Fin 6 → ℝ
  max : Fin 6 → ℝ

open Classical in
/-- The test of `get_particles_to_dump` (simple_io.F90:729-734). -/
noncomputable def Window.sel (W : Window) (p : Part) : Bool :=
  decide (p.x > W.min 0 ∧ p.x < W.max 0 ∧ p.y > W.min 1 ∧ p.y < W.max 1 ∧ p.z > W.min 2 ∧ p.z < W.max 2 ∧
    p.ux > W.min 3 ∧ p.ux < W.max 3 ∧ p.uy > W.min 4 ∧ p.uy < W.max 4 ∧ p.uz > W.min 5 ∧ p.uz < W.max 5)

/-- Body of the loop over the particles of a tile in `get_particles_to_dump` (simple_io.F90:722-737): `mask(ip)` with the index `ip`
inside the tile (here from 0), checked against `mask(narr)`. -/
noncomputable def mark (W : Window) (narr : ℕ) (st : (ℕ → Bool) × ℕ) (p : Part × ℕ) : Res ((ℕ → Bool) × ℕ) :=
  if W.sel p.1 then
    if p.2 < narr then .ok (Function.update st.1 p.2 true, st.2 + 1) else .error .outOfBounds
  else .ok st

/-- `get_particles_to_dump` (simple_io.F90:692-743): the mask and `ndump`. -/
noncomputable def getParticlesToDump (W : Window) (narr : ℕ) (tiles : List (List Part)) : Res ((ℕ → Bool) × ℕ) :=
  tiles.foldlM (fun st t => t.zipIdx.foldlM (mark W narr) st) (fun _ => false, 0)

/-- Local variables of `concatenate_particle_variable`: `np`, `ncurr` and the array `arr(narr)`, where `none` is an element without a
value. -/
structure Cat where
  np : ℕ
  ncurr : ℕ
  arr : ℕ → Option ℝ

/-- Body of the loop of `concatenate_particle_variable` (simple_io.F90:785-791): `np = np+1`, test of `mask(np)`, store. -/
noncomputable def Cat.step (mask : ℕ → Bool) (nmask ndump : ℕ) (v : Fin 7) (c : Cat) (p : Part) : Res Cat :=
  if c.np < nmask then
    if mask c.np then
      if c.ncurr < ndump then .ok ⟨c.np + 1, c.ncurr + 1, Function.update c.arr c.ncurr (some (p.var v))⟩ else .error .outOfBounds
    else .ok ⟨c.np + 1, c.ncurr, c.arr⟩
  else .error .outOfBounds

/-- `concatenate_particle_variable` (simple_io.F90:757-852): the new content of `arr`. -/
noncomputable def concatenate (mask : ℕ → Bool) (nmask ndump : ℕ) (v : Fin 7) (tiles : List (List Part)) (arr : ℕ → Option ℝ) :
    Res (ℕ → Option ℝ) := do
  let c ← tiles.foldlM (fun c t => t.foldlM (Cat.step mask nmask ndump v) c) ⟨0, 0, arr⟩
  .ok c.arr

/-- A value written to a file; `none` is an element of `arr` that has no value. -/
abbrev Write := ℕ × Option ℝ

/-- `write_particle_variable` (simple_io.F90:862-876): `ndump` values at `offset`, the same for every process. -/
def blockWrites (offset ndump : ℕ) (arr : ℕ → Option ℝ) : List Write := (List.range ndump).map fun i => (offset + i, arr i)

/-- The seven calls (simple_io.F90:650-687): the array is reused, the offset grows by `ndump`. -/
noncomputable def blocks (mask : ℕ → Bool) (nmask ndump : ℕ) (tiles : List (List Part)) :
    List (Fin 7) → ℕ → (ℕ → Option ℝ) → Res (List Write)
  | [], _, _ => .ok []
  | v :: vs, offset, arr => do
    let arr' ← concatenate mask nmask ndump v tiles arr
    let rest ← blocks mask nmask ndump tiles vs (offset + ndump) arr'
    .ok (blockWrites offset ndump arr' ++ rest)

/-- What one process writes for one dump (simple_io.F90:634-687); `narr` is its `species_npart`. -/
noncomputable def writesOf (W : Window) (narr : ℕ) (tiles : List (List Part)) : Res (List Write) := do
  let m ← getParticlesToDump W narr tiles
  blocks m.1 narr m.2 tiles [0, 1, 2, 3, 4, 5, 6] 0 fun _ => none

/-- A process: its `species_npart` and its tiles. -/
structure Proc where
  narr : ℕ
  tiles : List (List Part)

noncomputable def allWrites (W : Window) : List Proc → Res (List Write)
  | [] => .ok []
  | p :: ps => do
    let a ← writesOf W p.narr p.tiles
    let b ← allWrites W ps
    .ok (a ++ b)

/-- Content of a file: `none` outside the file. -/
abbrev File := ℕ → Option (Option ℝ)

/-- The file after writes in this order. The file is opened without truncation (`MPI_MODE_CREATE + MPI_MODE_WRONLY`). -/
def written (f : File) (ws : List Write) : File := ws.foldl (fun f w => Function.update f w.1 (some w.2)) f

/-- Name of the file (simple_io.F90:643-645). -/
def name (species : List Char) (it : ℕ) : List Char := "./RESULTS/".toList ++ (species ++ ("_it_".toList ++ FieldFile.i5 it))

/-- A `particle_dump`: name of its species, period, limits. -/
structure Dump where
  species : List Char
  period : ℤ
  W : Window

/-- `dp%diag_period .lt. 1` and `MOD(it, dp%diag_period) .NE. 0` (simple_io.F90:629-630). -/
def Dump.due (d : Dump) (it : ℕ) : Bool := decide (1 ≤ d.period) && decide ((it : ℤ).tmod d.period = 0)

/-- `write_particles_to_file` (simple_io.F90:600-706) in a run with one process; `parts` gives `species_npart` and the tiles of a
species. -/
noncomputable def writeParticles (parts : List Char → Proc) (it : ℕ) :
    List Dump → (List Char → File) → Res (List Char → File)
  | [], fs => .ok fs
  | d :: ds, fs =>
    if d.due it then do
      let ws ← writesOf d.W (parts d.species).narr (parts d.species).tiles
      writeParticles parts it ds (Function.update fs (name d.species it) (written (fs (name d.species it)) ws))
    else writeParticles parts it ds fs

end Picsar.PartDump
