import Verif.Model.TileOmp
/-
Counting of the particles to send and filling of the send buffers in the combined exchange: `particle_bcs_tiles_and_mpi_3d`,
src/boundary_conditions/particle_boundaries.F90:2107-2667, for one species (the code does the same for each species).
-/
namespace Picsar.SendCount
open Picsar Picsar.Grid Picsar.Tiling

/-- `npart(1:27)` of the tile buffers: particles to send in each direction, found by the thread of the tile. -/
abbrev Counts := I3 → ℤ → ℤ

/-- Where the thread of a tile is in the update of `mpi_npart` (particle_boundaries.F90:2577-2582): before it, after reading `mpi_npart(1:27)`,
done. The comments `!OMP CRITICAL` are not directives: the sentinel is `!$OMP`. -/
inductive Pos where
  | start
  | read (v : ℤ → ℤ)
  | done

/-- `mpi_npart(1:27)` of the species and the threads. -/
structure Cfg where
  npart : ℤ → ℤ
  pos : I3 → Pos

/-- `subdomain_bound` (src/parallelization/tiling/tiling.F90:155, 177, 190, 212, 225, 247). -/
def Border (nt u : I3) : Prop := u.j = 1 ∨ u.j = nt.j ∨ u.k = 1 ∨ u.k = nt.k ∨ u.l = 1 ∨ u.l = nt.l

instance (nt u : I3) : Decidable (Border nt u) := by unfold Border; infer_instance

/-- One step of the thread of tile `u`: tiles that are not at the border skip the update; the others read and then write
(particle_boundaries.F90:2577-2583). -/
inductive Step (nt : I3) (n : Counts) : I3 → Cfg → Cfg → Prop
  | skip {c : Cfg} {u : I3} : c.pos u = .start → ¬ Border nt u → Step nt n u c ⟨c.npart, Function.update c.pos u .done⟩
  | read {c : Cfg} {u : I3} : c.pos u = .start → Border nt u → Step nt n u c ⟨c.npart, Function.update c.pos u (.read c.npart)⟩
  | write {c : Cfg} {u : I3} {v : ℤ → ℤ} : c.pos u = .read v → Step nt n u c ⟨fun ib => v ib + n u ib, Function.update c.pos u .done⟩

/-- Interleavings of the threads of the tiles `ws`. -/
inductive Steps (nt : I3) (n : Counts) (ws : List I3) : Cfg → Cfg → Prop
  | refl {c : Cfg} : Steps nt n ws c c
  | step {c c1 c2 : Cfg} {u : I3} : Steps nt n ws c c1 → u ∈ ws → Step nt n u c1 c2 → Steps nt n ws c c2

/-- Runs of a sequence of parallel loops (particle_boundaries.F90:2224-2255); each loop ends with a barrier. -/
inductive Run (nt : I3) (n : Counts) : List I3 → (ℤ → ℤ) → (ℤ → ℤ) → Prop
  | nil {v : ℤ → ℤ} : Run nt n [] v v
  | cons {cs : List I3} {col : I3} {v w : ℤ → ℤ} {c : Cfg} : Steps nt n (colourTiles nt col) ⟨v, fun _ => .start⟩ c →
      (∀ u ∈ colourTiles nt col, c.pos u = .done) → Run nt n cs c.npart w → Run nt n (col :: cs) v w

/-- A run with one thread: the tiles are processed one after the other. -/
def serial (nt : I3) (n : Counts) (us : List I3) (v : ℤ → ℤ) : ℤ → ℤ :=
  us.foldl (fun v u => if Border nt u then fun ib => v ib + n u ib else v) v

/-- First extent of `bufsend`: `MAXVAL(mpi_npart(:, :))` (particle_boundaries.F90:2613), over the 27 directions. -/
def bufSize (v : ℤ → ℤ) : ℤ := (irange 1 27).foldl (fun m ib => max m (v ib)) 0

/-- Copy of the tile buffers of direction `ib` into `bufsend` (particle_boundaries.F90:2638-2660): rows `j+1..j+k` must be rows of `bufsend`.
The result is the final `mpi_npart(ib)`. -/
def copyDir (size : ℤ) (n : Counts) (ib : ℤ) (us : List I3) (j : ℤ) : Res ℤ :=
  us.foldlM (fun j u => if n u ib = 0 then .ok j else if j + n u ib ≤ size then .ok (j + n u ib) else .error .outOfBounds) j

/-- All directions except the centre (particle_boundaries.F90:2630-2663). -/
def copyAll (size : ℤ) (n : Counts) (nt : I3) : Res Unit :=
  (irange 1 27).forM fun ib => if ib = 14 then .ok () else do
    let _ ← copyDir size n ib (box ⟨1, 1, 1⟩ nt) 0
    .ok ()

end Picsar.SendCount
