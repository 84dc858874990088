import Verif.Model.Topology
/-
Split of the planes along z when one Fourier transform is distributed over all processes (`fftw_with_mpi` without `fftw_hybrid`): `adjust_grid_mpi_global`,
src/parallelization/mpi/mpi_routines.F90:1236-1312. The split is along z only: `nprocx = nprocy = 1`, `nprocz = nproc` (mpi_routines.F90:219-223).
-/
namespace Picsar.Topology
open Picsar Picsar.Grid

/-- `all_nz` after `MPI_ALLGATHER` (mpi_routines.F90:1253-1259): element `r+1` is the number of planes `local_nz` of the process of rank `r`. -/
def allNz (n : ℤ) (nz : ℤ → ℤ) : IArr := ⟨n, fun i => some (nz (i - 1))⟩

/-- Body of the loop (mpi_routines.F90:1264-1267). -/
def fftwStep (a : IArr) (s : Split) (idim : ℤ) : Res Split := do
  let m ← s.cmax.get (idim - 1)
  let cmin ← s.cmin.set idim (m + 1)
  let lo ← cmin.get idim
  let v ← a.get idim
  let cmax ← s.cmax.set idim (lo + v - 1)
  pure ⟨cmin, cmax⟩

/-- `cell_z_min`, `cell_z_max` (mpi_routines.F90:1261-1267), from the arrays of the regular split before. -/
def fftwSplit (a : IArr) (n : ℤ) (s : Split) : Res Split := do
  let cmin ← s.cmin.set 1 0
  let v ← a.get 1
  let cmax ← s.cmax.set 1 (v - 1)
  (irange 2 n).foldlM (fftwStep a) ⟨cmin, cmax⟩

/-- The process of rank `r` and coordinate `z` (`z_coords`): its first and last plane on the grid of the simulation
(mpi_routines.F90:1269-1270), or `none` where the program stops with "ERROR IN AJUSTING THE GRID 1" (mpi_routines.F90:1551-1554). -/
def adjust (n nzGlobal : ℤ) (nz : ℤ → ℤ) (r z : ℤ) : Res (Option (ℤ × ℤ)) := do
  let s ← split nzGlobal n
  let s ← fftwSplit (allNz n nz) n s
  let lo ← s.cmin.get (z + 1)
  let hi ← s.cmax.get (z + 1)
  if nz r ≠ hi - lo + 1 then pure none else pure (some (lo, hi))

end Picsar.Topology
