import Verif.Model.ParticleBcs
/-
Moving window: `pxr_move_sim_boundaries`, src/boundary_conditions/field_boundaries.F90. Real arithmetic.
-/
namespace Picsar.Window
open Picsar Picsar.Grid Picsar.Tiling Picsar.ParticleBcs

/-- The limits of one direction (module `shared_data`, src/modules/modules.F90:1406-1560): `xmin`, `xmax`, `xmin_part`, `xmax_part`, `x_grid_min`,
`x_grid_max`, `x_min_local`, `x_max_local`, `x_min_local_part`, `x_max_local_part`, `x_grid_min_local`, `x_grid_max_local`. -/
structure Bnd where
  min : ℝ
  max : ℝ
  minPart : ℝ
  maxPart : ℝ
  gridMin : ℝ
  gridMax : ℝ
  minLoc : ℝ
  maxLoc : ℝ
  minLocPart : ℝ
  maxLocPart : ℝ
  gridMinLoc : ℝ
  gridMaxLoc : ℝ

/-- The state the routine works on: limits per direction, numbers of tiles, number of species, extents of the tiles of each species, and the
tables `x_grid_mins`, `x_grid_maxs` of the limits of all processes (src/modules/modules.F90:1515-1526), indexed by coordinate. -/
structure World where
  b : Ax → Bnd
  nt : I3
  nspecies : ℕ
  tiles : ℕ → I3 → Ax → Ext
  mins : Ax → ℤ → ℝ
  maxs : Ax → ℤ → ℝ

/-- Global and local limits of one direction (field_boundaries.F90:1955-2001). -/
def moveBnd (d : ℝ) (b : Bnd) : Bnd :=
  ⟨b.min + d, b.max + d, b.minPart + d, b.maxPart + d, b.gridMin + d, b.gridMax + d, b.minLoc + d, b.maxLoc + d, b.minLocPart + d, b.maxLocPart + d,
    b.gridMinLoc + d, b.gridMaxLoc + d⟩

/-- Limits of a tile in one direction (field_boundaries.F90:2011-2029). -/
def moveExt (d : ℝ) (e : Ext) : Ext := ⟨e.nGrid, e.nMin, e.nMax, e.gridMin + d, e.gridMax + d, e.lo + d, e.hi + d⟩

/-- One pass of the innermost loop. -/
def moveTile (d : Ax → ℝ) (is : ℕ) (u : I3) (t : ℕ → I3 → Ax → Ext) : ℕ → I3 → Ax → Ext :=
  Function.update t is (Function.update (t is) u fun a => moveExt (d a) (t is u a))

/-- The loops over species and tiles (field_boundaries.F90:2004-2034). -/
def moveTiles (d : Ax → ℝ) (nt : I3) (K : ℕ) (t : ℕ → I3 → Ax → Ext) : ℕ → I3 → Ax → Ext :=
  (List.range K).foldl (fun t is => (box ⟨1, 1, 1⟩ nt).foldl (fun t u => moveTile d is u t) t) t

/-- `pxr_move_sim_boundaries(dxx, dyy, dzz)` (field_boundaries.F90:1946-2036). The tables of all processes are not touched. -/
def move (d : Ax → ℝ) (w : World) : World :=
  ⟨fun a => moveBnd (d a) (w.b a), w.nt, w.nspecies, moveTiles d w.nt w.nspecies w.tiles, w.mins, w.maxs⟩

end Picsar.Window
