import Verif.Model.TileOmp
/-
OpenMP exchange of particles between tiles in two dimensions: `particle_bcs_tiles_2d_openmp`, src/boundary_conditions/particle_boundaries.F90:618-716.

The threads and their steps are those of `Model/TileOmp.lean`, with the tests and the tile index of two dimensions (`Geo.inTile2`, `Geo.inDom2`,
`Geo.idx2`; particle_boundaries.F90:676-694 has the same tests as 578-595). Simplification: particles are removed and added by `rmTile` and `addTile`
instead of `rm_particle_at_tile_2d` and `add_particle_at_tile_2d`; for particles in the plane the two pairs are the same (`C177_storage`).
-/
namespace Picsar.Tiling
open Picsar Picsar.Grid

/-- The 9 parallel loops (particle_boundaries.F90:647, 661-662): `iy=1` throughout. -/
def colours2 : List I3 := box ⟨1, 1, 1⟩ ⟨3, 1, 3⟩

end Picsar.Tiling
