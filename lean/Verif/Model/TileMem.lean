import Verif.Model.Tiling
/-
`get_local_tile_mem`, src/parallelization/tiling/tiling.F90:1965-2024, particle arrays.
-/
namespace Picsar.Tiling
open Picsar Picsar.Grid

variable {n : ℕ}

/-- `SIZEOF` of an array of `REAL(num)`, eight bytes an element. -/
def sizeOf8 (b : FArr ℝ) : ℤ := 8 * max 0 b.n

/-- The arrays whose sizes are added up (tiling.F90:1991-2004); `pid` is the sum of its columns. -/
def memAttrs (n : ℕ) : List (Attr n) :=
  [.x, .y, .z, .ux, .uy, .uz, .ex, .ey, .ez, .bx, .by, .bz] ++ (List.finRange n).map .pid ++ [.gam]

/-- One tile (tiling.F90:1986-2005). Simplification: the sum is exact and not a `REAL(num)`. -/
def tileMem (m : ℤ) (t : Tile n) : ℤ := if t.alloc = false then m else (memAttrs n).foldl (fun m a => m + sizeOf8 (t.arr a)) m

/-- `local_part_tiles_mem` (tiling.F90:1978-2009). Simplification: `ntilex`, `ntiley`, `ntilez` are those of the species. -/
def localMem (Ss : List (Species n)) : ℤ := Ss.foldl (fun m S => (box ⟨1, 1, 1⟩ S.nt).foldl (fun m u => tileMem m (S.tiles u)) m) 0

end Picsar.Tiling
