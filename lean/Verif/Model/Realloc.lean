import Verif.Model.Tiling
/-
The flags `are_tiles_reallocated`, by which the interface tells that the arrays of a tile have moved: src/parallelization/tiling/tiling.F90.
-/
namespace Picsar.Tiling
open Picsar Picsar.Grid

variable {n : ℕ}

/-- A tile, the number of the block of memory in which its arrays are (`ALLOCATE` gives a new one, `DEALLOCATE` ends the one before), and its element of
`are_tiles_reallocated`. -/
structure PyTile (n : ℕ) where
  t : Tile n
  blk : ℕ
  flag : Bool

/-- `allocate_tile_arrays` before the first addition (tiling.F90:427-429, 682-693): the flag is not set. -/
def PyTile.ensure (s : PyTile n) : PyTile n := if s.t.alloc then s else ⟨allocArrays s.t, s.blk + 1, s.flag⟩

/-- `resize_particle_arrays` (tiling.F90:1082-1139): the arrays are deallocated and allocated anew. -/
def PyTile.resize (old new : ℤ) (s : PyTile n) : Res (PyTile n) := do
  let t ← Tiling.resize old new s.t
  .ok ⟨t, s.blk + 1, s.flag⟩

/-- Full arrays (tiling.F90:434-438): flag, then resize. -/
def PyTile.grow (need : ℤ) (s : PyTile n) : Res (PyTile n) :=
  if need > s.t.npmax then PyTile.resize s.t.npmax (2 * s.t.npmax + 1) ⟨s.t, s.blk, true⟩ else .ok s

/-- `add_particle_at_tile` (tiling.F90:415-455). -/
def PyTile.add (p : Part n) (s : PyTile n) : Res (PyTile n) := do
  let s1 := s.ensure
  let s2 ← s1.grow (s1.t.np + 1)
  let t ← onArrays (kept n ++ fieldAttrs n) (fun a b => b.set (s1.t.np + 1) (p.val a)) ⟨s1.t.np + 1, s2.t.npmax, s2.t.alloc, s2.t.arr⟩
  .ok ⟨t, s2.blk, s2.flag⟩

/-- Sparsely filled arrays (tiling.F90:661-667): resize, then flag. -/
def PyTile.shrink (s : PyTile n) : Res (PyTile n) :=
  if s.t.np < 2 * s.t.npmax / 5 then
    if s.t.npmax / 2 > 0 then do
      let s ← s.resize s.t.npmax (s.t.npmax / 2)
      .ok ⟨s.t, s.blk, true⟩
    else .ok s
  else .ok s

/-- `rm_particle_at_tile` (tiling.F90:633-668). -/
def PyTile.rm (i : ℤ) (s : PyTile n) : Res (PyTile n) := do
  let t ← rmMove i s.t
  PyTile.shrink ⟨t, s.blk, s.flag⟩

/-- An array of the tile through a pointer that was taken when the arrays were in block `b` (`point_to_tile`, tiling.F90:1260-1300). -/
def PyTile.view (b : ℕ) (a : Attr n) (s : PyTile n) : Res (FArr ℝ) := if b = s.blk then .ok (s.t.arr a) else .error .useAfterFree

/-- `set_are_tiles_reallocated` with 0 for this tile (tiling.F90:1434-1442). -/
def PyTile.clear (s : PyTile n) : PyTile n := ⟨s.t, s.blk, false⟩

end Picsar.Tiling
