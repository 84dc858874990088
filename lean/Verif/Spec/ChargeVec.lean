import Verif.Spec.Current
import Verif.Model.ChargeVec

/-
Specification vocabulary for the vectorised charge deposition: how a three-dimensional array is laid out in a flat one.
-/
namespace Picsar.Spec
open Picsar Picsar.Grid Picsar.Deposition Picsar.ChargeVec

/-- Bounds of the array of a tile with its guard cells. -/
def tileLo (L : Lay) : I3 := ⟨-L.gx, -L.gy, -L.gz⟩
def tileHi (L : Lay) : I3 := ⟨L.nx + L.gx, L.ny + L.gy, L.nz + L.gz⟩

/-- Column-major position, from 1, of element `i` of an array with the bounds of the tile. -/
def position (L : Lay) (i : I3) : ℤ :=
  1 + (i.j + L.gx) + (L.nx + 1 + 2 * L.gx) * ((i.k + L.gy) + (L.ny + 1 + 2 * L.gy) * (i.l + L.gz))

/-- The flat array `r` is the storage of the array `a` of the tile. -/
def Stored (L : Lay) (r : Flat) (a : Arr) : Prop :=
  r.size = (L.nx + 1 + 2 * L.gx) * (L.ny + 1 + 2 * L.gy) * (L.nz + 1 + 2 * L.gz) ∧ a.lo = tileLo L ∧ a.hi = tileHi L ∧
  ∀ i, InBox (tileLo L) (tileHi L) i → r.val (position L i) = a.val i

/-- The particle is in the tile, faces included. -/
def InTile (L : Lay) (g : Geo) (p : Part) : Prop :=
  0 ≤ cells p.x g.xmin g.dx ∧ cells p.x g.xmin g.dx ≤ L.nx ∧ 0 ≤ cells p.y g.ymin g.dy ∧ cells p.y g.ymin g.dy ≤ L.ny ∧
  0 ≤ cells p.z g.zmin g.dz ∧ cells p.z g.zmin g.dz ≤ L.nz

/-- Enough guard cells for the shapes of order `n` of the particles of the tile: one for order 1, two for orders 2 and 3. -/
def Guarded (n : ℕ) (L : Lay) : Prop :=
  let m : ℤ := if n = 1 then 1 else 2
  0 ≤ L.nx ∧ 0 ≤ L.ny ∧ 0 ≤ L.nz ∧ m ≤ L.gx ∧ m ≤ L.gy ∧ m ≤ L.gz

end Picsar.Spec
