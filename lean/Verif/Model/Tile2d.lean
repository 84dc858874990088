import Verif.Model.PartExchange
/-
Particle storage in two dimensions: `add_particle_at_tile_2d`, `rm_particle_at_tile_2d` and their callers
(src/parallelization/tiling/tiling.F90:274-302, 357-401, 549-555, 587-620), and what happens to the particles of one direction in
`particle_bcs_mpi_non_blocking_2d` between the loops over tiles (src/boundary_conditions/particle_boundaries.F90:1811-2092).
-/
namespace Picsar.Tile2d
open Picsar Picsar.Grid Picsar.Tiling Picsar.PartExchange

variable {n : ℕ}

/-- "By default in 2D we set party to 0" (tiling.F90:385-386). -/
def planar (p : Part n) : Part n := { p with y := 0 }

/-- `add_particle_at_tile_2d` on its tile (tiling.F90:368-400): the same statements as in three dimensions, with 0 for y. -/
def addTile2 (p : Part n) (t : Tile n) : Res (Tile n) := addTile (planar p) t

/-- The arrays that `rm_particle_at_tile_2d` copies: all but `part_y`. -/
def kept2 (n : ℕ) : List (Attr n) := [.x, .z, .ux, .uy, .uz, .gam] ++ (List.finRange n).map .pid

/-- The particle at `index` is replaced by the last one (tiling.F90:594-609). -/
def rmMove2 (index : ℤ) (t : Tile n) : Res (Tile n) :=
  if index = t.np then .ok ⟨t.np - 1, t.npmax, t.alloc, t.arr⟩ else do
  let t' ← onArrays (kept2 n) (fun _ b => do
    let v ← b.get t.np
    b.set index v) t
  .ok ⟨t'.np - 1, t'.npmax, t'.alloc, t'.arr⟩

/-- `rm_particle_at_tile_2d` on its tile (tiling.F90:592-619). -/
def rmTile2 (index : ℤ) (t : Tile n) : Res (Tile n) := do
  let t ← rmMove2 index t
  shrink t

/-- `add_particle_to_species_2d` (tiling.F90:274-302), with `idx` the tile index computed from x and z. -/
def addSpecies2 (idx : Part n → I3) (p : Part n) (S : Species n) : Res (Species n) := do
  let S ← atTile (idx p) (addTile2 p) S
  .ok ⟨S.nt, S.tiles, S.npart + 1⟩

/-- The values of a particle in the order of packing (particle_boundaries.F90:1997-2003): one less than `nvar = 7+npid`. -/
def vals2 (p : Part n) : List ℝ := [p.x, p.z, p.ux, p.uy, p.uz, p.gam] ++ (List.finRange n).map p.pid

/-- A particle is put into the buffer of a direction (particle_boundaries.F90:1994-2005): `sendbuff(:,xbd,zbd)` and `nptoexch(xbd,zbd)`. -/
def pack2 (s : FArr ℝ × ℤ) (p : Part n) : Res (FArr ℝ × ℤ) := do
  let a ← setFrom (s.2 * nvar n + 1) (vals2 p) s.1
  .ok (a, s.2 + 1)

/-- The part of the buffer that is sent (particle_boundaries.F90:2049-2062). The last place of each particle has never been written: its content, whatever
it is, is transferred. -/
def raw (a : FArr ℝ) (m : ℕ) : Res (List (Option ℝ)) := if (m : ℤ) ≤ a.n then .ok ((List.range m).map fun i : ℕ => a.val ((i : ℤ) + 1)) else .error .outOfBounds

/-- `recvbuff(1:nmax,ix,iz)` with a received message (particle_boundaries.F90:2032-2046); a longer message is an error of MPI. -/
def received (nmax : ℤ) (d : List (Option ℝ)) : Res (FArr ℝ) :=
  if (d.length : ℤ) ≤ nmax then .ok ⟨nmax, fun k => if 1 ≤ k then d.getD (k - 1).toNat none else none⟩ else .error .outOfBounds

/-- The arguments of `add_particle_to_species_2d`, from position `k` of a receive buffer (particle_boundaries.F90:2079-2083). -/
def unpackPart2 (n : ℕ) (b : FArr ℝ) (k : ℤ) : Res (Part n) := do
  let x ← b.get k
  let z ← b.get (k + 1)
  let ux ← b.get (k + 2)
  let uy ← b.get (k + 3)
  let uz ← b.get (k + 4)
  let gam ← b.get (k + 5)
  let pid ← (List.finRange n).foldlM (fun (f : Fin n → ℝ) i => do
    let v ← b.get (k + 6 + i.val)
    .ok (Function.update f i v)) fun _ => 0
  .ok ⟨x, 0, z, ux, uy, uz, gam, pid⟩

/-- Received particles of one species (particle_boundaries.F90:2078-2084). -/
def unpackAll2 (idx : Part n → I3) (b : FArr ℝ) (off m : ℤ) (S : Species n) : Res (Species n) :=
  (strided m (nvar n)).foldlM (fun S i => do
    let p ← unpackPart2 n b (off + i)
    addSpecies2 idx p S) S

/-- Received particles of one direction, species by species (particle_boundaries.F90:2075-2086). `cs` is `npart_recv(:,ix,iz)`. -/
def unpackSpecies2 (idx : Part n → I3) (b : FArr ℝ) : ℤ → List ℤ → List (Species n) → Res (List (Species n))
  | _, _, [] => .ok []
  | _, [], _ :: _ => .error .uninitialised
  | off, c :: cs, S :: Ss => do
    let S' ← unpackAll2 idx b off (nvar n * c) S
    let r ← unpackSpecies2 idx b (off + nvar n * c) cs Ss
    .ok (S' :: r)

/-- The way of the particles `Y` (by species) from the loops over tiles of one process through a buffer for `nbuff` particles and the message to the
species `Ss` of the neighbour, whose receive buffers have `nmax` elements. Left out: the loops over tiles (the outcome for each particle is
`ParticleBcs.scan .nonBlocking2d`); that no message is sent if there are no particles. -/
def handOver (idx : Part n → I3) (nbuff nmax : ℤ) (Y : List (List (Part n))) (Ss : List (Species n)) : Res (List (Species n)) := do
  let s ← Y.flatten.foldlM pack2 (FArr.undef (nbuff * nvar n), 0)
  let d ← raw s.1 (nvar n * s.2).toNat
  let b ← received nmax d
  unpackSpecies2 idx b 0 (Y.map fun l => (l.length : ℤ)) Ss

end Picsar.Tile2d
