import Verif.Model.PartExchange
import Verif.Model.TileOmp
/-
The default exchange of particles in 3-D, between tiles and between processes in one routine: `particle_bcs_tiles_and_mpi_3d`,
src/boundary_conditions/particle_boundaries.F90:2107-2975 (called by `particle_bcs`, 83-242, unless `partcom` is 1 or 2), with one thread per
process. The treatment of one particle that left the subdomain is `ParticleBcs.scan .combined`; the tile storage is that of `Tiling`; message
passing is that of `Mpi`. Real arithmetic.

Simplifications: the arrays `part_x, ..., pid` of a tile buffer (and the columns of `bufsend`) have the same first extent and are always accessed
at the same row, so they are one array of rows. Counts are below 2^31 (an 8-byte count is sent as one 4-byte `MPI_INTEGER`, 2757-2761). Tags
equal the number of the direction; messages between two processes are posted in the order of the directions on both sides, so matching in that
order is the same. The sent counts are those at the time of the call of `MPI_ISEND`: see `Race` below for what the code does.
-/
namespace Picsar.Combined
open Picsar Picsar.Grid Picsar.Tiling Picsar.ParticleBcs Picsar.PartExchange

variable {n : ℕ}

/-! ### Part 1: tiles -/

/-- `ib = 2+xbd + (1+ybd)*3 + (1+zbd)*9` (particle_boundaries.F90:2506, 2632, 2740, 2855). -/
def ibOf (d : I3) : ℤ := 2 + d.j + (1 + d.k) * 3 + (1 + d.l) * 9

/-- `mpi_tile_buffer` (src/modules/modules.F90:861): allocated or not, first extent of its arrays, `npart(1:27)`, and the rows per direction. -/
structure TBuf (n : ℕ) where
  alloc : Bool
  size : ℤ
  np : ℤ → ℤ
  rows : ℤ → FArr (Part n)

/-- Allocation, for tiles at the border only, and `npart(1:27) = 0` (particle_boundaries.F90:2253-2263); `bs` is `mpi_buf_size`. -/
def TBuf.new (border : Bool) (bs : ℤ) : TBuf n := ⟨border, bs, fun _ => 0, fun _ => FArr.undef bs⟩

/-- `resize_2D_array_real`, `resize_3D_array_real` in the first extent (src/parallelization/tiling/tiling.F90:1147-1216). -/
def regrow (old new : ℤ) (b : FArr (Part n)) : FArr (Part n) := ⟨new, fun i => if i ≤ (if new > old then old else new) then b.val i else none⟩

/-- A particle is put into the tile buffer; the arrays are enlarged when they are full (particle_boundaries.F90:2508-2544). -/
def push (ib : ℤ) (q : Part n) (b : TBuf n) : Res (TBuf n) :=
  if b.alloc = false then .error .nullDeref else
  if ¬ (1 ≤ ib ∧ ib ≤ 27) then .error .outOfBounds else do
  let r ← (b.rows ib).set (b.np ib + 1) q
  if b.np ib + 1 = b.size then
    .ok ⟨true, b.size * 2, Function.update b.np ib (b.np ib + 1), fun i => regrow b.size (b.size * 2) (Function.update b.rows ib r i)⟩
  else .ok ⟨true, b.size, Function.update b.np ib (b.np ib + 1), Function.update b.rows ib r⟩

/-- Species, tile buffers and `mpi_npart(1:27)` of the species. -/
structure Sc3 (n : ℕ) where
  S : Species n
  tb : I3 → TBuf n
  cnt : ℤ → ℤ

open Classical in
/-- One particle (particle_boundaries.F90:2277-2565): case 1 in its tile; case 2 left the subdomain; case 3 moved to another tile.
Assignments to a particle that is then removed without being sent are left out. -/
noncomputable def combOne (P : Proc n) (u : I3) (i : ℤ) (s : Sc3 n) : Res (Sc3 n) := do
  let p ← readPart (s.S.tiles u) i
  if inTile (P.T u) p then .ok s
  else if outDom P.A p then
    match scan .combined P.A (P.T u) p with
    | .kept q => do
      let S ← atTile u (writePart i q) s.S
      .ok ⟨S, s.tb, s.cnt⟩
    | .removed => do
      let S ← rmAt u i s.S
      .ok ⟨S, s.tb, s.cnt⟩
    | .sent d q => do
      let S ← atTile u (writePart i q) s.S
      let b ← push (ibOf d) q (s.tb u)
      let S ← rmAt u i S
      .ok ⟨S, Function.update s.tb u b, s.cnt⟩
  else do
    let S ← rmAt u i s.S
    let S ← addAt (P.idx p) p S
    .ok ⟨S, s.tb, s.cnt⟩

/-- One tile: buffer, particles from the last to the first, and the update of `mpi_npart` (particle_boundaries.F90:2249-2583). -/
noncomputable def combTile (P : Proc n) (bs : ℤ) (u : I3) (s : Sc3 n) : Res (Sc3 n) := do
  let s ← (irange 1 (s.S.tiles u).np).reverse.foldlM (fun s i => combOne P u i s) ⟨s.S, Function.update s.tb u (TBuf.new (P.border u) bs), s.cnt⟩
  .ok ⟨s.S, s.tb, if P.border u = true then fun ib => s.cnt ib + (s.tb u).np ib else s.cnt⟩

/-- The tiles in the order of the loops `ipz, ipy, ipx, iz, iy, ix` (particle_boundaries.F90:2224-2248). -/
def tileOrder (nt : I3) : List I3 := (colours.map (colourTiles nt)).flatten

/-- All tiles of a species (particle_boundaries.F90:2210-2593). -/
noncomputable def combSpecies (P : Proc n) (bs : ℤ) (S : Species n) : Res (Sc3 n) :=
  (tileOrder S.nt).foldlM (fun s u => combTile P bs u s) ⟨S, fun _ => TBuf.new false 0, fun _ => 0⟩

/-! ### Part 2: send buffers -/

/-- `MAXVAL(mpi_npart(:, :))` (particle_boundaries.F90:2613). -/
def maxval (K : ℕ) (cnt : ℕ → ℤ → ℤ) : ℤ := ((List.range K).flatMap fun is => (irange 1 27).map (cnt is)).foldl max 0

/-- `bufsend(j+1:j+k, ...) = tilebuf%...(1:k, ib)` (particle_boundaries.F90:2643-2652), row by row. -/
def copyRows (src : FArr (Part n)) (j : ℤ) : ℕ → FArr (Part n) → Res (FArr (Part n))
  | 0, dst => .ok dst
  | k + 1, dst => do
    let dst ← copyRows src j k dst
    let p ← src.get (k + 1)
    dst.set (j + (k + 1)) p

/-- One tile (particle_boundaries.F90:2637-2653); the state is `mpi_npart(ib, is)` and the rows of `bufsend` for the direction. -/
def fillTile (b : TBuf n) (ib : ℤ) (x : ℤ × FArr (Part n)) : Res (ℤ × FArr (Part n)) :=
  if b.np ib = 0 then .ok x else do
    let a ← copyRows (b.rows ib) x.1 (b.np ib).toNat x.2
    .ok (x.1 + b.np ib, a)

/-- One direction (particle_boundaries.F90:2634-2656). -/
def fillDir (M : ℤ) (nt : I3) (tb : I3 → TBuf n) (d : I3) : Res (ℤ × FArr (Part n)) :=
  (box ⟨1, 1, 1⟩ nt).foldlM (fun x u => fillTile (tb u) (ibOf d) x) (0, FArr.undef M)

/-- Rows `1..k` of an array. -/
def rowsOf (a : FArr (Part n)) : ℕ → Res (List (Part n))
  | 0 => .ok []
  | k + 1 => do
    let l ← rowsOf a k
    let p ← a.get (k + 1)
    .ok (l ++ [p])

/-- Column `c+1` of a row: `part_x, part_y, part_z, part_ux, part_uy, part_uz, part_gaminv, pid(1:npid)` (particle_boundaries.F90:2643-2652). -/
def column (c : ℕ) (p : Part n) : ℝ := (vals p).getD c 0

/-- The section `bufsend(1:k, 1:7+npid, ib, is)` as passed to `MPI_ISEND` (particle_boundaries.F90:2869): column after column. -/
def colMajor (l : List (Part n)) : List ℝ := (List.range (n + 7)).flatMap fun c => l.map (column c)

/-- Count and message of one direction. -/
def sendDir (M : ℤ) (s : Sc3 n) (d : I3) : Res (ℤ × List ℝ) := do
  let x ← fillDir M s.S.nt s.tb d
  let l ← rowsOf x.2 x.1.toNat
  .ok (x.1, colMajor l)

/-- Memory of a process during the communications: species, counts `mpi_npart` and messages to send per species and direction, `nrecv_buf`,
messages received in the current group, `recvbuf` and `npos`. -/
structure CMem (n : ℕ) where
  sp : ℕ → Species n
  cnt : ℕ → I3 → ℤ
  out : ℕ → I3 → List ℝ
  nrecv : ℕ → I3 → ℤ
  inbox : ℕ → Option Msg
  rbuf : FArr ℝ
  npos : ℤ

/-- Count and message of one direction of one species are stored. -/
def storeDir (M : ℤ) (s : Sc3 n) (is : ℕ) (d : I3) (m : CMem n) : Res (CMem n) := do
  let x ← sendDir M s d
  .ok ⟨m.sp, fun i e => if i = is ∧ e = d then x.1 else m.cnt i e, fun i e => if i = is ∧ e = d then x.2 else m.out i e, m.nrecv, m.inbox, m.rbuf, m.npos⟩

/-- Part 1 for all species (particle_boundaries.F90:2210-2593). -/
noncomputable def scanAll (K : ℕ) (P : Proc n) (bs : ℤ) (sp : ℕ → Species n) : Res (ℕ → Sc3 n) :=
  (List.range K).foldlM (fun (f : ℕ → Sc3 n) is => do
    let r ← combSpecies P bs (sp is)
    .ok (Function.update f is r)) fun is => ⟨sp is, fun _ => TBuf.new false 0, fun _ => 0⟩

/-- Parts 1 and 2 (particle_boundaries.F90:2191-2664). -/
noncomputable def localPart (K : ℕ) (P : Proc n) (bs : ℤ) (sp : ℕ → Species n) : Res (CMem n) := do
  let f ← scanAll K P bs sp
  (List.range K).foldlM (fun m is => dirs.foldlM (fun m d => storeDir (maxval K fun is => (f is).cnt) (f is) is d m) m)
    ⟨fun is => (f is).S, fun _ _ => 0, fun _ _ => [], fun _ _ => 0, fun _ => none, FArr.undef 0, 1⟩

/-! ### Part 3: communications -/

/-- `nrecv_buf_tot = SUM(nrecv_buf(:, is))` (particle_boundaries.F90:2778). -/
def recvTot (s : CMem n) (is : ℕ) : ℤ := (dirs.map fun d => s.nrecv is d).sum

/-- The count received from direction number `q` (particle_boundaries.F90:2757). -/
def takeCount (is q : ℕ) (s : CMem n) : Res (CMem n) :=
  match s.inbox q with
  | some (.cnt [c]) => .ok ⟨s.sp, s.cnt, s.out, fun i e => if i = is ∧ e = dirAt q then c else s.nrecv i e, s.inbox, s.rbuf, s.npos⟩
  | _ => .error .badConversion

/-- Positions of the elements of `MPI_TYPE_VECTOR(count, bl, stride)` at position `pos`, in the order in which they are filled. -/
def vecMap (count : ℕ) (bl stride pos : ℤ) : List ℤ := (List.range count).flatMap fun (c : ℕ) => (List.range bl.toNat).map fun (i : ℕ) => pos + i + c * stride

/-- A received message is stored element by element. -/
def place (ps : List ℤ) (l : List ℝ) (b : FArr ℝ) : Res (FArr ℝ) := (ps.zip l).foldlM (fun (b : FArr ℝ) e => b.set e.1 e.2) b

/-- Data of direction number `q`: `recvbuf(1:nrecv_buf_tot+1, 7+npid)` is allocated before the first one; the `j` rows from `npos` on are filled
(particle_boundaries.F90:2778-2780, 2848-2874). A message longer than the receive type is an error of MPI. -/
def takeRows (is q : ℕ) (s : CMem n) : Res (CMem n) :=
  match s.inbox q with
  | some (.dat l) =>
    if (l.length : ℤ) ≤ (n + 7) * s.nrecv is (dirAt q) then do
      let b ← place (vecMap (n + 7) (s.nrecv is (dirAt q)) (recvTot s is + 1) (if q = 0 then 1 else s.npos)) l
        (if q = 0 then FArr.undef ((recvTot s is + 1) * (n + 7)) else s.rbuf)
      .ok ⟨s.sp, s.cnt, s.out, s.nrecv, s.inbox, b, (if q = 0 then 1 else s.npos) + s.nrecv is (dirAt q)⟩
    else .error .outOfBounds
  | _ => .error .badConversion

/-- Row `i` of `recvbuf` with `st` rows (particle_boundaries.F90:2922-2948): column `c` is `st` elements after column `c-1`. -/
def unpackRow (n : ℕ) (b : FArr ℝ) (st i : ℤ) : Res (Part n) := do
  let x ← b.get i
  let y ← b.get (i + st)
  let z ← b.get (i + 2 * st)
  let ux ← b.get (i + 3 * st)
  let uy ← b.get (i + 4 * st)
  let uz ← b.get (i + 5 * st)
  let gam ← b.get (i + 6 * st)
  let pid ← (List.finRange n).foldlM (fun (f : Fin n → ℝ) k => do
    let v ← b.get (i + (7 + k.val) * st)
    .ok (Function.update f k v)) fun _ => 0
  .ok ⟨x, y, z, ux, uy, uz, gam, pid⟩

/-- A received particle is added to its tile (particle_boundaries.F90:2931-2954); unlike `add_particle_at_tile` this does not allocate. -/
def addRecv (p : Part n) (t : Tile n) : Res (Tile n) :=
  if t.alloc = false then .error .nullDeref else do
    let t2 ← grow (t.np + 1) t
    onArrays (kept n ++ fieldAttrs n) (fun a b => b.set (t.np + 1) (p.val a)) ⟨t.np + 1, t2.npmax, t2.alloc, t2.arr⟩

/-- Row `i` for tile `u` (particle_boundaries.F90:2919-2956). All columns are read also when the particle is not in the tile. -/
def recvOne (P : Proc n) (b : FArr ℝ) (st : ℤ) (u : I3) (i : ℤ) (S : Species n) : Res (Species n) := do
  let p ← unpackRow n b st i
  if P.idx p = u then atTile u (addRecv p) S else .ok S

/-- One tile reads all rows (particle_boundaries.F90:2910-2958). The tiles are processed in parallel; each changes only itself. -/
def recvTile (P : Proc n) (b : FArr ℝ) (tot : ℤ) (u : I3) (S : Species n) : Res (Species n) :=
  if P.border u = true then (irange 1 tot).foldlM (fun S i => recvOne P b (tot + 1) u i S) S else .ok S

/-- The received particles of a species (particle_boundaries.F90:2890-2969). -/
def recvSpecies (P : Proc n) (b : FArr ℝ) (tot : ℤ) (S : Species n) : Res (Species n) :=
  if tot > 0 then do
    let S ← (box ⟨1, 1, 1⟩ S.nt).foldlM (fun S u => recvTile P b tot u S) S
    .ok ⟨S.nt, S.tiles, S.npart + tot⟩
  else .ok S

/-- After the last direction of species `is`. -/
def closeSpecies (P : Proc n) (is : ℕ) (s : CMem n) : Res (CMem n) := do
  let S ← recvSpecies P s.rbuf (recvTot s is) (s.sp is)
  .ok ⟨Function.update s.sp is S, s.cnt, s.out, s.nrecv, s.inbox, s.rbuf, s.npos⟩

/-- Direction number `q` of species `is`. -/
def dataFin (P : Proc n) (is q : ℕ) (s : CMem n) : Res (CMem n) := do
  let s ← takeRows is q s
  if q = 25 then closeSpecies P is s else .ok s

/-- Local computation after group `g`. -/
def cfin (K : ℕ) (P : Proc n) (g : ℕ) (s : CMem n) : Res (CMem n) :=
  if g < K then (List.range 26).foldlM (fun s q => takeCount g q s) s else dataFin P ((g - K) / 26) ((g - K) % 26) s

/-- Message of communication `k`: counts of species `k / 26` first, then data (particle_boundaries.F90:2732-2767, 2776-2877). -/
def cpay (K k : ℕ) (m : Res (CMem n)) : Msg :=
  match m with
  | .ok s => if k < 26 * K then .cnt [s.cnt (k / 26) (dirAt (k % 26))] else .dat (s.out ((k - 26 * K) / 26) (dirAt (k % 26)))
  | .error _ => .dat []

/-- Part 3: one group of 26 communications per species for the counts, then one group per species and direction for the data. -/
def combined {R : Type} (K : ℕ) (nb : R → I3 → R) (P : R → Proc n) : Mpi.Prog R (Res (CMem n)) Msg where
  G := K + K * 26
  off g := if g ≤ K then 26 * g else 26 * K + (g - K)
  dst k r := some (nb r (dirAt (k % 26)))
  src k r := some (nb r (neg (dirAt (k % 26))))
  pay k _ m := cpay K k m
  put k _ m x := m.map fun s => ⟨s.sp, s.cnt, s.out, s.nrecv, Function.update s.inbox (k % 26) (some x), s.rbuf, s.npos⟩
  fin g r m := m.bind fun s => cfin K (P r) g s

/-! ### The counts as the code sends them -/

/-- Sending of the counts of one species (particle_boundaries.F90:2732-2766): every `MPI_ISEND` is given the same variable `k`, which is assigned the
next count while earlier sends may be pending. `next` is the number of the next direction, `pending` the sends that were posted and not yet read
their buffer, `got q` what the receiver of direction number `q` gets. -/
structure Race where
  k : ℤ
  next : ℕ
  pending : List ℕ
  got : ℕ → Option ℤ

/-- One step: the next direction is posted, or a pending send reads its buffer, at any time until `MPI_WAITALL` returns. `c q` is the count of direction
number `q`. -/
inductive Race.Step (c : ℕ → ℤ) : Race → Race → Prop
  | post (s : Race) : s.next < 26 → Race.Step c s ⟨c s.next, s.next + 1, s.next :: s.pending, s.got⟩
  | read (s : Race) (q : ℕ) : q ∈ s.pending → Race.Step c s ⟨s.k, s.next, s.pending.erase q, Function.update s.got q (some s.k)⟩

/-- Any number of steps. -/
inductive Race.Steps (c : ℕ → ℤ) : Race → Race → Prop
  | refl (s : Race) : Race.Steps c s s
  | step {a b d : Race} : Race.Steps c a b → Race.Step c b d → Race.Steps c a d

/-- Before the loop. -/
def Race.start : Race := ⟨0, 0, [], fun _ => none⟩

/-- `MPI_WAITALL` returns (particle_boundaries.F90:2766). -/
def Race.Done (s : Race) : Prop := s.next = 26 ∧ s.pending = []

end Picsar.Combined
