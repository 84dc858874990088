import Verif.Model.ParticleBcs
import Verif.Model.Mpi
import Verif.Model.MpiLists
/-
Exchange of particles between processes: `particle_bcs_mpi_blocking` and `particle_bcs_mpi_non_blocking`
(src/boundary_conditions/particle_boundaries.F90:1040-1371, 1388-1793). The treatment of one particle is `ParticleBcs.scan`; the tile storage
is that of `Tiling`; message passing is that of `Mpi` and `MpiLists`.
-/
namespace Picsar.PartExchange
open Picsar Picsar.Grid Picsar.Tiling Picsar.ParticleBcs

variable {n : ℕ}

/-- `nvar=npid+7` (particle_boundaries.F90:1063, 1413). -/
def nvar (n : ℕ) : ℤ := n + 7

/-- The 26 directions in the order of `DO iz=-1,1; DO iy=-1,1; DO ix=-1,1` with `IF (ABS(ix)+ABS(iy)+ABS(iz) .EQ. 0) CYCLE`. -/
def dirs : List I3 := (box ⟨-1, -1, -1⟩ ⟨1, 1, 1⟩).filter fun d => ¬ (|d.j| + |d.k| + |d.l| = 0)

/-! ### Buffers -/

/-- Send buffer of one direction: number of packed particles `nptoexch`, next position `ibuff`, size `nbuff`, array `buff_arr`. -/
structure SBuf where
  cnt : ℤ
  ibuff : ℤ
  nbuff : ℤ
  arr : FArr ℝ

/-- Initial state (particle_boundaries.F90:1079-1088, 1434-1442). -/
def SBuf.new : SBuf := ⟨0, 1, 1, FArr.undef 1⟩

/-- Enlarging before a particle is packed (particle_boundaries.F90:1270-1275, 1664-1669). -/
def SBuf.grow (nv : ℤ) (b : SBuf) : Res SBuf :=
  if b.ibuff + nv > b.nbuff then do
    let a ← resize1 b.nbuff (2 * (b.nbuff + nv + 1)) b.arr
    .ok ⟨b.cnt, b.ibuff, 2 * (b.nbuff + nv + 1), a⟩
  else .ok b

/-- The values of a particle in the order of packing. -/
def vals (p : Part n) : List ℝ := [p.x, p.y, p.z, p.ux, p.uy, p.uz, p.gam] ++ (List.finRange n).map p.pid

/-- A particle is put into the buffer (particle_boundaries.F90:1269-1285, 1662-1681). -/
def pack (p : Part n) (b : SBuf) : Res SBuf := do
  let b ← b.grow (nvar n)
  let a ← setFrom b.ibuff (vals p) b.arr
  .ok ⟨b.cnt + 1, (b.cnt + 1) * nvar n + 1, b.nbuff, a⟩

/-- `arr(k:k+m-1)` as a message. -/
def slice (a : FArr ℝ) : ℤ → ℕ → Res (List ℝ)
  | _, 0 => .ok []
  | k, m + 1 => do
    let v ← a.get k
    let r ← slice a (k + 1) m
    .ok (v :: r)

/-- The arguments of `add_particle_to_species`, from position `k` of a receive buffer (particle_boundaries.F90:1351-1353,
1756-1764). -/
def unpackPart (n : ℕ) (b : FArr ℝ) (k : ℤ) : Res (Part n) := do
  let x ← b.get k
  let y ← b.get (k + 1)
  let z ← b.get (k + 2)
  let ux ← b.get (k + 3)
  let uy ← b.get (k + 4)
  let uz ← b.get (k + 5)
  let gam ← b.get (k + 6)
  let pid ← (List.finRange n).foldlM (fun (f : Fin n → ℝ) i => do
    let v ← b.get (k + 7 + i.val)
    .ok (Function.update f i v)) fun _ => 0
  .ok ⟨x, y, z, ux, uy, uz, gam, pid⟩

/-- Iterations of `DO i = 1, m, step`. -/
def strided (m step : ℤ) : List ℤ := (irange 0 ((m - 1 + step).tdiv step - 1)).map fun q => 1 + q * step

/-- The particles at positions `off+1, off+1+nvar, ...` up to `off+m` are added to the species (particle_boundaries.F90:1350-1354,
1754-1766). -/
def unpackAll (idx : Part n → I3) (b : FArr ℝ) (off m : ℤ) (S : Species n) : Res (Species n) :=
  (strided m (nvar n)).foldlM (fun S i => do
    let p ← unpackPart n b (off + i)
    addSpecies idx p S) S

/-! ### The loop over particles -/

/-- What a process knows: the limits, the limits of its tiles, which tiles are at the border of the subdomain, and the tile index of a
position. -/
structure Proc (n : ℕ) where
  A : Ax → Axis
  T : I3 → TileLim
  border : I3 → Bool
  idx : Part n → I3

/-- Assignments to the arrays of particle `i`. All values are written, those that the code leaves alone with their old value. -/
def writePart (i : ℤ) (p : Part n) (t : Tile n) : Res (Tile n) := onArrays (kept n) (fun a b => b.set i (p.val a)) t

/-- Species and send buffers during the loops; `send` is `npart_send(ispecies,:,:,:)` (non-blocking version only). -/
structure Sc (n : ℕ) where
  S : Species n
  buf : I3 → SBuf
  send : I3 → ℤ

/-- One particle, non-blocking version (particle_boundaries.F90:1459-1684). The assignments to a particle that is then removed are left
out. -/
noncomputable def scanOne (P : Proc n) (u : I3) (i : ℤ) (s : Sc n) : Res (Sc n) := do
  let p ← readPart (s.S.tiles u) i
  match scan .nonBlocking P.A (P.T u) p with
  | .kept q => do
    let S ← atTile u (writePart i q) s.S
    .ok ⟨S, s.buf, s.send⟩
  | .removed => do
    let S ← rmSpecies u i s.S
    .ok ⟨S, s.buf, s.send⟩
  | .sent d q => do
    let S ← atTile u (writePart i q) s.S
    let b ← pack q (s.buf d)
    let S ← rmSpecies u i S
    .ok ⟨S, Function.update s.buf d b, Function.update s.send d (s.send d + 1)⟩

/-- One tile, from the last particle to the first (particle_boundaries.F90:1452-1685). -/
noncomputable def scanTile (P : Proc n) (u : I3) (s : Sc n) : Res (Sc n) :=
  if P.border u = true then (irange 1 (s.S.tiles u).np).reverse.foldlM (fun s i => scanOne P u i s) s else .ok s

/-- All tiles of a species (particle_boundaries.F90:1449-1688). -/
noncomputable def scanSpecies (P : Proc n) (s : Sc n) : Res (Sc n) := (box ⟨1, 1, 1⟩ s.S.nt).foldlM (fun s u => scanTile P u s) s

/-- One particle, blocking version (particle_boundaries.F90:1101-1286): particles to be removed are marked in `mask`. -/
noncomputable def scanOneB (P : Proc n) (u : I3) (i : ℤ) (s : Sc n × FArr Bool) : Res (Sc n × FArr Bool) := do
  let p ← readPart (s.1.S.tiles u) i
  match scan .blocking P.A (P.T u) p with
  | .kept q => do
    let S ← atTile u (writePart i q) s.1.S
    .ok (⟨S, s.1.buf, s.1.send⟩, s.2)
  | .removed => do
    let m ← s.2.set i false
    .ok (s.1, m)
  | .sent d q => do
    let S ← atTile u (writePart i q) s.1.S
    let m ← s.2.set i false
    let b ← pack q (s.1.buf d)
    .ok (⟨S, Function.update s.1.buf d b, Function.update s.1.send d (s.1.send d + 1)⟩, m)

/-- One tile: the loop, then the removal (particle_boundaries.F90:1093-1291). -/
noncomputable def scanTileB (P : Proc n) (u : I3) (s : Sc n) : Res (Sc n) :=
  if P.border u = true then do
    let r ← (irange 1 (s.S.tiles u).np).foldlM (fun s i => scanOneB P u i s) (s, FArr.fill (s.S.tiles u).np true)
    let S ← rmMaskSpecies u r.2 r.1.S
    .ok ⟨S, r.1.buf, r.1.send⟩
  else .ok s

/-- All tiles of a species (particle_boundaries.F90:1090-1294). -/
noncomputable def scanSpeciesB (P : Proc n) (s : Sc n) : Res (Sc n) := (box ⟨1, 1, 1⟩ s.S.nt).foldlM (fun s u => scanTileB P u s) s

/-! ### Blocking exchange -/

/-- Messages: numbers of particles (or of values), or particle data. -/
inductive Msg where
  | cnt (l : List ℤ)
  | dat (l : List ℝ)

/-- Memory of a process in the blocking version: the species, the send buffers of the current species, the message received last,
`nrecv_buf`, and the section of the send buffer that is passed to the second `MPI_SENDRECV`. -/
structure BMem (n : ℕ) where
  sp : ℕ → Species n
  buf : I3 → SBuf
  inbox : Option Msg
  nrecv : ℤ
  out : List ℝ

/-- Position in the program: communication `k` belongs to species `k / 53`. Within a species, number 0 is the loop over particles (no
communication), `1 + 2 q` the exchange of numbers and `2 + 2 q` the exchange of data in direction `q`. -/
def dirAt (q : ℕ) : I3 := dirs.getD q ⟨0, 0, 0⟩

/-- Local computation of the blocking version, by position: the loop over particles of the species; after the first `MPI_SENDRECV` (the
number of received values is taken from the message and the send buffer section is formed, particle_boundaries.F90:1343-1347); after the
second one (particle_boundaries.F90:1348-1355). A message longer than the receive buffer is an error of MPI. -/
noncomputable def bfin (P : Proc n) (k : ℕ) (s : BMem n) : Res (BMem n) :=
  if k % 53 = 0 then do
    let r ← scanSpeciesB P ⟨s.sp (k / 53), fun _ => SBuf.new, fun _ => 0⟩
    .ok ⟨Function.update s.sp (k / 53) r.S, r.buf, none, 0, []⟩
  else if k % 53 % 2 = 1 then
    match s.inbox with
    | some (.cnt [m]) => do
      let o ← slice (s.buf (dirAt (k % 53 / 2))).arr 1 ((s.buf (dirAt (k % 53 / 2))).cnt * nvar n).toNat
      .ok ⟨s.sp, s.buf, none, m, o⟩
    | _ => .error .badConversion
  else
    match s.inbox with
    | some (.dat l) =>
      if (l.length : ℤ) ≤ s.nrecv then do
        let S ← unpackAll P.idx ⟨s.nrecv, (FArr.ofList l).val⟩ 0 s.nrecv (s.sp (k / 53))
        .ok ⟨Function.update s.sp (k / 53) S, s.buf, none, 0, []⟩
      else .error .outOfBounds
    | _ => .error .badConversion

/-- Message of communication `k`. -/
def bpay (k : ℕ) (m : Res (BMem n)) : Msg :=
  match m with
  | .ok s => if k % 53 % 2 = 1 then .cnt [(s.buf (dirAt (k % 53 / 2))).cnt * nvar n] else .dat s.out
  | .error _ => .dat []

/-- The opposite direction `(ixp, iyp, izp)`. -/
def neg (d : I3) : I3 := ⟨-d.j, -d.k, -d.l⟩

/-- `particle_bcs_mpi_blocking` for `K` species (particle_boundaries.F90:1066-1370); `nb r d` is `neighbour(d)` on process `r`. The memory is
an error once a process has faulted. -/
noncomputable def blocking {R : Type} (K : ℕ) (nb : R → I3 → R) (P : R → Proc n) : Mpi.Prog R (Res (BMem n)) Msg where
  G := K * 53
  off g := g
  dst k r := if k % 53 = 0 then none else some (nb r (dirAt ((k % 53 - 1) / 2)))
  src k r := if k % 53 = 0 then none else some (nb r (neg (dirAt ((k % 53 - 1) / 2))))
  pay k _ m := bpay k m
  put _ _ m x := m.map fun s => ⟨s.sp, s.buf, some x, s.nrecv, s.out⟩
  fin k r m := m.bind (bfin (P r) k)

/-! ### Non-blocking exchange -/

/-- Memory of a process in the non-blocking version: species, send buffers, `npart_send`, `npart_recv`, messages received in the current
group, receive buffers, and the sections of the send buffers passed to `MPI_ISEND`. -/
structure NMem (n : ℕ) where
  sp : ℕ → Species n
  buf : I3 → SBuf
  send : ℕ → I3 → ℤ
  recv : ℕ → I3 → ℤ
  inbox : ℕ → Option Msg
  rbuf : I3 → FArr ℝ
  out : I3 → List ℝ

/-- The loop over particles of species `is` (particle_boundaries.F90:1446-1690). -/
noncomputable def nscan (P : Proc n) (is : ℕ) (s : NMem n) : Res (NMem n) := do
  let r ← scanSpecies P ⟨s.sp is, s.buf, s.send is⟩
  .ok ⟨Function.update s.sp is r.S, r.buf, Function.update s.send is r.send, s.recv, s.inbox, s.rbuf, s.out⟩

/-- The state before the numbers are exchanged (particle_boundaries.F90:1408-1690). -/
noncomputable def nstart (K : ℕ) (P : Proc n) (sp : ℕ → Species n) : Res (NMem n) :=
  (List.range K).foldlM (fun s is => nscan P is s) ⟨sp, fun _ => SBuf.new, fun _ _ => 0, fun _ _ => 0, fun _ => none, fun _ => FArr.undef 0, fun _ => []⟩

/-- `SUM(npart_send(:,ix,iy,iz))`. -/
def ncount (K : ℕ) (f : ℕ → I3 → ℤ) (d : I3) : ℤ := ((List.range K).map fun is => f is d).sum

/-- Received numbers of one direction. -/
def takeCnt (K : ℕ) (e : I3 × ℕ) (s : NMem n) : Res (NMem n) :=
  match s.inbox e.2 with
  | some (.cnt l) =>
    if l.length = K then
      .ok ⟨s.sp, s.buf, s.send, fun is d => if d = e.1 then l.getD is 0 else s.recv is d, s.inbox, s.rbuf, s.out⟩
    else .error .outOfBounds
  | _ => .error .badConversion

/-- `recvbuff` is allocated (particle_boundaries.F90:1711-1722), and the section of the send buffer is formed if it is sent
(particle_boundaries.F90:1740-1753). -/
def prepare (K : ℕ) (d : I3) (s : NMem n) : Res (NMem n) :=
  if nvar n * ncount K s.send d > 0 then do
    let o ← slice (s.buf d).arr 1 (nvar n * ncount K s.send d).toNat
    .ok ⟨s.sp, s.buf, s.send, s.recv, s.inbox, Function.update s.rbuf d (FArr.undef (ncount K s.recv d * nvar n)), Function.update s.out d o⟩
  else .ok ⟨s.sp, s.buf, s.send, s.recv, s.inbox, Function.update s.rbuf d (FArr.undef (ncount K s.recv d * nvar n)), s.out⟩

/-- After the first `MPI_WAITALL`. -/
def nfin0 (K : ℕ) (s : NMem n) : Res (NMem n) := do
  let s ← dirs.zipIdx.foldlM (fun s e => takeCnt K e s) s
  let s ← dirs.foldlM (fun s d => prepare K d s) s
  .ok ⟨s.sp, s.buf, s.send, s.recv, fun _ => none, s.rbuf, s.out⟩

/-- The directions from which data are received. -/
def slots (K : ℕ) (s : NMem n) : List I3 := dirs.filter fun d => nvar n * ncount K s.recv d > 0

/-- Received data of one direction; a message longer than the receive buffer is an error of MPI. -/
def takeDat (e : I3 × ℕ) (s : NMem n) : Res (NMem n) :=
  match s.inbox e.2 with
  | some (.dat l) =>
    if (l.length : ℤ) ≤ (s.rbuf e.1).n then
      .ok ⟨s.sp, s.buf, s.send, s.recv, s.inbox, Function.update s.rbuf e.1 ⟨(s.rbuf e.1).n, (FArr.ofList l).val⟩, s.out⟩
    else .error .outOfBounds
  | _ => .error .badConversion

/-- Received particles of one direction and species are added; the second component is `ispec` (particle_boundaries.F90:1768-1785). -/
def addFrom (P : Proc n) (d : I3) (is : ℕ) (x : NMem n × ℤ) : Res (NMem n × ℤ) := do
  let S ← unpackAll P.idx (x.1.rbuf d) x.2 (nvar n * x.1.recv is d) (x.1.sp is)
  .ok (⟨Function.update x.1.sp is S, x.1.buf, x.1.send, x.1.recv, x.1.inbox, x.1.rbuf, x.1.out⟩, x.2 + nvar n * x.1.recv is d)

/-- One direction (particle_boundaries.F90:1764-1788). -/
def addDir (K : ℕ) (P : Proc n) (d : I3) (s : NMem n) : Res (NMem n) := do
  let r ← (List.range K).foldlM (fun x is => addFrom P d is x) (s, 0)
  .ok r.1

/-- After the second `MPI_WAITALL` (particle_boundaries.F90:1760-1788). -/
def nfin1 (K : ℕ) (P : Proc n) (s : NMem n) : Res (NMem n) := do
  let s ← (slots K s).zipIdx.foldlM (fun s e => takeDat e s) s
  dirs.foldlM (fun s d => addDir K P d s) s

/-- `particle_bcs_mpi_non_blocking` for `K` species: two groups, numbers and data. Receives are posted before sends; both in the order of the
directions. -/
def nonBlocking {R : Type} (K : ℕ) (nb : R → I3 → R) (P : R → Proc n) : MpiLists.LProg R (Res (NMem n)) Msg where
  G := 2
  snd g r m :=
    match m with
    | .error _ => []
    | .ok s =>
      if g = 0 then dirs.map fun d => (nb r d, .cnt ((List.range K).map fun is => s.send is d))
      else (dirs.filter fun d => nvar n * ncount K s.send d > 0).map fun d => (nb r d, .dat (s.out d))
  rcv g r m :=
    match m with
    | .error _ => []
    | .ok s => if g = 0 then dirs.map (nb r) else (slots K s).map (nb r)
  put _ _ m i x := m.map fun s => ⟨s.sp, s.buf, s.send, s.recv, Function.update s.inbox i (some x), s.rbuf, s.out⟩
  fin g r m := m.bind fun s => if g = 0 then nfin0 K s else nfin1 K (P r) s

end Picsar.PartExchange
