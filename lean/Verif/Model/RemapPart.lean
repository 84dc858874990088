import Verif.Model.PartExchange
import Verif.Model.Remap
import Mathlib.Algebra.Order.Floor.Defs
import Mathlib.Algebra.Order.Archimedean.Real.Basic
/-
Exchange of particles after a new split of the domain between processes: `remap_particles` and `remap_particles_2D`
(src/housekeeping/load_balancing.F90:2466-2698, 2710-2926). Real arithmetic instead of floating point.
-/
namespace Picsar.RemapPart
open Picsar Picsar.Grid Picsar.Tiling Picsar.PartExchange Picsar.Remap Picsar.LoadBalance

variable {n : ℕ}

/-- What a process knows about an axis: `xmin`, `dx`, `x_min_local`, `x_max_local`, `x_coords`, `ncxmin`, `ncxmax`. -/
structure AxisInfo where
  gmin : ℝ
  d : ℝ
  lo : ℝ
  hi : ℝ
  coord : ℤ
  ncmin : List ℤ
  ncmax : List ℤ

/-- Conversion of a real to an integer in an assignment: towards zero. -/
noncomputable def trunc (q : ℝ) : ℤ := if 0 ≤ q then ⌊q⌋ else ⌈q⌉

open Classical in
/-- Process along an axis (load_balancing.F90:2589-2594, 2595-2600, 2601-2607). -/
noncomputable def axisProc (A : AxisInfo) (v : ℝ) : Res ℤ :=
  if v < A.lo ∨ v ≥ A.hi then procInterval A.ncmin A.ncmax (trunc ((v - A.gmin) / A.d)) else .ok A.coord

/-- What a process knows: the axes, `pxr_convertindtoproc`, `send_rank(1:nsend)`, `nrecv`, `subdomain_bound` of its tiles. `dim2` is the version
for two dimensions. -/
structure Proc (n : ℕ) where
  dim2 : Bool
  x : AxisInfo
  y : AxisInfo
  z : AxisInfo
  conv : ℤ → ℤ → ℤ → ℤ
  ranks : List ℤ
  nrecv : ℕ
  border : I3 → Bool

/-- Process along y (load_balancing.F90:2595-2600; not computed in two dimensions, 2816-2829). -/
noncomputable def yProc (P : Proc n) (p : Part n) : Res ℤ := if P.dim2 = true then .ok P.y.coord else axisProc P.y p.y

/-- Position of a particle's destination in `send_rank`, `none` if it stays (load_balancing.F90:2586-2615, 2813-2839). The access to
`nptoexch(isend)` with the result of an unsuccessful search is out of bounds. -/
noncomputable def route (P : Proc n) (p : Part n) : Res (Option ℤ) := do
  let ix ← axisProc P.x p.x
  let iy ← yProc P p
  let iz ← axisProc P.z p.z
  if ix ≠ P.x.coord ∨ iy ≠ P.y.coord ∨ iz ≠ P.z.coord then do
    let k ← binarySearch P.ranks (P.conv ix iy iz)
    if 1 ≤ k ∧ k ≤ P.ranks.length then .ok (some k) else .error .outOfBounds
  else .ok none

/-- State of the loops over the particles of a species: the species, the columns of `sendbuff`, `nptoexch`, `npart_send(ispecies,:)`. -/
structure Sc (n : ℕ) where
  S : Species n
  buf : ℤ → FArr ℝ
  cnt : ℤ → ℤ
  send : ℤ → ℤ

/-- One particle (load_balancing.F90:2585-2629). -/
noncomputable def scanOne (P : Proc n) (u : I3) (i : ℤ) (s : Sc n) : Res (Sc n) := do
  let p ← readPart (s.S.tiles u) i
  let o ← route P p
  match o with
  | none => .ok s
  | some k => do
    let a ← setFrom (nvar n * s.cnt k + 1) (vals p) (s.buf k)
    let S ← rmSpecies u i s.S
    .ok ⟨S, Function.update s.buf k a, Function.update s.cnt k (s.cnt k + 1), Function.update s.send k (s.send k + 1)⟩

/-- One tile, from the last particle to the first (load_balancing.F90:2578-2629). -/
noncomputable def scanTile (P : Proc n) (u : I3) (s : Sc n) : Res (Sc n) :=
  if P.border u = true then (irange 1 (s.S.tiles u).np).reverse.foldlM (fun s i => scanOne P u i s) s else .ok s

/-- All tiles of a species (load_balancing.F90:2574-2632). -/
noncomputable def scanSpecies (P : Proc n) (s : Sc n) : Res (Sc n) := (box ⟨1, 1, 1⟩ s.S.nt).foldlM (fun s u => scanTile P u s) s

/-- All species (load_balancing.F90:2572-2633): what is left of each species with its row of `npart_send`, and `sendbuff`. -/
noncomputable def scanAll (P : Proc n) : List (Species n) → (ℤ → FArr ℝ) → (ℤ → ℤ) → Res (List (Species n × (ℤ → ℤ)) × (ℤ → FArr ℝ))
  | [], buf, _ => .ok ([], buf)
  | S :: Ss, buf, cnt => do
    let s ← scanSpecies P ⟨S, buf, cnt, fun _ => 0⟩
    let r ← scanAll P Ss s.buf s.cnt
    .ok ((s.S, s.send) :: r.1, r.2)

/-- A column of `npart_send` and the beginning of a column of `sendbuff`. -/
abbrev Msg := List ℤ × List ℝ

/-- First part of the routine (load_balancing.F90:2504-2633), with the data of the sends (2635-2640, 2664-2672): the species that are left,
and the messages to the processes of `send_rank`. `npl` is `npart_local`. The lists of processes have 1000 elements (`nmax_neighbours`). -/
noncomputable def before (P : Proc n) (npl : ℤ) (Ss : List (Species n)) : Res (List (Species n) × List Msg) :=
  if P.ranks.length ≤ 1000 ∧ P.nrecv ≤ 1000 then do
    let r ← scanAll P Ss (fun _ => FArr.undef (nvar n * npl)) (fun _ => 0)
    let ms ← (irange 1 P.ranks.length).mapM fun k => do
      let c := r.1.map fun e => e.2 k
      let d ← slice (r.2 k) 1 (nvar n * c.sum).toNat
      .ok (c, d)
    .ok (r.1.map Prod.fst, ms)
  else .error .outOfBounds

/-- Processes in `send_rank` of process `r` (load_balancing.F90:2532-2553): those whose new limits meet the old ones of `r`. -/
def sendTo {N : ℕ} (L1 L2 : Fin N → Lim) (r : Fin N) : List (Fin N) := (List.finRange N).filter fun i => i ≠ r ∧ (inter3 (L1 r) (L2 i)).1 = true

/-- Processes in `recv_rank` (load_balancing.F90:2510-2530). -/
def recvFrom {N : ℕ} (L1 L2 : Fin N → Lim) (r : Fin N) : List (Fin N) := (List.finRange N).filter fun i => i ≠ r ∧ (inter3 (L2 r) (L1 i)).1 = true

/-- Memory of a process during the exchange: messages to others, `npart_recv` and `recvbuff` by sender. -/
structure Mem (N : ℕ) where
  out : Fin N → Msg
  rc : Fin N → List ℤ
  rd : Fin N → List ℝ

/-- The exchange (load_balancing.F90:2562-2567, 2635-2678): numbers first, then data. Communication `k` of a group is that from process
`snd N k` to `rcv N k`; receives and sends are posted in the order of the other process' rank. Simplified: data messages without particles, which
neither side posts, are exchanged as empty messages. -/
def exchange (N : ℕ) (L1 L2 : Fin N → Lim) : Mpi.Prog (Fin N) (Mem N) Msg where
  G := 2
  off g := g * (N * N)
  dst k r :=
    if h : rcv N k < N then
      if r.val = snd N k ∧ (⟨rcv N k, h⟩ : Fin N) ≠ r ∧ (inter3 (L1 r) (L2 ⟨rcv N k, h⟩)).1 = true then some ⟨rcv N k, h⟩ else none
    else none
  src k r :=
    if h : snd N k < N then
      if r.val = rcv N k ∧ (⟨snd N k, h⟩ : Fin N) ≠ r ∧ (inter3 (L2 r) (L1 ⟨snd N k, h⟩)).1 = true then some ⟨snd N k, h⟩ else none
    else none
  pay k _ m :=
    if h : rcv N k < N then (if Remap.cmp N k = 0 then ((m.out ⟨rcv N k, h⟩).1, []) else ([], (m.out ⟨rcv N k, h⟩).2)) else ([], [])
  put k _ m v :=
    if h : snd N k < N then
      (if Remap.cmp N k = 0 then ⟨m.out, Function.update m.rc ⟨snd N k, h⟩ v.1, m.rd⟩ else ⟨m.out, m.rc, Function.update m.rd ⟨snd N k, h⟩ v.2⟩)
    else m
  fin _ _ m := m

/-- Memory before the exchange: the message to process `d` is that at its position in `send_rank`. -/
def memory {N : ℕ} (L1 L2 : Fin N → Lim) (r : Fin N) (ms : List Msg) : Mem N :=
  ⟨fun d => ms.getD ((sendTo L1 L2 r).idxOf d) ([], []), fun _ => [], fun _ => []⟩

/-- Column of `recvbuff` with `nmax` elements and the data `d` at its beginning. -/
def column (nmax : ℤ) (d : List ℝ) : FArr ℝ := ⟨nmax, fun k => if 1 ≤ k then d[(k - 1).toNat]? else none⟩

/-- Particles from one process (load_balancing.F90:2682-2692). -/
def unpackSpecies (idx : Part n → I3) (b : FArr ℝ) : ℤ → List ℤ → List (Species n) → Res (List (Species n))
  | _, _, [] => .ok []
  | _, [], _ :: _ => .error .uninitialised
  | off, c :: cs, S :: Ss => do
    let S' ← unpackAll idx b off (nvar n * c) S
    let r ← unpackSpecies idx b (off + nvar n * c) cs Ss
    .ok (S' :: r)

/-- Last part of the routine (load_balancing.F90:2653-2654, 2680-2693), on the messages from the processes of `recv_rank`. -/
def after (idx : Part n → I3) (ms : List Msg) (Ss : List (Species n)) : Res (List (Species n)) :=
  let nmax := nvar n * (ms.map fun m => m.1.sum).foldr max 0
  ms.foldlM (fun Ss m => unpackSpecies idx (column nmax m.2) 0 m.1 Ss) Ss

end Picsar.RemapPart
