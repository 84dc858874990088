import Verif.Model.Mpi
import Verif.Model.Topology
import Mathlib.Data.Real.Basic

/-
Exchange between the grid of the particles and the grid of the Fourier transforms (`fftw_hybrid`): the processes are put in groups, a
group transforms its own part of the domain enlarged by guard cells, and the array that is transformed is cut into slabs that do not
coincide with the subdomains. src/parallelization/mpi/mpi_routines.F90 `setup_groups`, src/housekeeping/load_balancing.F90
`get2D_intersection_group_mpi`, `compute_effective_communication_setup`, `compute_send_recv_sizes_and_index_*`,
src/boundary_conditions/field_boundaries.F90 `sendrecv_*_generalized*` and the copies in
src/field_solvers/Maxwell/GPSTD_solver/fourier_psaotd.F90 `get_Ffields_mpi_lb`, `get_fields_mpi_lb`.

Simplifications: three dimensions, the directions y and z; an element of the arrays of the model stands for the row of the elements
along x, which is sent as a whole. One field (the code repeats the exchange for every component). Integers are unbounded.
-/
namespace Picsar.FftGroups
open Picsar Picsar.Mpi

/-- Number of elements and first element of a piece of an array in one direction. -/
structure Piece where
  size : ℤ
  first : ℤ

/-- `MAX(MIN(index_rl,index_fl) - MAX(index_rf,index_ff) + 1, 0)`. -/
def common (rf rl ff fl : ℤ) : ℤ := max (min rl fl - max rf ff + 1) 0

/-- `select_case` (load_balancing.F90:1549-1563 and 1719-1740); 4 stands for a variable that has not been assigned. -/
def selectCase (n a b : ℤ) : ℕ :=
  if 0 ≤ a ∧ 0 ≤ b ∧ a < n ∧ b < n then 0
  else if (a < 0 ∧ b < 0) ∨ (n ≤ a ∧ n ≤ b) then 1
  else if a < 0 ∧ 0 ≤ b then 2
  else if a < n ∧ n ≤ b then 3
  else 4

/-- `compute_send_recv_sizes_and_index_l2g_copies`, second part: what the process with cells `u..v` sends to the process whose slab is
`a..b` (load_balancing.F90:1544-1643). -/
def l2gSend (n : ℤ) (open_ : Bool) (u v a b : ℤ) : Piece :=
  let p : Piece := match selectCase n a b with
    | 0 => ⟨common u v a b, max u a - u⟩
    | 1 => if open_ then ⟨0, 0⟩ else ⟨common u v (a % n) (b % n), max u (a % n) - u⟩
    | 2 =>
      let h : Piece := if open_ then ⟨0, 0⟩ else ⟨common u v (a % n) (n - 1), max u (a % n) - u⟩
      if h.size = 0 then ⟨common u v 0 b, max u 0 - u⟩ else h
    | 3 =>
      let h : Piece := if open_ then ⟨0, 0⟩ else ⟨common u v 0 (b % n), max u 0 - u⟩
      if h.size = 0 then ⟨common u v a (n - 1), max u a - u⟩ else h
    | _ => ⟨0, 0⟩
  if p.size = 0 then ⟨0, 0⟩ else p

/-- `compute_send_recv_sizes_and_index_g2l_copies`, first part: what the process whose slab is `a..b` receives from the process with
cells `u..v` (load_balancing.F90:1719-1801). -/
def l2gRecv (n : ℤ) (open_ : Bool) (a b u v : ℤ) : Piece :=
  let p : Piece := match selectCase n a b with
    | 0 => ⟨common u v a b, max a u - a + 1⟩
    | 1 => if open_ then ⟨0, 1⟩ else ⟨common u v (a % n) (b % n), max (a % n) u - a % n + 1⟩
    | 2 =>
      let h : Piece := if open_ then ⟨0, 1⟩ else ⟨common u v (a % n) (n - 1), max (a % n) u - a % n + 1⟩
      if h.size = 0 then ⟨common u v 0 b, max 0 u - 0 + 1 - a⟩ else h
    | 3 =>
      let h : Piece := if open_ then ⟨0, 1⟩ else ⟨common u v 0 (b % n), max 0 u - 0 + 1 + (n - a)⟩
      if h.size = 0 then ⟨common u v a (n - 1), max a u - a + 1⟩ else h
    | _ => ⟨0, 1⟩
  if p.size = 0 then ⟨0, 1⟩ else p

/-- First part of `compute_send_recv_sizes_and_index_l2g_copies`: what the process with cells `u..v` receives from the process whose
slab is `a..b` and whose group has the cells `gmin..gmax` (load_balancing.F90:1527-1542). -/
def g2lRecv (u v a b gmin gmax : ℤ) : Piece :=
  let ff := max a gmin
  let fl := min b gmax
  let p : Piece := if ff ≤ fl then ⟨common u v ff fl, max u ff - u⟩ else ⟨0, 0⟩
  if p.size = 0 then ⟨0, 0⟩ else p

/-- Second part of `compute_send_recv_sizes_and_index_g2l_copies`: what the process whose slab is `a..b` sends to the process with cells
`u..v` (load_balancing.F90:1803-1819). -/
def g2lSend (n a b u v gmin gmax : ℤ) : Piece :=
  let ff := max a gmin
  let fl := min b gmax
  let s := common u v ff fl
  let s := if selectCase n a b = 1 then 0 else s
  let s := if ff > fl then 0 else s
  if s = 0 then ⟨0, 1⟩ else ⟨s, max ff u - a + 1⟩

/-- One direction: number of processes `P` and of groups `G`, cells `n` of the domain, guard cells `ng` of the arrays of the particles,
absorbing boundary (`absorbing_bcs_z`); for the process with coordinate `c` its cells `lo c..hi c` (`cell_z_min(c+1)`,
`cell_z_max(c+1)`), its slab `slo c..shi c` (`cell_z_min_g(c+1)`, `cell_z_max_g(c+1)`) and the cells `glo c..ghi c` of its group
(`cell_min_group_z`, `cell_max_group_z`). -/
structure Axis where
  P : ℤ
  G : ℤ
  n : ℤ
  ng : ℤ
  open_ : Bool
  lo : ℤ → ℤ
  hi : ℤ → ℤ
  slo : ℤ → ℤ
  shi : ℤ → ℤ
  glo : ℤ → ℤ
  ghi : ℤ → ℤ

/-- A process that is its own group in this direction exchanges with nobody else: it copies its array with the guard cells
(load_balancing.F90:858-880, 882-904). `first` is the index from which it does so, 1 or `-nzguards`. -/
def Axis.own (A : Axis) (me other first : ℤ) : Piece := if other = me then ⟨A.hi me - A.lo me + 1 + 2 * A.ng, first⟩ else ⟨0, 1⟩

/-- `size_exchanges_l2g_send_z`, `l_first_cell_to_send_z` (load_balancing.F90:810-827, 858-880). -/
def Axis.l2gSend (A : Axis) (me other : ℤ) : Piece :=
  if A.P = A.G then A.own me other (-A.ng)
  else FftGroups.l2gSend A.n A.open_ (A.lo me) (A.hi me) (A.slo other) (A.shi other)

/-- `size_exchanges_l2g_recv_z`, `g_first_cell_to_recv_z` (load_balancing.F90:745-768, 858-880). -/
def Axis.l2gRecv (A : Axis) (me other : ℤ) : Piece :=
  if A.P = A.G then A.own me other 1
  else FftGroups.l2gRecv A.n A.open_ (A.slo me) (A.shi me) (A.lo other) (A.hi other)

/-- `size_exchanges_g2l_send_z`, `g_first_cell_to_send_z` (load_balancing.F90:745-768, 858-880). -/
def Axis.g2lSend (A : Axis) (me other : ℤ) : Piece :=
  if A.P = A.G then A.own me other 1
  else FftGroups.g2lSend A.n (A.slo me) (A.shi me) (A.lo other) (A.hi other) (A.glo me) (A.ghi me)

/-- `size_exchanges_g2l_recv_z`, `l_first_cell_to_recv_z` (load_balancing.F90:810-827, 858-880). -/
def Axis.g2lRecv (A : Axis) (me other : ℤ) : Piece :=
  if A.P = A.G then A.own me other (-A.ng)
  else FftGroups.g2lRecv (A.lo me) (A.hi me) (A.slo other) (A.shi other) (A.glo other) (A.ghi other)

/-- The sizes that decide whether a message is sent: the size with the process itself is set to 1 before the communications are listed
(load_balancing.F90:918-934). -/
def flag (me other size : ℤ) : ℤ := if other = me then 1 else size

/-- The processes of the plane, named by their coordinates. -/
def Proc (Y Z : Axis) := {c : ℤ × ℤ // (0 ≤ c.1 ∧ c.1 < Y.P) ∧ 0 ≤ c.2 ∧ c.2 < Z.P}

instance (Y Z : Axis) : DecidableEq (Proc Y Z) := by unfold Proc; infer_instance

/-- A positive modulus gives a coordinate of the grid of processes. -/
theorem mod_range {c P : ℤ} (h : 0 ≤ c ∧ c < P) (x : ℤ) : 0 ≤ x % P ∧ x % P < P := ⟨Int.emod_nonneg _ (by omega), Int.emod_lt_of_pos _ (by omega)⟩

/-- `array_of_ranks_to_send_to(k+1)`: the process `k` modulo `nprocy` further along y and `k` divided by `nprocy` further along z
(load_balancing.F90:1020-1027, 1214-1220, 1356-1366). -/
def fwd {Y Z : Axis} (k : ℕ) (c : Proc Y Z) : Proc Y Z :=
  ⟨((c.1.1 + (k : ℤ) % Y.P) % Y.P, (c.1.2 + (k : ℤ) / Y.P) % Z.P), mod_range c.2.1 _, mod_range c.2.2 _⟩

/-- `array_of_ranks_to_recv_from(k+1)` (load_balancing.F90:1029-1036). -/
def bwd {Y Z : Axis} (k : ℕ) (c : Proc Y Z) : Proc Y Z :=
  ⟨((c.1.1 - (k : ℤ) % Y.P) % Y.P, (c.1.2 - (k : ℤ) / Y.P) % Z.P), mod_range c.2.1 _, mod_range c.2.2 _⟩

/-- The pieces of a direction of the exchange: what a process takes out of its array for another one, and where it stores what it gets. -/
structure Cut where
  snd : Axis → ℤ → ℤ → Piece
  rcv : Axis → ℤ → ℤ → Piece

/-- From the arrays of the particles to the arrays of the transforms. -/
def l2g : Cut := ⟨Axis.l2gSend, Axis.l2gRecv⟩
/-- And back. -/
def g2l : Cut := ⟨Axis.g2lSend, Axis.g2lRecv⟩

/-- `size_exchanges_l2g_send(i,j)` of process `c` towards process `d`. -/
def Cut.sndFlag (X : Cut) (Y Z : Axis) (c d : ℤ × ℤ) : ℤ := flag c.1 d.1 (X.snd Y c.1 d.1).size * flag c.2 d.2 (X.snd Z c.2 d.2).size
/-- `size_exchanges_l2g_recv(i,j)`. -/
def Cut.rcvFlag (X : Cut) (Y Z : Axis) (c d : ℤ × ℤ) : ℤ := flag c.1 d.1 (X.rcv Y c.1 d.1).size * flag c.2 d.2 (X.rcv Z c.2 d.2).size

/-- `work_array_l2g`: the displacements with a communication (load_balancing.F90:1200-1223). -/
def Cut.work (X : Cut) {Y Z : Axis} (c : Proc Y Z) : List ℕ :=
  (List.range (Y.P * Z.P).toNat).filter fun k => 0 < X.sndFlag Y Z c.1 (fwd k c).1 ∨ 0 < X.rcvFlag Y Z c.1 (bwd k c).1

/-- The offsets of the elements of a piece of the plane, in memory order. -/
def offs (sy sz : ℤ) : List (ℤ × ℤ) :=
  (List.range sz.toNat).flatMap fun (j : ℕ) => (List.range sy.toNat).map fun (i : ℕ) => ((i : ℤ), (j : ℤ))

/-- The elements of a piece: the derived datatype placed at its first element (load_balancing.F90:1390-1470). -/
def cellsOf (py pz : Piece) : List (ℤ × ℤ) := (offs py.size pz.size).map fun o => (py.first + o.1, pz.first + o.2)

/-- The received values are stored one after the other. -/
def store : List (ℤ × ℤ) → List ℝ → (ℤ × ℤ → ℝ) → ℤ × ℤ → ℝ
  | i :: is, v :: vs, f => store is vs (Function.update f i v)
  | [], _, f => f
  | _ :: _, [], f => f

/-- Memory of a process: the array of the particles and the array of the transforms. -/
structure Mem where
  l : ℤ × ℤ → ℝ
  f : ℤ × ℤ → ℝ

/-- The two directions of the copy. -/
inductive Way | toFft | toGrid
  deriving DecidableEq

/-- The pieces used. -/
def Way.cut : Way → Cut
  | .toFft => l2g
  | .toGrid => g2l
/-- The array that is read. -/
def Way.src : Way → Mem → ℤ × ℤ → ℝ
  | .toFft, m => m.l
  | .toGrid, m => m.f
/-- The array that is written. -/
def Way.put : Way → List (ℤ × ℤ) → List ℝ → Mem → Mem
  | .toFft, is, v, m => { m with f := store is v m.f }
  | .toGrid, is, v, m => { m with l := store is v m.l }

/-- Elements that process `c` takes out for process `d`. -/
def Way.out (w : Way) (Y Z : Axis) (c d : ℤ × ℤ) : List (ℤ × ℤ) := cellsOf (w.cut.snd Y c.1 d.1) (w.cut.snd Z c.2 d.2)
/-- Elements of process `c` where the message of process `d` is stored. -/
def Way.into (w : Way) (Y Z : Axis) (c d : ℤ × ℤ) : List (ℤ × ℤ) := cellsOf (w.cut.rcv Y c.1 d.1) (w.cut.rcv Z c.2 d.2)

/-- The part that stays on the process is copied before the communications (fourier_psaotd.F90:391-441, 877-912); the loops use the sizes
of the receiving side. -/
def Way.self (w : Way) (Y Z : Axis) (c : Proc Y Z) (m : Mem) : Mem :=
  let py := w.cut.rcv Y c.1.1 c.1.1
  let pz := w.cut.rcv Z c.1.2 c.1.2
  let out := (offs py.size pz.size).map fun o => ((w.cut.snd Y c.1.1 c.1.1).first + o.1, (w.cut.snd Z c.1.2 c.1.2).first + o.2)
  w.put (w.into Y Z c.1 c.1) (out.map (w.src m)) m

/-- Destination of the send for displacement `k`: absent if the displacement is not listed, `MPI_PROC_NULL` if one of the sizes is 0
(field_boundaries.F90:731-756, 1085-1110). -/
def Way.dst (w : Way) (Y Z : Axis) (k : ℕ) (c : Proc Y Z) : Option (Proc Y Z) :=
  let d := fwd k c
  if k ∈ w.cut.work c ∧ flag c.1.2 d.1.2 (w.cut.snd Z c.1.2 d.1.2).size ≠ 0 ∧ flag c.1.1 d.1.1 (w.cut.snd Y c.1.1 d.1.1).size ≠ 0
  then some d else none

/-- Source of the receive for displacement `k`. -/
def Way.from (w : Way) (Y Z : Axis) (k : ℕ) (c : Proc Y Z) : Option (Proc Y Z) :=
  let d := bwd k c
  if k ∈ w.cut.work c ∧ flag c.1.2 d.1.2 (w.cut.rcv Z c.1.2 d.1.2).size ≠ 0 ∧ flag c.1.1 d.1.1 (w.cut.rcv Y c.1.1 d.1.1).size ≠ 0
  then some d else none

/-- `sendrecv_l2g_generalized`, `sendrecv_g2l_generalized` (field_boundaries.F90:712-760, 1066-1118): one `MPI_SENDRECV` per listed
displacement, the first entry of the list skipped. Communication `k` of the model is displacement `k+1`; a process that does not list
it does nothing there. -/
def blocking (w : Way) (Y Z : Axis) : Prog (Proc Y Z) Mem (List ℝ) where
  G := (Y.P * Z.P).toNat - 1
  off g := g
  dst k c := w.dst Y Z (k + 1) c
  src k c := w.from Y Z (k + 1) c
  pay k c m := (w.out Y Z c.1 (fwd (k + 1) c).1).map (w.src m)
  put k c m v := w.put (w.into Y Z c.1 (bwd (k + 1) c).1) v m
  fin _ _ m := m

/-- `sendrecv_l2g_generalized_non_blocking`, `sendrecv_g2l_generalized_non_blocking` (field_boundaries.F90:777-827, 997-1051): all
communications are posted, then `MPI_WAITALL`. -/
def nonblocking (w : Way) (Y Z : Axis) : Prog (Proc Y Z) Mem (List ℝ) where
  G := 1
  off g := g * ((Y.P * Z.P).toNat - 1)
  dst k c := w.dst Y Z (k + 1) c
  src k c := w.from Y Z (k + 1) c
  pay k c m := (w.out Y Z c.1 (fwd (k + 1) c).1).map (w.src m)
  put k c m v := w.put (w.into Y Z c.1 (bwd (k + 1) c).1) v m
  fin _ _ m := m

/-- `requests_l2g`, `requests_g2l`: allocated for `mpicom_curr = 0` only, with one element per send and per receive
(load_balancing.F90:1158-1181); `none` is the pointer that has not been associated. -/
def Cut.requests (X : Cut) {Y Z : Axis} (mpicom : ℤ) (c : Proc Y Z) : Option ℕ :=
  if mpicom = 0 then
    some (((List.range (Y.P * Z.P).toNat).filter fun k => fwd k c ≠ c ∧ 0 < X.sndFlag Y Z c.1 (fwd k c).1).length +
      ((List.range (Y.P * Z.P).toNat).filter fun k => bwd k c ≠ c ∧ 0 < X.rcvFlag Y Z c.1 (bwd k c).1).length)
  else none

/-- The requests that the non-blocking routine stores (field_boundaries.F90:800-825): chosen whenever `mpicom_curr` is not 1
(field_boundaries.F90:545, 614). -/
def Way.postRequests (w : Way) {Y Z : Axis} (mpicom : ℤ) (c : Proc Y Z) : Res ℕ :=
  let posted := ((w.cut.work c).drop 1).foldl (fun (n : ℕ) (k : ℕ) =>
    n + (if (w.from Y Z k c).isSome then 1 else 0) + if (w.dst Y Z k c).isSome then 1 else 0) 0
  match w.cut.requests mpicom c with
  | none => .error .nullDeref
  | some n => if posted ≤ n then .ok posted else .error .outOfBounds

/-- Cells of group `k` of `G` (mpi_routines.F90:866, 871-876). -/
def groupCells (n G k : ℤ) : ℤ :=
  let q := Int.tdiv n G
  if n ≠ q * G then (if G - 1 - k < n - G * q then q + 1 else q) else q

/-- `SUM(nbz_group_temp(1:k))`, the first cell of group `k` (load_balancing.F90:756-757, mpi_routines.F90:1115-1119). -/
def groupMin (n G : ℤ) (k : ℕ) : ℤ := ((List.range k).map fun (i : ℕ) => groupCells n G (i : ℤ)).sum

/-- The slab of process `r` of `p` when `N` planes are distributed: `fftw_mpi_local_size_3d` gives every process
`(N+p-1)/p` planes, the last ones fewer or none (documented behaviour of FFTW). Result: first plane and number of planes. -/
def fftwSlab (N p r : ℤ) : ℤ × ℤ :=
  let b := (N + p - 1) / p
  (r * b, max 0 (min b (N - r * b)))

/-- The direction z of `setup_groups` (mpi_routines.F90:715-724, 729-737, 866-876, 965-967, 1005-1010, 1090-1092, 1112-1123, 1139-1142)
together with the split of the cells (`lo`, `hi`); `gg` is `nzg_group`. -/
def setupZ (n P G gg ng : ℤ) (open_ : Bool) (lo hi : ℤ → ℤ) : Res Axis :=
  if Int.emod P G ≠ 0 then .error .exception
  else
    let p := Int.tdiv P G
    let grp (c : ℤ) := Int.tdiv c p
    let gmin (c : ℤ) := groupMin n G (grp c).toNat
    let N (c : ℤ) := groupCells n G (grp c) + 2 * gg
    let slab (c : ℤ) := fftwSlab (N c) p (Int.emod c p)
    if (List.range P.toNat).any (fun (c : ℕ) => decide ((slab (c : ℤ)).2 = 0)) then .error .exception
    else if n ≤ 2 * gg then .error .exception
    else
      let slo (c : ℤ) := (slab c).1 - gg + gmin c
      .ok ⟨P, G, n, ng, open_, lo, hi, slo, fun c => slo c + (slab c).2 - 1, gmin, fun c => gmin c + groupCells n G (grp c) - 1⟩

end Picsar.FftGroups
