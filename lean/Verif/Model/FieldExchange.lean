import Verif.Model.Grid
import Verif.Model.Mpi
import Verif.Model.Topology

/-
Guard-cell exchange and summation of currents between subdomains: src/boundary_conditions/field_boundaries.F90, three dimensions.
The slabs are described by their index ranges; the derived datatypes that the code caches are modelled in Model/Datatypes.
-/
namespace Picsar.Exchange
open Picsar Picsar.Grid Picsar.Mpi

/-- Direction. -/
inductive Ax | x | y | z
  deriving DecidableEq

/-- Component of an index. -/
def at_ (i : I3) : Ax → ℤ
  | .x => i.j
  | .y => i.k
  | .z => i.l

/-- The index with one component replaced. -/
def upd (i : I3) : Ax → ℤ → I3
  | .x, v => ⟨v, i.k, i.l⟩
  | .y, v => ⟨i.j, v, i.l⟩
  | .z, v => ⟨i.j, i.k, v⟩

/-- The decomposition in each direction: number of processes, first cell of each of them (`cell_x_min(c+1)`; `lo (P)` is the total
number of cells), guard cells of the array, and whether the direction is periodic (no `absorbing_bcs`). -/
structure Dom where
  P : Ax → ℤ
  lo : Ax → ℤ → ℤ
  g : Ax → ℤ
  per : Ax → Bool

/-- `nx_local` of the process with coordinate `c`. -/
def Dom.n (D : Dom) (a : Ax) (c : ℤ) : ℤ := D.lo a (c + 1) - D.lo a c

/-- The processes, named by their coordinates. -/
def Proc (D : Dom) := {c : I3 // ∀ a, 0 ≤ at_ c a ∧ at_ c a < D.P a}

noncomputable instance (D : Dom) : DecidableEq (Proc D) := Classical.decEq _

/-- `proc_x_max`: `neighbour(1,0,0)`, but `MPI_PROC_NULL` at the upper end of an absorbing direction
(mpi_routines.F90:418-423, 601-614). -/
def procMax (D : Dom) (a : Ax) (c : ℤ) : Option ℤ :=
  if D.per a = false ∧ c = D.P a - 1 then none else some (Topology.neight (D.P a) c 1)

/-- `proc_x_min`. -/
def procMin (D : Dom) (a : Ax) (c : ℤ) : Option ℤ :=
  if D.per a = false ∧ c = 0 then none else some (Topology.neight (D.P a) c (-1))

/-- The process with coordinate `v` in direction `a`. -/
noncomputable def Proc.move {D : Dom} (c : Proc D) (a : Ax) (v : Option ℤ) : Option (Proc D) := by
  classical exact v.bind fun v => if h : ∀ b, 0 ≤ at_ (upd c.1 a v) b ∧ at_ (upd c.1 a v) b < D.P b then some ⟨_, h⟩ else none

/-- `proc_x_max` as a process. -/
noncomputable def up {D : Dom} (a : Ax) (c : Proc D) : Option (Proc D) := c.move a (procMax D a (at_ c.1 a))
/-- `proc_x_min` as a process. -/
noncomputable def down {D : Dom} (a : Ax) (c : Proc D) : Option (Proc D) := c.move a (procMin D a (at_ c.1 a))
/-- `neighbour(1,0,0)`, periodic whatever the boundary condition. -/
noncomputable def upPer {D : Dom} (a : Ax) (c : Proc D) : Option (Proc D) :=
  c.move a (some (Topology.neight (D.P a) (at_ c.1 a) 1))
/-- `neighbour(-1,0,0)`. -/
noncomputable def downPer {D : Dom} (a : Ax) (c : Proc D) : Option (Proc D) :=
  c.move a (some (Topology.neight (D.P a) (at_ c.1 a) (-1)))

/-- Lower bounds of the array, `-nxg, -nyg, -nzg`. -/
def lowB (D : Dom) : I3 := ⟨-D.g .x, -D.g .y, -D.g .z⟩
/-- Upper bounds, `nx_local+nxg, ny_local+nyg, nz_local+nzg`. -/
def highB (D : Dom) (c : I3) : I3 := ⟨D.n .x c.j + D.g .x, D.n .y c.k + D.g .y, D.n .z c.l + D.g .z⟩

/-- The elements of the subarray of `subsizes(a) = g+1` planes starting at plane `s` of direction `a`, over the full extent of the
array in the other directions, in memory order. -/
def slab (D : Dom) (c : I3) (a : Ax) (s : ℤ) : List I3 := box (upd (lowB D) a s) (upd (highB D c) a (s + D.g a))

/-- Memory of a process: the array and the receive buffers. -/
structure Loc where
  f : I3 → ℝ
  t1 : List ℝ
  t2 : List ℝ

/-- The values sent. -/
def pack (f : I3 → ℝ) (l : List I3) : List ℝ := l.map f

/-- The received values are stored one after the other. -/
def unpack : List I3 → List ℝ → (I3 → ℝ) → I3 → ℝ
  | i :: is, v :: vs, f => unpack is vs (Function.update f i v)
  | [], _, f => f
  | _ :: _, [], f => f

/-- The received values are added one after the other (`array(0:nxg,:,:) = array(0:nxg,:,:) + temp`). -/
noncomputable def addUnpack : List I3 → List ℝ → (I3 → ℝ) → I3 → ℝ
  | i :: is, v :: vs, f => addUnpack is vs (Function.update f i (f i + v))
  | [], _, f => f
  | _ :: _, [], f => f

/-- Direction of communication `k` when each direction has two. -/
def axOf (k : ℕ) : Ax := if k / 2 = 0 then .x else if k / 2 = 1 then .y else .z

/-- First plane sent by the exchange: `0` to the lower neighbour, then `n-g` to the upper one (field_boundaries.F90:147-148, 162-164
and likewise in the other directions). -/
def exSend (D : Dom) (k : ℕ) (c : I3) : ℤ := if k % 2 = 0 then 0 else D.n (axOf k) (at_ c (axOf k)) - D.g (axOf k)
/-- First plane received: `n` from the upper neighbour, then `-g` from the lower one. -/
def exRecv (D : Dom) (k : ℕ) (c : I3) : ℤ := if k % 2 = 0 then D.n (axOf k) (at_ c (axOf k)) else -D.g (axOf k)

/-- `exchange_mpi_3d_grid_array_with_guards` (field_boundaries.F90:107-269): six `MPI_SENDRECV` into a buffer, copied to the array
if the source is not `MPI_PROC_NULL`. -/
noncomputable def exchBlocking (D : Dom) : Prog (Proc D) Loc (List ℝ) where
  G := 6
  off g := g
  dst k c := if k % 2 = 0 then down (axOf k) c else up (axOf k) c
  src k c := if k % 2 = 0 then up (axOf k) c else down (axOf k) c
  pay k c m := pack m.f (slab D c.1 (axOf k) (exSend D k c.1))
  put _ _ m v := ⟨m.f, v, m.t2⟩
  fin k c m := if (if k % 2 = 0 then up (axOf k) c else down (axOf k) c).isSome then
    ⟨unpack (slab D c.1 (axOf k) (exRecv D k c.1)) m.t1 m.f, [], m.t2⟩ else m

/-- `exchange_mpi_3d_grid_array_with_guards_nonblocking` (field_boundaries.F90:283-389): six pairs `MPI_ISEND`/`MPI_IRECV`, received
directly into the array, each followed by `MPI_WAITALL`. -/
noncomputable def exchNonblocking (D : Dom) : Prog (Proc D) Loc (List ℝ) where
  G := 6
  off g := g
  dst k c := if k % 2 = 0 then down (axOf k) c else up (axOf k) c
  src k c := if k % 2 = 0 then up (axOf k) c else down (axOf k) c
  pay k c m := pack m.f (slab D c.1 (axOf k) (exSend D k c.1))
  put k c m v := ⟨unpack (slab D c.1 (axOf k) (exRecv D k c.1)) v m.f, m.t1, m.t2⟩
  fin _ _ m := m

/-- First plane sent by the summation: `n` to the upper neighbour, then `-g` to the lower one. -/
def smSend (D : Dom) (k : ℕ) (c : I3) : ℤ := if k % 2 = 0 then D.n (axOf k) (at_ c (axOf k)) else -D.g (axOf k)
/-- First plane added to: `0` from the lower neighbour, then `n-g` from the upper one. -/
def smRecv (D : Dom) (k : ℕ) (c : I3) : ℤ := if k % 2 = 0 then 0 else D.n (axOf k) (at_ c (axOf k)) - D.g (axOf k)

/-- The summation part of `summation_bcs` (field_boundaries.F90:415-497): six `MPI_SENDRECV` with the ranks of `neighbour`, each
followed by the addition. An empty buffer stands for `temp = 0`. -/
noncomputable def sumBlocking (D : Dom) : Prog (Proc D) Loc (List ℝ) where
  G := 6
  off g := g
  dst k c := if k % 2 = 0 then upPer (axOf k) c else downPer (axOf k) c
  src k c := if k % 2 = 0 then downPer (axOf k) c else upPer (axOf k) c
  pay k c m := pack m.f (slab D c.1 (axOf k) (smSend D k c.1))
  put _ _ m v := ⟨m.f, v, m.t2⟩
  fin k c m := ⟨addUnpack (slab D c.1 (axOf k) (smRecv D k c.1)) m.t1 m.f, [], m.t2⟩

/-- The summation part of `summation_bcs_nonblocking` (field_boundaries.F90:1143-1242): in each direction two sends and two receives
into separate buffers, `MPI_WAITALL`, and the two additions. -/
noncomputable def sumNonblocking (D : Dom) : Prog (Proc D) Loc (List ℝ) where
  G := 3
  off g := 2 * g
  dst k c := if k % 2 = 0 then up (axOf k) c else down (axOf k) c
  src k c := if k % 2 = 0 then down (axOf k) c else up (axOf k) c
  pay k c m := pack m.f (slab D c.1 (axOf k) (smSend D k c.1))
  put k _ m v := if k % 2 = 0 then ⟨m.f, v, m.t2⟩ else ⟨m.f, m.t1, v⟩
  fin g c m :=
    ⟨addUnpack (slab D c.1 (axOf (2 * g)) (smRecv D (2 * g + 1) c.1)) m.t2
      (addUnpack (slab D c.1 (axOf (2 * g)) (smRecv D (2 * g) c.1)) m.t1 m.f), [], []⟩

/-- `summation_bcs` with `mpicom_curr = 1`: summation, then `field_bc` (field_boundaries.F90:403-503, 81-93). -/
noncomputable def summationBlocking (D : Dom) : Prog (Proc D) Loc (List ℝ) := (sumBlocking D).seq (exchBlocking D)
/-- `summation_bcs_nonblocking`: summation, then `field_bc` (field_boundaries.F90:1131-1246). -/
noncomputable def summationNonblocking (D : Dom) : Prog (Proc D) Loc (List ℝ) := (sumNonblocking D).seq (exchNonblocking D)

end Picsar.Exchange
