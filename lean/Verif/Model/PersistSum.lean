import Verif.Model.FieldExchange
/-
Summation of the currents with persistent requests, `mpicom_curr = 2`: src/boundary_conditions/field_boundaries.F90,
`summation_bcs_persistent_jx`, `_jy`, `_jz`. Requests are handles stored in module variables, which outlive the call; they record the
storage of the array, not its name.
-/
namespace Picsar.Persist
open Picsar Picsar.Grid Picsar.Mpi Picsar.Exchange

/-- What `MPI_SEND_INIT` records: the storage of the array, the elements described by the datatype, the destination. -/
structure Req (D : Dom) where
  arr : ℕ
  elems : List I3
  dst : Option (Proc D)

/-- `reqperjxx, reqperjxy, reqperjxz` of every process, send requests only, numbered as the communications (modules.F90:790-798).
`none`: no request was ever stored there. -/
abbrev Table (D : Dom) := Proc D → ℕ → Option (Req D)

/-- Memory of a process: contents of the storages, the one to which the argument `array` refers, receive buffers. -/
structure PLoc where
  heap : ℕ → I3 → ℝ
  cur : ℕ
  t1 : List ℝ
  t2 : List ℝ

/-- The array and the buffers, as in Model/FieldExchange. -/
def PLoc.loc (m : PLoc) : Loc := ⟨m.heap m.cur, m.t1, m.t2⟩
/-- The array and the buffers replaced. -/
def PLoc.set (m : PLoc) (x : Loc) : PLoc := ⟨Function.update m.heap m.cur x.f, m.cur, x.t1, x.t2⟩

/-- The six `MPI_SEND_INIT` (field_boundaries.F90:1289-1333, 1458-1497, 1623-1662): in each direction the planes from `n` on to the upper
neighbour, those from `-g` on to the lower one. -/
noncomputable def sendInit (D : Dom) (c : Proc D) (cur k : ℕ) : Option (Req D) :=
  if k < 6 then some ⟨cur, slab D c.1 (axOf k) (smSend D k c.1), if k % 2 = 0 then up (axOf k) c else down (axOf k) c⟩ else none

/-- The summation (field_boundaries.F90:1335-1412, 1499-1577, 1664-1741): in each direction two `MPI_START`, two `MPI_IRECV` into
separate buffers, `MPI_WAITALL`, the two additions. -/
noncomputable def sumPersistent (D : Dom) (rq : Table D) : Prog (Proc D) PLoc (List ℝ) where
  G := 3
  off g := 2 * g
  dst k c := (rq c k).bind (·.dst)
  src k c := if k < 6 then (if k % 2 = 0 then down (axOf k) c else up (axOf k) c) else none
  pay k c m := match rq c k with
    | some r => pack (m.heap r.arr) r.elems
    | none => []
  put k _ m v := if k % 2 = 0 then ⟨m.heap, m.cur, v, m.t2⟩ else ⟨m.heap, m.cur, m.t1, v⟩
  fin g c m :=
    ⟨Function.update m.heap m.cur (addUnpack (slab D c.1 (axOf (2 * g)) (smRecv D (2 * g + 1) c.1)) m.t2
      (addUnpack (slab D c.1 (axOf (2 * g)) (smRecv D (2 * g) c.1)) m.t1 (m.heap m.cur))), m.cur, [], []⟩

/-- A program that works on the array passed as argument. -/
def onArray {R : Type} (P : Prog R Loc (List ℝ)) : Prog R PLoc (List ℝ) where
  G := P.G
  off := P.off
  dst := P.dst
  src := P.src
  pay k c m := P.pay k c m.loc
  put k c m v := m.set (P.put k c m.loc v)
  fin g c m := m.set (P.fin g c m.loc)

/-- The summation, then `field_bc` (field_boundaries.F90:1414, 1579, 1743; 81-93 with `mpicom_curr = 2`). -/
noncomputable def summationPersistent (D : Dom) (rq : Table D) : Prog (Proc D) PLoc (List ℝ) :=
  (sumPersistent D rq).seq (onArray (exchNonblocking D))

/-- What outlives a call: the requests, the memory, and the number of requests created and not freed on each process
(no `MPI_REQUEST_FREE` in the code). -/
structure PState (D : Dom) where
  rq : Table D
  mem : Proc D → PLoc
  made : Proc D → ℕ

/-- The three components; only the one for `jx` has the two superfluous `MPI_RECV_INIT`. -/
inductive JComp | jx | jy | jz
  deriving DecidableEq

/-- Requests created by the initialisation: six sends, for `jx` also two receives whose handles are overwritten
(field_boundaries.F90:1302-1305). -/
def perInit : JComp → ℕ
  | .jx => 8
  | .jy => 6
  | .jz => 6

/-- `IF (it .EQ. 0)` and what follows up to the first communication. The count of the two `MPI_RECV_INIT` is the local variable `sz`
before its first assignment; `sz c` is the value it happens to have, and MPI aborts when it is negative. Starting a request that was
never created reads a handle that was never written. -/
noncomputable def prepare (D : Dom) (w : JComp) (it : ℤ) (sz : Proc D → ℤ) (s : PState D) : Res (Table D × (Proc D → ℕ)) := by
  classical exact
    if it = 0 then
      if w = .jx ∧ ∃ c, sz c < 0 then .error .exception
      else .ok (fun c k => sendInit D c (s.mem c).cur k, fun c => s.made c + perInit w)
    else if ∀ c k, k < 6 → (s.rq c k).isSome then .ok (s.rq, s.made) else .error .uninitialised

/-- A call of the routine on all processes: any interleaving, until no step is possible. The buffers are allocated at each call.
Simplification: the calls for the three components are treated one at a time. -/
inductive Call (D : Dom) (w : JComp) (it : ℤ) (sz : Proc D → ℤ) (s : PState D) : Res (PState D) → Prop
  | fault (e : Fault) : prepare D w it sz s = .error e → Call D w it sz s (.error e)
  | run (rq : Table D) (made : Proc D → ℕ) (n : ℕ) (b : Conf (Proc D) PLoc (List ℝ)) : prepare D w it sz s = .ok (rq, made) →
      Exec (summationPersistent D rq) n (start fun c => ⟨(s.mem c).heap, (s.mem c).cur, [], []⟩) b →
      Stuck (summationPersistent D rq) b → Call D w it sz s (.ok ⟨rq, b.mem, made⟩)

end Picsar.Persist
