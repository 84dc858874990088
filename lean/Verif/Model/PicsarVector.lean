import Verif.Base

/-
Model of src/multi_physics/QED/src/picsar_vector.hpp: `picsar_vector` objects over an explicit heap.

Heap blocks are numbered in order of allocation and are never reused, so a dangling pointer is
recognisable. A cell is `some x`, or `none` when it was allocated by `new T[n]` and not yet written
(for the arithmetic element types used by the library such a cell is indeterminate). Memory
exhaustion (`std::bad_alloc`) is not modelled; `operator[]` takes an `int`, the model an unbounded index.
-/
namespace Picsar.PV

/-- One block of memory. `ext` marks memory allocated outside the library. -/
structure Block (α : Type) where
  cells : List (Option α)
  alive : Bool
  ext : Bool

/-- picsar_vector.hpp:105-109: the three members `v_data` (`none` = `nullptr`), `v_size`,
`should_manage_memory`. -/
structure Obj where
  ptr : Option Nat
  size : Nat
  manage : Bool
  deriving DecidableEq

/-- Heap plus all vector objects ever created (`none` = destroyed). -/
structure State (α : Type) where
  heap : List (Block α)
  objs : List (Option Obj)

variable {α : Type}

/-- Initial state. -/
def State.init : State α := ⟨[], []⟩

/-- The live object number `v`. -/
def getObj (s : State α) (v : Nat) : Res Obj :=
  match s.objs[v]? with
  | some (some o) => .ok o
  | _ => .error .deadObject

/-- Assign the members of object `v`. -/
def setObj (s : State α) (v : Nat) (o : Obj) : State α := { s with objs := s.objs.set v (some o) }

/-- Begin the lifetime of a new object. -/
def newObj (s : State α) (o : Obj) : State α := { s with objs := s.objs ++ [some o] }

/-- `new T[n]`, giving the address of the new block. -/
def alloc (s : State α) (n : Nat) : State α × Nat :=
  ({ s with heap := s.heap ++ [⟨List.replicate n none, true, false⟩] }, s.heap.length)

/-- `delete[] p`. -/
def free (s : State α) (p : Option Nat) : Res (State α) :=
  match p with
  | none => .ok s
  | some b =>
    match s.heap[b]? with
    | none => .error .badFree
    | some blk =>
      if blk.ext then .error .badFree
      else if blk.alive then .ok { s with heap := s.heap.set b { blk with alive := false } }
      else .error .doubleFree

/-- `p[i]` as an rvalue. -/
def load (s : State α) (p : Option Nat) (i : Nat) : Res (Option α) :=
  match p with
  | none => .error .nullDeref
  | some b =>
    match s.heap[b]? with
    | none => .error .outOfBounds
    | some blk => if blk.alive then rd blk.cells i else .error .useAfterFree

/-- `p[i] = x`. -/
def store (s : State α) (p : Option Nat) (i : Nat) (x : Option α) : Res (State α) :=
  match p with
  | none => .error .nullDeref
  | some b =>
    match s.heap[b]? with
    | none => .error .outOfBounds
    | some blk =>
      if blk.alive then do
        let c ← wr blk.cells i x
        pure { s with heap := s.heap.set b { blk with cells := c } }
      else .error .useAfterFree

/-- picsar_vector.hpp:189-190, 219-220, 270: `for(i...) dst[i] = src[i];`, `k` iterations from `i`. -/
def copyLoop (s : State α) (src dst : Option Nat) : Nat → Nat → Res (State α)
  | 0, _ => .ok s
  | k + 1, i => do
    let x ← load s src i
    let s' ← store s dst i x
    copyLoop s' src dst k (i + 1)

/-- `std::copy` of given values into a fresh block (picsar_vector.hpp:136, 161). -/
def storeList (s : State α) (dst : Option Nat) : List α → Nat → Res (State α)
  | [], _ => .ok s
  | x :: xs, i => do
    let s' ← store s dst i (some x)
    storeList s' dst xs (i + 1)

/-- picsar_vector.hpp:118-126 `picsar_vector(size_t)`. -/
def ctorSize (s : State α) (n : Nat) : Res (State α) :=
  let (s1, b) := alloc s n
  .ok (newObj s1 ⟨some b, n, true⟩)

/-- picsar_vector.hpp:129-139 constructor from `std::vector`, and 152-164 from a list of values. -/
def ctorList (s : State α) (l : List α) : Res (State α) := do
  let (s1, b) := alloc s l.length
  let s2 ← storeList s1 (some b) l 0
  pure (newObj s2 ⟨some b, l.length, true⟩)

/-- picsar_vector.hpp:141-150 `picsar_vector()`. -/
def ctorEmpty (s : State α) : Res (State α) := .ok (newObj s ⟨none, 0, true⟩)

/-- picsar_vector.hpp:166-178 `picsar_vector(size_t, T*)`. -/
def ctorRaw (s : State α) (n : Nat) (p : Option Nat) : Res (State α) :=
  .ok (newObj s ⟨p, n, false⟩)

/-- picsar_vector.hpp:181-193 copy constructor. -/
def ctorCopy (s : State α) (other : Nat) : Res (State α) := do
  let o ← getObj s other
  let (s1, b) := alloc s o.size
  let s2 ← copyLoop s1 o.ptr (some b) o.size 0
  pure (newObj s2 ⟨some b, o.size, true⟩)

/-- picsar_vector.hpp:196-208 move constructor. -/
def ctorMove (s : State α) (other : Nat) : Res (State α) := do
  let o ← getObj s other
  pure (newObj (setObj s other ⟨none, 0, false⟩) o)

/-- picsar_vector.hpp:211-225 copy assignment. The members of `*this` are overwritten before the
loop and `other` is read again inside the loop, so `this == &other` reads the fresh block. -/
def assignCopy (s : State α) (this other : Nat) : Res (State α) := do
  let o ← getObj s other
  let t ← getObj s this
  let s1 := setObj s this { t with size := o.size }        -- v_size = other.v_size
  let o1 ← getObj s1 other
  let (s2, b) := alloc s1 o1.size                           -- v_data = new T[other.v_size]
  let t2 ← getObj s2 this
  let s3 := setObj s2 this { t2 with ptr := some b }
  let t3 ← getObj s3 this
  let o3 ← getObj s3 other
  let s4 ← copyLoop s3 o3.ptr t3.ptr t3.size 0
  let t4 ← getObj s4 this
  pure (setObj s4 this { t4 with manage := true })

/-- picsar_vector.hpp:228-243 move assignment (also for `this == &other`: the six assignments run in
order). -/
def assignMove (s : State α) (this other : Nat) : Res (State α) := do
  let o ← getObj s other
  let _ ← getObj s this
  pure (setObj (setObj s this o) other ⟨none, 0, false⟩)

/-- picsar_vector.hpp:246-254 destructor. -/
def dtor (s : State α) (v : Nat) : Res (State α) := do
  let o ← getObj s v
  let s1 ← if o.manage then free s o.ptr else pure s
  pure { s1 with objs := s1.objs.set v none }

/-- picsar_vector.hpp:256-276 `resize`. -/
def resize (s : State α) (v n : Nat) : Res (State α) := do
  let o ← getObj s v
  if !o.manage then .error .exception
  else
    let (s1, b) := alloc s n
    let howMany := if o.size > n then n else o.size
    let s2 ← copyLoop s1 o.ptr (some b) howMany 0
    let s3 ← free s2 o.ptr
    pure (setObj s3 v ⟨some b, n, true⟩)

/-- picsar_vector.hpp:279-293 `operator[]` used as an rvalue. -/
def read (s : State α) (v i : Nat) : Res α := do
  let o ← getObj s v
  match ← load s o.ptr i with
  | some x => .ok x
  | none => .error .uninitialised

/-- picsar_vector.hpp:288-293 `operator[]` used as an lvalue. -/
def write (s : State α) (v i : Nat) (x : α) : Res (State α) := do
  let o ← getObj s v
  store s o.ptr i (some x)

/-- picsar_vector.hpp:345-351 non-const `back()`: returns `v_data[0]`. -/
def back (s : State α) (v : Nat) : Res α := read s v 0

/-- picsar_vector.hpp:353-359, 370-376 `front()` (both overloads). -/
def front (s : State α) (v : Nat) : Res α := read s v 0

/-- picsar_vector.hpp:362-368 const `back()`: `v_data[v_size-1]`; for size 0 the index wraps and is
outside every block. -/
def backConst (s : State α) (v : Nat) : Res α := do
  let o ← getObj s v
  match o.size with
  | 0 => .error .outOfBounds
  | n + 1 => read s v n

/-- picsar_vector.hpp:304-310 `size()`. -/
def size (s : State α) (v : Nat) : Res Nat := do
  let o ← getObj s v
  pure o.size

/-- Operations of a program on vectors. `extAlloc`/`extFree` are the program's own memory; `wrapExt`
and `wrapVec` use the raw-pointer constructor on that memory and on another vector's `data()`. -/
inductive Op (α : Type)
  | ctorSize (n : Nat)
  | ctorList (l : List α)
  | ctorEmpty
  | ctorCopy (other : Nat)
  | ctorMove (other : Nat)
  | wrapExt (n b : Nat)
  | wrapVec (other : Nat)
  | assignCopy (this other : Nat)
  | assignMove (this other : Nat)
  | dtor (v : Nat)
  | resize (v n : Nat)
  | read (v i : Nat)
  | write (v i : Nat) (x : α)
  | extAlloc (l : List α)
  | extFree (b : Nat)

/-- One operation of the program. -/
def step (s : State α) : Op α → Res (State α)
  | .ctorSize n => ctorSize s n
  | .ctorList l => ctorList s l
  | .ctorEmpty => ctorEmpty s
  | .ctorCopy o => ctorCopy s o
  | .ctorMove o => ctorMove s o
  | .wrapExt n b => ctorRaw s n (some b)
  | .wrapVec v => do
    let o ← getObj s v
    ctorRaw s o.size o.ptr
  | .assignCopy t o => assignCopy s t o
  | .assignMove t o => assignMove s t o
  | .dtor v => dtor s v
  | .resize v n => resize s v n
  | .read v i => do
    let _ ← read s v i
    pure s
  | .write v i x => write s v i x
  | .extAlloc l => .ok { s with heap := s.heap ++ [⟨l.map some, true, true⟩] }
  | .extFree b =>
    match s.heap[b]? with
    | none => .error .badFree
    | some blk =>
      if blk.alive then .ok { s with heap := s.heap.set b { blk with alive := false } }
      else .error .doubleFree

/-- A history of operations; an exception (from `resize`) is caught by the program, which goes on from
the state in which it was thrown. Any other fault ends the history. -/
def run (s : State α) : List (Op α) → Res (State α)
  | [] => .ok s
  | op :: ops =>
    match step s op with
    | .ok s' => run s' ops
    | .error .exception => run s ops
    | .error e => .error e

end Picsar.PV
