import Verif.Model.PicsarVector

/-
Model of the life of breit_wheeler_engine objects in memory (breit_wheeler_engine.hpp, lookup_tables.hpp,
picsar_array.hpp): each engine is five `picsar_vector` objects over the explicit heap of Model/PicsarVector.lean and
the two initialisation flags of its tables. Every construction, copy, move, assignment and destruction of a vector that
the code performs, temporaries and parameters passed by value included, is one operation of that model, in the order of
the code; where C++ leaves the order open (copies of the arguments of one call) it is left to right, and objects of one
scope are destroyed in reverse order of construction. The values put in the tables are parameters: their computation is
modelled elsewhere (Model/LookupTables.lean, Model/OmpTables.lean). The other members (control parameters, reference
length, generator) own no memory and are left out.
-/
namespace Picsar.EH
open Picsar.PV

variable {α : Type}

/-- breit_wheeler_engine.hpp:263-272, lookup_tables.hpp:94-97, 190-195: the vector objects of the rate table (coordinates,
data) and of the cumulative table (two coordinates, data), and the `init_flag` of both tables. -/
structure Eng where
  rc : Nat
  rd : Nat
  c0 : Nat
  c1 : Nat
  cd : Nat
  rateInit : Bool
  cumInit : Bool
  deriving DecidableEq

/-- The memory and all engines ever created (`none` = destroyed). -/
structure EState (α : Type) where
  mem : State α
  engs : List (Option Eng)

/-- No engine yet. -/
def EState.init : EState α := ⟨State.init, []⟩

/-- The live engine number `e`. -/
def getEng (s : EState α) (e : Nat) : Res Eng :=
  match s.engs[e]? with
  | some (some g) => .ok g
  | _ => .error .deadObject

/-- breit_wheeler_engine.hpp:541-549 with lookup_tables.hpp:212-217, 400-405 and picsar_array.hpp:69-72: a new engine has
two empty tables. -/
def create (s : EState α) : Res (EState α) := do
  let n := s.mem.objs.length
  let m ← ctorEmpty s.mem
  let m ← ctorEmpty m
  let m ← ctorEmpty m
  let m ← ctorEmpty m
  let m ← ctorEmpty m
  pure ⟨m, s.engs ++ [some ⟨n, n + 1, n + 2, n + 3, n + 4, false, false⟩]⟩

/-- breit_wheeler_engine.hpp:552-557, lookup_tables.hpp:230-234, 419-423: copy constructor. The implicit copy constructor of
picsar_array copies its elements. -/
def copy (s : EState α) (e : Nat) : Res (EState α) := do
  let g ← getEng s e
  let n := s.mem.objs.length
  let m ← ctorCopy s.mem g.rc
  let m ← ctorCopy m g.rd
  let m ← ctorCopy m g.c0
  let m ← ctorCopy m g.c1
  let m ← ctorCopy m g.cd
  pure ⟨m, s.engs ++ [some ⟨n, n + 1, n + 2, n + 3, n + 4, g.rateInit, g.cumInit⟩]⟩

/-- breit_wheeler_engine.hpp:560-567, lookup_tables.hpp:237-242, 426-431: move constructor. `std::move` of a `bool` leaves
the flags of the source as they were. -/
def move (s : EState α) (e : Nat) : Res (EState α) := do
  let g ← getEng s e
  let n := s.mem.objs.length
  let m ← ctorMove s.mem g.rc
  let m ← ctorMove m g.rd
  let m ← ctorMove m g.c0
  let m ← ctorMove m g.c1
  let m ← ctorMove m g.cd
  pure ⟨m, s.engs ++ [some ⟨n, n + 1, n + 2, n + 3, n + 4, g.rateInit, g.cumInit⟩]⟩

/-- breit_wheeler_engine.hpp:874-918 with lookup_tables.hpp:245-253, 435-450: `export_innards` of a live engine and the
constructor from these innards. The sizes of the data arrays are recomputed from the sizes of the coordinates; the two
coordinate vectors of the 2-D table are first empty and then move-assigned from a temporary. -/
def fromInnards (s : EState α) (e : Nat) : Res (EState α) := do
  let g ← getEng s e
  let n := s.mem.objs.length
  let rc ← getObj s.mem g.rc
  let rd ← getObj s.mem g.rd
  let c0 ← getObj s.mem g.c0
  let c1 ← getObj s.mem g.c1
  let cd ← getObj s.mem g.cd
  let m ← ctorRaw s.mem rc.size rc.ptr
  let m ← ctorRaw m rc.size rd.ptr
  let m ← ctorEmpty m
  let m ← ctorEmpty m
  let m ← ctorRaw m (c0.size * c1.size) cd.ptr
  let m ← ctorRaw m c0.size c0.ptr
  let m ← assignMove m (n + 2) (n + 5)
  let m ← dtor m (n + 5)
  let m ← ctorRaw m c1.size c1.ptr
  let m ← assignMove m (n + 3) (n + 6)
  let m ← dtor m (n + 6)
  pure ⟨m, s.engs ++ [some ⟨n, n + 1, n + 2, n + 3, n + 4, true, true⟩]⟩

/-- breit_wheeler_engine.hpp:570-586, lookup_tables.hpp:257-268, 454-465: `operator=`, guarded against self-assignment; the
implicit assignment of picsar_array assigns its elements. -/
def assign (s : EState α) (t e : Nat) : Res (EState α) := do
  let a ← getEng s t
  let g ← getEng s e
  if t = e then pure s
  else
    let m ← assignCopy s.mem a.rc g.rc
    let m ← assignCopy m a.rd g.rd
    let m ← assignCopy m a.c0 g.c0
    let m ← assignCopy m a.c1 g.c1
    let m ← assignCopy m a.cd g.cd
    pure ⟨m, s.engs.set t (some { a with rateInit := g.rateInit, cumInit := g.cumInit })⟩

/-- breit_wheeler_engine.hpp:632-656 `compute_dN_dt_lookup_table`, with lookup_tables.hpp:219-227 (the constructor takes its
vectors by value and copies them into the members) and 257-268 (no move assignment is declared, so the temporary table is
copied). The two local vectors are created with their final values `xs`, `ys`. -/
def computeRate (s : EState α) (e : Nat) (xs ys : List α) : Res (EState α) := do
  let g ← getEng s e
  let n := s.mem.objs.length
  let m ← ctorList s.mem xs            -- n: TT_coords
  let m ← ctorList m ys                -- n+1: TT_vals
  let m ← ctorCopy m n                 -- n+2: parameter _coords
  let m ← ctorCopy m (n + 1)           -- n+3: parameter _data
  let m ← ctorCopy m (n + 2)           -- n+4: coords of the temporary table
  let m ← ctorCopy m (n + 3)           -- n+5: data of the temporary table
  let m ← dtor m (n + 3)
  let m ← dtor m (n + 2)
  let m ← assignCopy m g.rc (n + 4)
  let m ← assignCopy m g.rd (n + 5)
  let m ← dtor m (n + 5)
  let m ← dtor m (n + 4)
  let m ← dtor m (n + 1)
  let m ← dtor m n
  pure ⟨m, s.engs.set e (some { g with rateInit := true })⟩

/-- breit_wheeler_engine.hpp:721-761 `compute_cumulative_pair_table`, with picsar_array.hpp:75-83 (the list constructor takes its
arguments by value), lookup_tables.hpp:409-416 and 454-465. The array built in the call is the parameter itself. -/
def computeCum (s : EState α) (e : Nat) (xs fs vs : List α) : Res (EState α) := do
  let g ← getEng s e
  let n := s.mem.objs.length
  let m ← ctorList s.mem xs            -- n: chi_coords
  let m ← ctorList m fs                -- n+1: frac_coords
  let m ← ctorList m vs                -- n+2: pair_vals
  let m ← ctorCopy m n                 -- n+3, n+4: arguments of the picsar_array
  let m ← ctorCopy m (n + 1)
  let m ← ctorCopy m (n + 3)           -- n+5, n+6: the picsar_array, parameter _coords
  let m ← ctorCopy m (n + 4)
  let m ← dtor m (n + 4)
  let m ← dtor m (n + 3)
  let m ← ctorCopy m (n + 2)           -- n+7: parameter _data
  let m ← ctorCopy m (n + 5)           -- n+8, n+9: coords of the temporary table
  let m ← ctorCopy m (n + 6)
  let m ← ctorCopy m (n + 7)           -- n+10: data of the temporary table
  let m ← dtor m (n + 7)
  let m ← dtor m (n + 6)
  let m ← dtor m (n + 5)
  let m ← assignCopy m g.c0 (n + 8)
  let m ← assignCopy m g.c1 (n + 9)
  let m ← assignCopy m g.cd (n + 10)
  let m ← dtor m (n + 10)
  let m ← dtor m (n + 9)
  let m ← dtor m (n + 8)
  let m ← dtor m (n + 2)
  let m ← dtor m (n + 1)
  let m ← dtor m n
  pure ⟨m, s.engs.set e (some { g with cumInit := true })⟩

/-- `in.read(data(), ...)`: the values of the file put one after the other through the pointer. -/
def fill (m : State α) (v : Nat) : List α → Nat → Res (State α)
  | [], _ => .ok m
  | x :: xs, i => do
    let m ← write m v i x
    fill m v xs (i + 1)

/-- lookup_tables.hpp:359-371 (and 699-718): resize one vector to the number of values announced by the file and
read them into it. The file is well formed. The second component tells whether `resize` threw. -/
def readVec (m : State α) (v : Nat) (xs : List α) : Res (State α × Bool) :=
  match resize m v xs.length with
  | .ok m1 => do
    let m2 ← fill m1 v xs 0
    pure (m2, false)
  | .error .exception => .ok (m, true)
  | .error f => .error f

/-- breit_wheeler_engine.hpp:848-857 `read_dN_dt_table` with lookup_tables.hpp:354-374. The second component tells whether
an exception left the function. -/
def readRate (s : EState α) (e : Nat) (xs ys : List α) : Res (EState α × Bool) := do
  let g ← getEng s e
  let (m, t) ← readVec s.mem g.rc xs
  if t then pure (⟨m, s.engs⟩, true)
  else
    let (m, t) ← readVec m g.rd ys
    if t then pure (⟨m, s.engs⟩, true)
    else pure (⟨m, s.engs.set e (some { g with rateInit := true })⟩, false)

/-- breit_wheeler_engine.hpp:861-870 `read_cumulative_pair_table` with lookup_tables.hpp:694-721. -/
def readCum (s : EState α) (e : Nat) (xs fs vs : List α) : Res (EState α × Bool) := do
  let g ← getEng s e
  let (m, t) ← readVec s.mem g.c0 xs
  if t then pure (⟨m, s.engs⟩, true)
  else
    let (m, t) ← readVec m g.c1 fs
    if t then pure (⟨m, s.engs⟩, true)
    else
      let (m, t) ← readVec m g.cd vs
      if t then pure (⟨m, s.engs⟩, true)
      else pure (⟨m, s.engs.set e (some { g with cumInit := true })⟩, false)

/-- The implicit destructor: members in reverse order of declaration (the two tables of the engine; in each table the data
after the coordinates). -/
def destroy (s : EState α) (e : Nat) : Res (EState α) := do
  let g ← getEng s e
  let m ← dtor s.mem g.cd
  let m ← dtor m g.c1
  let m ← dtor m g.c0
  let m ← dtor m g.rd
  let m ← dtor m g.rc
  pure ⟨m, s.engs.set e none⟩

/-- What a program does with engines. -/
inductive EOp (α : Type)
  | create
  | copy (e : Nat)
  | move (e : Nat)
  | fromInnards (e : Nat)
  | assign (t e : Nat)
  | computeRate (e : Nat) (xs ys : List α)
  | computeCum (e : Nat) (xs fs vs : List α)
  | readRate (e : Nat) (xs ys : List α)
  | readCum (e : Nat) (xs fs vs : List α)
  | destroy (e : Nat)

/-- One operation; the second component tells whether an exception was thrown. -/
def estep (s : EState α) : EOp α → Res (EState α × Bool)
  | .create => do let s ← create s; pure (s, false)
  | .copy e => do let s ← copy s e; pure (s, false)
  | .move e => do let s ← move s e; pure (s, false)
  | .fromInnards e => do let s ← fromInnards s e; pure (s, false)
  | .assign t e => do let s ← assign s t e; pure (s, false)
  | .computeRate e xs ys => do let s ← computeRate s e xs ys; pure (s, false)
  | .computeCum e xs fs vs => do let s ← computeCum s e xs fs vs; pure (s, false)
  | .readRate e xs ys => readRate s e xs ys
  | .readCum e xs fs vs => readCum s e xs fs vs
  | .destroy e => do let s ← destroy s e; pure (s, false)

/-- A history; the program catches exceptions and goes on. The second component lists which operations threw. -/
def erun (s : EState α) : List (EOp α) → Res (EState α × List Bool)
  | [] => .ok (s, [])
  | op :: ops => do
    let (s, t) ← estep s op
    let (s, ts) ← erun s ops
    pure (s, t :: ts)

end Picsar.EH
