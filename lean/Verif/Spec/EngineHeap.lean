import Verif.Model.EngineHeap
import Verif.Spec.PicsarVector
import Mathlib.Data.Nat.Notation

/-
What a user expects of engines: they are values. A copy has the contents of its source, an assignment replaces them, a
move hands them over, computing or reading a table replaces that table, and nothing done to one engine changes another.
Beside the contents the description keeps what the memory of each table is, because reading a table from a file is
refused for memory the engine does not own, and how much memory is lost.
-/
namespace Picsar.EHSpec
open Picsar.EH

variable {α : Type}

/-- What the memory of a table is: none yet, the engine's own, or not its own (wrapped from innards, or handed over by a
move). -/
inductive Mem | none | own | foreign
  deriving DecidableEq

/-- The tables of one engine. `ready` is what `is_init()` reports. -/
structure Tables (α : Type) where
  rateX : List α
  rateY : List α
  rateReady : Bool
  rateMem : Mem
  cumX : List α
  cumF : List α
  cumV : List α
  cumReady : Bool
  cumMem : Mem

/-- All engines ever created (`none` = destroyed), and the number of arrays lost so far. -/
structure World (α : Type) where
  engines : List (Option (Tables α))
  lost : ℕ

def World.init : World α := ⟨[], 0⟩

/-- Tables of a new engine. -/
def Tables.empty : Tables α := ⟨[], [], false, .none, [], [], [], false, .none⟩

/-- The live engine number `e`. -/
def World.get (w : World α) (e : ℕ) : Option (Tables α) := (w.engines[e]?).join

/-- Replacing a table whose `k` arrays the engine owns loses these arrays. -/
def leaked (k : ℕ) : Mem → ℕ
  | .own => k
  | _ => 0

/-- The same contents in the engine's own memory. -/
def Tables.deep (t : Tables α) : Tables α := { t with rateMem := .own, cumMem := .own }

/-- What is left of an engine after a move: nothing, but `is_init()` is not reset. -/
def Tables.emptied (t : Tables α) : Tables α := ⟨[], [], t.rateReady, .foreign, [], [], [], t.cumReady, .foreign⟩

/-- An engine rebuilt from innards sees the memory of its original. -/
def Tables.seen (t : Tables α) : Tables α :=
  ⟨t.rateX, t.rateY.take t.rateX.length, true, .foreign,
   t.cumX, t.cumF, t.cumV.take (t.cumX.length * t.cumF.length), true, .foreign⟩

/-- Effect of one operation of the program; the Boolean tells whether an exception is thrown. `none`: the program names an
engine that does not exist. -/
def wstep (w : World α) : EOp α → Option (World α × Bool)
  | .create => some (⟨w.engines ++ [some .empty], w.lost⟩, false)
  | .copy e => (w.get e).map fun t => (⟨w.engines ++ [some t.deep], w.lost⟩, false)
  | .move e => (w.get e).map fun t => (⟨w.engines.set e (some t.emptied) ++ [some t], w.lost⟩, false)
  | .fromInnards e => (w.get e).map fun t => (⟨w.engines ++ [some t.seen], w.lost⟩, false)
  | .assign d e => do
    let a ← w.get d
    let t ← w.get e
    if d = e then some (w, false)
    else some (⟨w.engines.set d (some t.deep), w.lost + leaked 2 a.rateMem + leaked 3 a.cumMem⟩, false)
  | .computeRate e xs ys => (w.get e).map fun t =>
    (⟨w.engines.set e (some { t with rateX := xs, rateY := ys, rateReady := true, rateMem := .own }),
      w.lost + leaked 2 t.rateMem⟩, false)
  | .computeCum e xs fs vs => (w.get e).map fun t =>
    (⟨w.engines.set e (some { t with cumX := xs, cumF := fs, cumV := vs, cumReady := true, cumMem := .own }),
      w.lost + leaked 3 t.cumMem⟩, false)
  | .readRate e xs ys => (w.get e).map fun t =>
    if t.rateMem = .foreign then (w, true)
    else (⟨w.engines.set e (some { t with rateX := xs, rateY := ys, rateReady := true, rateMem := .own }), w.lost⟩, false)
  | .readCum e xs fs vs => (w.get e).map fun t =>
    if t.cumMem = .foreign then (w, true)
    else (⟨w.engines.set e (some { t with cumX := xs, cumF := fs, cumV := vs, cumReady := true, cumMem := .own }),
      w.lost⟩, false)
  | .destroy e => (w.get e).map fun _ => (⟨w.engines.set e none, w.lost⟩, false)

/-- A history, with the list of the operations that throw. -/
def wrun (w : World α) : List (EOp α) → Option (World α × List Bool)
  | [] => some (w, [])
  | op :: ops => do
    let (w, t) ← wstep w op
    let (w, ts) ← wrun w ops
    some (w, t :: ts)

/-- Engine `e` of the program is alive, with the members `g`. -/
def Alive (s : EState α) (e : ℕ) (g : Eng) : Prop := s.engs[e]? = some (some g)

/-- No other vector was given the memory which vector `v` owns. -/
def Unlent (s : EState α) (v : ℕ) : Prop :=
  ∀ o, PV.Live s.mem v o → o.manage = true → PV.NoWrapper s.mem v o

/-- What the program must respect: it names engines that are alive, exports innards of tables with enough data for their
coordinates, and does not destroy an engine, or read a file into a table of it, while another engine rebuilt from its
innards still uses that memory. -/
def Disciplined (s : EState α) : EOp α → Prop
  | .create => True
  | .copy e | .move e | .computeRate e _ _ | .computeCum e _ _ _ => ∃ g, Alive s e g
  | .assign d e => (∃ a, Alive s d a) ∧ ∃ g, Alive s e g
  | .fromInnards e => ∃ g, Alive s e g ∧
      (∀ x y, PV.Live s.mem g.rc x → PV.Live s.mem g.rd y → x.size ≤ y.size) ∧
      (∀ x y z, PV.Live s.mem g.c0 x → PV.Live s.mem g.c1 y → PV.Live s.mem g.cd z → x.size * y.size ≤ z.size)
  | .readRate e _ _ => ∃ g, Alive s e g ∧ Unlent s g.rc ∧ Unlent s g.rd
  | .readCum e _ _ _ => ∃ g, Alive s e g ∧ Unlent s g.c0 ∧ Unlent s g.c1 ∧ Unlent s g.cd
  | .destroy e => ∃ g, Alive s e g ∧ Unlent s g.rc ∧ Unlent s g.rd ∧ Unlent s g.c0 ∧ Unlent s g.c1 ∧ Unlent s g.cd

/-- The discipline along a history. -/
def DisciplinedRun (s : EState α) : List (EOp α) → Prop
  | [] => True
  | op :: ops => Disciplined s op ∧
    match estep s op with
    | .ok (s', _) => DisciplinedRun s' ops
    | .error _ => True

/-- The five vectors of an engine hold these tables, and its flags say so. -/
def Shows (s : EState α) (g : Eng) (t : Tables α) : Prop :=
  PV.Holds s.mem g.rc (t.rateX.map some) ∧ PV.Holds s.mem g.rd (t.rateY.map some) ∧
  PV.Holds s.mem g.c0 (t.cumX.map some) ∧ PV.Holds s.mem g.c1 (t.cumF.map some) ∧
  PV.Holds s.mem g.cd (t.cumV.map some) ∧ g.rateInit = t.rateReady ∧ g.cumInit = t.cumReady

/-- The engines of the program are those of the description, with the same contents. -/
def Agrees (s : EState α) (w : World α) : Prop :=
  s.engs.length = w.engines.length ∧
  ∀ e, (w.get e = none ∧ ∀ g, ¬ Alive s e g) ∨ ∃ g t, Alive s e g ∧ w.get e = some t ∧ Shows s g t

/-- Number of arrays allocated by the library and not freed. -/
def arraysAlive (s : EState α) : ℕ := (s.mem.heap.filter fun b => b.alive && !b.ext).length

/-- Number of arrays the engines own. -/
def arraysOwned (w : World α) : ℕ :=
  (w.engines.map fun
    | some t => leaked 2 t.rateMem + leaked 3 t.cumMem
    | none => 0).sum

/-- Not the rebuilding from innards. -/
def Plain : EOp α → Prop
  | .fromInnards _ => False
  | _ => True

/-- The engine an operation may change. -/
def Touches : EOp α → ℕ → Prop
  | .create, _ | .copy _, _ | .fromInnards _, _ => False
  | .move e, x | .assign e _, x | .computeRate e _ _, x | .computeCum e _ _ _, x | .readRate e _ _, x
  | .readCum e _ _ _, x | .destroy e, x => e = x

/-- The operation does not compute or assign a table over one whose memory the engine owns. -/
def NoReplace (w : World α) : EOp α → Prop
  | .computeRate e _ _ => ∀ t, w.get e = some t → t.rateMem ≠ .own
  | .computeCum e _ _ _ => ∀ t, w.get e = some t → t.cumMem ≠ .own
  | .assign d e => d ≠ e → ∀ t, w.get d = some t → t.rateMem ≠ .own ∧ t.cumMem ≠ .own
  | _ => True

/-- `NoReplace` along a history. -/
def NoReplaceRun (w : World α) : List (EOp α) → Prop
  | [] => True
  | op :: ops => NoReplace w op ∧
    match wstep w op with
    | some (w', _) => NoReplaceRun w' ops
    | none => True

/-- The operation is neither a move nor a rebuilding from innards, and the tables it stores are not empty. -/
def Filled : EOp α → Prop
  | .move _ | .fromInnards _ => False
  | .computeRate _ xs ys | .readRate _ xs ys => xs ≠ [] ∧ ys ≠ []
  | .computeCum _ xs fs vs | .readCum _ xs fs vs => xs ≠ [] ∧ fs ≠ [] ∧ vs ≠ []
  | _ => True

/-- All engines are destroyed. -/
def NoneLeft (s : EState α) : Prop := ∀ e g, ¬ Alive s e g

end Picsar.EHSpec
