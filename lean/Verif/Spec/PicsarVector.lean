import Verif.Model.PicsarVector

/-
Discipline of the programs for which vector memory safety is claimed, and the observable content of a vector.
-/
namespace Picsar.PV
variable {α : Type}

/-- Object `v` is alive with members `o`. -/
def Live (s : State α) (v : Nat) (o : Obj) : Prop := s.objs[v]? = some (some o)

/-- The observable content of a live vector: its `size()` elements. -/
def Holds (s : State α) (v : Nat) (l : List (Option α)) : Prop :=
  ∃ o, Live s v o ∧ o.size = l.length ∧
    match o.ptr with
    | none => l = []
    | some b => ∃ blk, s.heap[b]? = some blk ∧ blk.alive = true ∧ l <+: blk.cells

/-- No live non-owning wrapper other than `v` refers to the memory of `o`. -/
def NoWrapper (s : State α) (v : Nat) (o : Obj) : Prop :=
  ∀ b w o', o.ptr = some b → Live s w o' → o'.manage = false → o'.ptr = some b → w = v

/-- What the program must respect: it names live objects only, indexes inside `size()`, wraps only memory
that exists and is large enough, and lets raw memory outlive its wrappers. -/
def Legal (s : State α) : Op α → Prop
  | .ctorSize _ | .ctorList _ | .ctorEmpty | .extAlloc _ => True
  | .ctorCopy v | .ctorMove v | .wrapVec v => ∃ o, Live s v o
  | .wrapExt n b => ∃ blk, s.heap[b]? = some blk ∧ blk.ext = true ∧ blk.alive = true ∧
      n ≤ blk.cells.length
  | .assignCopy t o | .assignMove t o => (∃ a, Live s t a) ∧ ∃ b, Live s o b
  | .dtor v => ∃ o, Live s v o ∧ (o.manage = true → NoWrapper s v o)
  | .resize v _ => ∃ o, Live s v o ∧ (o.manage = true → NoWrapper s v o)
  | .read v i => ∃ o, Live s v o ∧ i < o.size
  | .write v i _ => ∃ o, Live s v o ∧ i < o.size
  | .extFree b => (∃ blk, s.heap[b]? = some blk ∧ blk.ext = true ∧ blk.alive = true) ∧
      ∀ w o, Live s w o → o.ptr ≠ some b

/-- Every operation of the history respects the discipline in the state in which it is executed. -/
def LegalRun (s : State α) : List (Op α) → Prop
  | [] => True
  | op :: ops => Legal s op ∧
    match step s op with
    | .ok s' => LegalRun s' ops
    | .error .exception => LegalRun s ops
    | .error _ => True

/-- States reachable by a disciplined history. -/
def Reachable (s : State α) : Prop := ∃ ops, LegalRun State.init ops ∧ run State.init ops = .ok s

/-- A program that only writes elements. -/
def writeOps (ws : List (Nat × Nat × α)) : List (Op α) := ws.map fun w => .write w.1 w.2.1 w.2.2

/-- Assignments only to vectors that own no memory, and never to the vector itself. -/
def NoOverwrite (s : State α) : Op α → Prop
  | .assignCopy t o | .assignMove t o =>
    t ≠ o ∧ ∀ a, Live s t a → a.manage = false ∨ a.ptr = none
  | _ => True

/-- `NoOverwrite` along a history. -/
def NoOverwriteRun (s : State α) : List (Op α) → Prop
  | [] => True
  | op :: ops => NoOverwrite s op ∧
    match step s op with
    | .ok s' => NoOverwriteRun s' ops
    | .error .exception => NoOverwriteRun s ops
    | .error _ => True

/-- Every block the library allocated has been freed. -/
def AllFreed (s : State α) : Prop :=
  ∀ (b : Nat) (blk : Block α), s.heap[b]? = some blk → blk.ext = false → blk.alive = false

/-- All vectors are destroyed. -/
def AllDestroyed (s : State α) : Prop := ∀ v o, ¬ Live s v o

end Picsar.PV
