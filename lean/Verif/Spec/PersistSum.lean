import Verif.Model.PersistSum
import Verif.Spec.FieldExchange
/-
Histories of the summation with persistent requests.
-/
namespace Picsar.Persist
open Picsar Picsar.Grid Picsar.Exchange

/-- Between two calls the program computes new currents: any contents, in the same storage. -/
structure SameStorage {D : Dom} (s s' : PState D) : Prop where
  rq : s'.rq = s.rq
  cur : ∀ c, (s'.mem c).cur = (s.mem c).cur
  made : s'.made = s.made

/-- The time loop of the program (submain.F90:103-199, 596): `it` is 0 at the first call and increases by one. `s` is the state before
call number `it`. -/
inductive Steps (D : Dom) (w : JComp) (s0 : PState D) : ℕ → PState D → Prop
  | first : Steps D w s0 0 s0
  | next {i : ℕ} {s s' s'' : PState D} {sz : Proc D → ℤ} : Steps D w s0 i s → Call D w i sz s (.ok s') → SameStorage s' s'' →
      Steps D w s0 (i + 1) s''

/-- The time loop of a script that calls the routines one by one and leaves `it` alone
(examples/example_scripts_python/test.py:149-176). -/
inductive Loop (D : Dom) (w : JComp) (it : ℤ) (s0 : PState D) : ℕ → PState D → Prop
  | first : Loop D w it s0 0 s0
  | next {i : ℕ} {s s' s'' : PState D} {sz : Proc D → ℤ} : Loop D w it s0 i s → Call D w it sz s (.ok s') → SameStorage s' s'' →
      Loop D w it s0 (i + 1) s''

/-- The arrays as the routine gets them. -/
def arrays {D : Dom} (s : PState D) (c : Proc D) : Loc := ⟨(s.mem c).heap (s.mem c).cur, [], []⟩

end Picsar.Persist
