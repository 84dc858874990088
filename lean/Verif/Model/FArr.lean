import Verif.Base
import Mathlib.Data.Int.Notation
import Mathlib.Data.Nat.Notation
import Mathlib.Logic.Function.Basic
/-
Fortran rank-1 arrays `a(1:n)` of any element type, with checked accesses: an access outside
`1..n` and a read of an element that was never written are distinct outcomes.
-/
namespace Picsar

/-- A Fortran array with lower bound 1; `val i = none` while element `i` is undefined. -/
structure FArr (α : Type) where
  n : ℤ
  val : ℤ → Option α

namespace FArr

variable {α : Type}

/-- Read of `a(i)`. -/
def get (a : FArr α) (i : ℤ) : Res α :=
  if 1 ≤ i ∧ i ≤ a.n then
    match a.val i with
    | some v => .ok v
    | none => .error .uninitialised
  else .error .outOfBounds

/-- Write `a(i) = v`. -/
def set (a : FArr α) (i : ℤ) (v : α) : Res (FArr α) :=
  if 1 ≤ i ∧ i ≤ a.n then .ok ⟨a.n, Function.update a.val i (some v)⟩ else .error .outOfBounds

/-- `allocate(a(n)); a = v`. -/
def fill (n : ℤ) (v : α) : FArr α := ⟨n, fun _ => some v⟩

/-- A new array whose elements are undefined. -/
def undef (n : ℤ) : FArr α := ⟨n, fun _ => none⟩

/-- The array holding the elements of a list at `1..length`. -/
def ofList (l : List α) : FArr α := ⟨l.length, fun i => if 1 ≤ i then l[(i - 1).toNat]? else none⟩

/-- `a(1), …, a(length l)` exist and hold the elements of `l`. -/
def Holds (a : FArr α) (l : List α) : Prop :=
  (l.length : ℤ) ≤ a.n ∧ ∀ (i : ℕ) (h : i < l.length), a.val (i + 1) = some l[i]

end FArr

end Picsar
