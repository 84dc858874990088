import Mathlib.Data.Nat.Notation
import Mathlib.Data.List.Defs
/-
What a split of cells `0..N-1` into consecutive ranges is.
-/
namespace Picsar.Spec.LoadBalance

/-- The ranges `lo..hi` follow each other without gap or overlap, beginning with cell `start`, and none is empty. -/
def Chain : ℕ → List (ℕ × ℕ) → Prop
  | _, [] => True
  | start, (lo, hi) :: rest => lo = start ∧ lo ≤ hi ∧ Chain (hi + 1) rest

/-- One range per process; together they are exactly the cells `0..N-1`, each in one range, in order. -/
structure IsSplit (N P : ℕ) (R : List (ℕ × ℕ)) : Prop where
  len : R.length = P
  nonempty : ∀ r ∈ R, r.1 ≤ r.2
  inside : ∀ r ∈ R, r.2 < N
  cover : ∀ c, c < N → ∃ r ∈ R, r.1 ≤ c ∧ c ≤ r.2
  ordered : R.Pairwise fun r s => r.2 < s.1

end Picsar.Spec.LoadBalance
