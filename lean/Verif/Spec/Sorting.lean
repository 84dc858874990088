import Mathlib.Data.List.Defs
import Mathlib.Data.Int.Notation
import Mathlib.Data.Real.Basic
/-
What a stable sort by cell is.
-/
namespace Picsar.Spec.Sorting

/-- `out` is the stable rearrangement of `inp` by cell: nothing is lost, gained or altered, cells
are in ascending order, and elements of one cell keep their order. -/
structure StableSort {α κ : Type} [DecidableEq κ] (cell : α → κ) (le : κ → κ → Prop)
    (inp out : List α) : Prop where
  perm : out.Perm inp
  sorted : out.Pairwise fun a b => le (cell a) (cell b)
  stable : ∀ k, out.filter (fun a => decide (cell a = k)) = inp.filter fun a => decide (cell a = k)

/-- Coordinate `x` is in cell number `c` of the cells of size `d` that start at `lo`. -/
def InCell (lo d x : ℝ) (c : ℤ) : Prop := lo + c * d ≤ x ∧ x < lo + (c + 1) * d

/-- Cell order of the sort: `z` slowest, then `y`, then `x`. -/
def lexLe (a b : ℤ × ℤ × ℤ) : Prop :=
  a.2.2 < b.2.2 ∨ a.2.2 = b.2.2 ∧ (a.2.1 < b.2.1 ∨ a.2.1 = b.2.1 ∧ a.1 ≤ b.1)

end Picsar.Spec.Sorting
