import Mathlib.Data.Real.Basic
import Mathlib.Data.Nat.Notation

/-
Specification for C111, C112: cumulative distributions.
-/
namespace Picsar.Spec

/-- `F` is the cumulative distribution of a quantity between 0 and `top`: 0 at 0, 1 at `top`, strictly increasing in between. -/
structure IsDistribution (top : ℝ) (F : ℝ → ℝ) : Prop where
  zero : F 0 = 0
  one : F top = 1
  mono : ∀ a b, 0 ≤ a → a < b → b ≤ top → F a < F b

/-- The two shares of `top` are distributed alike: one is at most `a` as often as the other one is. -/
def IsSymmetric (top : ℝ) (F : ℝ → ℝ) : Prop := ∀ a, 0 ≤ a → a ≤ top → F (top - a) = 1 - F a

/-- The probabilities for which a table with `n` columns holds the photon energy: the multiples of `1/(n-1)`, but a tenth of a step away from 0
and 1 at the ends. -/
noncomputable def columnProb (n j : ℕ) : ℝ :=
  if j = 0 then 1 / (n - 1) / 10 else if j = n - 1 then 1 - 1 / (n - 1) / 10 else j / (n - 1)

/-- `v` lies between `a` and `b`. -/
def Between (a b v : ℝ) : Prop := (a ≤ v ∧ v ≤ b) ∨ (b ≤ v ∧ v ≤ a)

end Picsar.Spec
