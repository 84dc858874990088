import Mathlib.Algebra.Polynomial.Derivative
import Mathlib.Algebra.Polynomial.Eval.Degree
import Mathlib.Analysis.Real.Sqrt
import Mathlib.Algebra.BigOperators.Intervals

/-
Finite differences with given coefficients and their order.
-/
namespace Picsar.Stencil
open Finset

/-- The difference of a function over `N` pairs of points at distances `(l - 1/2) d` on both sides of `x`. -/
noncomputable def staggeredDiff (w : ℕ → ℝ) (N : ℕ) (d : ℝ) (f : ℝ → ℝ) (x : ℝ) : ℝ :=
  ∑ l ∈ Icc 1 N, w l * (f (x + (l - 1 / 2) * d) - f (x - (l - 1 / 2) * d)) / d

/-- The same with distances `l d`. -/
noncomputable def nodalDiff (w : ℕ → ℝ) (N : ℕ) (d : ℝ) (f : ℝ → ℝ) (x : ℝ) : ℝ :=
  ∑ l ∈ Icc 1 N, w l * (f (x + l * d) - f (x - l * d)) / d

/-- A difference that gives the derivative of every polynomial of degree at most `p`, everywhere and for every spacing. -/
def Exact (p : ℕ) (diff : ℝ → (ℝ → ℝ) → ℝ → ℝ) : Prop :=
  ∀ (d : ℝ) (f : Polynomial ℝ) (x : ℝ), d ≠ 0 → f.natDegree ≤ p → diff d (fun y => f.eval y) x = f.derivative.eval x

end Picsar.Stencil
