import Mathlib.Analysis.SpecialFunctions.Exp

/-
Specifications for the utilities: independent of the model.
-/
namespace Picsar.Spec

/-- `k` is the position of the first element of `l` strictly greater than `v`
(the length of `l` if there is none). -/
def IsFirstGreater {α : Type} [LinearOrder α] (l : List α) (v : α) (k : ℕ) : Prop :=
  k ≤ l.length ∧ (∀ (i : ℕ) (h : i < l.length), i < k → l[i] ≤ v) ∧
    (∀ (h : k < l.length), v < l[k])

/-- `l` is a coordinate grid of `n` points from `a` to `b`: exact end points, strictly increasing. -/
def IsGrid (l : List ℝ) (a b : ℝ) (n : ℕ) : Prop :=
  l.length = n ∧ l.head? = some a ∧ l.getLast? = some b ∧ l.Pairwise (· < ·)

/-- As `IsGrid`, but only non-decreasing. -/
def IsWeakGrid (l : List ℝ) (a b : ℝ) (n : ℕ) : Prop :=
  l.length = n ∧ l.head? = some a ∧ l.getLast? = some b ∧ l.Pairwise (· ≤ ·)

/-- Cumulative distribution function of the Poisson law of mean `lam`. -/
noncomputable def poissonCdf (lam : ℝ) (k : ℕ) : ℝ :=
  ∑ i ∈ Finset.range (k + 1), Real.exp (-lam) * lam ^ i / (i.factorial : ℝ)

/-- `k` inverts the Poisson distribution at `u`: the least `k` with `u ≤ cdf k`. -/
def IsPoissonQuantile (lam u : ℝ) (k : ℕ) : Prop :=
  u ≤ poissonCdf lam k ∧ ∀ j, j < k → poissonCdf lam j < u

end Picsar.Spec
