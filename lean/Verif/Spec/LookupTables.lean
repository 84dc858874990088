import Mathlib.Data.Real.Basic

/-
What "linear interpolation in a table" means, independently of the model.
-/
namespace Picsar.Spec

/-- `xs` is an equispaced grid with at least two points. -/
def IsEquispaced (xs : List ℝ) : Prop :=
  2 ≤ xs.length ∧ ∃ x0 h : ℝ, 0 < h ∧ ∀ i : ℕ, i < xs.length → xs[i]? = some (x0 + i * h)

/-- `w` lies in `[first element, last element)`. -/
def InHalfOpenRange (xs : List ℝ) (w : ℝ) : Prop :=
  ∃ a b, xs.head? = some a ∧ xs.getLast? = some b ∧ a ≤ w ∧ w < b

/-- `v` is the linear interpolation at `w` of the values `ys` given at `xs`: `w` is in the cell
`[xs_i, xs_{i+1})` and `v` is the combination of `ys_i` and `ys_{i+1}` with weights proportional to the distance
from the opposite node. -/
def IsLinInterp (xs ys : List ℝ) (w v : ℝ) : Prop :=
  ∃ (i : ℕ) (xl xr yl yr : ℝ), xs[i]? = some xl ∧ xs[i + 1]? = some xr ∧
    ys[i]? = some yl ∧ ys[i + 1]? = some yr ∧ xl ≤ w ∧ w < xr ∧
    v = (xr - w) / (xr - xl) * yl + (w - xl) / (xr - xl) * yr

/-- A table with `n1` rows and `n2` columns: `F i j` is the value for coordinate indices `i`, `j`. -/
def IsTable (n1 n2 : ℕ) (F : ℕ → ℕ → ℝ) (data : List ℝ) : Prop :=
  data.length = n1 * n2 ∧ ∀ i j, i < n1 → j < n2 → data[i * n2 + j]? = some (F i j)

/-- Bilinear interpolation at `(wx, wy)` of the values `F i j` given at `(xs_i, ys_j)`; the four weights
are products of one-dimensional weights. -/
def IsBilinInterp (xs ys : List ℝ) (F : ℕ → ℕ → ℝ) (wx wy v : ℝ) : Prop :=
  ∃ (i j : ℕ) (xl xr yl yr : ℝ), xs[i]? = some xl ∧ xs[i + 1]? = some xr ∧
    ys[j]? = some yl ∧ ys[j + 1]? = some yr ∧ xl ≤ wx ∧ wx < xr ∧ yl ≤ wy ∧ wy < yr ∧
    ∃ a b : ℝ, a = (wx - xl) / (xr - xl) ∧ b = (wy - yl) / (yr - yl) ∧
      v = (1 - a) * (1 - b) * F i j + (1 - a) * b * F i (j + 1)
        + a * (1 - b) * F (i + 1) j + a * b * F (i + 1) (j + 1)

end Picsar.Spec
