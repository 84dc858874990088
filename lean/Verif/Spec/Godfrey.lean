import Verif.Model.Godfrey
import Mathlib.Analysis.SpecialFunctions.Trigonometric.Basic
import Mathlib.Data.Int.Interval

/-
Specification vocabulary for the filter: convolution with a symmetric stencil, its response to a wave, the polynomial in sin² of the Godfrey filter.
-/
namespace Picsar.Spec
open Picsar Picsar.Grid

/-- Convolution of the field with the symmetric stencil `s(0), s(1), ...` along z. -/
noncomputable def convolved (s : List ℝ) (f : I3 → ℝ) (i : I3) : ℝ :=
  ∑ d ∈ Finset.Icc (-((s.length : ℤ) - 1)) ((s.length : ℤ) - 1), s.getD d.natAbs 0 * f ⟨i.j, i.k, i.l + d⟩

/-- A wave along z of phase `θ` per cell. -/
noncomputable def waveZ (A θ φ : ℝ) (i : I3) : ℝ := A * Real.cos (θ * i.l + φ)

/-- Factor by which a filter with coefficients `p` multiplies a wave of phase `θ` per cell: `1 + Σ p_m sin^{2m}(θ/2)`. -/
noncomputable def gain (p : ℝ × ℝ × ℝ × ℝ) (θ : ℝ) : ℝ :=
  1 + p.1 * Real.sin (θ / 2) ^ 2 + p.2.1 * Real.sin (θ / 2) ^ 4 + p.2.2.1 * Real.sin (θ / 2) ^ 6 + p.2.2.2 * Real.sin (θ / 2) ^ 8

end Picsar.Spec
