import Verif.Model.PlaneDiag
import Verif.Spec.Tiling
import Mathlib.Algebra.BigOperators.Fin
/-
What is expected of the diagnostics of particles that cross a moving plane.
-/
namespace Picsar.PlaneDiag
open Picsar

/-- On which side of the plane through `c` with normal `N` the point `p` lies: positive in the direction of the normal. -/
def side (N c p : Fin 3 → ℝ) : ℝ := ∑ k, N k * (p k - c k)

/-- The particle went from `po` to `p` while the plane went from `co` to `c`, and came through the plane in the direction of its normal. -/
def Crosses (N co c po p : Fin 3 → ℝ) : Prop := side N co po ≤ 0 ∧ 0 < side N c p

/-- The point on the way from `a` to `b` at the time `t` of the step. -/
def on (t : ℝ) (a b : Fin 3 → ℝ) : Fin 3 → ℝ := fun k => (1 - t) * a k + t * b k

/-- At the time `t` of the step the particle is on the plane (both move uniformly). -/
def OnPlane (N co c po p : Fin 3 → ℝ) (t : ℝ) : Prop := 0 ≤ t ∧ t < 1 ∧ side N (on t co c) (on t po p) = 0

end Picsar.PlaneDiag
