import Mathlib.Data.ZMod.Basic
import Mathlib.Data.Nat.Factorial.Basic
import Mathlib.Data.Fin.VecNotation
import Mathlib.Algebra.BigOperators.Fin
import Mathlib.Algebra.BigOperators.Intervals
import Mathlib.Analysis.Calculus.Deriv.Basic
import Mathlib.Analysis.SpecialFunctions.Complex.Log

/-
Finite differences on a periodic grid, Maxwell's equations with these differences in space and continuous in time.
-/
namespace Picsar.Psatd
open Finset

section
variable {G V : Type} [AddCommGroup G] [AddCommGroup V] [Module ℝ V]

/-- Derivative at the point half a cell after `p`, from `N` points on each side; `e` is the step to the next point. -/
noncomputable def dFwd (w : ℕ → ℝ) (N : ℕ) (d : ℝ) (e : G) (u : G → V) (p : G) : V :=
  ∑ l ∈ Icc 1 N, (w l / d) • (u (p + l • e) - u (p + e - l • e))

/-- Derivative at the point half a cell before `p`. -/
noncomputable def dBwd (w : ℕ → ℝ) (N : ℕ) (d : ℝ) (e : G) (u : G → V) (p : G) : V :=
  ∑ l ∈ Icc 1 N, (w l / d) • (u (p + l • e - e) - u (p - l • e))

/-- Derivative at `p` itself. -/
noncomputable def dMid (w : ℕ → ℝ) (N : ℕ) (d : ℝ) (e : G) (u : G → V) (p : G) : V :=
  ∑ l ∈ Icc 1 N, (w l / d) • (u (p + l • e) - u (p - l • e))

/-- Curl with the differences `D`. -/
def curl (D : Fin 3 → (G → V) → G → V) (F : Fin 3 → G → V) : Fin 3 → G → V :=
  ![fun p => D 1 (F 2) p - D 2 (F 1) p, fun p => D 2 (F 0) p - D 0 (F 2) p, fun p => D 0 (F 1) p - D 1 (F 0) p]

/-- Divergence with the differences `D`. -/
def divg (D : Fin 3 → (G → V) → G → V) (F : Fin 3 → G → V) (p : G) : V := D 0 (F 0) p + D 1 (F 1) p + D 2 (F 2) p
end

/-- `E` and `B` evolve in time by Maxwell's equations with the constant current `J`; `Db` are the differences that lead from the points of
`B` to those of `E`, `Df` the others. -/
structure Maxwell {G : Type} (c eps0 : ℝ) (Df Db : Fin 3 → (G → ℝ) → G → ℝ) (J : Fin 3 → G → ℝ) (E B : ℝ → Fin 3 → G → ℝ) : Prop where
  ampere : ∀ t i p, HasDerivAt (fun t => E t i p) (c ^ 2 * curl Db (B t) i p - J i p / eps0) t
  faraday : ∀ t i p, HasDerivAt (fun t => B t i p) (-curl Df (E t) i p) t

/-- Steps to the next point along the three axes of a periodic grid. -/
def axis {nx ny nz : ℕ} : Fin 3 → ZMod nx × ZMod ny × ZMod nz := ![(1, 0, 0), (0, 1, 0), (0, 0, 1)]

/-- The coefficients of a staggered difference of order `2 N` (Fornberg). -/
noncomputable def stagCoef (N l : ℕ) : ℝ :=
  (-1) ^ (l + 1) * ((2 * N - 1).factorial : ℝ) ^ 2 /
    (16 ^ (N - 1) * (2 * l - 1) ^ 2 * (N + l - 1).factorial * (N - l).factorial * ((N - 1).factorial : ℝ) ^ 2)

/-- The coefficients of a centred difference of order `2 N`. -/
noncomputable def midCoef (N l : ℕ) : ℝ := (-1) ^ (l + 1) * (N.factorial : ℝ) ^ 2 / (l * (N + l).factorial * (N - l).factorial)

/-- Staggered differences of orders `2 N i` along the three axes of a periodic grid, forward and backward. -/
noncomputable def gridF {nx ny nz : ℕ} (N : Fin 3 → ℕ) (d : Fin 3 → ℝ) (i : Fin 3) :
    (ZMod nx × ZMod ny × ZMod nz → ℝ) → ZMod nx × ZMod ny × ZMod nz → ℝ := dFwd (stagCoef (N i)) (N i) (d i) (axis i)
noncomputable def gridB {nx ny nz : ℕ} (N : Fin 3 → ℕ) (d : Fin 3 → ℝ) (i : Fin 3) :
    (ZMod nx × ZMod ny × ZMod nz → ℝ) → ZMod nx × ZMod ny × ZMod nz → ℝ := dBwd (stagCoef (N i)) (N i) (d i) (axis i)

/-- The wave number `m` on `n` points. -/
noncomputable def wave (n m : ℕ) (x : ℤ) : ℂ := Complex.exp (2 * Real.pi * Complex.I * m * x / n)

end Picsar.Psatd
