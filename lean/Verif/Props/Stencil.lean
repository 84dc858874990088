import Verif.Lemmas.Stencil
import Mathlib.Tactic.NormNum.BigOperators
import Mathlib.Data.Rat.Cast.CharZero

/-
C104: the order of the finite-difference stencils.
-/
namespace Picsar.Props
open Picsar Picsar.Stencil Finset

/-- C104, pseudo-spectral solver, staggered grid: for every even order the stencil is exact on all polynomials up to this degree. -/
theorem C104_staggered (N : ℕ) (hN : 1 ≤ N) : Exact (2 * N) (staggeredDiff (weight (2 * N) true) N) := by
  intro d f x hd hf
  exact exact_of_moments N _ (fun l => (l : ℝ) - 1 / 2) (fun j hj => moments_staggered N j hj) hN d hd f hf x

/-- C104, pseudo-spectral solver, grid without staggering: the same. -/
theorem C104_nodal (N : ℕ) (hN : 1 ≤ N) : Exact (2 * N) (nodalDiff (weight (2 * N) false) N) := by
  intro d f x hd hf
  exact exact_of_moments N _ (fun l => (l : ℝ)) (fun j hj => moments_nodal N j hj) hN d hd f hf x

/-- The coefficients for order 4: 9/8 and -1/24. -/
example : weight 4 true 1 = 9 / 8 ∧ weight 4 true 2 = -1 / 24 := by
  constructor
  · rw [show 4 = 2 * 2 by rfl, weight_staggered 2 1 (by norm_num) (by norm_num)]
    norm_num [Nat.factorial]
  · rw [show 4 = 2 * 2 by rfl, weight_staggered 2 2 (by norm_num) (by norm_num)]
    norm_num [Nat.factorial]

theorem Stencil_fd2 : fdWeight 2 false 1 = 1 := by decide +kernel
theorem Stencil_fd4 : fdWeight 4 false 1 = 9 / 8 ∧ fdWeight 4 false 2 = -1 / 24 := by decide +kernel
theorem Stencil_fd6 : fdWeight 6 false 1 = 9 / 8 ∧ fdWeight 6 false 2 = -25 / 384 ∧ fdWeight 6 false 3 = 3 / 640 := by decide +kernel
theorem Stencil_fd2n : fdWeight 2 true 1 = 2 := by decide +kernel

/-- C104, finite-difference solvers: the stencils of orders 2 and 4 are exact up to their degree. Missing: higher orders and nodal grids,
where it is false. -/
theorem C104_fdtd_partial (N : ℕ) (hN : N = 1 ∨ N = 2) : Exact (2 * N) (staggeredDiff (fun l => (fdWeight (2 * N) false l : ℝ)) N) := by
  have key : ∀ l ∈ Icc 1 N, (fdWeight (2 * N) false l : ℝ) = weight (2 * N) true l := by
    rcases hN with rfl | rfl
    · intro l hl
      obtain rfl : l = 1 := by
        rw [mem_Icc] at hl
        omega
      rw [show 2 * 1 = 2 by rfl, Stencil_fd2, show 2 = 2 * 1 by rfl, weight_staggered 1 1 le_rfl le_rfl]
      norm_num [Nat.factorial]
    · intro l hl
      rw [mem_Icc] at hl
      obtain rfl | rfl : l = 1 ∨ l = 2 := by omega
      · rw [show 2 * 2 = 4 by rfl, Stencil_fd4.1, show 4 = 2 * 2 by rfl, weight_staggered 2 1 (by norm_num) (by norm_num)]
        norm_num [Nat.factorial]
      · rw [show 2 * 2 = 4 by rfl, Stencil_fd4.2, show 4 = 2 * 2 by rfl, weight_staggered 2 2 (by norm_num) (by norm_num)]
        norm_num [Nat.factorial]
  intro d f x hd hf
  have h := C104_staggered N (by omega) d f x hd hf
  rw [← h]
  exact sum_congr rfl fun l hl => by beta_reduce; rw [key l hl]

/-- C104, finite-difference solvers, refuted for order 6: the difference of the identity is 61/64 instead of 1, everywhere. -/
theorem C104_fdtd_refuted (d x : ℝ) (hd : d ≠ 0) :
    staggeredDiff (fun l => (fdWeight 6 false l : ℝ)) 3 d (fun y => y) x = 61 / 64 ∧
      ¬ Exact 6 (staggeredDiff (fun l => (fdWeight 6 false l : ℝ)) 3) := by
  obtain ⟨a, b, c⟩ := Stencil_fd6
  have h : ∀ d x : ℝ, d ≠ 0 → staggeredDiff (fun l => (fdWeight 6 false l : ℝ)) 3 d (fun y => y) x = 61 / 64 := by
    intro d x hd
    unfold staggeredDiff
    rw [show Icc 1 3 = {1, 2, 3} from rfl, sum_insert (by simp), sum_insert (by simp), sum_singleton]
    beta_reduce
    rw [a, b, c]
    push_cast
    field_simp
    ring
  refine ⟨h d x hd, fun hx => ?_⟩
  have := hx 1 Polynomial.X 0 one_ne_zero (by simp)
  simp only [Polynomial.eval_X, Polynomial.derivative_X, Polynomial.eval_one] at this
  rw [h 1 0 one_ne_zero] at this
  norm_num at this

/-- C104, finite-difference solvers, refuted for a nodal grid of order 2: the difference of the identity is 4. -/
theorem C104_fdtd_nodal_refuted (d x : ℝ) (hd : d ≠ 0) : nodalDiff (fun l => (fdWeight 2 true l : ℝ)) 1 d (fun y => y) x = 4 := by
  unfold nodalDiff
  rw [show Icc 1 1 = {1} from rfl, sum_singleton]
  beta_reduce
  rw [Stencil_fd2n]
  push_cast
  field_simp
  ring

end Picsar.Props
