import Verif.Lemmas.Stencil
import Mathlib.Analysis.Convex.Deriv
import Mathlib.Analysis.SpecialFunctions.Trigonometric.Deriv
import Mathlib.Analysis.Calculus.Deriv.Add
import Mathlib.Analysis.Calculus.Deriv.Mul
import Mathlib.Data.Nat.Choose.Sum

/-
The staggered stencil has no mode of wave number zero other than the constants.
-/
namespace Picsar.Psatd
open Picsar Picsar.Stencil Finset Complex

/-- Odd powers of the sine as sums of sines. -/
theorem sin_odd_pow (N : ℕ) (hN : 1 ≤ N) (φ : ℝ) :
    ∑ l ∈ Icc 1 N, (-1) ^ (l + 1) * ((2 * N - 1).choose (N - l) : ℝ) * Real.sin ((2 * l - 1) * φ) = 4 ^ (N - 1) * Real.sin φ ^ (2 * N - 1) := by
  have hI : ∑ l ∈ Icc 1 N, (-1) ^ (l + 1) * ((2 * N - 1).choose (N - l) : ℝ) * Real.sin ((2 * l - 1) * φ) =
      ∑ i ∈ range N, (-1) ^ (i + 2) * ((2 * N - 1).choose (N - (i + 1)) : ℝ) * Real.sin ((2 * i + 1) * φ) := by
    rw [← Finset.Ico_add_one_right_eq_Icc, sum_Ico_eq_sum_range]
    refine sum_congr (by simp) fun i _ => ?_
    rw [show 1 + i + 1 = i + 2 by ring, show 1 + i = i + 1 by ring]
    push_cast
    ring_nf
  rw [hI]
  set z : ℂ := exp (φ * I) with hz
  have z0 : z ≠ 0 := exp_ne_zero _
  have zinv : z⁻¹ = exp (-φ * I) := by rw [hz, ← exp_neg]; ring_nf
  have hs : ∀ m : ℕ, z ^ m - z⁻¹ ^ m = 2 * I * sin (m * φ) := by
    intro m
    rw [zinv, hz, ← exp_nat_mul, ← exp_nat_mul, Complex.sin]
    rw [show -(m * (φ : ℂ)) * I = m * (-φ * I) by ring, show (m : ℂ) * φ * I = m * (φ * I) by ring]
    have : (2 * I * ((exp (m * (-φ * I)) - exp (m * (φ * I))) * I / 2)) = (I * I) * (exp (m * (-φ * I)) - exp (m * (φ * I))) := by ring
    rw [this, I_mul_I]
    ring
  have h1 := hs 1
  rw [pow_one, pow_one, Nat.cast_one, one_mul] at h1
  have hexp := add_pow z (-z⁻¹) (2 * N - 1)
  rw [← sub_eq_add_neg, h1] at hexp
  rw [show 2 * N - 1 + 1 = N + N by omega, sum_range_add, ← sum_range_reflect _ N, ← sum_add_distrib] at hexp
  have hterm : ∀ i ∈ range N,
      z ^ (N - 1 - i) * (-z⁻¹) ^ (2 * N - 1 - (N - 1 - i)) * ((2 * N - 1).choose (N - 1 - i) : ℂ) +
        z ^ (N + i) * (-z⁻¹) ^ (2 * N - 1 - (N + i)) * ((2 * N - 1).choose (N + i) : ℂ) =
      (-1) ^ (N + 1 + i) * ((2 * N - 1).choose (N - (i + 1)) : ℂ) * (2 * I * sin ((2 * i + 1 : ℕ) * φ)) := by
    intro i hi
    rw [mem_range] at hi
    have hc : (2 * N - 1).choose (N + i) = (2 * N - 1).choose (N - (i + 1)) := by
      rw [← Nat.choose_symm (by omega)]
      congr 1
      omega
    rw [← hs, hc, show N - 1 - i = N - (i + 1) by omega]
    obtain ⟨q, hq⟩ : ∃ q, N = q + (i + 1) := ⟨N - (i + 1), by omega⟩
    rw [show N - (i + 1) = q by omega, show 2 * N - 1 - q = q + (2 * i + 1) by omega, show 2 * N - 1 - (N + i) = q by omega,
      show N + i = q + (2 * i + 1) by omega, neg_pow z⁻¹ (q + (2 * i + 1)), neg_pow z⁻¹ q]
    have e1 : z ^ q * z⁻¹ ^ q = 1 := by rw [← mul_pow, mul_inv_cancel₀ z0, one_pow]
    have s1 : (-1 : ℂ) ^ (q + (2 * i + 1)) = -(-1) ^ q := by
      rw [pow_add, pow_succ, pow_mul]
      simp
    have s2 : (-1 : ℂ) ^ (N + 1 + i) = (-1) ^ q := by
      rw [show N + 1 + i = q + 2 * (i + 1) by omega, pow_add, pow_mul]
      simp
    rw [s1, s2, pow_add, pow_add]
    linear_combination (((2 * N - 1).choose q : ℂ) * (-1) ^ q * (z ^ (2 * i + 1) - z⁻¹ ^ (2 * i + 1))) * e1
  rw [sum_congr rfl hterm] at hexp
  have hc : ((∑ i ∈ range N, (-1) ^ (i + 2) * ((2 * N - 1).choose (N - (i + 1)) : ℝ) * Real.sin ((2 * i + 1) * φ) : ℝ) : ℂ) =
      ((4 ^ (N - 1) * Real.sin φ ^ (2 * N - 1) : ℝ) : ℂ) := by
    push_cast
    have h2 : (2 * I * sin φ : ℂ) ^ (2 * N - 1) = 2 * I * (-1) ^ (N - 1) * (4 ^ (N - 1) * sin φ ^ (2 * N - 1)) := by
      obtain ⟨q, rfl⟩ : ∃ q, N = q + 1 := ⟨N - 1, by omega⟩
      rw [show 2 * (q + 1) - 1 = 2 * q + 1 by omega, show q + 1 - 1 = q by omega, mul_pow, mul_pow, pow_succ I, pow_mul I, I_sq, pow_succ (2 : ℂ),
        pow_mul (2 : ℂ)]
      norm_num
      ring
    rw [h2] at hexp
    have e2 : (2 * I * (-1) ^ (N - 1) : ℂ) ≠ 0 := by
      refine mul_ne_zero (mul_ne_zero two_ne_zero I_ne_zero) (pow_ne_zero _ (by norm_num))
    apply mul_left_cancel₀ e2
    rw [hexp, mul_sum]
    refine sum_congr rfl fun i _ => ?_
    obtain ⟨q, rfl⟩ : ∃ q, N = q + 1 := ⟨N - 1, by omega⟩
    rw [show q + 1 - 1 = q by omega, show q + 1 + 1 + i = q + (i + 2) by omega, pow_add]
    push_cast
    ring
  exact_mod_cast hc

/-- The staggered stencil as a function of the phase. -/
noncomputable def sinSum (N : ℕ) (φ : ℝ) : ℝ := ∑ l ∈ Icc 1 N, weight (2 * N) true l * Real.sin ((2 * l - 1) * φ)

theorem weight_choose (N l : ℕ) (hl : 1 ≤ l) (hN : l ≤ N) :
    weight (2 * N) true l * (2 * l - 1) ^ 2 =
      ((2 * N - 1).factorial : ℝ) / (16 ^ (N - 1) * ((N - 1).factorial : ℝ) ^ 2) * ((-1) ^ (l + 1) * ((2 * N - 1).choose (N - l) : ℝ)) := by
  rw [weight_staggered N l hl hN]
  have h1 : (1 : ℝ) ≤ l := by exact_mod_cast hl
  have h2 : (2 * l - 1 : ℝ) ≠ 0 := by linarith
  have hc : ((2 * N - 1).choose (N - l) : ℝ) = (2 * N - 1).factorial / ((N - l).factorial * (N + l - 1).factorial) := by
    rw [Nat.cast_choose ℝ (by omega), show 2 * N - 1 - (N - l) = N + l - 1 by omega]
  rw [hc]
  have a : ((N + l - 1).factorial : ℝ) ≠ 0 := by positivity
  have b : ((N - l).factorial : ℝ) ≠ 0 := by positivity
  have c : ((N - 1).factorial : ℝ) ≠ 0 := by positivity
  field_simp

theorem sinSum_pos (N : ℕ) (hN : 1 ≤ N) (φ : ℝ) (h0 : 0 < φ) (hp : φ < Real.pi) : 0 < sinSum N φ := by
  set A : ℝ := ((2 * N - 1).factorial : ℝ) / (16 ^ (N - 1) * ((N - 1).factorial : ℝ) ^ 2) with hA
  have A0 : 0 < A := by positivity
  have d1 : ∀ x, HasDerivAt (sinSum N) (∑ l ∈ Icc 1 N, weight (2 * N) true l * (2 * l - 1) * Real.cos ((2 * l - 1) * x)) x := by
    intro x
    unfold sinSum
    refine HasDerivAt.fun_sum fun l _ => ?_
    have := ((Real.hasDerivAt_sin ((2 * l - 1) * x)).comp x ((hasDerivAt_id x).const_mul (2 * (l : ℝ) - 1))).const_mul (weight (2 * N) true l)
    refine (this.congr_deriv ?_)
    ring
  have d2 : ∀ x, HasDerivAt (fun x => ∑ l ∈ Icc 1 N, weight (2 * N) true l * (2 * l - 1) * Real.cos ((2 * l - 1) * x))
      (-(A * (4 ^ (N - 1) * Real.sin x ^ (2 * N - 1)))) x := by
    intro x
    rw [← sin_odd_pow N hN, mul_sum, ← sum_neg_distrib]
    refine HasDerivAt.fun_sum fun l hl => ?_
    rw [mem_Icc] at hl
    have := ((Real.hasDerivAt_cos ((2 * l - 1) * x)).comp x ((hasDerivAt_id x).const_mul (2 * (l : ℝ) - 1))).const_mul
      (weight (2 * N) true l * (2 * l - 1))
    refine (this.congr_deriv ?_)
    linear_combination (-Real.sin ((2 * l - 1) * x)) * weight_choose N l hl.1 hl.2
  have hc : StrictConcaveOn ℝ (Set.Icc 0 Real.pi) (sinSum N) := by
    refine strictConcaveOn_of_deriv2_neg (convex_Icc _ _) (fun x _ => (d1 x).continuousAt.continuousWithinAt) ?_
    intro x hx
    rw [interior_Icc] at hx
    have e1 : deriv (sinSum N) = fun x => ∑ l ∈ Icc 1 N, weight (2 * N) true l * (2 * l - 1) * Real.cos ((2 * l - 1) * x) :=
      funext fun x => (d1 x).deriv
    simp only [Function.iterate_succ, Function.iterate_zero, Function.comp_apply, id]
    rw [e1, (d2 x).deriv]
    have := Real.sin_pos_of_pos_of_lt_pi hx.1 hx.2
    have : 0 < A * (4 ^ (N - 1) * Real.sin x ^ (2 * N - 1)) := by positivity
    linarith
  have z0 : sinSum N 0 = 0 := by simp [sinSum]
  have zp : sinSum N Real.pi = 0 := by
    unfold sinSum
    refine sum_eq_zero fun l hl => ?_
    have : Real.sin ((2 * l - 1) * Real.pi) = 0 := by
      rw [show (2 * (l : ℝ) - 1) * Real.pi = ((2 * (l : ℤ) - 1 : ℤ) : ℝ) * Real.pi by push_cast; ring]
      exact Real.sin_int_mul_pi _
    rw [this, mul_zero]
  have pp := Real.pi_pos
  have this : (1 - φ / Real.pi) • sinSum N 0 + (φ / Real.pi) • sinSum N Real.pi < sinSum N ((1 - φ / Real.pi) • 0 + (φ / Real.pi) • Real.pi) :=
    hc.2 (Set.left_mem_Icc.mpr pp.le) (Set.right_mem_Icc.mpr pp.le) pp.ne (by rw [sub_pos, div_lt_one pp]; exact hp) (by positivity) (by ring)
  rw [z0, zp] at this
  simp only [smul_eq_mul, mul_zero, add_zero, zero_add] at this
  rwa [div_mul_cancel₀ _ pp.ne'] at this

end Picsar.Psatd
