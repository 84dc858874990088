import Verif.Model.Stencil
import Verif.Spec.Stencil
import Mathlib.LinearAlgebra.Lagrange
import Mathlib.Algebra.BigOperators.Field
import Mathlib.Analysis.SpecialFunctions.Pow.Real
import Mathlib.Tactic.LinearCombination
import Mathlib.Tactic.FieldSimp
import Mathlib.Tactic.Linarith
import Mathlib.Tactic.Ring

namespace Picsar.Stencil
open Finset Polynomial

/-! ### Closed forms -/

theorem logFact_eq (n : ℕ) : logFact n = Real.log (n.factorial) := by
  unfold logFact
  by_cases h0 : n = 0
  · subst h0; simp
  rw [if_neg h0]
  have gen : ∀ (m : ℕ) (a : ℝ), (List.range' 2 m).foldl (fun s (k : ℕ) => s + Real.log k) a = a + Real.log ((m + 1).factorial) := by
    intro m
    induction m with
    | zero => intro a; simp
    | succ m ih =>
      intro a
      rw [List.range'_1_concat, List.foldl_append, ih]
      simp only [List.foldl_cons, List.foldl_nil]
      rw [Nat.factorial_succ (m + 1), Nat.cast_mul, Real.log_mul (by positivity) (by positivity)]
      push_cast
      ring_nf
  rw [gen]
  obtain ⟨m, rfl⟩ : ∃ m, n = m + 1 := ⟨n - 1, by omega⟩
  rcases m with _ | m
  · simp
  · rw [show m + 1 + 1 - 2 + 1 = m + 1 by omega, Nat.factorial_succ (m + 1), Nat.cast_mul, Real.log_mul (by positivity) (by positivity)]

theorem weight_staggered (N l : ℕ) (hl : 1 ≤ l) (hN : l ≤ N) :
    weight (2 * N) true l = (-1) ^ (l + 1) * ((2 * N - 1).factorial : ℝ) ^ 2 /
      (16 ^ (N - 1) * (2 * l - 1) ^ 2 * (N + l - 1).factorial * (N - l).factorial * ((N - 1).factorial : ℝ) ^ 2) := by
  have hp : (0 : ℝ) < 2 * l - 1 := by
    have : (1 : ℝ) ≤ l := by exact_mod_cast hl
    linarith
  unfold weight
  simp only [if_true]
  rw [show 2 * N / 2 = N by omega, logFact_eq, logFact_eq, logFact_eq, logFact_eq, Real.exp_sub]
  have e1 : Real.exp (Real.log 16 * (1 - ((2 * N : ℕ) : ℝ) / 2) + Real.log ((2 * N - 1).factorial) * 2) =
      ((2 * N - 1).factorial : ℝ) ^ 2 / 16 ^ (N - 1) := by
    have a : (1 - ((2 * N : ℕ) : ℝ) / 2) = -((N - 1 : ℕ) : ℝ) := by
      rw [Nat.cast_sub (by omega)]
      push_cast
      ring
    rw [a, Real.exp_add, mul_neg, Real.exp_neg, mul_comm (Real.log 16), Real.exp_nat_mul, Real.exp_log (by norm_num),
      mul_comm _ (2 : ℝ), show (2 : ℝ) = ((2 : ℕ) : ℝ) by norm_num, Real.exp_nat_mul, Real.exp_log (by positivity)]
    field_simp
  have e2 : Real.exp (Real.log (2 * l - 1) * 2 + Real.log ((N + l - 1).factorial) + Real.log ((N - l).factorial) +
      2 * Real.log ((N - 1).factorial)) = (2 * l - 1 : ℝ) ^ 2 * (N + l - 1).factorial * (N - l).factorial * ((N - 1).factorial : ℝ) ^ 2 := by
    rw [Real.exp_add, Real.exp_add, Real.exp_add, mul_comm _ (2 : ℝ)]
    rw [show (2 : ℝ) * Real.log (2 * l - 1) = ((2 : ℕ) : ℝ) * Real.log (2 * l - 1) by norm_num,
      show (2 : ℝ) * Real.log ((N - 1).factorial) = ((2 : ℕ) : ℝ) * Real.log ((N - 1).factorial) by norm_num,
      Real.exp_nat_mul, Real.exp_nat_mul, Real.exp_log hp, Real.exp_log (by positivity), Real.exp_log (by positivity),
      Real.exp_log (by positivity)]
  rw [e1, e2]
  field_simp

theorem weight_nodal (N l : ℕ) (hl : 1 ≤ l) :
    weight (2 * N) false l = (-1) ^ (l + 1) * ((N.factorial : ℝ)) ^ 2 / ((N + l).factorial * (N - l).factorial * l) := by
  have hp : (0 : ℝ) < l := by exact_mod_cast hl
  unfold weight
  simp only [Bool.false_eq_true, if_false]
  rw [show 2 * N / 2 = N by omega, logFact_eq, logFact_eq, logFact_eq, Real.exp_sub, Real.exp_add, Real.exp_add, one_mul,
    Real.exp_log hp, Real.exp_log (by positivity), Real.exp_log (by positivity), mul_comm _ (2 : ℝ),
    show (2 : ℝ) * Real.log (N.factorial) = ((2 : ℕ) : ℝ) * Real.log (N.factorial) by norm_num, Real.exp_nat_mul, Real.exp_log (by positivity)]
  field_simp

/-! ### Lagrange products -/

theorem Icc_succ (m : ℕ) : Icc 1 (m + 1) = insert (m + 1) (Icc 1 m) := by
  ext k
  simp only [mem_Icc, mem_insert]
  omega

theorem prod_low_staggered (l : ℕ) (m : ℕ) (hm : m < l) :
    ∏ j ∈ Icc 1 m, ((2 * j - 1 : ℝ) ^ 2 / ((2 * j - 1 : ℝ) ^ 2 - (2 * l - 1) ^ 2)) =
      (-1) ^ m * ((2 * m).factorial : ℝ) ^ 2 * (l - 1 - m).factorial / (16 ^ m * (m.factorial : ℝ) ^ 2 * (l + m - 1).factorial) := by
  induction m with
  | zero => 
    simp
    rw [div_self]
    positivity
  | succ m ih =>
    rw [Icc_succ, prod_insert (by simp), ih (by omega)]
    obtain ⟨q, rfl⟩ : ∃ q, l = m + 2 + q := ⟨l - (m + 2), by omega⟩
    rw [show m + 2 + q - 1 - m = q + 1 by omega, show m + 2 + q - 1 - (m + 1) = q by omega, show m + 2 + q + m - 1 = 2 * m + q + 1 by omega,
      show m + 2 + q + (m + 1) - 1 = 2 * m + q + 1 + 1 by omega, show 2 * (m + 1) = 2 * m + 1 + 1 by ring]
    rw [Nat.factorial_succ (2 * m + 1), Nat.factorial_succ (2 * m), Nat.factorial_succ q, Nat.factorial_succ m,
      Nat.factorial_succ (2 * m + q + 1)]
    have h1 : ((2 * ((m + 1 : ℕ) : ℝ) - 1) ^ 2 - (2 * ((m + 2 + q : ℕ) : ℝ) - 1) ^ 2) = -4 * (q + 1) * (2 * m + q + 2) := by
      push_cast; ring
    rw [h1]
    have q1 : ((q : ℝ) + 1) ≠ 0 := by positivity
    have q2 : (2 * (m : ℝ) + q + 2) ≠ 0 := by positivity
    have q3 : ((m : ℝ) + 1) ≠ 0 := by positivity
    have f1 : ((2 * m + q + 1).factorial : ℝ) ≠ 0 := by positivity
    have f2 : (m.factorial : ℝ) ≠ 0 := by positivity
    have q4 : (2 * (m : ℝ) + q + 1 + 1) ≠ 0 := by positivity
    push_cast
    field_simp
    ring

theorem prod_low_nodal (l : ℕ) (m : ℕ) (hm : m < l) :
    ∏ j ∈ Icc 1 m, ((j : ℝ) ^ 2 / ((j : ℝ) ^ 2 - (l : ℝ) ^ 2)) =
      (-1) ^ m * (m.factorial : ℝ) ^ 2 * (l - 1 - m).factorial * l / ((l + m).factorial) := by
  induction m with
  | zero =>
    obtain ⟨q, rfl⟩ : ∃ q, l = q + 1 := ⟨l - 1, by omega⟩
    simp
    rw [Nat.factorial_succ]
    push_cast
    field_simp
  | succ m ih =>
    rw [Icc_succ, prod_insert (by simp), ih (by omega)]
    obtain ⟨q, rfl⟩ : ∃ q, l = m + 2 + q := ⟨l - (m + 2), by omega⟩
    rw [show m + 2 + q - 1 - m = q + 1 by omega, show m + 2 + q - 1 - (m + 1) = q by omega, show m + 2 + q + (m + 1) = m + 2 + q + m + 1 by omega]
    rw [Nat.factorial_succ q, Nat.factorial_succ m, Nat.factorial_succ (m + 2 + q + m)]
    have h1 : (((m + 1 : ℕ) : ℝ) ^ 2 - ((m + 2 + q : ℕ) : ℝ) ^ 2) = -(q + 1) * (2 * m + q + 3) := by
      push_cast; ring
    rw [h1]
    have q1 : ((q : ℝ) + 1) ≠ 0 := by positivity
    have q2 : (2 * (m : ℝ) + q + 3) ≠ 0 := by positivity
    have f1 : ((m + 2 + q + m).factorial : ℝ) ≠ 0 := by positivity
    have q4 : ((m : ℝ) + 2 + q + m + 1) ≠ 0 := by positivity
    push_cast
    field_simp
    ring

theorem prod_staggered (N l : ℕ) (hl : 1 ≤ l) (hN : l ≤ N) :
    ∏ j ∈ (Icc 1 N).erase l, ((2 * j - 1 : ℝ) ^ 2 / ((2 * j - 1 : ℝ) ^ 2 - (2 * l - 1) ^ 2)) = weight (2 * N) true l * (2 * l - 1) := by
  induction N, hN using Nat.le_induction with
  | base =>
    have : (Icc 1 l).erase l = Icc 1 (l - 1) := by
      ext k
      simp only [mem_erase, mem_Icc]
      omega
    rw [this, prod_low_staggered l (l - 1) (by omega), weight_staggered l l hl le_rfl]
    obtain ⟨q, rfl⟩ : ∃ q, l = q + 1 := ⟨l - 1, by omega⟩
    rw [show q + 1 - 1 = q by omega, show q - q = 0 by omega, show q + 1 + q - 1 = 2 * q by omega, show 2 * (q + 1) - 1 = 2 * q + 1 by omega,
      show q + 1 + (q + 1) - 1 = 2 * q + 1 by omega, Nat.sub_self, Nat.factorial_succ (2 * q)]
    have q1 : (2 * ((q + 1 : ℕ) : ℝ) - 1) ≠ 0 := by
      push_cast
      have : (0 : ℝ) ≤ q := by positivity
      linarith
    have q2 : (2 * (q : ℝ) + 1) ≠ 0 := by positivity
    have f1 : ((2 * q).factorial : ℝ) ≠ 0 := by positivity
    have q3 : (2 * ((q : ℝ) + 1) - 1) = 2 * q + 1 := by ring
    push_cast
    rw [q3]
    field_simp
    simp
    ring
  | succ N hN ih =>
    have : (Icc 1 (N + 1)).erase l = insert (N + 1) ((Icc 1 N).erase l) := by
      ext k
      simp only [mem_erase, mem_Icc, mem_insert]
      omega
    rw [this, prod_insert (by simp), ih, weight_staggered N l hl hN, weight_staggered (N + 1) l hl (by omega)]
    obtain ⟨M, rfl⟩ : ∃ M, N = M + 1 := ⟨N - 1, by omega⟩
    obtain ⟨q, hq⟩ : ∃ q, M + 1 = l + q := ⟨M + 1 - l, by omega⟩
    rw [show 2 * (M + 1 + 1) - 1 = 2 * M + 1 + 1 + 1 by omega, show 2 * (M + 1) - 1 = 2 * M + 1 by omega, show M + 1 + 1 - 1 = M + 1 by omega,
      show M + 1 - 1 = M by omega, show M + 1 + 1 + l - 1 = M + l + 1 by omega, show M + 1 + l - 1 = M + l by omega,
      show M + 1 + 1 - l = q + 1 by omega, show M + 1 - l = q by omega]
    rw [Nat.factorial_succ (2 * M + 1 + 1), Nat.factorial_succ (2 * M + 1), Nat.factorial_succ M, Nat.factorial_succ (M + l), Nat.factorial_succ q]
    have hM : (M : ℝ) = l + q - 1 := by
      have : ((M + 1 : ℕ) : ℝ) = ((l + q : ℕ) : ℝ) := by rw [hq]
      push_cast at this
      linarith
    have hl' : (1 : ℝ) ≤ l := by exact_mod_cast hl
    have h1 : ((2 * ((M + 1 + 1 : ℕ) : ℝ) - 1) ^ 2 - (2 * (l : ℝ) - 1) ^ 2) = 4 * (q + 1) * (M + l + 1) := by
      push_cast
      rw [hM]
      ring
    rw [h1]
    have q1 : ((q : ℝ) + 1) ≠ 0 := by positivity
    have q2 : ((M : ℝ) + l + 1) ≠ 0 := by positivity
    have q3 : ((M : ℝ) + 1) ≠ 0 := by positivity
    have q5 : (2 * (l : ℝ) - 1) ≠ 0 := by linarith
    have f1 : ((M + l).factorial : ℝ) ≠ 0 := by positivity
    have f2 : (M.factorial : ℝ) ≠ 0 := by positivity
    have f3 : (q.factorial : ℝ) ≠ 0 := by positivity
    push_cast
    field_simp
    ring

theorem prod_nodal (N l : ℕ) (hl : 1 ≤ l) (hN : l ≤ N) :
    ∏ j ∈ (Icc 1 N).erase l, ((j : ℝ) ^ 2 / ((j : ℝ) ^ 2 - (l : ℝ) ^ 2)) = weight (2 * N) false l * (2 * l) := by
  induction N, hN using Nat.le_induction with
  | base =>
    have : (Icc 1 l).erase l = Icc 1 (l - 1) := by
      ext k
      simp only [mem_erase, mem_Icc]
      omega
    rw [this, prod_low_nodal l (l - 1) (by omega), weight_nodal l l hl]
    obtain ⟨q, rfl⟩ : ∃ q, l = q + 1 := ⟨l - 1, by omega⟩
    rw [show q + 1 - 1 = q by omega, show q - q = 0 by omega, show q + 1 + q = 2 * q + 1 by omega, show q + 1 + (q + 1) = 2 * q + 1 + 1 by omega,
      Nat.sub_self, Nat.factorial_succ (2 * q + 1), Nat.factorial_succ q]
    have q2 : ((q : ℝ) + 1) ≠ 0 := by positivity
    have f1 : ((2 * q + 1).factorial : ℝ) ≠ 0 := by positivity
    have q3 : (2 * (q : ℝ) + 1 + 1) = 2 * (q + 1) := by ring
    push_cast
    rw [q3]
    field_simp
    simp
    ring
  | succ N hN ih =>
    have : (Icc 1 (N + 1)).erase l = insert (N + 1) ((Icc 1 N).erase l) := by
      ext k
      simp only [mem_erase, mem_Icc, mem_insert]
      omega
    rw [this, prod_insert (by simp), ih, weight_nodal N l hl, weight_nodal (N + 1) l hl]
    obtain ⟨q, rfl⟩ : ∃ q, N = l + q := ⟨N - l, by omega⟩
    rw [show l + q + 1 + l = l + q + l + 1 by omega, show l + q + 1 - l = q + 1 by omega, show l + q - l = q by omega]
    rw [Nat.factorial_succ (l + q + l), Nat.factorial_succ (l + q), Nat.factorial_succ q]
    have hl' : (1 : ℝ) ≤ l := by exact_mod_cast hl
    have h1 : (((l + q + 1 : ℕ) : ℝ) ^ 2 - (l : ℝ) ^ 2) = (q + 1) * (l + q + l + 1) := by
      push_cast
      ring
    rw [h1]
    have q1 : ((q : ℝ) + 1) ≠ 0 := by positivity
    have q2 : ((l : ℝ) + q + l + 1) ≠ 0 := by positivity
    have q5 : (l : ℝ) ≠ 0 := by linarith
    have f1 : ((l + q + l).factorial : ℝ) ≠ 0 := by positivity
    have f3 : (q.factorial : ℝ) ≠ 0 := by positivity
    push_cast
    field_simp

/-! ### Moments -/

/-- Evaluation at 0 by interpolation of the powers. -/
theorem moments (N : ℕ) (v : ℕ → ℝ) (hv : Set.InjOn v (Icc 1 N)) (j : ℕ) (hj : j < N) :
    ∑ l ∈ Icc 1 N, v l ^ j * ∏ k ∈ (Icc 1 N).erase l, (v k / (v k - v l)) = if j = 0 then 1 else 0 := by
  have h := Lagrange.eq_interpolate (s := Icc 1 N) (v := v) (f := (X : ℝ[X]) ^ j) hv (by
    rw [degree_X_pow, Nat.card_Icc]
    exact_mod_cast hj)
  have h0 := congrArg (fun f => eval 0 f) h
  simp only [eval_pow, eval_X, Lagrange.interpolate_apply, eval_finsetSum, eval_mul, eval_C] at h0
  rw [show ((0 : ℝ) ^ j) = if j = 0 then 1 else 0 by split_ifs with e <;> simp [e]] at h0
  rw [h0]
  refine sum_congr rfl fun l hl => ?_
  congr 1
  rw [Lagrange.basis, eval_prod]
  refine prod_congr rfl fun k hk => ?_
  rw [Lagrange.basisDivisor]
  simp only [eval_mul, eval_C, eval_sub, eval_X, zero_sub]
  rw [mem_erase] at hk
  have : v l - v k ≠ 0 := fun e => hk.1 (hv hk.2 hl (by linarith))
  have : v k - v l ≠ 0 := fun e => hk.1 (hv hk.2 hl (by linarith))
  field_simp
  ring

/-- Odd differences of a polynomial. -/
theorem odd_part (f : ℝ[X]) (N : ℕ) (h : f.natDegree ≤ 2 * N) (s : ℝ) :
    f.eval s - f.eval (-s) = ∑ j ∈ range N, 2 * f.coeff (2 * j + 1) * s ^ (2 * j + 1) := by
  rw [eval_eq_sum_range' (n := 2 * N + 1) (by omega), eval_eq_sum_range' (n := 2 * N + 1) (by omega), ← sum_sub_distrib]
  have : ∀ N : ℕ, ∑ i ∈ range (2 * N + 1), (f.coeff i * s ^ i - f.coeff i * (-s) ^ i) =
      ∑ j ∈ range N, 2 * f.coeff (2 * j + 1) * s ^ (2 * j + 1) := by
    intro N
    induction N with
    | zero => simp
    | succ N ih =>
      rw [show 2 * (N + 1) + 1 = 2 * N + 1 + 1 + 1 by ring, sum_range_succ, sum_range_succ, ih, sum_range_succ]
      rw [Odd.neg_pow ⟨N, rfl⟩, Even.neg_pow ⟨N + 1, by ring⟩]
      ring
  exact this N

/-- A difference with the right moments is exact. -/
theorem exact_of_moments (N : ℕ) (w : ℕ → ℝ) (v : ℕ → ℝ) (hm : ∀ j, j < N → ∑ l ∈ Icc 1 N, w l * (2 * v l ^ (2 * j + 1)) = if j = 0 then 1 else 0)
    (hN : 1 ≤ N) (d : ℝ) (hd : d ≠ 0) (f : ℝ[X]) (hf : f.natDegree ≤ 2 * N) (x : ℝ) :
    ∑ l ∈ Icc 1 N, w l * (f.eval (x + v l * d) - f.eval (x - v l * d)) / d = f.derivative.eval x := by
  set g : ℝ[X] := f.comp (C x + C d * X) with hg
  have gd : g.natDegree ≤ 2 * N := by
    refine le_trans natDegree_comp_le ?_
    have : (C x + C d * X : ℝ[X]).natDegree ≤ 1 := by
      refine le_trans (natDegree_add_le _ _) ?_
      simp only [natDegree_C, sup_le_iff, zero_le, true_and]
      exact le_trans (natDegree_C_mul_le d X) natDegree_X_le
    calc f.natDegree * _ ≤ 2 * N * 1 := Nat.mul_le_mul hf this
      _ = _ := by ring
  have ge : ∀ y, f.eval (x + y * d) = g.eval y := fun y => by
    rw [hg, eval_comp, eval_add, eval_mul, eval_C, eval_C, eval_X, mul_comm d]
  have e1 : g.coeff 1 = d * f.derivative.eval x := by
    have := congrArg (eval 0) (derivative_comp f (C x + C d * X))
    simp only [derivative_add, derivative_C, derivative_C_mul, derivative_X, eval_mul, eval_comp, eval_add, eval_C, eval_X, zero_add, mul_one,
      mul_zero, add_zero] at this
    rw [← hg] at this
    rw [← this, ← coeff_zero_eq_eval_zero, coeff_derivative]
    simp
  calc ∑ l ∈ Icc 1 N, w l * (f.eval (x + v l * d) - f.eval (x - v l * d)) / d
      = ∑ l ∈ Icc 1 N, ∑ j ∈ range N, g.coeff (2 * j + 1) / d * (w l * (2 * v l ^ (2 * j + 1))) := by
        refine sum_congr rfl fun l _ => ?_
        rw [show x - v l * d = x + (-v l) * d by ring, ge, ge, odd_part g N gd, mul_sum, sum_div]
        exact sum_congr rfl fun j _ => by ring
    _ = ∑ j ∈ range N, g.coeff (2 * j + 1) / d * ∑ l ∈ Icc 1 N, w l * (2 * v l ^ (2 * j + 1)) := by
        rw [sum_comm]
        exact sum_congr rfl fun j _ => by rw [mul_sum]
    _ = ∑ j ∈ range N, if j = 0 then f.derivative.eval x else 0 := by
        refine sum_congr rfl fun j hj => ?_
        rw [hm j (mem_range.mp hj)]
        split_ifs with e
        · subst e
          rw [show 2 * 0 + 1 = 1 by ring, e1]
          field_simp
        · ring
    _ = f.derivative.eval x := by
        rw [sum_ite_eq' (range N) 0, if_pos (mem_range.mpr hN)]

theorem moments_staggered (N : ℕ) (j : ℕ) (hj : j < N) :
    ∑ l ∈ Icc 1 N, weight (2 * N) true l * (2 * ((l : ℝ) - 1 / 2) ^ (2 * j + 1)) = if j = 0 then 1 else 0 := by
  have inj : Set.InjOn (fun l : ℕ => (2 * (l : ℝ) - 1) ^ 2) (Icc 1 N) := by
    intro a ha b hb h
    simp only [coe_Icc, Set.mem_Icc] at ha hb
    have ha' : (1 : ℝ) ≤ a := by exact_mod_cast ha.1
    have hb' : (1 : ℝ) ≤ b := by exact_mod_cast hb.1
    have h' : (2 * (a : ℝ) - 1) ^ 2 = (2 * (b : ℝ) - 1) ^ 2 := h
    rcases sq_eq_sq_iff_eq_or_eq_neg.mp h' with e | e
    · have : (a : ℝ) = b := by linarith
      exact_mod_cast this
    · linarith
  have h := moments N (fun l : ℕ => (2 * (l : ℝ) - 1) ^ 2) inj j hj
  rw [show (if j = 0 then (1 : ℝ) else 0) = (1 / 4) ^ j * if j = 0 then 1 else 0 by split_ifs with e <;> simp [e], ← h, mul_sum]
  refine sum_congr rfl fun l hl => ?_
  rw [mem_Icc] at hl
  rw [prod_staggered N l hl.1 hl.2, pow_succ ((l : ℝ) - 1 / 2), pow_mul, show ((l : ℝ) - 1 / 2) ^ 2 = 1 / 4 * (2 * l - 1) ^ 2 by ring, mul_pow]
  ring

theorem moments_nodal (N : ℕ) (j : ℕ) (hj : j < N) :
    ∑ l ∈ Icc 1 N, weight (2 * N) false l * (2 * (l : ℝ) ^ (2 * j + 1)) = if j = 0 then 1 else 0 := by
  have inj : Set.InjOn (fun l : ℕ => (l : ℝ) ^ 2) (Icc 1 N) := by
    intro a ha b hb h
    have h' : (a : ℝ) ^ 2 = (b : ℝ) ^ 2 := h
    have : (a : ℝ) = b := by
      rcases sq_eq_sq_iff_eq_or_eq_neg.mp h' with e | e
      · exact e
      · have h1 : (0 : ℝ) ≤ a := by positivity
        have h2 : (0 : ℝ) ≤ b := by positivity
        linarith
    exact_mod_cast this
  rw [← moments N (fun l : ℕ => (l : ℝ) ^ 2) inj j hj]
  refine sum_congr rfl fun l hl => ?_
  rw [mem_Icc] at hl
  rw [prod_nodal N l hl.1 hl.2, pow_succ, pow_mul]
  ring

end Picsar.Stencil
