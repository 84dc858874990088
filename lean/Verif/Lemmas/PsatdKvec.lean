import Verif.Model.Psatd
import Verif.Spec.Psatd
import Verif.Lemmas.PsatdSymbol
import Mathlib.Analysis.Calculus.Deriv.Comp

/-
The wave vectors of the pseudo-spectral solver.
-/
namespace Picsar.Psatd
open Picsar Picsar.Stencil Finset Complex

theorem foldl_range'_add (f : ℕ → ℝ) (N : ℕ) : (List.range' 1 N).foldl (fun s (i : ℕ) => s + f i) 0 = ∑ i ∈ Icc 1 N, f i := by
  induction N with
  | zero => simp
  | succ N ih =>
    rw [List.range'_1_concat, List.foldl_append, ih, Icc_succ, sum_insert (by simp)]
    simp only [List.foldl_cons, List.foldl_nil]
    rw [add_comm 1 N, add_comm]

/-- The wave number with the sign of the mode. -/
noncomputable def kappa (n N : ℕ) (d : ℝ) (m : ℕ) : ℝ := ∑ l ∈ Icc 1 N, 2 / d * weight (2 * N) true l * Real.sin ((l * 2 - 1) * Real.pi * m / n)

theorem kappa_sinSum (n N : ℕ) (d : ℝ) (m : ℕ) : kappa n N d m = 2 / d * sinSum N (Real.pi * m / n) := by
  unfold kappa sinSum
  rw [mul_sum]
  refine sum_congr rfl fun l _ => ?_
  rw [show ((l : ℝ) * 2 - 1) * Real.pi * m / n = (2 * l - 1) * (Real.pi * m / n) by ring]
  ring

/-- The phase of half a cell. -/
noncomputable def half (n m : ℕ) : ℂ := exp (I * Real.pi * m / n)

theorem half_ne (n m : ℕ) : half n m ≠ 0 := exp_ne_zero _

theorem k1d_stag (n N : ℕ) (d : ℝ) (m : ℕ) (hN : 1 ≤ N) (hn : 1 ≤ n) :
    ∃ c : ℝ, k1d n (2 * N) d true (m + 1) = .ok ⟨c, kappa n N d m * (half n m)⁻¹, kappa n N d m * half n m⟩ ∧ c ^ 2 = kappa n N d m ^ 2 := by
  have hn0 : (n : ℂ) ≠ 0 := by exact_mod_cast (by omega : n ≠ 0)
  have key : ∀ (c : ℝ), c = (if m + 1 > n / 2 + 1 then -kappa n N d m else kappa n N d m) →
      (⟨c, c * exp (-I * Real.pi * onesp n (m + 1) / n), c * exp (I * Real.pi * onesp n (m + 1) / n)⟩ : K1) =
        ⟨c, kappa n N d m * (half n m)⁻¹, kappa n N d m * half n m⟩ := by
    intro c hc
    unfold half onesp
    rw [← exp_neg]
    by_cases h : m + 1 > n / 2 + 1
    · rw [if_pos h] at hc
      rw [if_pos h, hc]
      push_cast
      rw [show -I * Real.pi * ((n : ℂ) + (m + 1 - 1)) / n = -(I * Real.pi * m / n) + -(Real.pi * I) by field_simp; ring,
        show I * Real.pi * ((n : ℂ) + (m + 1 - 1)) / n = I * Real.pi * m / n + Real.pi * I by field_simp; ring,
        exp_add, exp_add, exp_neg (Real.pi * I), exp_pi_mul_I]
      congr 1
      · rw [inv_neg, inv_one]
        ring
      · ring
    · rw [if_neg h] at hc
      rw [if_neg h, hc]
      push_cast
      rw [show -I * Real.pi * ((m : ℂ) + 1 - 1) / n = -(I * Real.pi * m / n) by ring,
        show I * Real.pi * ((m : ℂ) + 1 - 1) / n = I * Real.pi * m / n by ring]
  refine ⟨if m + 1 > n / 2 + 1 then -kappa n N d m else kappa n N d m, ?_, by split_ifs <;> ring⟩
  have hsum : (List.range' 1 (2 * N / 2)).foldl (fun s (i : ℕ) =>
        if true = true then s + 2 / d * weight (2 * N) true i * Real.sin ((i * 2 - 1) * Real.pi * ones n (m + 1) / n)
        else s + 2 / d * weight (2 * N) true i * Real.sin (i * 2 * Real.pi * onesp n (m + 1) / n)) 0 =
      if m + 1 > n / 2 + 1 then -kappa n N d m else kappa n N d m := by
    simp only [if_true]
    rw [show 2 * N / 2 = N by omega, foldl_range'_add]
    unfold ones kappa
    split_ifs
    · rw [← sum_neg_distrib]
      refine sum_congr rfl fun l _ => ?_
      push_cast
      rw [show ((l : ℝ) * 2 - 1) * Real.pi * -((m : ℝ) + 1 - 1) / n = -((l * 2 - 1) * Real.pi * m / n) by ring, Real.sin_neg]
      ring
    · refine sum_congr rfl fun l _ => ?_
      push_cast
      rw [show ((m : ℝ) + 1 - 1) = m by ring]
  unfold k1d
  rw [if_pos (by omega), hsum]
  simp only [except_bind_ok, if_true]
  rw [key _ rfl]

/-- Without staggering. -/
noncomputable def kappaMid (n N : ℕ) (d : ℝ) (m : ℕ) : ℝ := ∑ l ∈ Icc 1 N, 2 / d * weight (2 * N) false l * Real.sin (l * 2 * Real.pi * m / n)

theorem k1d_mid (n N : ℕ) (d : ℝ) (m : ℕ) (hN : 1 ≤ N) (hn : 1 ≤ n) :
    k1d n (2 * N) d false (m + 1) = .ok ⟨kappaMid n N d m, kappaMid n N d m, kappaMid n N d m⟩ := by
  have hn0 : (n : ℝ) ≠ 0 := by exact_mod_cast (by omega : n ≠ 0)
  have hsum : (List.range' 1 (2 * N / 2)).foldl (fun s (i : ℕ) =>
        if false = true then s + 2 / d * weight (2 * N) false i * Real.sin ((i * 2 - 1) * Real.pi * ones n (m + 1) / n)
        else s + 2 / d * weight (2 * N) false i * Real.sin (i * 2 * Real.pi * onesp n (m + 1) / n)) 0 = kappaMid n N d m := by
    simp only [Bool.false_eq_true, if_false]
    rw [show 2 * N / 2 = N by omega, foldl_range'_add]
    unfold onesp kappaMid
    refine sum_congr rfl fun l _ => ?_
    split_ifs
    · push_cast
      rw [show (l : ℝ) * 2 * Real.pi * ((n : ℝ) + (m + 1 - 1)) / n = l * 2 * Real.pi * m / n + l * (2 * Real.pi) by field_simp; ring,
        Real.sin_add_nat_mul_two_pi]
    · push_cast
      rw [show ((m : ℝ) + 1 - 1) = m by ring]
  unfold k1d
  rw [if_pos (by omega), hsum]
  simp only [except_bind_ok, Bool.false_eq_true, if_false]

/-- Differences of an exponential, in terms of the factor from one point to the next. -/
theorem symbol_fwd (n N : ℕ) (d : ℝ) (m : ℕ) :
    ∑ l ∈ Icc 1 N, ((weight (2 * N) true l / d : ℝ) : ℂ) * ((half n m ^ 2) ^ l - half n m ^ 2 * ((half n m ^ 2) ^ l)⁻¹) =
      I * (kappa n N d m * half n m) := by
  unfold kappa
  push_cast
  rw [sum_mul, mul_sum]
  refine sum_congr rfl fun l hl => ?_
  rw [mem_Icc] at hl
  obtain ⟨q, rfl⟩ : ∃ q, l = q + 1 := ⟨l - 1, by omega⟩
  have hs : (half n m) ^ (2 * q + 1) - ((half n m) ^ (2 * q + 1))⁻¹ = 2 * I * sin (((q + 1 : ℕ) * 2 - 1) * Real.pi * m / n) := by
    unfold half
    rw [← exp_nat_mul, ← exp_neg, Complex.sin]
    push_cast
    rw [show (2 * (q : ℂ) + 1) * (I * Real.pi * m / n) = ((q + 1) * 2 - 1) * Real.pi * m / n * I by ring]
    generalize ((((q : ℂ) + 1) * 2 - 1) * Real.pi * m / n) = x
    have : 2 * I * ((exp (-x * I) - exp (x * I)) * I / 2) = (I * I) * (exp (-x * I) - exp (x * I)) := by ring
    rw [this, I_mul_I, neg_mul]
    ring_nf
  push_cast at hs
  have h0 := half_ne n m
  have e : (half n m ^ 2) ^ (q + 1) - half n m ^ 2 * ((half n m ^ 2) ^ (q + 1))⁻¹ =
      half n m * ((half n m) ^ (2 * q + 1) - ((half n m) ^ (2 * q + 1))⁻¹) := by
    rw [← pow_mul, show 2 * (q + 1) = 2 * q + 1 + 1 by ring, pow_succ]
    field_simp
  rw [e, hs]
  push_cast
  ring

theorem symbol_bwd (n N : ℕ) (d : ℝ) (m : ℕ) :
    ∑ l ∈ Icc 1 N, ((weight (2 * N) true l / d : ℝ) : ℂ) * ((half n m ^ 2) ^ l * (half n m ^ 2)⁻¹ - ((half n m ^ 2) ^ l)⁻¹) =
      I * (kappa n N d m * (half n m)⁻¹) := by
  have h := symbol_fwd n N d m
  have h0 := half_ne n m
  have : I * (kappa n N d m * (half n m)⁻¹) = (half n m ^ 2)⁻¹ * (I * (kappa n N d m * half n m)) := by
    field_simp
  rw [this, ← h, mul_sum]
  refine sum_congr rfl fun l _ => ?_
  field_simp

theorem symbol_mid (n N : ℕ) (d : ℝ) (m : ℕ) :
    ∑ l ∈ Icc 1 N, ((weight (2 * N) false l / d : ℝ) : ℂ) * ((half n m ^ 2) ^ l - ((half n m ^ 2) ^ l)⁻¹) = I * kappaMid n N d m := by
  unfold kappaMid
  push_cast
  rw [mul_sum]
  refine sum_congr rfl fun l hl => ?_
  have hs : (half n m ^ 2) ^ l - ((half n m ^ 2) ^ l)⁻¹ = 2 * I * sin (l * 2 * Real.pi * m / n) := by
    unfold half
    rw [← pow_mul, ← exp_nat_mul, ← exp_neg, Complex.sin]
    push_cast
    rw [show 2 * (l : ℂ) * (I * Real.pi * m / n) = l * 2 * Real.pi * m / n * I by ring, neg_mul]
    generalize ((l : ℂ) * 2 * Real.pi * m / n) = x
    have : 2 * I * ((exp (-(x * I)) - exp (x * I)) * I / 2) = (I * I) * (exp (-(x * I)) - exp (x * I)) := by ring
    rw [this, I_mul_I]
    ring
  rw [hs]
  ring

theorem half_sq (n m : ℕ) : half n m ^ 2 = exp (2 * Real.pi * I * m / n) := by
  unfold half
  rw [← exp_nat_mul]
  congr 1
  push_cast
  ring

/-- A function that a step multiplies by a factor. -/
theorem step_pow {G : Type} [AddCommGroup G] (e : G) (u : G → ℂ) (z : ℂ) (hz : z ≠ 0) (h : ∀ p, u (p + e) = z * u p) (p : G) (l : ℕ) :
    u (p + l • e) = z ^ l * u p ∧ u (p - l • e) = (z ^ l)⁻¹ * u p := by
  have h' : ∀ p, u (p - e) = z⁻¹ * u p := by
    intro p
    have := h (p - e)
    rw [sub_add_cancel] at this
    rw [this]
    field_simp
  induction l with
  | zero => simp
  | succ l ih =>
    constructor
    · rw [succ_nsmul, ← add_assoc, h, ih.1]
      ring
    · rw [succ_nsmul, ← sub_sub, h', ih.2, pow_succ, mul_inv]
      ring

theorem dFwd_eigen {G : Type} [AddCommGroup G] (n N : ℕ) (d : ℝ) (m : ℕ) (e : G) (u : G → ℂ) (h : ∀ p, u (p + e) = half n m ^ 2 * u p) (p : G) :
    dFwd (weight (2 * N) true) N d e u p = I * (kappa n N d m * half n m) * u p := by
  have hz : half n m ^ 2 ≠ 0 := pow_ne_zero _ (half_ne n m)
  rw [← symbol_fwd, sum_mul]
  refine sum_congr rfl fun l _ => ?_
  rw [(step_pow e u _ hz h p l).1, (step_pow e u _ hz h (p + e) l).2, h, real_smul]
  ring

theorem dBwd_eigen {G : Type} [AddCommGroup G] (n N : ℕ) (d : ℝ) (m : ℕ) (e : G) (u : G → ℂ) (h : ∀ p, u (p + e) = half n m ^ 2 * u p) (p : G) :
    dBwd (weight (2 * N) true) N d e u p = I * (kappa n N d m * (half n m)⁻¹) * u p := by
  have hz : half n m ^ 2 ≠ 0 := pow_ne_zero _ (half_ne n m)
  rw [← symbol_bwd, sum_mul]
  refine sum_congr rfl fun l _ => ?_
  have e1 : u (p + l • e - e) = (half n m ^ 2) ^ l * (half n m ^ 2)⁻¹ * u p := by
    have := (step_pow e u _ hz h (p + l • e) 1).2
    rw [one_nsmul, pow_one, (step_pow e u _ hz h p l).1] at this
    rw [this]
    ring
  rw [e1, (step_pow e u _ hz h p l).2, real_smul]
  ring

theorem dMid_eigen {G : Type} [AddCommGroup G] (n N : ℕ) (d : ℝ) (m : ℕ) (e : G) (u : G → ℂ) (h : ∀ p, u (p + e) = half n m ^ 2 * u p) (p : G) :
    dMid (weight (2 * N) false) N d e u p = I * kappaMid n N d m * u p := by
  have hz : half n m ^ 2 ≠ 0 := pow_ne_zero _ (half_ne n m)
  rw [← symbol_mid, sum_mul]
  refine sum_congr rfl fun l _ => ?_
  rw [(step_pow e u _ hz h p l).1, (step_pow e u _ hz h p l).2, real_smul]
  ring

theorem wave_step (n m : ℕ) (x : ℤ) : wave n m (x + 1) = half n m ^ 2 * wave n m x := by
  rw [half_sq]
  unfold wave
  rw [← exp_add]
  congr 1
  push_cast
  ring

theorem kappa_ne (n N : ℕ) (d : ℝ) (m : ℕ) (hN : 1 ≤ N) (hd : d ≠ 0) (h1 : 1 ≤ m) (h2 : m < n) : kappa n N d m ≠ 0 := by
  rw [kappa_sinSum]
  have hm : (1 : ℝ) ≤ m := by exact_mod_cast h1
  have hn : (m : ℝ) < n := by exact_mod_cast h2
  have pp := Real.pi_pos
  refine mul_ne_zero (div_ne_zero two_ne_zero hd) (sinSum_pos N hN _ (div_pos (mul_pos pp (by linarith)) (by linarith)) ?_).ne'
  rw [div_lt_iff₀ (by linarith)]
  exact mul_lt_mul_of_pos_left hn pp

theorem kappa_zero (n N : ℕ) (d : ℝ) : kappa n N d 0 = 0 := by simp [kappa]

/-! Infinite order. -/

theorem ramp_spec (n : ℕ) (x : ℕ → ℝ) (a cnt : ℕ) (ha : 1 ≤ a) (h : a + cnt ≤ n) :
    ∃ y, ramp n x a cnt = .ok y ∧ ∀ j, y j = if a ≤ j ∧ j ≤ a + cnt then x a + ((j - a : ℕ) : ℝ) else x j := by
  induction cnt with
  | zero =>
    refine ⟨x, rfl, fun j => ?_⟩
    split_ifs with hj
    · obtain rfl : j = a := by omega
      simp
    · rfl
  | succ cnt ih =>
    obtain ⟨y, hy, hv⟩ := ih (by omega)
    refine ⟨Function.update y (a + cnt + 1) (y (a + cnt) + 1), ?_, fun j => ?_⟩
    · unfold ramp at hy ⊢
      rw [List.range'_1_concat, List.foldlM_append, hy]
      simp only [List.foldlM_cons, List.foldlM_nil]
      unfold put
      rw [except_bind_ok, if_pos (by omega)]
      rfl
    · by_cases hj : j = a + cnt + 1
      · subst hj
        rw [Function.update_self, hv, if_pos (by omega), if_pos (by omega), add_assoc]
        congr 1
        rw [show a + cnt + 1 - a = (a + cnt - a) + 1 by omega]
        push_cast
        ring
      · rw [Function.update_of_ne hj, hv]
        by_cases c : a ≤ j ∧ j ≤ a + cnt
        · rw [if_pos c, if_pos (by omega)]
        · rw [if_neg c, if_neg (by omega)]

theorem fftfreq_ok (n : ℕ) (d : ℝ) (hn : 2 ≤ n) :
    ∃ y, fftfreq n d = .ok y ∧ ∀ m, m < n → y (m + 1) = (if 2 * m < n then (m : ℝ) else (m : ℝ) - n) / (d * n) / 2 * Real.pi := by
  unfold fftfreq
  have p1 : put n (fun _ => 0) 1 0 = .ok (fun _ => 0) := by
    unfold put
    rw [if_pos (by omega)]
    congr 1
    exact Function.update_eq_self 1 (fun _ : ℕ => (0 : ℝ))
  rw [p1, except_bind_ok]
  by_cases he : n % 2 = 0
  · rw [if_pos he]
    obtain ⟨q, rfl⟩ : ∃ q, n = 2 * q := ⟨n / 2, by omega⟩
    obtain ⟨y, hy, hv⟩ := ramp_spec (2 * q) (fun _ => 0) 1 (2 * q / 2 - 1) le_rfl (by omega)
    obtain ⟨y', hy', hv'⟩ := ramp_spec (2 * q) (Function.update y (2 * q / 2 + 1) (-((2 * q / 2 : ℕ) : ℝ))) (2 * q / 2 + 1)
      (2 * q - 1 - 2 * q / 2) (by omega) (by omega)
    have p2 : put (2 * q) y (2 * q / 2 + 1) (-((2 * q / 2 : ℕ) : ℝ)) = .ok (Function.update y (2 * q / 2 + 1) (-((2 * q / 2 : ℕ) : ℝ))) := by
      unfold put
      rw [if_pos (by omega)]
    rw [hy, except_bind_ok, p2, except_bind_ok, hy', except_bind_ok]
    refine ⟨_, rfl, fun m hm => ?_⟩
    congr 3
    rw [hv']
    by_cases c : 2 * m < 2 * q
    · rw [if_pos c, if_neg (by omega), Function.update_of_ne (by omega), hv, if_pos (by omega)]
      simp
    · rw [if_neg c, if_pos (by omega), Function.update_self, show 2 * q / 2 = q by omega]
      obtain ⟨r, rfl⟩ : ∃ r, m = q + r := ⟨m - q, by omega⟩
      rw [show q + r + 1 - (q + 1) = r by omega]
      push_cast
      ring
  · rw [if_neg he]
    obtain ⟨q, rfl⟩ : ∃ q, n = 2 * q + 1 := ⟨n / 2, by omega⟩
    obtain ⟨y, hy, hv⟩ := ramp_spec (2 * q + 1) (fun _ => 0) 1 ((2 * q + 1 - 1) / 2) le_rfl (by omega)
    obtain ⟨y', hy', hv'⟩ := ramp_spec (2 * q + 1) (Function.update y ((2 * q + 1 - 1) / 2 + 2) (-(((2 * q + 1 - 1) / 2 : ℕ) : ℝ)))
      ((2 * q + 1 - 1) / 2 + 2) (2 * q + 1 - 1 - ((2 * q + 1 - 1) / 2 + 1)) (by omega) (by omega)
    have p2 : put (2 * q + 1) y ((2 * q + 1 - 1) / 2 + 2) (-(((2 * q + 1 - 1) / 2 : ℕ) : ℝ)) =
        .ok (Function.update y ((2 * q + 1 - 1) / 2 + 2) (-(((2 * q + 1 - 1) / 2 : ℕ) : ℝ))) := by
      unfold put
      rw [if_pos (by omega)]
    rw [hy, except_bind_ok, p2, except_bind_ok, hy', except_bind_ok]
    refine ⟨_, rfl, fun m hm => ?_⟩
    congr 3
    rw [hv']
    by_cases c : 2 * m < 2 * q + 1
    · rw [if_pos c, if_neg (by omega), Function.update_of_ne (by omega), hv, if_pos (by omega)]
      simp
    · rw [if_neg c, if_pos (by omega), Function.update_self, show (2 * q + 1 - 1) / 2 = q by omega]
      obtain ⟨r, rfl⟩ : ∃ r, m = q + 1 + r := ⟨m - q - 1, by omega⟩
      rw [show q + 1 + r + 1 - (q + 2) = r by omega]
      push_cast
      ring

end Picsar.Psatd
