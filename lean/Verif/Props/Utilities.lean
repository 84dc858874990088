import Verif.Lemmas.Utilities

/-
Property theorems C01–C05 (src/multi_physics/QED/src/utilities.hpp).
-/
namespace Picsar.Props
open Picsar

/-! ### C01 -/

/-- C01: on an ascending vector the search terminates, reads only inside the vector (no fault) and
returns the position of the first strictly greater element. -/
theorem C01_upper_bound {α : Type} [LinearOrder α] (a : List α) (val : α)
    (hs : a.Pairwise (· ≤ ·)) :
    ∃ k, upperBound a val = .ok k ∧ Spec.IsFirstGreater a val k :=
  upperBoundLoop_spec a val hs a.length 0 (by omega) (fun _ _ h => absurd h (by omega))
    (fun i h hi => absurd h (by omega))

example : ([1, 2, 2, 5] : List Nat).Pairwise (· ≤ ·) := by decide
example : Spec.IsFirstGreater ([1, 2, 2, 5] : List Nat) 2 3 := by
  refine ⟨by decide, ?_, ?_⟩
  · intro i h hi; have : i = 0 ∨ i = 1 ∨ i = 2 := by omega
    rcases this with rfl | rfl | rfl <;> simp
  · intro h; simp

/-- C01: the search never reads outside the vector and always terminates even when the vector is
not sorted (the result is then unspecified, but still inside `[0, length]`). -/
theorem C01_upper_bound_in_range {α : Type} [LinearOrder α] (a : List α) (val : α) :
    ∃ k, upperBound a val = .ok k ∧ k ≤ a.length := by
  have key : ∀ (count first : Nat), first + count ≤ a.length →
      ∃ k, upperBoundLoop a val first count = .ok k ∧ k ≤ a.length := by
    intro count
    induction count using Nat.strong_induction_on with
    | _ count ih =>
      intro first hle
      rw [upperBoundLoop]
      by_cases hc : 0 < count
      · have hit : first + count / 2 < a.length := by omega
        simp only [hc, if_true, rd_ok hit]
        split
        · exact ih _ (by omega) _ (by omega)
        · exact ih _ (by omega) _ (by omega)
      · simp only [hc, if_false]
        exact ⟨first, rfl, by omega⟩
  exact key a.length 0 (by omega)

/-! ### C02 -/

/-- C02: a valid request gives a strictly increasing grid with exact end points and constant step. -/
theorem C02_lin_spaced (min max : ℝ) (size : ℕ) (h : min < max) (hs : 2 ≤ size) :
    Spec.IsGrid (generateLinSpacedVec min max size) min max size ∧
    ∀ (i : ℕ), i < size →
      (generateLinSpacedVec min max size)[i]? = some (min + i * ((max - min) / (size - 1))) := by
  have hn : ¬ (min ≥ max ∨ size < 2) := by
    rintro (h1 | h1)
    · exact absurd h (not_lt.mpr h1)
    · omega
  have hsz : (1 : ℝ) < size := by exact_mod_cast (by omega : 1 < size)
  have hstep : 0 < (max - min) / ((size : ℝ) - 1) := div_pos (by linarith) (by linarith)
  unfold generateLinSpacedVec
  rw [if_neg hn]
  obtain ⟨s, rfl⟩ : ∃ s, size = s + 2 := ⟨size - 2, by omega⟩
  refine ⟨⟨by simp, ?_, by simp, ?_⟩, ?_⟩
  · rw [show s + 2 - 1 = s + 1 by omega, List.range_succ_eq_map]
    simp
  · apply pairwise_map_range_append
    · intro i j hij _
      have : (i : ℝ) < j := by exact_mod_cast hij
      rw [mul_div_assoc, mul_div_assoc]
      have := mul_lt_mul_of_pos_right this hstep
      linarith
    · intro i hi
      have : (i : ℝ) < ((s + 2 : ℕ) : ℝ) - 1 := by
        push_cast
        have : (i : ℝ) < ((s + 1 : ℕ) : ℝ) := by exact_mod_cast (by omega : i < s + 1)
        push_cast at this; linarith
      have h2 := mul_lt_mul_of_pos_right this hstep
      rw [mul_div_cancel₀ _ (by linarith : ((s + 2 : ℕ) : ℝ) - 1 ≠ 0)] at h2
      rw [mul_div_assoc]; linarith
  · intro i hi
    rcases Nat.lt_or_ge i (s + 1) with h1 | h1
    · rw [List.getElem?_append_left (by simpa using h1)]
      simp [h1]
      ring
    · have : i = s + 1 := by omega
      subst this
      rw [List.getElem?_append_right (by simp)]
      simp only [List.length_map, List.length_range]
      have h0 : s + 1 - (s + 2 - 1) = 0 := by omega
      rw [h0]
      simp only [List.getElem?_cons_zero, Option.some.injEq]
      have : (((s + 2 : ℕ) : ℝ) - 1) ≠ 0 := by linarith
      push_cast at this ⊢
      have e : (s : ℝ) + 2 - 1 = s + 1 := by ring
      rw [e] at this ⊢
      field_simp
      ring

/-- C02: any other request gives an empty vector. -/
theorem C02_lin_spaced_rejects (min max : ℝ) (size : ℕ) (h : ¬ (min < max ∧ 2 ≤ size)) :
    generateLinSpacedVec min max size = [] := by
  unfold generateLinSpacedVec
  rw [if_pos]
  rw [not_and_or] at h
  rcases h with h | h
  · exact .inl (not_lt.mp h)
  · exact .inr (by omega)

example : (0 : ℝ) < 3 ∧ 2 ≤ 4 := by norm_num
example : ¬ ((3 : ℝ) < 3 ∧ 2 ≤ 4) := by norm_num

/-! ### C03 -/

/-- C03 (positive lower end point): finite, strictly increasing, exact end points, constant ratio. -/
theorem C03_log_spaced_partial (min max : ℝ) (size : ℕ) (h0 : 0 < min) (h : min < max)
    (hs : 2 ≤ size) :
    ∃ l : List ℝ, generateLogSpacedVec min max size = l.map some ∧
      Spec.IsGrid l min max size ∧
      ∀ i, i < size → l[i]? = some (min * ((max / min) ^ (1 / ((size : ℝ) - 1))) ^ i) := by
  have hn : ¬ (min ≥ max ∨ min < 0 ∨ max < 0 ∨ size < 2) := by
    rintro (h1 | h1 | h1 | h1)
    · exact absurd h (not_lt.mpr h1)
    · linarith
    · linarith
    · omega
  have hsz : (1 : ℝ) < size := by exact_mod_cast (by omega : 1 < size)
  have hr1 : 1 < max / min := by rw [lt_div_iff₀ h0]; linarith
  set r := (max / min) ^ (1 / ((size : ℝ) - 1)) with hr
  have hrgt : 1 < r := Real.one_lt_rpow hr1 (by apply div_pos <;> linarith)
  have hpow : r ^ (size - 1) = max / min := by
    rw [hr, ← Real.rpow_natCast, ← Real.rpow_mul (by linarith)]
    have : ((size - 1 : ℕ) : ℝ) = (size : ℝ) - 1 := by
      rw [Nat.cast_sub (by omega)]; simp
    rw [this, one_div, inv_mul_cancel₀ (by linarith), Real.rpow_one]
  unfold generateLogSpacedVec
  rw [if_neg hn]
  refine ⟨(List.range (size - 1)).map (fun i => min * r ^ i) ++ [max], ?_, ⟨?_, ?_, by simp, ?_⟩, ?_⟩
  · have : Fl.pow (Fl.div (some max) (some min)) (1 / ((size : ℝ) - 1)) = some r := by
      simp [Fl.pow, Fl.div, h0.ne', hr]
    simp only [this, logLoop_some]
    simp
  · simp; omega
  · obtain ⟨s, rfl⟩ : ∃ s, size = s + 2 := ⟨size - 2, by omega⟩
    rw [show s + 2 - 1 = s + 1 by omega, List.range_succ_eq_map]
    simp
  · apply pairwise_map_range_append
    · intro i j hij _
      exact mul_lt_mul_of_pos_left (pow_lt_pow_right₀ hrgt hij) h0
    · intro i hi
      have := mul_lt_mul_of_pos_left (pow_lt_pow_right₀ hrgt hi) h0
      rwa [hpow, mul_div_cancel₀ _ h0.ne'] at this
  · intro i hi
    rcases Nat.lt_or_ge i (size - 1) with h1 | h1
    · rw [List.getElem?_append_left (by simpa using h1)]
      simp [h1]
    · have : i = size - 1 := by omega
      subst this
      rw [List.getElem?_append_right (by simp)]
      simp only [List.length_map, List.length_range, Nat.sub_self, List.getElem?_cons_zero]
      rw [hpow, mul_div_cancel₀ _ h0.ne']

example : (0 : ℝ) < 1 ∧ (1 : ℝ) < 10 ∧ 2 ≤ 5 := by norm_num

/-- C03: rejected requests give an empty vector. -/
theorem C03_log_spaced_rejects (min max : ℝ) (size : ℕ)
    (h : min ≥ max ∨ min < 0 ∨ max < 0 ∨ size < 2) : generateLogSpacedVec min max size = [] := by
  unfold generateLogSpacedVec
  rw [if_pos h]

example : (1 : ℝ) ≥ 1 ∨ (1 : ℝ) < 0 ∨ (1 : ℝ) < 0 ∨ 3 < 2 := by norm_num

/-- C03 is false of the code for `min = 0`: the request is accepted, but every interior coordinate
is non-finite (`max/0` is infinite and `0*inf` is NaN). -/
theorem C03_log_spaced_refuted (max : ℝ) (size : ℕ) (h : 0 < max) (hs : 3 ≤ size) :
    ∃ l, generateLogSpacedVec 0 max size = l ∧ l.length = size ∧
      ∀ i, 0 < i → i < size - 1 → l[i]? = some none := by
  have hn : ¬ ((0 : ℝ) ≥ max ∨ (0 : ℝ) < 0 ∨ max < 0 ∨ size < 2) := by
    rintro (h1 | h1 | h1 | h1)
    · linarith
    · linarith
    · linarith
    · omega
  refine ⟨_, rfl, ?_⟩
  unfold generateLogSpacedVec
  rw [if_neg hn]
  have : Fl.pow (Fl.div (some max) (some 0)) (1 / ((size : ℝ) - 1)) = none := by
    simp [Fl.pow, Fl.div]
  simp only [this]
  rw [logLoop_none _ _ (by omega)]
  refine ⟨by simp; omega, ?_⟩
  intro i h0 hi
  rw [List.getElem?_append_left (by simp; omega)]
  obtain ⟨j, rfl⟩ : ∃ j, i = j + 1 := ⟨i - 1, by omega⟩
  rw [List.getElem?_cons_succ, List.getElem?_replicate_of_lt (by omega)]

example : (0 : ℝ) < 1 ∧ 3 ≤ 3 := by norm_num

/-! ### C04 -/

/-- C04 for the sizes on which it holds: size 2, size 3, and every size ≥ 6 that is not of the form
`3k+2` (and below the `size_t` limit). -/
theorem C04_log_lin_log_partial (min max : ℝ) (size : ℕ) (hmin : 0 < min) (hmm : min ≤ max / 10)
    (hs : size = 2 ∨ size = 3 ∨ (6 ≤ size ∧ size % 3 ≠ 2)) (hb : size < 2 ^ 64) :
    ∃ l : List ℝ, generateLogLinLogSpacedVec min max size = .ok (l.map some) ∧
      Spec.IsWeakGrid l min max size := by
  by_cases h2 : size = 2
  · subst h2
    refine ⟨[min, max], ?_, by simp, by simp, by simp, ?_⟩
    · unfold generateLogLinLogSpacedVec
      simp [wr, List.range_succ]
    · simp; linarith
  · obtain ⟨k, hk⟩ : ∃ k, k = size / 3 := ⟨_, rfl⟩
    obtain ⟨m, rfl⟩ : ∃ m, size = 2 * k + m + 1 := ⟨size - 2 * k - 1, by omega⟩
    have hk1 : 1 ≤ k := by omega
    refine ⟨_, logLinLog_eq min max k m hk1 (by omega) (by omega) hk.symm hb, ?_, ?_, ?_, ?_⟩
    · simp [lll1, lll2, lll3]; omega
    · obtain ⟨k', rfl⟩ : ∃ k', k = k' + 1 := ⟨k - 1, by omega⟩
      unfold lll1
      rw [List.range_succ_eq_map]
      simp
    · simp
    · exact lll_pairwise min max k m hk1 hmin hmm (by omega)

example : (0 : ℝ) < 1 ∧ (1 : ℝ) ≤ 100 / 10 ∧
    (7 = 2 ∨ 7 = 3 ∨ (6 ≤ 7 ∧ 7 % 3 ≠ 2)) ∧ 7 < 2 ^ 64 := by norm_num

/-- C04 is false of the code for every size `3k+2 ≥ 5`: whatever the end points, the result is not a
finite non-decreasing sequence (a `size_t` subtraction wraps below zero). -/
theorem C04_log_lin_log_refuted (min max : ℝ) (k : ℕ) (hmax : 0 < max) (hk : 1 ≤ k)
    (hb : 3 * k + 2 < 2 ^ 64) :
    ¬ ∃ l : List ℝ, generateLogLinLogSpacedVec min max (3 * k + 2) = .ok (l.map some) ∧
      l.Pairwise (· ≤ ·) := by
  rintro ⟨l, hl, hp⟩
  obtain ⟨l', hl', h1, h2⟩ := logLinLog_bad min max k hk hb
  rw [hl] at hl'
  cases hl'
  rw [List.getElem?_map] at h1 h2
  have hL3 : Real.log (max * (9 / 10) / max) < 0 := by
    apply Real.log_neg
    · positivity
    · rw [div_lt_one hmax]; linarith
  by_cases hk1 : k = 1
  · subst hk1
    simp [Fl.div, Fl.exp, Fl.mul] at h2
  · have hkr : (0 : ℝ) < ((k - 1 : ℕ) : ℝ) := by exact_mod_cast (by omega : 0 < k - 1)
    simp only [Fl.div, Fl.exp, Fl.mul, hkr.ne', if_false, Option.map_some] at h1 h2
    rw [Option.map_eq_some_iff] at h1 h2
    obtain ⟨x, hx, hx2⟩ := h1
    obtain ⟨y, hy, hy2⟩ := h2
    simp only [Option.some.injEq] at hx2 hy2
    obtain ⟨hi, hx⟩ := List.getElem?_eq_some_iff.mp hx
    obtain ⟨hj, hy⟩ := List.getElem?_eq_some_iff.mp hy
    have := List.pairwise_iff_getElem.mp hp _ _ hi hj (by omega)
    rw [hx, hy, hx2, hy2, mul_le_mul_iff_right₀ hmax, Real.exp_le_exp,
      div_le_div_iff_of_pos_right hkr] at this
    have h3 : ((k - 1 : ℕ) : ℝ) < ((2 ^ 64 - 1 : ℕ) : ℝ) := by
      exact_mod_cast (by omega : k - 1 < 2 ^ 64 - 1)
    nlinarith [mul_lt_mul_of_neg_right h3 hL3]

example : (0 : ℝ) < 100 ∧ 1 ≤ 2 ∧ 3 * 2 + 2 < 2 ^ 64 := by norm_num

/-- C04 is false of the code for the sizes 0 (undefined behaviour), 1 (does not start at `min`) and
4 (contains a non-finite coordinate). -/
theorem C04_log_lin_log_small_refuted (min max : ℝ) :
    generateLogLinLogSpacedVec min max 0 = .error .outOfBounds ∧
    generateLogLinLogSpacedVec min max 1 = .ok [some max] ∧
    (∃ l, generateLogLinLogSpacedVec min max 4 = .ok l ∧ l[2]? = some none) := by
  refine ⟨?_, ?_, ?_⟩
  · simp [generateLogLinLogSpacedVec, wr]
  · simp [generateLogLinLogSpacedVec, wr, List.range_succ]
  · have hs : subSizeT 1 1 = 0 := by decide
    refine ⟨_, by
      simp only [generateLogLinLogSpacedVec]
      rw [wr_ok (by simp)]
      simp only [except_bind_ok]
      rw [wr_ok (by simp)], ?_⟩
    simp [List.range_succ, hs, Fl.div, Fl.exp, Fl.mul]

/-! ### C05 -/

/-- C05: `poisson_distrib` terminates and inverts the Poisson distribution. -/
theorem C05_poisson (lam u : ℝ) (hl : 0 ≤ lam) (hu : u < 1) :
    ∃ k, poissonDistrib lam u = some k ∧ Spec.IsPoissonQuantile lam u k := by
  have h0 : Spec.poissonCdf lam 0 = Real.exp (-lam) := by
    simp [Spec.poissonCdf]
  rcases hl.eq_or_lt with h | h
  · subst h
    refine ⟨0, ?_, ?_, fun j hj => absurd hj (by omega)⟩
    · unfold poissonDistrib
      rw [poissonLoop, if_neg]
      rw [neg_zero, Real.exp_zero]; linarith
    · rw [h0, neg_zero, Real.exp_zero]; exact hu.le
  · have hev := (poissonCdf_tendsto lam).eventually (lt_mem_nhds hu)
    obtain ⟨m, hm⟩ := hev.exists
    have := poissonLoop_spec lam u h m 0 (by rw [Nat.zero_add]; exact hm.le)
      (fun j hj => absurd hj (by omega))
    rw [h0] at this
    simpa [poissonDistrib] using this

/-- C05: the returned count is monotone in the draw. -/
theorem C05_poisson_monotone (lam u v : ℝ) (hl : 0 ≤ lam) (huv : u ≤ v) (hv : v < 1) (k m : ℕ)
    (hk : poissonDistrib lam u = some k) (hm : poissonDistrib lam v = some m) : k ≤ m := by
  obtain ⟨k', h1, _, h2⟩ := C05_poisson lam u hl (by linarith)
  obtain ⟨m', h3, h4, _⟩ := C05_poisson lam v hl hv
  rw [hk] at h1; rw [hm] at h3
  cases h1; cases h3
  by_contra hlt
  have := h2 m (by omega)
  linarith

/-- C05: a draw not above `exp(-lambda)` gives zero events. -/
theorem C05_poisson_zero (lam u : ℝ) (h : u ≤ Real.exp (-lam)) : poissonDistrib lam u = some 0 := by
  unfold poissonDistrib
  rw [poissonLoop, if_neg (not_lt.mpr h)]

example : (0 : ℝ) ≤ 3 ∧ (99 / 100 : ℝ) < 1 := by norm_num
example : (0 : ℝ) ≤ Real.exp (-2) := (Real.exp_pos _).le

end Picsar.Props
