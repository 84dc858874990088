import Verif.Model.Utilities
import Verif.Spec.Utilities
import Mathlib.Tactic.Linarith
import Mathlib.Tactic.FieldSimp
import Mathlib.Tactic.Ring
import Mathlib.Analysis.SpecialFunctions.Exponential
import Mathlib.Analysis.Complex.Exponential

namespace Picsar

section UpperBound
variable {α : Type} [LinearOrder α]

theorem upperBoundLoop_spec (a : List α) (val : α) (hs : a.Pairwise (· ≤ ·)) :
    ∀ (count first : Nat), first + count ≤ a.length →
      (∀ (i : Nat) (h : i < a.length), i < first → a[i] ≤ val) →
      (∀ (i : Nat) (h : i < a.length), first + count ≤ i → val < a[i]) →
      ∃ k, upperBoundLoop a val first count = .ok k ∧ Spec.IsFirstGreater a val k := by
  intro count
  induction count using Nat.strong_induction_on with
  | _ count ih =>
    intro first hle hlo hhi
    rw [upperBoundLoop]
    by_cases hc : 0 < count
    · have hit : first + count / 2 < a.length := by omega
      simp only [hc, if_true, rd_ok hit]
      by_cases hv : val < a[first + count / 2]
      · simp only [hv, not_true_eq_false, if_false]
        apply ih (count / 2) (by omega) first (by omega) hlo
        intro i h hi
        rcases Nat.eq_or_lt_of_le hi with heq | hlt
        · subst heq; exact hv
        · exact lt_of_lt_of_le hv (List.pairwise_iff_getElem.mp hs _ _ hit h hlt)
      · simp only [hv, not_false_eq_true, if_true]
        apply ih (count - (count / 2 + 1)) (by omega) (first + count / 2 + 1) (by omega)
        · intro i h hi
          rcases Nat.lt_or_ge i (first + count / 2) with hlt | hge
          · exact le_trans (List.pairwise_iff_getElem.mp hs _ _ h hit hlt) (not_lt.mp hv)
          · have : i = first + count / 2 := by omega
            subst this; exact not_lt.mp hv
        · intro i h hi
          exact hhi i h (by omega)
    · simp only [hc, if_false]
      refine ⟨first, rfl, by omega, hlo, fun h => hhi first h (by omega)⟩

end UpperBound

section Spacing

theorem logLoop_some (r : ℝ) : ∀ (n : ℕ) (v : ℝ),
    logLoop (some r) n (some v) = (List.range n).map (fun i => some (v * r ^ i)) := by
  intro n
  induction n with
  | zero => intro v; rfl
  | succ n ih =>
    intro v
    rw [logLoop, List.range_succ_eq_map, List.map_cons, List.map_map]
    congr 1
    · simp
    · simp only [Fl.mul]
      rw [ih]
      apply List.map_congr_left
      intro i _
      simp only [Function.comp, Nat.succ_eq_add_one]
      rw [pow_succ]; ring_nf

theorem logLoop_none : ∀ (n : ℕ) (v : Fl), n ≠ 0 →
    logLoop none n v = v :: List.replicate (n - 1) none := by
  have h0 : ∀ n, logLoop none n none = List.replicate n none := by
    intro n
    induction n with
    | zero => rfl
    | succ n ih => rw [logLoop]; simp [Fl.mul, ih, List.replicate_succ]
  intro n v hn
  cases n with
  | zero => exact absurd rfl hn
  | succ n =>
    rw [logLoop]
    have : Fl.mul v none = none := by cases v <;> rfl
    rw [this, h0]; simp

/-- Strictly increasing function on `0..n-1` followed by a strict bound. -/
theorem pairwise_map_range_append {f : ℕ → ℝ} {n : ℕ} {b : ℝ}
    (hf : ∀ i j, i < j → j < n → f i < f j) (hb : ∀ i, i < n → f i < b) :
    ((List.range n).map f ++ [b]).Pairwise (· < ·) := by
  rw [List.pairwise_append]
  refine ⟨?_, List.pairwise_singleton _ _, ?_⟩
  · rw [List.pairwise_map, List.pairwise_iff_getElem]
    intro i j hi hj hij
    simp only [List.getElem_range]
    exact hf i j hij (by simpa using hj)
  · intro x hx y hy
    simp only [List.mem_singleton] at hy
    subst hy
    simp only [List.mem_map, List.mem_range] at hx
    obtain ⟨i, hi, rfl⟩ := hx
    exact hb i hi

end Spacing

section Poisson
open Filter Topology

theorem poissonCdf_succ (lam : ℝ) (k : ℕ) :
    Spec.poissonCdf lam (k + 1)
      = Spec.poissonCdf lam k + Real.exp (-lam) * lam ^ (k + 1) / ((k + 1).factorial : ℝ) := by
  unfold Spec.poissonCdf
  rw [Finset.sum_range_succ]

theorem poissonCdf_tendsto (lam : ℝ) :
    Tendsto (fun k => Spec.poissonCdf lam k) atTop (𝓝 1) := by
  have h := (NormedSpace.expSeries_div_hasSum_exp (𝔸 := ℝ) lam).tendsto_sum_nat
  have h2 := (h.const_mul (Real.exp (-lam))).comp (tendsto_add_atTop_nat 1)
  rw [← Real.exp_eq_exp_ℝ, ← Real.exp_add, neg_add_cancel, Real.exp_zero] at h2
  refine h2.congr ?_
  intro k
  simp only [Function.comp, Spec.poissonCdf, Finset.mul_sum, mul_div_assoc]

theorem poissonLoop_spec (lam u : ℝ) (hl : 0 < lam) :
    ∀ (m k : ℕ), u ≤ Spec.poissonCdf lam (k + m) → (∀ j, j < k → Spec.poissonCdf lam j < u) →
      ∃ r, poissonLoop lam u k (Real.exp (-lam) * lam ^ k / (k.factorial : ℝ))
          (Spec.poissonCdf lam k) = some r ∧ Spec.IsPoissonQuantile lam u r := by
  intro m
  induction m with
  | zero =>
    intro k hu hj
    rw [poissonLoop]
    simp only [Nat.add_zero] at hu
    rw [if_neg (not_lt.mpr hu)]
    exact ⟨k, rfl, hu, hj⟩
  | succ m ih =>
    intro k hu hj
    rw [poissonLoop]
    by_cases h : u > Spec.poissonCdf lam k
    · rw [if_pos h]
      have hp : Real.exp (-lam) * lam ^ k / (k.factorial : ℝ) * lam / ((k + 1 : ℕ) : ℝ)
          = Real.exp (-lam) * lam ^ (k + 1) / ((k + 1).factorial : ℝ) := by
        rw [Nat.factorial_succ, pow_succ]
        have h1 : ((k : ℝ) + 1) ≠ 0 := by positivity
        have h2 : (k.factorial : ℝ) ≠ 0 := by positivity
        push_cast
        field_simp
      have hpos : 0 < Real.exp (-lam) * lam ^ (k + 1) / ((k + 1).factorial : ℝ) := by positivity
      simp only [hp]
      rw [if_neg (by linarith), ← poissonCdf_succ]
      apply ih (k + 1)
      · convert hu using 2; omega
      · intro j hjk
        rcases Nat.lt_succ_iff_lt_or_eq.mp hjk with h1 | h1
        · exact hj j h1
        · rw [h1]; exact h
    · rw [if_neg h]
      exact ⟨k, rfl, not_lt.mp h, hj⟩

end Poisson

end Picsar

namespace Picsar

section LogLinLog

theorem subSizeT_of_le {a b : ℕ} (ha : a < 2 ^ 64) (h : b ≤ a) : subSizeT a b = a - b := by
  unfold subSizeT
  rw [Nat.mod_eq_of_lt (lt_of_le_of_lt h ha)]
  omega

theorem subSizeT_wrap {a : ℕ} (ha : a + 1 < 2 ^ 64) : subSizeT a (a + 1) = 2 ^ 64 - 1 := by
  unfold subSizeT
  rw [Nat.mod_eq_of_lt ha]
  omega

/-- Real values of the three segments. -/
noncomputable def lll1 (min max : ℝ) (k : ℕ) : List ℝ :=
  (List.range k).map fun n : ℕ => min * Real.exp ((n : ℝ) * Real.log (max * (1 / 10) / min) / (k : ℝ))

noncomputable def lll2 (max : ℝ) (k : ℕ) : List ℝ :=
  (List.range k).map fun n : ℕ =>
    max * (1 / 10) + (max * (9 / 10) - max * (1 / 10)) * (n : ℝ) / (k : ℝ)

noncomputable def lll3 (max : ℝ) (k m : ℕ) : List ℝ :=
  (List.range m).map fun n : ℕ =>
    max * Real.exp (((k - 1 - n : ℕ) : ℝ) * Real.log (max * (9 / 10) / max) / ((k - 1 : ℕ) : ℝ))

theorem logLinLog_eq (min max : ℝ) (k m : ℕ) (hk : 1 ≤ k) (hm : m ≤ k)
    (hm' : m + 1 ≤ k ∨ 2 ≤ k) (hsz : (2 * k + m + 1) / 3 = k) (hb : 2 * k + m + 1 < 2 ^ 64) :
    generateLogLinLogSpacedVec min max (2 * k + m + 1)
      = .ok ((lll1 min max k ++ lll2 max k ++ lll3 max k m ++ [max]).map some) := by
  have hk0 : (k : ℝ) ≠ 0 := by positivity
  have hsub1 : subSizeT k 1 = k - 1 := subSizeT_of_le (by omega) hk
  have h3 : 2 * k + m + 1 - k - k = m + 1 := by omega
  unfold generateLogLinLogSpacedVec
  simp only [hsz, hsub1, h3]
  have e1 : ((List.range k).map fun n : ℕ => Fl.mul (some min)
      (Fl.exp (Fl.div (some ((n : ℝ) * Real.log (max * (1 / 10) / min))) (some (k : ℝ)))))
      = (lll1 min max k).map some := by
    unfold lll1
    rw [List.map_map]
    apply List.map_congr_left
    intro n _
    simp [Fl.mul, Fl.exp, Fl.div, hk0]
  have e2 : ((List.range k).map fun n : ℕ =>
      (Fl.div (some ((max * (9 / 10) - max * (1 / 10)) * (n : ℝ))) (some (k : ℝ))).map
      (fun t => max * (1 / 10) + t)) = (lll2 max k).map some := by
    unfold lll2
    rw [List.map_map]
    apply List.map_congr_left
    intro n _
    simp [Fl.div, hk0]
  have e3 : ∃ z : Fl, ((List.range (m + 1)).map fun n : ℕ => Fl.mul (some max)
      (Fl.exp (Fl.div
        (some ((subSizeT (k - 1) n : ℕ) * Real.log (max * (9 / 10) / max)))
        (some ((k - 1 : ℕ) : ℝ))))) = (lll3 max k m).map some ++ [z] := by
    rw [List.range_succ, List.map_append]
    refine ⟨_, congrArg₂ _ ?_ rfl⟩
    unfold lll3
    rw [List.map_map]
    apply List.map_congr_left
    intro n hn
    rw [List.mem_range] at hn
    have : ((k - 1 : ℕ) : ℝ) ≠ 0 := by
      have : k - 1 ≠ 0 := by omega
      exact_mod_cast this
    rw [subSizeT_of_le (by omega) (by omega)]
    simp [Fl.mul, Fl.exp, Fl.div, this]
  obtain ⟨z, e3⟩ := e3
  rw [e1, e2, e3]
  obtain ⟨t, ht⟩ : ∃ t, lll1 min max k = min :: t := by
    obtain ⟨k', rfl⟩ : ∃ k', k = k' + 1 := ⟨k - 1, by omega⟩
    unfold lll1
    rw [List.range_succ_eq_map, List.map_cons]
    exact ⟨_, by rw [Nat.cast_zero, zero_mul, zero_div, Real.exp_zero, mul_one]⟩
  rw [ht]
  have hw : wr (List.map some (min :: t) ++ List.map some (lll2 max k) ++
      (List.map some (lll3 max k m) ++ [z])) 0 (some min)
      = .ok (List.map some (min :: t ++ lll2 max k ++ lll3 max k m) ++ [z]) := by
    rw [wr_ok (by simp)]
    simp
  rw [hw]
  simp only [except_bind_ok]
  rw [wr_ok (by simp), List.set_append_right _ _ (by simp)]
  have hz : ∀ a b c : ℕ, a + (b + (c + 1)) - (a + (b + c) + 1) = 0 := by intros; omega
  simp [hz]

theorem lll_pairwise (min max : ℝ) (k m : ℕ) (hk : 1 ≤ k) (hmin : 0 < min)
    (hmm : min ≤ max / 10) (hm' : m = 0 ∨ 2 ≤ k) :
    (lll1 min max k ++ lll2 max k ++ lll3 max k m ++ [max]).Pairwise (· ≤ ·) := by
  have hmax : 0 < max := by linarith
  have hk0 : (0 : ℝ) < k := by exact_mod_cast hk
  have hL1 : 0 ≤ Real.log (max * (1 / 10) / min) := by
    apply Real.log_nonneg
    rw [le_div_iff₀ hmin]; linarith
  have hL3 : Real.log (max * (9 / 10) / max) ≤ 0 := by
    apply Real.log_nonpos
    · positivity
    · rw [div_le_one hmax]; linarith
  have b1 : ∀ x ∈ lll1 min max k, x ≤ max * (1 / 10) := by
    intro x hx
    simp only [lll1, List.mem_map, List.mem_range] at hx
    obtain ⟨n, hn, rfl⟩ := hx
    have : (n : ℝ) * Real.log (max * (1 / 10) / min) / k ≤ Real.log (max * (1 / 10) / min) := by
      rw [div_le_iff₀ hk0, mul_comm]
      apply mul_le_mul_of_nonneg_left _ hL1
      exact_mod_cast hn.le
    calc min * Real.exp _ ≤ min * Real.exp (Real.log (max * (1 / 10) / min)) :=
          mul_le_mul_of_nonneg_left (Real.exp_le_exp.mpr this) hmin.le
      _ = max * (1 / 10) := by
          rw [Real.exp_log (by positivity)]; field_simp
  have b2 : ∀ x ∈ lll2 max k, max * (1 / 10) ≤ x ∧ x ≤ max * (9 / 10) := by
    intro x hx
    simp only [lll2, List.mem_map, List.mem_range] at hx
    obtain ⟨n, hn, rfl⟩ := hx
    have h1 : (max * (9 / 10) - max * (1 / 10)) * (n : ℝ) / k ≤ max * (9 / 10) - max * (1 / 10) := by
      rw [div_le_iff₀ hk0]
      apply mul_le_mul_of_nonneg_left _ (by linarith)
      exact_mod_cast hn.le
    have h2 : 0 ≤ (max * (9 / 10) - max * (1 / 10)) * (n : ℝ) / k := by
      apply div_nonneg (mul_nonneg (by linarith) (Nat.cast_nonneg _)) hk0.le
    constructor <;> linarith
  have b3 : ∀ x ∈ lll3 max k m, max * (9 / 10) ≤ x ∧ x ≤ max := by
    intro x hx
    simp only [lll3, List.mem_map, List.mem_range] at hx
    obtain ⟨n, hn, rfl⟩ := hx
    have hk1 : (0 : ℝ) < ((k - 1 : ℕ) : ℝ) := by
      have : 0 < k - 1 := by omega
      exact_mod_cast this
    have h1 : Real.log (max * (9 / 10) / max)
        ≤ ((k - 1 - n : ℕ) : ℝ) * Real.log (max * (9 / 10) / max) / ((k - 1 : ℕ) : ℝ) := by
      rw [le_div_iff₀ hk1, mul_comm]
      apply mul_le_mul_of_nonpos_right _ hL3
      exact_mod_cast (by omega : k - 1 - n ≤ k - 1)
    have h2 : ((k - 1 - n : ℕ) : ℝ) * Real.log (max * (9 / 10) / max) / ((k - 1 : ℕ) : ℝ) ≤ 0 :=
      div_nonpos_of_nonpos_of_nonneg
        (mul_nonpos_of_nonneg_of_nonpos (Nat.cast_nonneg _) hL3) hk1.le
    constructor
    · calc max * (9 / 10) = max * Real.exp (Real.log (max * (9 / 10) / max)) := by
            rw [Real.exp_log (by positivity)]; field_simp
        _ ≤ _ := mul_le_mul_of_nonneg_left (Real.exp_le_exp.mpr h1) hmax.le
    · have := mul_le_mul_of_nonneg_left (Real.exp_le_exp.mpr h2) hmax.le
      rwa [Real.exp_zero, mul_one] at this
  have p1 : (lll1 min max k).Pairwise (· ≤ ·) := by
    rw [lll1, List.pairwise_map]
    refine List.Pairwise.imp ?_ List.pairwise_lt_range
    intro i j hij
    apply mul_le_mul_of_nonneg_left (Real.exp_le_exp.mpr _) hmin.le
    apply div_le_div_of_nonneg_right _ hk0.le
    apply mul_le_mul_of_nonneg_right _ hL1
    exact_mod_cast hij.le
  have p2 : (lll2 max k).Pairwise (· ≤ ·) := by
    rw [lll2, List.pairwise_map]
    refine List.Pairwise.imp ?_ List.pairwise_lt_range
    intro i j hij
    have : (max * (9 / 10) - max * (1 / 10)) * (i : ℝ) / k
        ≤ (max * (9 / 10) - max * (1 / 10)) * (j : ℝ) / k := by
      apply div_le_div_of_nonneg_right _ hk0.le
      apply mul_le_mul_of_nonneg_left _ (by linarith)
      exact_mod_cast hij.le
    linarith
  have p3 : (lll3 max k m).Pairwise (· ≤ ·) := by
    rw [lll3, List.pairwise_map]
    refine List.Pairwise.imp ?_ List.pairwise_lt_range
    intro i j hij
    apply mul_le_mul_of_nonneg_left (Real.exp_le_exp.mpr _) hmax.le
    apply div_le_div_of_nonneg_right _ (Nat.cast_nonneg _)
    apply mul_le_mul_of_nonpos_right _ hL3
    exact_mod_cast (by omega : k - 1 - j ≤ k - 1 - i)
  rw [List.pairwise_append, List.pairwise_append, List.pairwise_append]
  refine ⟨⟨⟨p1, p2, ?_⟩, p3, ?_⟩, List.pairwise_singleton _ _, ?_⟩
  · intro x hx y hy
    exact le_trans (b1 x hx) (b2 y hy).1
  · intro x hx y hy
    rcases List.mem_append.mp hx with h | h
    · have := b1 x h; have := (b3 y hy).1; linarith
    · exact le_trans (b2 x h).2 (b3 y hy).1
  · intro x hx y hy
    simp only [List.mem_singleton] at hy
    subst hy
    rcases List.mem_append.mp hx with h | h
    · rcases List.mem_append.mp h with h | h
      · have := b1 x h; linarith
      · have := (b2 x h).2; linarith
    · exact (b3 x h).2

/-- For sizes `3k+2`, the last but one element comes from a wrapped `size_t` subtraction. -/
theorem logLinLog_bad (min max : ℝ) (k : ℕ) (hk : 1 ≤ k) (hb : 3 * k + 2 < 2 ^ 64) :
    ∃ l, generateLogLinLogSpacedVec min max (3 * k + 2) = .ok l ∧
      l[2 * k]? = some (Fl.mul (some max) (Fl.exp (Fl.div
        (some (((k - 1 : ℕ) : ℝ) * Real.log (max * (9 / 10) / max)))
        (some ((k - 1 : ℕ) : ℝ))))) ∧
      l[3 * k]? = some (Fl.mul (some max) (Fl.exp (Fl.div
        (some (((2 ^ 64 - 1 : ℕ) : ℝ) * Real.log (max * (9 / 10) / max)))
        (some ((k - 1 : ℕ) : ℝ))))) := by
  have hsub1 : subSizeT k 1 = k - 1 := subSizeT_of_le (by omega) hk
  have h3 : 3 * k + 2 - k - k = k + 2 := by omega
  have hsz : (3 * k + 2) / 3 = k := by omega
  unfold generateLogLinLogSpacedVec
  simp only [hsz, hsub1, h3]
  rw [wr_ok (by simp)]
  simp only [except_bind_ok]
  rw [wr_ok (by simp)]
  refine ⟨_, rfl, ?_, ?_⟩
  · rw [List.getElem?_set_ne (by simp; omega), List.getElem?_set_ne (by omega),
      List.getElem?_append_right (by simp; omega)]
    have hi : 2 * k - (k + k) = 0 := by omega
    have hs : subSizeT (k - 1) 0 = k - 1 := subSizeT_of_le (by omega) (by omega)
    simp [hi, hs]
  · rw [List.getElem?_set_ne (by simp; omega), List.getElem?_set_ne (by omega),
      List.getElem?_append_right (by simp; omega)]
    have hi : 3 * k - (k + k) = k := by omega
    have hs : subSizeT (k - 1) k = 2 ^ 64 - 1 := by
      have := subSizeT_wrap (a := k - 1) (by omega)
      rwa [Nat.sub_add_cancel hk] at this
    simp [hi, hs]

end LogLinLog
end Picsar
