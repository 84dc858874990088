import Verif.Model.Gather
import Verif.Spec.Gather
import Verif.Lemmas.Deposition
import Mathlib.Tactic.Linarith
import Mathlib.Tactic.LinearCombination

namespace Picsar.Gather
open Picsar Picsar.Grid Picsar.Deposition Picsar.Spec

/-! ### One direction -/

/-- Distances for which the weights of order `m` make sense. -/
def Good (m : ℕ) (ξ : ℝ) : Prop := ((m = 1 ∨ m = 3) ∧ 0 ≤ ξ ∧ ξ ≤ 1) ∨ (m = 2 ∧ -(1 / 2) ≤ ξ ∧ ξ ≤ 1 / 2)

theorem wts_nonneg {m : ℕ} {ξ : ℝ} (h : Good m ξ) : ∀ w ∈ wts m ξ, 0 ≤ w.2 := by
  rcases h with ⟨rfl | rfl, h0, h1⟩ | ⟨rfl, h0, h1⟩ <;> intro w hw <;>
    simp only [wts, List.mem_cons, List.not_mem_nil, or_false] at hw
  · rcases hw with rfl | rfl <;> dsimp only <;> linarith
  · have h2 : 0 ≤ 1 - ξ := by linarith
    rcases hw with rfl | rfl | rfl | rfl <;> dsimp only
    · positivity
    · nlinarith [mul_nonneg h0 h2, mul_nonneg (mul_nonneg h0 h0) h2, sq_nonneg ξ]
    · nlinarith [mul_nonneg h0 h2, mul_nonneg (mul_nonneg h0 h2) h2, sq_nonneg (1 - ξ)]
    · positivity
  · rcases hw with rfl | rfl | rfl <;> dsimp only
    · positivity
    · nlinarith
    · positivity

theorem wts_sum {m : ℕ} {ξ : ℝ} (h : Good m ξ) : ((wts m ξ).map (·.2)).sum = 1 := by
  rcases h with ⟨rfl | rfl, -⟩ | ⟨rfl, -⟩ <;> simp only [wts, List.map_cons, List.map_nil, List.sum_cons, List.sum_nil] <;> ring

theorem wts_moment {m : ℕ} {ξ : ℝ} (h : Good m ξ) : ((wts m ξ).map fun w => w.2 * (w.1 : ℝ)).sum = ξ := by
  rcases h with ⟨rfl | rfl, -⟩ | ⟨rfl, -⟩ <;> simp only [wts, List.map_cons, List.map_nil, List.sum_cons, List.sum_nil] <;>
    push_cast <;> ring

theorem wts_near {m : ℕ} {ξ : ℝ} (h : Good m ξ) : ∀ w ∈ wts m ξ, |(w.1 : ℝ) - ξ| ≤ (m + 1) / 2 := by
  rcases h with ⟨rfl | rfl, h0, h1⟩ | ⟨rfl, h0, h1⟩ <;> intro w hw <;>
    simp only [wts, List.mem_cons, List.not_mem_nil, or_false] at hw
  · rcases hw with rfl | rfl <;> dsimp only <;> rw [abs_le] <;> push_cast <;> constructor <;> linarith
  · rcases hw with rfl | rfl | rfl | rfl <;> dsimp only <;> rw [abs_le] <;> push_cast <;> constructor <;> linarith
  · rcases hw with rfl | rfl | rfl <;> dsimp only <;> rw [abs_le] <;> push_cast <;> constructor <;> linarith

/-- Offset of the value number `i` of a component along a direction in which it is staggered or not. -/
noncomputable def off (c : Cfg) (st : Bool) : ℝ := if st then shift c else 0

theorem dist_good {m : ℕ} {ξ : ℝ} (h : Dist m ξ) : Good m ξ := by
  rcases h with ⟨rfl, h0, h1⟩ | ⟨rfl, h⟩ | ⟨rfl, h0, h1⟩
  · exact Or.inl ⟨Or.inl rfl, h0, h1.le⟩
  · exact Or.inr ⟨rfl, h⟩
  · exact Or.inl ⟨Or.inr rfl, h0, h1.le⟩

theorem good_floor {m : ℕ} (hm : m = 1 ∨ m = 3) (x : ℝ) : Dist m (x - ⌊x⌋) := by
  have := Int.floor_le x
  have := Int.lt_floor_add_one x
  rcases hm with rfl | rfl
  · exact Or.inl ⟨rfl, by linarith, by linarith⟩
  · exact Or.inr (Or.inr ⟨rfl, by linarith, by linarith⟩)

theorem good_half (x : ℝ) : Dist 2 (x - ⌊x + 1 / 2⌋) := by
  have := Int.floor_le (x + 1 / 2)
  have := Int.lt_floor_add_one (x + 1 / 2)
  exact Or.inr (Or.inl ⟨rfl, by linarith, by linarith⟩)

theorem good_nint (x : ℝ) : Dist 2 (x - nint x) := by
  obtain ⟨h1, h2⟩ := nint_bounds x
  exact Or.inr (Or.inl ⟨rfl, by linarith, by linarith⟩)

theorem shift_cases (c : Cfg) : shift c = 0 ∨ shift c = 1 / 2 := by
  unfold shift; split_ifs <;> simp

/-- The weights are those of some order at the right distance, except for the nearest-point rule of the lowered order 1. -/
theorem axis_cases {c : Cfg} (hn : Order c.n) (st : Bool) (x : ℝ) :
    (∃ m ξ, axisWts c st x = wts m ξ ∧ Dist m ξ ∧ (base c st x : ℝ) + off c st = x - ξ ∧ 1 ≤ m ∧ m ≤ c.n ∧
      m = if c.lower = true ∧ st = true then c.n - 1 else c.n) ∨
    (st = true ∧ c.lower = true ∧ c.n = 1 ∧ axisWts c st x = [(0, 1)] ∧ -(1 / 2) ≤ x - ((base c st x : ℝ) + off c st) ∧
      x - ((base c st x : ℝ) + off c st) < 1 / 2) := by
  obtain ⟨n, lower, nodal⟩ := c
  dsimp only at hn
  cases st
  · left
    simp only [axisWts, base, off, Bool.false_eq_true, if_false]
    rcases hn with rfl | rfl | rfl
    · exact ⟨1, _, rfl, by simpa [node] using good_floor (Or.inl rfl) x, by ring, le_refl _, le_refl _, by simp⟩
    · exact ⟨2, _, rfl, by simpa [node] using good_nint x, by ring, by norm_num, le_refl _, by simp⟩
    · exact ⟨3, _, rfl, by simpa [node] using good_floor (Or.inr rfl) x, by ring, by norm_num, le_refl _, by simp⟩
  · simp only [axisWts, base, off, if_true]
    generalize hs : shift ⟨n, lower, nodal⟩ = s
    have e : ∀ x : ℝ, x + 1 / 2 - s = x - s + 1 / 2 := fun x => by ring
    cases lower
    · left
      rcases hn with rfl | rfl | rfl
      · refine ⟨1, x - s - ⌊x - s⌋, ?_, good_floor (Or.inl rfl) _, ?_, le_refl _, le_refl _, by simp⟩
        · simp [wts0, node0, hs]
        · simp only [node0, hs, Bool.false_eq_true, if_false, show ¬ (1 : ℕ) = 2 by norm_num]; ring
      · refine ⟨2, x - s - ⌊x - s + 1 / 2⌋, ?_, good_half _, ?_, by norm_num, le_refl _, by simp⟩
        · simp only [wts0, node0, hs, Bool.false_eq_true, if_false, if_true, e]
        · simp only [node0, hs, Bool.false_eq_true, if_false, if_true, e]; ring
      · refine ⟨3, x - s - ⌊x - s⌋, ?_, good_floor (Or.inr rfl) _, ?_, by norm_num, le_refl _, by simp⟩
        · simp [wts0, node0, hs]
        · simp only [node0, hs, Bool.false_eq_true, if_false, show ¬ (3 : ℕ) = 2 by norm_num]; ring
    · rcases hn with rfl | rfl | rfl
      · right
        refine ⟨trivial, rfl, rfl, by simp [wts0], ?_⟩
        simp only [node0, hs, if_true, show ¬ (1 : ℕ) = 2 by norm_num, if_false, e]
        have := Int.floor_le (x - s + 1 / 2)
        have := Int.lt_floor_add_one (x - s + 1 / 2)
        constructor <;> linarith
      · left
        refine ⟨1, x - s - ⌊x - s⌋, ?_, good_floor (Or.inl rfl) _, ?_, by norm_num, by norm_num, by simp⟩
        · simp [wts0, node0, hs]
        · simp only [node0, hs, if_true]; ring
      · left
        refine ⟨2, x - s - ⌊x - s + 1 / 2⌋, ?_, good_half _, ?_, by norm_num, by norm_num, by simp⟩
        · simp only [wts0, node0, hs, if_true, show ¬ (3 : ℕ) = 2 by norm_num, if_false, e]
        · simp only [node0, hs, if_true, show ¬ (3 : ℕ) = 2 by norm_num, if_false, e]; ring

theorem axis_nonneg {c : Cfg} (hn : Order c.n) (st : Bool) (x : ℝ) : ∀ w ∈ axisWts c st x, 0 ≤ w.2 := by
  rcases axis_cases hn st x with ⟨m, ξ, h1, h2, -⟩ | ⟨-, -, -, h, -⟩
  · rw [h1]; exact wts_nonneg (dist_good h2)
  · rw [h]; simp

theorem axis_sum {c : Cfg} (hn : Order c.n) (st : Bool) (x : ℝ) : ((axisWts c st x).map (·.2)).sum = 1 := by
  rcases axis_cases hn st x with ⟨m, ξ, h1, h2, -⟩ | ⟨-, -, -, h, -⟩
  · rw [h1]; exact wts_sum (dist_good h2)
  · rw [h]; simp

theorem axis_near {c : Cfg} (hn : Order c.n) (st : Bool) (x : ℝ) :
    ∀ w ∈ axisWts c st x, |((base c st x + w.1 : ℤ) : ℝ) + off c st - x| ≤ (c.n + 1) / 2 := by
  rcases axis_cases hn st x with ⟨m, ξ, h1, h2, h3, h4, h5, -⟩ | ⟨-, -, hn1, h, h1, h2⟩
  · intro w hw
    rw [h1] at hw
    have := wts_near (dist_good h2) w hw
    have e : ((base c st x + w.1 : ℤ) : ℝ) + off c st - x = w.1 - ξ := by push_cast; linarith
    rw [e]
    refine le_trans this ?_
    have : (m : ℝ) ≤ c.n := by exact_mod_cast h5
    linarith
  · intro w hw
    rw [h] at hw
    simp only [List.mem_cons, List.not_mem_nil, or_false] at hw
    subst hw
    simp only [add_zero]
    rw [hn1, abs_le]
    constructor <;> push_cast <;> linarith

theorem axis_moment {c : Cfg} (hn : Order c.n) (st : Bool) (x : ℝ) (h : ¬ (st = true ∧ c.lower = true ∧ c.n = 1)) :
    ((axisWts c st x).map fun w => w.2 * (((base c st x + w.1 : ℤ) : ℝ) + off c st)).sum = x := by
  rcases axis_cases hn st x with ⟨m, ξ, h1, h2, h3, -⟩ | ⟨a, b, d, -⟩
  · rw [h1]
    have e : (fun w : ℤ × ℝ => w.2 * (((base c st x + w.1 : ℤ) : ℝ) + off c st)) =
        fun w : ℤ × ℝ => w.2 * (x - ξ) + w.2 * (w.1 : ℝ) := by
      funext w; push_cast; linear_combination w.2 * h3
    rw [e, List.sum_map_add, List.sum_map_mul_right, wts_sum (dist_good h2), wts_moment (dist_good h2)]
    ring
  · exact absurd ⟨a, b, d⟩ h

/-- Sum over a range that contains the stencil, with the shape factor of the right order, the one below along the staggered
directions when `l_lower_order_in_v` is set. -/
theorem axis_spline {c : Cfg} (hn : Order c.n) (st : Bool) (x : ℝ) {lo hi : ℤ}
    (h : ∀ w ∈ axisWts c st x, lo ≤ base c st x + w.1 ∧ base c st x + w.1 ≤ hi) (F : ℤ → ℝ) :
    ∑ i ∈ Finset.Icc lo hi, spline (if c.lower = true ∧ st = true then c.n - 1 else c.n) (x - (i + off c st)) * F i =
      ((axisWts c st x).map fun w => w.2 * F (base c st x + w.1)).sum := by
  have key : ∀ ws : List (ℤ × ℝ), (∀ w ∈ ws, lo ≤ base c st x + w.1 ∧ base c st x + w.1 ≤ hi) →
      ∑ i ∈ Finset.Icc lo hi, (ws.map fun w => if i - base c st x = w.1 then w.2 else 0).sum * F i =
        (ws.map fun w => w.2 * F (base c st x + w.1)).sum := by
    intro ws
    induction ws with
    | nil => simp
    | cons w ws ih =>
      intro hw
      simp only [List.map_cons, List.sum_cons, add_mul, Finset.sum_add_distrib]
      rw [ih fun v hv => hw v (by simp [hv])]
      congr 1
      have hw1 := hw w (by simp)
      rw [Finset.sum_eq_single (base c st x + w.1)]
      · rw [if_pos (by omega)]
      · intro i _ hi
        rw [if_neg (by omega), zero_mul]
      · intro hmem
        exact absurd (Finset.mem_Icc.mpr hw1) hmem
  rw [← key _ h]
  refine Finset.sum_congr rfl fun i _ => ?_
  congr 1
  rcases axis_cases hn st x with ⟨m, ξ, h1, h2, h3, h4, -, h6⟩ | ⟨a, b, d, h1, h2, h3⟩
  · rw [← h6, h1, wts_bspline h2]
    unfold spline
    rw [if_neg (by omega)]
    congr 1
    push_cast
    linarith
  · rw [if_pos ⟨b, a⟩, d, h1]
    unfold spline
    simp only [List.map_cons, List.map_nil, List.sum_cons, List.sum_nil, add_zero]
    rw [if_pos (by norm_num)]
    by_cases hi : i - base c st x = 0
    · have e : i = base c st x := by omega
      subst e
      rw [if_pos ⟨h2, h3⟩, if_pos (by omega)]
    · rw [if_neg hi, if_neg]
      rintro ⟨h4, h5⟩
      have e1 : (i : ℝ) - base c st x < 1 := by linarith
      have e2 : (-1 : ℝ) < i - base c st x := by linarith
      have e1' : i - base c st x < 1 := by exact_mod_cast e1
      have e2' : -1 < i - base c st x := by exact_mod_cast e2
      omega

theorem axis_in {c : Cfg} (hn : Order c.n) (st : Bool) {x : ℝ} {N g : ℤ} (h0 : 0 ≤ x) (h1 : x < N)
    (hg : guardsFor c.n ≤ g) : ∀ w ∈ axisWts c st x, -g ≤ base c st x + w.1 ∧ base c st x + w.1 ≤ N + g := by
  obtain ⟨n, lower, nodal⟩ := c
  dsimp only at hn hg
  have hs := shift_cases ⟨n, lower, nodal⟩
  intro w hw
  simp only [axisWts, base, wts0, node0, node] at hw ⊢
  generalize shift ⟨n, lower, nodal⟩ = s at hs hw ⊢
  have f1 : 0 ≤ ⌊x⌋ := Int.floor_nonneg.mpr h0
  have f2 : ⌊x⌋ < N := Int.floor_lt.mpr h1
  have f3 : -1 ≤ ⌊x - s⌋ := Int.le_floor.mpr (by push_cast; rcases hs with rfl | rfl <;> linarith)
  have f4 : ⌊x - s⌋ < N := Int.floor_lt.mpr (by rcases hs with rfl | rfl <;> linarith)
  have f5 : 0 ≤ ⌊x + 1 / 2 - s⌋ := Int.le_floor.mpr (by push_cast; rcases hs with rfl | rfl <;> linarith)
  have f6 : ⌊x + 1 / 2 - s⌋ < N + 1 := Int.floor_lt.mpr (by push_cast; rcases hs with rfl | rfl <;> linarith)
  have f7 : 0 ≤ nint x := by
    unfold nint; rw [if_pos h0]; exact Int.floor_nonneg.mpr (by linarith)
  have f8 : nint x < N + 1 := by
    unfold nint; rw [if_pos h0]; exact Int.floor_lt.mpr (by push_cast; linarith)
  rcases hn with rfl | rfl | rfl <;> cases st <;> cases lower <;>
    simp [wts, guardsFor] at hw hg ⊢ <;> (try rcases hw with rfl | rfl | rfl | rfl) <;> (try dsimp only) <;>
    (try simp only [one_div] at f5 f6) <;> constructor <;> omega

end Picsar.Gather
