import Verif.Spec.Deposition
import Verif.Lemmas.Grid
import Mathlib.Algebra.BigOperators.Ring.Finset
import Mathlib.Data.Int.Interval
import Mathlib.Tactic.Ring
import Mathlib.Tactic.FieldSimp
import Mathlib.Tactic.NormNum
import Mathlib.Tactic.IntervalCases

namespace Picsar.Deposition
open Picsar Picsar.Grid Picsar.Spec

/-! ### Shapes -/

theorem node_floor {n : ℕ} (hn : n = 1 ∨ n = 3) (x : ℝ) : node n x = ⌊x⌋ := by
  rcases hn with rfl | rfl <;> simp [node]

theorem nint_bounds (x : ℝ) : x - 1 / 2 ≤ nint x ∧ (nint x : ℝ) ≤ x + 1 / 2 := by
  unfold nint
  split_ifs with h
  · have := Int.floor_le (x + 1 / 2)
    have := Int.lt_floor_add_one (x + 1 / 2)
    constructor <;> linarith
  · have := Int.le_ceil (x - 1 / 2)
    have := Int.ceil_lt_add_one (x - 1 / 2)
    constructor <;> linarith

theorem nint_mono {x y : ℝ} (h : x ≤ y) : nint x ≤ nint y := by
  unfold nint
  split_ifs with h1 h2 h2
  · exact Int.floor_mono (by linarith)
  · linarith
  · have : ⌈x - 1 / 2⌉ ≤ 0 := Int.ceil_le.mpr (by push_cast; linarith)
    have : 0 ≤ ⌊y + 1 / 2⌋ := Int.le_floor.mpr (by push_cast; linarith)
    omega
  · exact Int.ceil_mono (by linarith)

theorem nint_near {x y : ℝ} (h : x ≤ y) (h' : y < x + 1) : nint y ≤ nint x + 1 := by
  unfold nint
  split_ifs with h1 h2 h2
  · have : ⌊y + 1 / 2⌋ ≤ ⌊x + 1 / 2 + 1⌋ := Int.floor_mono (by linarith)
    rw [Int.floor_add_one] at this
    exact this
  · have : -1 < ⌈x - 1 / 2⌉ ∨ y < 1 / 2 := by
      by_cases hy : y < 1 / 2
      · exact Or.inr hy
      · refine Or.inl (Int.lt_ceil.mpr ?_)
        push_cast; push Not at hy; linarith
    rcases this with h3 | h3
    · have : ⌊y + 1 / 2⌋ < 2 := Int.floor_lt.mpr (by push_cast; push Not at h2; linarith)
      omega
    · have : ⌊y + 1 / 2⌋ < 1 := Int.floor_lt.mpr (by push_cast; linarith)
      have : -2 < ⌈x - 1 / 2⌉ := Int.lt_ceil.mpr (by push_cast; linarith)
      omega
  · linarith
  · have : ⌈y - 1 / 2⌉ ≤ ⌈x - 1 / 2 + 1⌉ := Int.ceil_mono (by linarith)
    rw [Int.ceil_add_one] at this
    exact this

theorem node_near {n : ℕ} {x y : ℝ} (h : |x - y| < 1) : |node n x - node n y| ≤ 1 := by
  rw [abs_lt] at h
  rw [abs_le]
  by_cases hn : n = 2
  · simp only [node, if_pos hn]
    rcases le_total x y with hxy | hxy
    · have := nint_mono hxy
      have := nint_near hxy (by linarith)
      omega
    · have := nint_mono hxy
      have := nint_near hxy (by linarith)
      omega
  · simp only [node, if_neg hn]
    have h1 : ⌊x⌋ ≤ ⌊y + 1⌋ := Int.floor_mono (by linarith)
    have h2 : ⌊y⌋ ≤ ⌊x + 1⌋ := Int.floor_mono (by linarith)
    rw [Int.floor_add_one] at h1 h2
    omega

/-- Closed form of a local array after the stencil assignments. -/
noncomputable def shapeFn (ws : List (ℤ × ℝ)) (d : ℤ) (a : ℤ) : ℝ := (ws.map fun w => if a = w.1 + d then w.2 else 0).sum

theorem fill_go {n : ℕ} {d : ℤ} : ∀ (ws : List (ℤ × ℝ)) (s : ℤ → ℝ), (ws.map Prod.fst).Nodup →
    (∀ w ∈ ws, locLo n ≤ w.1 + d ∧ w.1 + d ≤ locHi n) → (∀ w ∈ ws, s (w.1 + d) = 0) →
    ws.foldlM (fun (s : ℤ → ℝ) (w : ℤ × ℝ) =>
      if locLo n ≤ w.1 + d ∧ w.1 + d ≤ locHi n then .ok (Function.update s (w.1 + d) w.2) else .error .outOfBounds) s =
      (.ok (fun a => s a + shapeFn ws d a) : Res (ℤ → ℝ))
  | [], s, _, _, _ => by simp [shapeFn]
  | w :: ws, s, hn, hb, hz => by
    rw [List.foldlM_cons, if_pos (hb w (by simp))]
    simp only [except_bind_ok]
    rw [List.map_cons, List.nodup_cons] at hn
    rw [fill_go ws _ hn.2 (fun v hv => hb v (by simp [hv]))]
    · congr 1
      funext a
      by_cases ha : a = w.1 + d
      · subst ha
        simp [shapeFn, hz w (by simp)]
      · simp [shapeFn, ha]
    · intro v hv
      rw [Function.update_of_ne]
      · exact hz v (by simp [hv])
      · intro h
        apply hn.1
        have : v.1 = w.1 := by omega
        rw [← this]
        exact List.mem_map_of_mem hv

theorem fill_ok {n : ℕ} {d : ℤ} {ws : List (ℤ × ℝ)} (hn : (ws.map Prod.fst).Nodup)
    (hb : ∀ w ∈ ws, locLo n ≤ w.1 + d ∧ w.1 + d ≤ locHi n) : fill n d ws = .ok (shapeFn ws d) := by
  unfold fill
  rw [fill_go ws _ hn hb (fun _ _ => rfl)]
  simp

/-- Offsets of a stencil. -/
theorem wts_fst {n : ℕ} (hn : n = 1 ∨ n = 2 ∨ n = 3) (ξ : ℝ) :
    ((wts n ξ).map Prod.fst).Nodup ∧
      ∀ w ∈ wts n ξ, -((n / 2 : ℕ) : ℤ) ≤ w.1 ∧ w.1 ≤ (((n + 1) / 2 : ℕ) : ℤ) := by
  rcases hn with rfl | rfl | rfl <;> simp [wts]

theorem wts_sum {n : ℕ} (hn : n = 1 ∨ n = 2 ∨ n = 3) (ξ : ℝ) : ((wts n ξ).map Prod.snd).sum = 1 := by
  rcases hn with rfl | rfl | rfl <;> simp [wts] <;> ring

/-- Distances to the node for which the weights of an order are meant. -/
def Dist (n : ℕ) (ξ : ℝ) : Prop :=
  (n = 1 ∧ 0 ≤ ξ ∧ ξ < 1) ∨ (n = 2 ∧ -(1 / 2) ≤ ξ ∧ ξ ≤ 1 / 2) ∨ (n = 3 ∧ 0 ≤ ξ ∧ ξ < 1)

/-- The weights are values of the B-spline. -/
theorem wts_bspline {n : ℕ} {ξ : ℝ} (hg : Dist n ξ) (b : ℤ) :
    ((wts n ξ).map fun w => if b = w.1 then w.2 else 0).sum = bspline n (ξ - b) := by
  rcases hg with ⟨rfl, h0⟩ | ⟨rfl, h0⟩ | ⟨rfl, h0⟩
  · by_cases h1 : b = 0
    · subst h1
      simp [wts, bspline, abs_of_nonneg h0.1, h0.2.le]
    by_cases h2 : b = 1
    · subst h2
      have : |ξ - 1| = 1 - ξ := by rw [abs_of_nonpos (by linarith)]; ring
      simp [wts, bspline, this, h0.1]
    · simp only [wts, bspline]
      rcases lt_or_gt_of_ne h1 with h | h
      · have hb' : (b : ℝ) ≤ -1 := by exact_mod_cast (show b ≤ -1 by omega)
        have : |ξ - b| = ξ - b := abs_of_nonneg (by linarith)
        rw [this]
        split_ifs with h3
        · simp [h1, h2]; linarith
        · simp [h1, h2]
      · have hb' : (2 : ℝ) ≤ b := by exact_mod_cast (show 2 ≤ b by omega)
        have : |ξ - b| = b - ξ := by rw [abs_of_nonpos (by linarith)]; ring
        rw [this, if_neg (by push Not; linarith)]
        simp [h1, h2]
  · simp only [wts, bspline, List.map_cons, List.map_nil, List.sum_cons, List.sum_nil]
    by_cases h1 : b = 0
    · subst h1
      have : |ξ - ((0 : ℤ) : ℝ)| ≤ 1 / 2 := by
        rw [abs_le]; push_cast; constructor <;> linarith
      rw [if_pos this]
      simp
      ring
    by_cases h2 : b = 1
    · subst h2
      have e : |ξ - ((1 : ℤ) : ℝ)| = 1 - ξ := by rw [abs_of_nonpos (by push_cast; linarith)]; push_cast; ring
      rw [e, if_neg (by norm_num : ¬ (1 : ℤ) = -1), if_neg (by norm_num : ¬ (1 : ℤ) = 0), if_pos rfl]
      split_ifs with h3 h4
      · have : ξ = 1 / 2 := by linarith
        subst this
        norm_num
      · simp
        ring
      · linarith
    by_cases h3 : b = -1
    · subst h3
      have e : |ξ - ((-1 : ℤ) : ℝ)| = 1 + ξ := by rw [abs_of_nonneg (by push_cast; linarith)]; push_cast; ring
      rw [e, if_pos rfl, if_neg (by norm_num : ¬ (-1 : ℤ) = 0), if_neg (by norm_num : ¬ (-1 : ℤ) = 1)]
      split_ifs with h3 h4
      · have : ξ = -(1 / 2) := by linarith
        subst this
        norm_num
      · simp
        ring
      · linarith
    · have hz : (if b = -1 then 1 / 2 * (1 / 2 - ξ) ^ 2 else 0) + ((if b = 0 then 3 / 4 - ξ * ξ else 0) +
          ((if b = 1 then 1 / 2 * (1 / 2 + ξ) ^ 2 else 0) + 0)) = (0 : ℝ) := by simp [h1, h2, h3]
      rw [hz]
      rcases lt_or_gt_of_ne h1 with h | h
      · have hb' : (b : ℝ) ≤ -2 := by exact_mod_cast (show b ≤ -2 by omega)
        have : |ξ - b| = ξ - b := abs_of_nonneg (by linarith)
        rw [this]
        split_ifs with h4 h5
        · linarith
        · have : ξ - b = 3 / 2 := by linarith
          rw [this]; norm_num
        · rfl
      · have hb' : (2 : ℝ) ≤ b := by exact_mod_cast (show 2 ≤ b by omega)
        have : |ξ - b| = b - ξ := by rw [abs_of_nonpos (by linarith)]; ring
        rw [this]
        split_ifs with h4 h5
        · linarith
        · have : b - ξ = 3 / 2 := by linarith
          rw [this]; norm_num
        · rfl
  · simp only [wts, bspline, List.map_cons, List.map_nil, List.sum_cons, List.sum_nil]
    by_cases h1 : b = 0
    · subst h1
      have e : |ξ - ((0 : ℤ) : ℝ)| = ξ := by rw [abs_of_nonneg (by push_cast; linarith)]; push_cast; ring
      rw [e, if_pos h0.2.le]
      simp
      ring
    by_cases h2 : b = 1
    · subst h2
      have e : |ξ - ((1 : ℤ) : ℝ)| = 1 - ξ := by rw [abs_of_nonpos (by push_cast; linarith)]; push_cast; ring
      rw [e, if_pos (show 1 - ξ ≤ 1 by linarith)]
      simp
      ring
    by_cases h3 : b = -1
    · subst h3
      have e : |ξ - ((-1 : ℤ) : ℝ)| = 1 + ξ := by rw [abs_of_nonneg (by push_cast; linarith)]; push_cast; ring
      rw [e, if_pos rfl, if_neg (by norm_num : ¬ (-1 : ℤ) = 0), if_neg (by norm_num : ¬ (-1 : ℤ) = 1),
        if_neg (by norm_num : ¬ (-1 : ℤ) = 2)]
      split_ifs with h4 h5
      · have : ξ = 0 := by linarith
        subst this
        norm_num
      · simp
        ring
      · linarith
    by_cases h4 : b = 2
    · subst h4
      have e : |ξ - ((2 : ℤ) : ℝ)| = 2 - ξ := by rw [abs_of_nonpos (by push_cast; linarith)]; push_cast; ring
      rw [e, if_neg (show ¬ 2 - ξ ≤ 1 by push Not; linarith), if_pos (show 2 - ξ ≤ 2 by linarith)]
      simp
      ring
    · simp only [h1, h2, h3, h4, if_false, add_zero]
      rcases lt_or_gt_of_ne h1 with h | h
      · have hb' : (b : ℝ) ≤ -2 := by exact_mod_cast (show b ≤ -2 by omega)
        have : |ξ - b| = ξ - b := abs_of_nonneg (by linarith)
        rw [this]
        split_ifs with h4 h5
        · linarith
        · have : ξ - b = 2 := by linarith
          rw [this]; norm_num
        · rfl
      · have hb' : (3 : ℝ) ≤ b := by exact_mod_cast (show 3 ≤ b by omega)
        have : |ξ - b| = b - ξ := by rw [abs_of_nonpos (by linarith)]; ring
        rw [this, if_neg (by push Not; linarith), if_neg (by push Not; linarith)]

theorem dist_node {n : ℕ} (hn : n = 1 ∨ n = 2 ∨ n = 3) (x : ℝ) : Dist n (x - node n x) := by
  rcases hn with rfl | rfl | rfl
  · refine Or.inl ⟨rfl, ?_⟩
    rw [node_floor (Or.inl rfl)]
    exact ⟨by linarith [Int.floor_le x], by linarith [Int.lt_floor_add_one x]⟩
  · refine Or.inr (Or.inl ⟨rfl, ?_⟩)
    have := nint_bounds x
    simp only [node, if_true]
    constructor <;> linarith
  · refine Or.inr (Or.inr ⟨rfl, ?_⟩)
    rw [node_floor (Or.inr rfl)]
    exact ⟨by linarith [Int.floor_le x], by linarith [Int.lt_floor_add_one x]⟩

/-- The shape factor is the B-spline. -/
theorem shapeFn_bspline {n : ℕ} (hn : n = 1 ∨ n = 2 ∨ n = 3) (x : ℝ) (i0 a : ℤ) :
    shapeFn (wts n (x - node n x)) (node n x - i0) a = bspline n (x - (i0 + a : ℤ)) := by
  have e1 : ∀ o : ℤ, (a = o + (node n x - i0)) ↔ i0 + a - node n x = o := by intro o; omega
  have e2 : x - ((i0 + a : ℤ) : ℝ) = (x - node n x) - ((i0 + a - node n x : ℤ) : ℝ) := by push_cast; ring
  rw [e2, ← wts_bspline (dist_node hn x)]
  simp only [shapeFn, e1]

theorem shapeFn_sum {ws : List (ℤ × ℝ)} {d A B : ℤ} (h : ∀ w ∈ ws, A ≤ w.1 + d ∧ w.1 + d ≤ B) :
    ∑ a ∈ Finset.Icc A B, shapeFn ws d a = (ws.map Prod.snd).sum := by
  induction ws with
  | nil => simp [shapeFn]
  | cons w ws ih =>
    have := ih (fun v hv => h v (by simp [hv]))
    simp only [shapeFn, List.map_cons, List.sum_cons] at this ⊢
    rw [Finset.sum_add_distrib, this, Finset.sum_ite_eq', if_pos (Finset.mem_Icc.mpr (h w (by simp)))]

theorem shapeFn_zero {ws : List (ℤ × ℝ)} {d A B a : ℤ} (h : ∀ w ∈ ws, A ≤ w.1 + d ∧ w.1 + d ≤ B)
    (ha : a < A ∨ B < a) : shapeFn ws d a = 0 := by
  induction ws with
  | nil => simp [shapeFn]
  | cons w ws ih =>
    have h1 := ih (fun v hv => h v (by simp [hv]))
    have h2 := h w (by simp)
    simp only [shapeFn, List.map_cons, List.sum_cons] at h1 ⊢
    rw [h1, if_neg (by omega)]
    simp

end Picsar.Deposition
