import Verif.Lemmas.LoadBalance
import Mathlib.Tactic.NormNum
import Mathlib.Tactic.FinCases
import Mathlib.Data.Fintype.Basic
import Mathlib.Tactic.IntervalCases
/-
C66: load-balancing split; C67: owner searches; C69: processor numbering; C70: matrix product helper.
-/
namespace Picsar.Props
open Picsar Picsar.LoadBalance Picsar.Spec.LoadBalance

/-- C66, part that holds for every load profile: no access outside the load array, and the `P` ranges start at cell 0, follow each
other without gap or overlap, and none is empty. What is missing: the last range may end before or after the last cell
(`C66_beyond_end_refuted`, `C66_misses_last_cell_refuted`). -/
theorem C66_contiguous_partial (load : List ℝ) (P : ℕ) : ∃ R, balance load P = .ok R ∧ R.length = P ∧ Chain 0 R :=
  balance_chain load P

/-- C66 for non-negative loads where no single cell carries more than the average load of a process and the last cell carries some:
the ranges are a split of all cells. -/
theorem C66_split_partial (load : List ℝ) (P : ℕ) (hP : 0 < P) (h0 : ∀ v ∈ load, 0 ≤ v)
    (hmax : ∀ v ∈ load, v * P ≤ load.sum) (hN : 0 < load.length) (hlast : 0 < load[load.length - 1]) :
    ∃ R, balance load P = .ok R ∧ IsSplit load.length P R :=
  balance_split hP h0 hmax hN hlast

/-- The hypotheses hold for six unequal cells and three processes. -/
example : ∃ R, balance [1, 2, 1, 0, 2, 1] 3 = .ok R ∧ IsSplit 6 3 R :=
  C66_split_partial [1, 2, 1, 0, 2, 1] 3 (by norm_num)
    (by intro v hv; simp at hv; rcases hv with rfl | rfl | rfl | rfl | rfl | rfl <;> norm_num)
    (by intro v hv; simp at hv; rcases hv with rfl | rfl | rfl | rfl | rfl | rfl <;> norm_num)
    (by simp) (by simp)

theorem scan_stop {load : List ℝ} {target cur : ℝ} {ic : ℕ} (h : ic + 1 < load.length)
    (ht : target ≤ cur + load[ic]) : scan load target cur ic = .ok (cur + load[ic], ic) := by
  unfold scan
  rw [if_pos h, rd_ok (by omega)]
  simp only [except_bind_ok]
  rw [if_pos ht]

theorem scan_next {load : List ℝ} {target cur : ℝ} {ic : ℕ} (h : ic + 1 < load.length)
    (ht : cur + load[ic] < target) : scan load target cur ic = scan load target (cur + load[ic]) (ic + 1) := by
  conv_lhs => unfold scan
  rw [if_pos h, rd_ok (by omega)]
  simp only [except_bind_ok]
  rw [if_neg (not_le.mpr ht)]

theorem scan_end {load : List ℝ} {target cur : ℝ} {ic : ℕ} (h : ¬ ic + 1 < load.length) :
    scan load target cur ic = .ok (cur, ic) := by
  unfold scan
  rw [if_neg h]

/-- C66 fails when the load is concentrated at the end: for the loads `1, 1, 1, 100` on three processes the first process gets all four
cells and the other two get the cells 4 and 5, which do not exist. -/
theorem C66_beyond_end_refuted : balance [1, 1, 1, 100] 3 = .ok [(0, 3), (4, 4), (5, 5)] ∧
    ¬ IsSplit 4 3 [(0, 3), (4, 4), (5, 5)] := by
  constructor
  · unfold balance
    dsimp only
    rw [show ([1, 1, 1, 100] : List ℝ).sum = 103 by norm_num]
    simp only [List.range_succ, List.range_zero, List.nil_append, List.cons_append, List.foldlM_cons, List.foldlM_nil]
    unfold balanceStep
    dsimp only
    rw [scan_next (by simp) (by norm_num), scan_next (by simp) (by norm_num), scan_next (by simp) (by norm_num), scan_end (by simp)]
    simp only [except_bind_ok]
    rw [scan_end (by simp)]
    simp only [except_bind_ok]
    rw [scan_end (by simp)]
    simp
  · intro h
    have := h.inside (4, 4) (by simp)
    simp at this

/-- C66 fails when the last cell carries no load: for the loads `1, 0` on one process the second cell is not assigned. -/
theorem C66_misses_last_cell_refuted : balance [1, 0] 1 = .ok [(0, 0)] ∧ ¬ IsSplit 2 1 [(0, 0)] := by
  constructor
  · unfold balance
    dsimp only
    rw [show ([1, 0] : List ℝ).sum = 1 by norm_num]
    simp only [List.range_succ, List.range_zero, List.nil_append, List.foldlM_cons, List.foldlM_nil]
    unfold balanceStep
    dsimp only
    rw [scan_stop (by simp) (by norm_num)]
    simp
  · intro h
    obtain ⟨r, hr, h1, h2⟩ := h.cover 1 (by norm_num)
    simp at hr
    subst hr
    simp at h2

/-- C67, interval search: for intervals in ascending order the result is the index of the interval that contains the cell, and -1 if
there is none. No access outside the arrays, and the search ends. -/
theorem C67_interval_search (ncmin ncmax : List ℤ) (hlen : ncmin.length = ncmax.length) (ic : ℤ)
    (hne : ∀ (i : ℕ) (h : i < ncmin.length), ncmin[i] ≤ ncmax[i]'(hlen ▸ h))
    (hs : ∀ (i j : ℕ) (_ : i < j) (hj : j < ncmin.length), ncmax[i]'(by omega) < ncmin[j]) :
    ∃ r, procInterval ncmin ncmax ic = .ok r ∧
      (∀ (i : ℕ) (h : i < ncmin.length), r = i ↔ (ncmin[i] ≤ ic ∧ ic ≤ ncmax[i]'(hlen ▸ h))) ∧
      (r = -1 ↔ ∀ (i : ℕ) (h : i < ncmin.length), ¬ (ncmin[i] ≤ ic ∧ ic ≤ ncmax[i]'(hlen ▸ h))) := by
  have uniq : ∀ (i j : ℕ) (hi : i < ncmin.length) (hj : j < ncmin.length), ncmin[i] ≤ ic → ic ≤ ncmax[i]'(hlen ▸ hi) →
      ncmin[j] ≤ ic → ic ≤ ncmax[j]'(hlen ▸ hj) → i = j := by
    intro i j hi hj a b c d
    rcases lt_trichotomy i j with h | h | h
    · have := hs i j h hj; omega
    · exact h
    · have := hs j i h hi; omega
  rcases interval_ok hlen ic hne hs _ 0 (ncmin.length - 1) rfl le_rfl (by omega) (fun i _ h => by omega)
    (fun i h h' => by omega) with ⟨i, hi, e, h1, h2⟩ | ⟨e, h⟩
  · refine ⟨i, e, fun j hj => ⟨fun hij => ?_, fun hj' => ?_⟩, ⟨fun h => by omega, fun h => absurd ⟨h1, h2⟩ (h i hi)⟩⟩
    · obtain rfl : i = j := by exact_mod_cast hij
      exact ⟨h1, h2⟩
    · rw [uniq i j hi hj h1 h2 hj'.1 hj'.2]
  · exact ⟨-1, e, fun j hj => ⟨fun hij => by omega, fun hj' => absurd hj' (h j hj)⟩, ⟨fun _ => h, fun _ => rfl⟩⟩

example : ∃ r, procInterval [0, 3, 7] [2, 6, 9] 5 = .ok r ∧ r = 1 := by
  obtain ⟨r, e, h, -⟩ := C67_interval_search [0, 3, 7] [2, 6, 9] rfl 5 (by decide) (by
    intro i j h hj
    simp only [List.length_cons, List.length_nil] at hj
    interval_cases j <;> interval_cases i <;> simp)
  exact ⟨r, e, (h 1 (by decide)).mpr (by decide)⟩

/-- C67, rank search: for ascending ranks the result is a (1-based) position of the key, and -1 exactly if the key is not present. -/
theorem C67_rank_search (arr : List ℤ) (key : ℤ) (hs : arr.Pairwise (· ≤ ·)) :
    ∃ r, binarySearch arr key = .ok r ∧ (r = -1 ↔ key ∉ arr) ∧
      (r ≠ -1 → ∃ (i : ℕ) (_ : i < arr.length), r = i + 1 ∧ arr[i] = key) := by
  have hs' : ∀ (i j : ℕ) (_ : i < j) (hj : j < arr.length), arr[i] ≤ arr[j] :=
    fun i j h hj => List.pairwise_iff_getElem.mp hs i j (by omega) hj h
  rcases search_ok key hs' _ 1 arr.length rfl le_rfl le_rfl (fun i _ h => by omega) (fun i h h' => by omega) with
    ⟨i, hi, e, h⟩ | ⟨e, h⟩
  · exact ⟨i + 1, e, ⟨fun h => by omega, fun hk => absurd (h ▸ List.getElem_mem hi) hk⟩, fun _ => ⟨i, hi, rfl, h⟩⟩
  · exact ⟨-1, e, ⟨fun _ => h, fun _ => rfl⟩, fun h => absurd rfl h⟩

example : ∃ r, binarySearch [1, 4, 6, 9] 6 = .ok r ∧ r ≠ -1 := by
  obtain ⟨r, e, h, -⟩ := C67_rank_search [1, 4, 6, 9] 6 (by decide)
  exact ⟨r, e, fun hr => h.mp hr (by decide)⟩

/-- A valid processor index. -/
def ProcIndex (npx npy npz ix iy iz : ℤ) : Prop := (0 ≤ ix ∧ ix < npx) ∧ (0 ≤ iy ∧ iy < npy) ∧ (0 ≤ iz ∧ iz < npz)

theorem rank_formula {npx npy npz ix iy iz : ℤ} (h : ProcIndex npx npy npz ix iy iz) :
    0 ≤ ix + iy * npx + iz * npx * npy ∧ ix + iy * npx + iz * npx * npy < npx * npy * npz := by
  obtain ⟨⟨a, b⟩, ⟨c, d⟩, e, f⟩ := h
  have hx : 0 < npx := by omega
  have hy : 0 < npy := by omega
  refine ⟨by positivity, ?_⟩
  have h1 : ix + iy * npx < npx * npy := by nlinarith
  have h2 : (iz + 1) * (npx * npy) ≤ npz * (npx * npy) := mul_le_mul_of_nonneg_right (by omega) (by positivity)
  nlinarith

theorem rank_inj {npx npy npz ix iy iz jx jy jz : ℤ} (h : ProcIndex npx npy npz ix iy iz) (h' : ProcIndex npx npy npz jx jy jz)
    (e : ix + iy * npx + iz * npx * npy = jx + jy * npx + jz * npx * npy) : ix = jx ∧ iy = jy ∧ iz = jz := by
  obtain ⟨⟨a, b⟩, ⟨c, d⟩, -, -⟩ := h
  obtain ⟨⟨a', b'⟩, ⟨c', d'⟩, -, -⟩ := h'
  have hx : 0 < npx := by omega
  have hy : 0 < npy := by omega
  have e1 : ix + (iy + iz * npy) * npx = jx + (jy + jz * npy) * npx := by linarith [e]
  have m1 := congrArg (· % npx) e1
  simp only [Int.add_mul_emod_self_right] at m1
  rw [Int.emod_eq_of_lt a b, Int.emod_eq_of_lt a' b'] at m1
  subst m1
  have e2 : iy + iz * npy = jy + jz * npy := by
    have : (iy + iz * npy) * npx = (jy + jz * npy) * npx := by linarith
    exact Int.eq_of_mul_eq_mul_right hx.ne' this
  have m2 := congrArg (· % npy) e2
  simp only [Int.add_mul_emod_self_right] at m2
  rw [Int.emod_eq_of_lt c d, Int.emod_eq_of_lt c' d'] at m2
  subst m2
  refine ⟨rfl, rfl, ?_⟩
  have : iz * npy = jz * npy := by linarith
  exact Int.eq_of_mul_eq_mul_right hy.ne' this

/-- C69 when there are at least as many processes in x as in each other direction: distinct valid ranks. Missing: grids with
more processes in y or z than in x (`C69_collision_refuted`). -/
theorem C69_distinct_ranks_partial (npx npy npz : ℤ) (hy : npy ≤ npx) (hz : npz ≤ npx) :
    (∀ ix iy iz, ProcIndex npx npy npz ix iy iz →
      0 ≤ convertInd npx npy npz ix iy iz ∧ convertInd npx npy npz ix iy iz < npx * npy * npz) ∧
    ∀ ix iy iz jx jy jz, ProcIndex npx npy npz ix iy iz → ProcIndex npx npy npz jx jy jz →
      convertInd npx npy npz ix iy iz = convertInd npx npy npz jx jy jz → ix = jx ∧ iy = jy ∧ iz = jz := by
  have key : ∀ ix iy iz, ProcIndex npx npy npz ix iy iz →
      convertInd npx npy npz ix iy iz = ix + iy * npx + iz * npx * npy := by
    rintro ix iy iz ⟨⟨a, b⟩, ⟨c, d⟩, e, f⟩
    unfold convertInd
    simp only [if_neg (not_lt.mpr a), if_neg (not_lt.mpr c), if_neg (not_lt.mpr e)]
    rw [if_neg (by omega), if_neg (by omega), if_neg (by omega)]
  refine ⟨fun ix iy iz h => ?_, fun ix iy iz jx jy jz h h' e => ?_⟩
  · rw [key _ _ _ h]; exact rank_formula h
  · rw [key _ _ _ h, key _ _ _ h'] at e
    exact rank_inj h h' e

example : ProcIndex 4 3 2 3 2 1 ∧ (3 : ℤ) ≤ 4 ∧ (2 : ℤ) ≤ 4 ∧ convertInd 4 3 2 3 2 1 = 23 := by
  refine ⟨by unfold ProcIndex; omega, by norm_num, by norm_num, by decide⟩

/-- C69 with a Cartesian communicator: distinct valid ranks for every processor grid. -/
theorem C69_cartesian (npx npy npz : ℤ) :
    (∀ ix iy iz, ProcIndex npx npy npz ix iy iz →
      0 ≤ convertIndCart npx npy npz ix iy iz ∧ convertIndCart npx npy npz ix iy iz < npx * npy * npz) ∧
    ∀ ix iy iz jx jy jz, ProcIndex npx npy npz ix iy iz → ProcIndex npx npy npz jx jy jz →
      convertIndCart npx npy npz ix iy iz = convertIndCart npx npy npz jx jy jz → ix = jx ∧ iy = jy ∧ iz = jz := by
  have key : ∀ ix iy iz, convertIndCart npx npy npz ix iy iz = ix + iy * npx + iz * npx * npy := by
    intro ix iy iz; unfold convertIndCart; ring
  refine ⟨fun ix iy iz h => ?_, fun ix iy iz jx jy jz h h' e => ?_⟩
  · rw [key]; exact rank_formula h
  · rw [key, key] at e
    exact rank_inj h h' e

/-- C69 fails as soon as there are more processes in y than in x: on a `1 × 2 × 1` grid both processes get rank 0, because the wrap test
for y compares with the number of processes in x. In general: for `npx < npy`, index `(0, npx, 0)` gets the rank of `(0, 0, 0)`. -/
theorem C69_collision_refuted (npx npy npz : ℤ) (hx : 0 < npx) (hxy : npx < npy) (hz : 0 < npz) :
    ProcIndex npx npy npz 0 0 0 ∧ ProcIndex npx npy npz 0 npx 0 ∧ ((0 : ℤ), (0 : ℤ)) ≠ (0, npx) ∧
      convertInd npx npy npz 0 0 0 = convertInd npx npy npz 0 npx 0 := by
  refine ⟨by unfold ProcIndex; omega, by unfold ProcIndex; omega, by simp; omega, ?_⟩
  unfold convertInd
  simp only [lt_irrefl, if_false, if_neg (not_lt.mpr hx.le)]
  rw [if_neg (show ¬ npx - 1 < 0 by omega), if_pos (show npx - 1 < npx by omega)]

example : (0 : ℤ) < 1 ∧ (1 : ℤ) < 2 ∧ convertInd 1 2 1 0 0 0 = convertInd 1 2 1 0 1 0 := by decide

/-- C70 fails: the helper overwrites instead of accumulating; it returns only the second summand of the matrix product. -/
theorem C70_only_last_term (M1 M2 M3 : Fin 2 → Fin 2 → ℝ) (i j : Fin 2) : productMatrix M1 M2 M3 i j = M1 i 1 * M2 1 j := by
  fin_cases i <;> fin_cases j <;> simp [productMatrix, Function.update]

/-- C70 fails, e.g. for two matrices of ones. -/
theorem C70_product_refuted : productMatrix (fun _ _ => 1) (fun _ _ => 1) (fun _ _ => 0) 0 0 ≠
    (fun _ _ => (1 : ℝ)) 0 0 * (fun _ _ => (1 : ℝ)) 0 0 + (fun _ _ => (1 : ℝ)) 0 1 * (fun _ _ => (1 : ℝ)) 1 0 := by
  rw [C70_only_last_term]
  norm_num

/-- C70 holds exactly for the entries whose first summand vanishes. -/
theorem C70_product_partial (M1 M2 M3 : Fin 2 → Fin 2 → ℝ) (i j : Fin 2) :
    productMatrix M1 M2 M3 i j = M1 i 0 * M2 0 j + M1 i 1 * M2 1 j ↔ M1 i 0 * M2 0 j = 0 := by
  rw [C70_only_last_term]
  constructor <;> intro h <;> linarith

example : (fun (_ k : Fin 2) => (k.val : ℝ)) 0 0 * (fun (_ _ : Fin 2) => (1 : ℝ)) 0 0 = 0 := by simp

end Picsar.Props
