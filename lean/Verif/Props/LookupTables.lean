import Verif.Lemmas.LookupTables

/-
Property theorems C06–C11 (src/multi_physics/QED/src/lookup_tables.hpp, interpolation and storage).
-/
namespace Picsar.Props
open Picsar

/-- A concrete equispaced table used in the non-vacuity examples. -/
def exGrid : List ℝ := [1, 3, 5]

theorem exGrid_equispaced : Spec.IsEquispaced exGrid := by
  refine ⟨by simp [exGrid], 1, 2, by norm_num, ?_⟩
  intro i hi
  have : i = 0 ∨ i = 1 ∨ i = 2 := by simp [exGrid] at hi; omega
  rcases this with rfl | rfl | rfl <;> simp [exGrid] <;> norm_num

theorem exGrid_range : Spec.InHalfOpenRange exGrid 4 := ⟨1, 5, rfl, rfl, by norm_num, by norm_num⟩

/-! ### C06 -/

/-- C06: on `[front,back)` the equispaced lookup does not fault and returns the linear
interpolation. -/
theorem C06_equispaced_interp (t : Lookup1d) (w : ℝ) (he : Spec.IsEquispaced t.coords)
    (hd : t.data.length = t.coords.length) (hw : Spec.InHalfOpenRange t.coords w) :
    ∃ v, t.interpLinearEquispaced w = .ok v ∧ Spec.IsLinInterp t.coords t.data w v := by
  obtain ⟨i, xl, xr, h1, h2, h3, h4, h5⟩ := equispacedIndex_spec he hw
  obtain ⟨v, hv, hv'⟩ := interpCell_spec h2 h3 h4 h5 hd
  refine ⟨v, ?_, hv'⟩
  unfold Lookup1d.interpLinearEquispaced
  rw [h1]
  exact hv

example : ∃ t : Lookup1d, Spec.IsEquispaced t.coords ∧ t.data.length = t.coords.length ∧
    Spec.InHalfOpenRange t.coords 4 :=
  ⟨⟨exGrid, [10, 20, 40], true⟩, exGrid_equispaced, rfl, exGrid_range⟩

/-- A linear interpolation lies between the values at the ends of the cell. -/
theorem C06_interp_between (xs ys : List ℝ) (w v : ℝ) (h : Spec.IsLinInterp xs ys w v) :
    ∃ (i : ℕ) (yl yr : ℝ), ys[i]? = some yl ∧ ys[i + 1]? = some yr ∧
      min yl yr ≤ v ∧ v ≤ max yl yr := by
  obtain ⟨i, xl, xr, yl, yr, a1, a2, a3, a4, a5, a6, rfl⟩ := h
  refine ⟨i, yl, yr, a3, a4, ?_⟩
  have hd : 0 < xr - xl := by linarith
  set a := (xr - w) / (xr - xl) with ha
  set b := (w - xl) / (xr - xl) with hb
  have ha0 : 0 ≤ a := div_nonneg (by linarith) hd.le
  have hb0 : 0 ≤ b := div_nonneg (by linarith) hd.le
  have hab : a + b = 1 := by rw [ha, hb, ← add_div]; rw [div_eq_one_iff_eq hd.ne']; ring
  constructor
  · have h1 := mul_le_mul_of_nonneg_left (min_le_left yl yr) ha0
    have h2 := mul_le_mul_of_nonneg_left (min_le_right yl yr) hb0
    calc min yl yr = (a + b) * min yl yr := by rw [hab, one_mul]
      _ = a * min yl yr + b * min yl yr := by ring
      _ ≤ _ := add_le_add h1 h2
  · have h1 := mul_le_mul_of_nonneg_left (le_max_left yl yr) ha0
    have h2 := mul_le_mul_of_nonneg_left (le_max_right yl yr) hb0
    calc _ ≤ a * max yl yr + b * max yl yr := add_le_add h1 h2
      _ = (a + b) * max yl yr := by ring
      _ = max yl yr := by rw [hab, one_mul]

example : Spec.IsLinInterp [0, 1] [5, 7] (1 / 2) 6 :=
  ⟨0, 0, 1, 5, 7, rfl, rfl, rfl, rfl, by norm_num, by norm_num, by norm_num⟩

/-- C06: at a grid node other than the last the stored value is returned. -/
theorem C06_equispaced_node (t : Lookup1d) (i : ℕ) (w y : ℝ) (he : Spec.IsEquispaced t.coords)
    (hd : t.data.length = t.coords.length) (hi : i + 1 < t.coords.length)
    (hw : t.coords[i]? = some w) (hy : t.data[i]? = some y) :
    t.interpLinearEquispaced w = .ok y := by
  have hp := equispaced_pairwise he
  have hr := List.getElem?_eq_getElem hi
  have hlt : w < t.coords[i + 1] := by
    obtain ⟨h1, rfl⟩ := List.getElem?_eq_some_iff.mp hw
    exact List.pairwise_iff_getElem.mp hp _ _ h1 hi (by omega)
  have hin : Spec.InHalfOpenRange t.coords w := by
    refine ⟨t.coords[0], t.coords[t.coords.length - 1], ?_, ?_, ?_, ?_⟩
    · rw [List.head?_eq_getElem?, List.getElem?_eq_getElem (by omega)]
    · rw [List.getLast?_eq_getElem?, List.getElem?_eq_getElem (by omega)]
    · obtain ⟨h1, rfl⟩ := List.getElem?_eq_some_iff.mp hw
      rcases Nat.eq_zero_or_pos i with rfl | h0
      · exact le_refl _
      · exact (List.pairwise_iff_getElem.mp hp _ _ (by omega) h1 h0).le
    · obtain ⟨h1, rfl⟩ := List.getElem?_eq_some_iff.mp hw
      exact List.pairwise_iff_getElem.mp hp _ _ h1 (by omega) (by omega)
  obtain ⟨v, hv, hv'⟩ := C06_equispaced_interp t w he hd hin
  rw [hv]
  congr 1
  refine linInterp_unique hp hv' ⟨i, w, _, y, t.data[i + 1], hw, hr, hy,
    List.getElem?_eq_getElem (by omega), le_refl _, hlt, ?_⟩
  rw [sub_self, zero_div, zero_mul, add_zero, div_self (by linarith), one_mul]

example : (⟨exGrid, [10, 20, 40], true⟩ : Lookup1d).coords[1]? = some 3 := rfl

/-! ### C07 -/

/-- C07 (partial): the lookup is defined on the half-open range; what is missing is the last
grid point, where the code reads past the end (`C07_closed_range_refuted`). -/
theorem C07_closed_range_partial (t : Lookup1d) (w : ℝ) (he : Spec.IsEquispaced t.coords)
    (hd : t.data.length = t.coords.length) (hw : Spec.InHalfOpenRange t.coords w) :
    ∃ v, t.interpLinearEquispaced w = .ok v := by
  obtain ⟨v, hv, _⟩ := C06_equispaced_interp t w he hd hw
  exact ⟨v, hv⟩

/-- C07 is false of the code: for *every* equispaced table, evaluating at the last grid point reads
one element past the end of the coordinate array. -/
theorem C07_closed_range_refuted (t : Lookup1d) (b : ℝ) (he : Spec.IsEquispaced t.coords)
    (hb : t.coords.getLast? = some b) :
    t.interpLinearEquispaced b = .error .outOfBounds := by
  have hl := he.1
  unfold Lookup1d.interpLinearEquispaced
  rw [equispacedIndex_back he hb]
  simp only [except_bind_ok, interpCell]
  rw [rd_ok (by omega), rd_oob (by omega)]
  rfl

/-- The same for the 2-D equispaced lookup at the last first coordinate. -/
theorem C07_closed_range_2d_refuted (t : Lookup2d) (b wy : ℝ) (he : Spec.IsEquispaced t.coords0)
    (he1 : Spec.IsEquispaced t.coords1) (hb : t.coords0.getLast? = some b)
    (hy : Spec.InHalfOpenRange t.coords1 wy) :
    t.interpLinearEquispaced b wy = .error .outOfBounds := by
  have hl := he.1
  obtain ⟨j, _, _, h1, _⟩ := equispacedIndex_spec he1 hy
  unfold Lookup2d.interpLinearEquispaced
  rw [equispacedIndex_back he hb, h1]
  simp only [except_bind_ok, Lookup2d.interpCell2]
  rw [rd_ok (by omega), rd_oob (by omega)]
  rfl

example : exGrid.getLast? = some 5 := rfl

/-! ### C08 -/

/-- C08: the search-based lookup on `[front,back)` does not fault and returns the linear
interpolation, for every strictly increasing grid. -/
theorem C08_interp_linear (t : Lookup1d) (w : ℝ) (hs : t.coords.Pairwise (· < ·))
    (hd : t.data.length = t.coords.length) (hw : Spec.InHalfOpenRange t.coords w) :
    ∃ v, t.interpLinear w = .ok v ∧ Spec.IsLinInterp t.coords t.data w v := by
  obtain ⟨i, xl, xr, h1, h2, h3, h4, h5⟩ := upperBound_cell hs hw
  obtain ⟨v, hv, hv'⟩ := interpCell_spec h2 h3 h4 h5 hd
  refine ⟨v, ?_, hv'⟩
  unfold Lookup1d.interpLinear
  rw [h1]
  exact hv

example : ([1, 2, 7] : List ℝ).Pairwise (· < ·) ∧ Spec.InHalfOpenRange [1, 2, 7] 5 :=
  ⟨by simp; norm_num, 1, 7, rfl, rfl, by norm_num, by norm_num⟩

/-- C08: node values are reproduced. -/
theorem C08_interp_linear_node (t : Lookup1d) (i : ℕ) (w y : ℝ) (hs : t.coords.Pairwise (· < ·))
    (hd : t.data.length = t.coords.length) (hi : i + 1 < t.coords.length)
    (hw : t.coords[i]? = some w) (hy : t.data[i]? = some y) :
    t.interpLinear w = .ok y := by
  have hr := List.getElem?_eq_getElem hi
  have hlt : w < t.coords[i + 1] := by
    obtain ⟨h1, rfl⟩ := List.getElem?_eq_some_iff.mp hw
    exact List.pairwise_iff_getElem.mp hs _ _ h1 hi (by omega)
  have hin : Spec.InHalfOpenRange t.coords w := by
    refine ⟨t.coords[0], t.coords[t.coords.length - 1], ?_, ?_, ?_, ?_⟩
    · rw [List.head?_eq_getElem?, List.getElem?_eq_getElem (by omega)]
    · rw [List.getLast?_eq_getElem?, List.getElem?_eq_getElem (by omega)]
    · obtain ⟨h1, rfl⟩ := List.getElem?_eq_some_iff.mp hw
      rcases Nat.eq_zero_or_pos i with rfl | h0
      · exact le_refl _
      · exact (List.pairwise_iff_getElem.mp hs _ _ (by omega) h1 h0).le
    · obtain ⟨h1, rfl⟩ := List.getElem?_eq_some_iff.mp hw
      exact List.pairwise_iff_getElem.mp hs _ _ h1 (by omega) (by omega)
  obtain ⟨v, hv, hv'⟩ := C08_interp_linear t w hs hd hin
  rw [hv]
  congr 1
  refine linInterp_unique hs hv' ⟨i, w, _, y, t.data[i + 1], hw, hr, hy,
    List.getElem?_eq_getElem (by omega), le_refl _, hlt, ?_⟩
  rw [sub_self, zero_div, zero_mul, add_zero, div_self (by linarith), one_mul]

/-- C08: on an equispaced grid both routines return the same value. -/
theorem C08_agrees_with_equispaced (t : Lookup1d) (w : ℝ) (he : Spec.IsEquispaced t.coords)
    (hd : t.data.length = t.coords.length) (hw : Spec.InHalfOpenRange t.coords w) :
    t.interpLinear w = t.interpLinearEquispaced w := by
  have hp := equispaced_pairwise he
  obtain ⟨v, hv, hv'⟩ := C08_interp_linear t w hp hd hw
  obtain ⟨u, hu, hu'⟩ := C06_equispaced_interp t w he hd hw
  rw [hv, hu, linInterp_unique hp hv' hu']

/-! ### C09 -/

/-- C09: search-based bilinear lookup. -/
theorem C09_interp_2d (t : Lookup2d) (F : ℕ → ℕ → ℝ) (wx wy : ℝ)
    (hT : Spec.IsTable t.coords0.length t.coords1.length F t.data)
    (h0 : t.coords0.Pairwise (· < ·)) (h1 : t.coords1.Pairwise (· < ·))
    (hx : Spec.InHalfOpenRange t.coords0 wx) (hy : Spec.InHalfOpenRange t.coords1 wy) :
    ∃ v, t.interpLinear wx wy = .ok v ∧ Spec.IsBilinInterp t.coords0 t.coords1 F wx wy v := by
  obtain ⟨i, xl, xr, a1, a2, a3, a4, a5⟩ := upperBound_cell h0 hx
  obtain ⟨j, yl, yr, b1, b2, b3, b4, b5⟩ := upperBound_cell h1 hy
  obtain ⟨v, hv, hv'⟩ := interpCell2_spec t F hT a2 a3 b2 b3 a4 a5 b4 b5
  refine ⟨v, ?_, hv'⟩
  unfold Lookup2d.interpLinear
  rw [a1, b1]
  exact hv

/-- C09: equispaced bilinear lookup. -/
theorem C09_interp_2d_equispaced (t : Lookup2d) (F : ℕ → ℕ → ℝ) (wx wy : ℝ)
    (hT : Spec.IsTable t.coords0.length t.coords1.length F t.data)
    (h0 : Spec.IsEquispaced t.coords0) (h1 : Spec.IsEquispaced t.coords1)
    (hx : Spec.InHalfOpenRange t.coords0 wx) (hy : Spec.InHalfOpenRange t.coords1 wy) :
    ∃ v, t.interpLinearEquispaced wx wy = .ok v ∧
      Spec.IsBilinInterp t.coords0 t.coords1 F wx wy v := by
  obtain ⟨i, xl, xr, a1, a2, a3, a4, a5⟩ := equispacedIndex_spec h0 hx
  obtain ⟨j, yl, yr, b1, b2, b3, b4, b5⟩ := equispacedIndex_spec h1 hy
  obtain ⟨v, hv, hv'⟩ := interpCell2_spec t F hT a2 a3 b2 b3 a4 a5 b4 b5
  refine ⟨v, ?_, hv'⟩
  unfold Lookup2d.interpLinearEquispaced
  rw [a1, b1]
  exact hv

/-- C09: the four weights of a bilinear interpolation are non-negative and sum to one. -/
theorem C09_weights (xs ys : List ℝ) (F : ℕ → ℕ → ℝ) (wx wy v : ℝ)
    (h : Spec.IsBilinInterp xs ys F wx wy v) :
    ∃ (i j : ℕ) (w00 w01 w10 w11 : ℝ), 0 ≤ w00 ∧ 0 ≤ w01 ∧ 0 ≤ w10 ∧ 0 ≤ w11 ∧
      w00 + w01 + w10 + w11 = 1 ∧
      v = w00 * F i j + w01 * F i (j + 1) + w10 * F (i + 1) j + w11 * F (i + 1) (j + 1) := by
  obtain ⟨i, j, xl, xr, yl, yr, _, _, _, _, h1, h2, h3, h4, a, b, ha, hb, rfl⟩ := h
  have hdx : 0 < xr - xl := by linarith
  have hdy : 0 < yr - yl := by linarith
  have ha0 : 0 ≤ a := by rw [ha]; exact div_nonneg (by linarith) hdx.le
  have hb0 : 0 ≤ b := by rw [hb]; exact div_nonneg (by linarith) hdy.le
  have ha1 : a ≤ 1 := by rw [ha, div_le_one hdx]; linarith
  have hb1 : b ≤ 1 := by rw [hb, div_le_one hdy]; linarith
  exact ⟨i, j, _, _, _, _, mul_nonneg (by linarith) (by linarith), mul_nonneg (by linarith) hb0,
    mul_nonneg ha0 (by linarith), mul_nonneg ha0 hb0, by ring, rfl⟩

/-- C09: functions affine in each variable are reproduced exactly. -/
theorem C09_affine_exact (t : Lookup2d) (c0 cx cy cxy : ℝ) (F : ℕ → ℕ → ℝ) (wx wy : ℝ)
    (hT : Spec.IsTable t.coords0.length t.coords1.length F t.data)
    (hF : ∀ i j x y, t.coords0[i]? = some x → t.coords1[j]? = some y →
      F i j = c0 + cx * x + cy * y + cxy * (x * y))
    (h0 : t.coords0.Pairwise (· < ·)) (h1 : t.coords1.Pairwise (· < ·))
    (hx : Spec.InHalfOpenRange t.coords0 wx) (hy : Spec.InHalfOpenRange t.coords1 wy) :
    t.interpLinear wx wy = .ok (c0 + cx * wx + cy * wy + cxy * (wx * wy)) := by
  obtain ⟨v, hv, i, j, xl, xr, yl, yr, e1, e2, e3, e4, h1, h2, h3, h4, a, b, ha, hb, rfl⟩ :=
    C09_interp_2d t F wx wy hT h0 h1 hx hy
  rw [hv]
  congr 1
  have hdx : xr - xl ≠ 0 := by linarith
  have hdy : yr - yl ≠ 0 := by linarith
  have ea : wx = xl + a * (xr - xl) := by rw [ha]; field_simp; ring
  have eb : wy = yl + b * (yr - yl) := by rw [hb]; field_simp; ring
  rw [hF i j xl yl e1 e3, hF i (j + 1) xl yr e1 e4, hF (i + 1) j xr yl e2 e3,
    hF (i + 1) (j + 1) xr yr e2 e4, ea, eb]
  ring

/-- C09: node values are reproduced. -/
theorem C09_node (t : Lookup2d) (F : ℕ → ℕ → ℝ) (i j : ℕ) (wx wy : ℝ)
    (hT : Spec.IsTable t.coords0.length t.coords1.length F t.data)
    (h0 : t.coords0.Pairwise (· < ·)) (h1 : t.coords1.Pairwise (· < ·))
    (hi : i + 1 < t.coords0.length) (hj : j + 1 < t.coords1.length)
    (hx : t.coords0[i]? = some wx) (hy : t.coords1[j]? = some wy) :
    t.interpLinear wx wy = .ok (F i j) := by
  have range : ∀ (xs : List ℝ) (hs : xs.Pairwise (· < ·)) (i : ℕ) (w : ℝ), i + 1 < xs.length →
      xs[i]? = some w → Spec.InHalfOpenRange xs w ∧ ∃ r, xs[i + 1]? = some r ∧ w < r := by
    intro xs hs i w hi hw
    obtain ⟨h1, rfl⟩ := List.getElem?_eq_some_iff.mp hw
    refine ⟨⟨xs[0], xs[xs.length - 1], ?_, ?_, ?_, ?_⟩, xs[i + 1], List.getElem?_eq_getElem hi, ?_⟩
    · rw [List.head?_eq_getElem?, List.getElem?_eq_getElem (by omega)]
    · rw [List.getLast?_eq_getElem?, List.getElem?_eq_getElem (by omega)]
    · rcases Nat.eq_zero_or_pos i with rfl | h0
      · exact le_refl _
      · exact (List.pairwise_iff_getElem.mp hs _ _ (by omega) h1 h0).le
    · exact List.pairwise_iff_getElem.mp hs _ _ h1 (by omega) (by omega)
    · exact List.pairwise_iff_getElem.mp hs _ _ h1 hi (by omega)
  obtain ⟨rx, xr', hxr', hx2⟩ := range _ h0 i wx hi hx
  obtain ⟨ry, yr', hyr', hy2⟩ := range _ h1 j wy hj hy
  obtain ⟨v, hv, i', j', xl, xr, yl, yr, e1, e2, e3, e4, f1, f2, f3, f4, a, b, ha, hb, rfl⟩ :=
    C09_interp_2d t F wx wy hT h0 h1 rx ry
  have := cell_unique h0 hx hxr' e1 e2 (le_refl _) hx2 f1 f2
  subst this
  have := cell_unique h1 hy hyr' e3 e4 (le_refl _) hy2 f3 f4
  subst this
  rw [hx, Option.some.injEq] at e1
  rw [hy, Option.some.injEq] at e3
  subst e1 e3
  rw [hv, ha, hb]
  simp

example : ∃ (t : Lookup2d) (F : ℕ → ℕ → ℝ),
    Spec.IsTable t.coords0.length t.coords1.length F t.data ∧ Spec.IsEquispaced t.coords0 ∧
    Spec.IsEquispaced t.coords1 ∧ Spec.InHalfOpenRange t.coords0 4 ∧
    Spec.InHalfOpenRange t.coords1 4 := by
  refine ⟨⟨exGrid, exGrid, [0, 1, 2, 3, 4, 5, 6, 7, 8], true⟩, fun i j => ((i * 3 + j : ℕ) : ℝ),
    ⟨rfl, ?_⟩, exGrid_equispaced, exGrid_equispaced, exGrid_range, exGrid_range⟩
  intro i j hi hj
  simp only [exGrid, List.length_cons, List.length_nil] at hi hj
  have h1 : i = 0 ∨ i = 1 ∨ i = 2 := by omega
  have h2 : j = 0 ∨ j = 1 ∨ j = 2 := by omega
  rcases h1 with rfl | rfl | rfl <;> rcases h2 with rfl | rfl | rfl <;> simp [exGrid]

/-! ### C10 -/

/-- C10: the first-coordinate equispaced lookup is defined for every real abscissa: it clamps
outside the grid and interpolates the column `j` inside. -/
theorem C10_first_equispaced (t : Lookup2d) (F : ℕ → ℕ → ℝ) (w a b : ℝ) (j : ℕ)
    (hT : Spec.IsTable t.coords0.length t.coords1.length F t.data)
    (he : Spec.IsEquispaced t.coords0) (hj : j < t.coords1.length)
    (ha : t.coords0.head? = some a) (hb : t.coords0.getLast? = some b) :
    (w ≤ a → t.interpLinearFirstEquispaced w j = .ok (F 0 j)) ∧
    (b ≤ w → t.interpLinearFirstEquispaced w j = .ok (F (t.coords0.length - 1) j)) ∧
    (a < w → w < b → ∃ v, t.interpLinearFirstEquispaced w j = .ok v ∧
      Spec.IsLinInterp t.coords0 ((List.range t.coords0.length).map fun i => F i j) w v) := by
  have hl := he.1
  have hab : a < b := by
    have hp := equispaced_pairwise he
    rw [List.head?_eq_getElem?, List.getElem?_eq_getElem (by omega), Option.some.injEq] at ha
    rw [List.getLast?_eq_getElem?, List.getElem?_eq_getElem (by omega), Option.some.injEq] at hb
    rw [← ha, ← hb]
    exact List.pairwise_iff_getElem.mp hp _ _ (by omega) (by omega) (by omega)
  have ra := rd_eq_ok (show t.coords0[0]? = some a by rw [← List.head?_eq_getElem?]; exact ha)
  have rb := rd_eq_ok (show t.coords0[t.coords0.length - 1]? = some b by
    rw [← List.getLast?_eq_getElem?]; exact hb)
  have rowf := rd_eq_ok (hT.2 0 j (by omega) hj)
  have rowl := rd_eq_ok (hT.2 (t.coords0.length - 1) j (by omega) hj)
  refine ⟨fun h => ?_, fun h => ?_, fun h1 h2 => ?_⟩
  · unfold Lookup2d.interpLinearFirstEquispaced
    rw [ra]
    simp only [except_bind_ok, h, if_true]
    exact rowf
  · unfold Lookup2d.interpLinearFirstEquispaced
    rw [ra]
    simp only [except_bind_ok, not_le.mpr (lt_of_lt_of_le hab h), if_false]
    rw [rb]
    simp only [except_bind_ok, ge_iff_le, h, if_true]
    exact rowl
  · obtain ⟨i, xl, xr, e1, e2, e3, e4, e5⟩ := equispacedIndex_spec he ⟨a, b, ha, hb, h1.le, h2⟩
    have hi : i + 1 < t.coords0.length := (List.getElem?_eq_some_iff.mp e3).1
    refine ⟨_, ?_, i, xl, xr, F i j, F (i + 1) j, e2, e3, ?_, ?_, e4, e5, rfl⟩
    · unfold Lookup2d.interpLinearFirstEquispaced
      rw [ra]
      simp only [except_bind_ok, not_le.mpr h1, if_false]
      rw [rb]
      simp only [except_bind_ok, ge_iff_le, not_le.mpr h2, if_false]
      rw [e1]
      exact interpCellFirst_spec t F hT e2 e3 hj e4 e5
    · simp [(by omega : i < t.coords0.length)]
    · simp [hi]

/-- C10, search-based variant: same interpolation on the half-open range (it does not clamp). -/
theorem C10_first_search (t : Lookup2d) (F : ℕ → ℕ → ℝ) (w : ℝ) (j : ℕ)
    (hT : Spec.IsTable t.coords0.length t.coords1.length F t.data)
    (hs : t.coords0.Pairwise (· < ·)) (hj : j < t.coords1.length)
    (hw : Spec.InHalfOpenRange t.coords0 w) :
    ∃ v, t.interpLinearFirst w j = .ok v ∧
      Spec.IsLinInterp t.coords0 ((List.range t.coords0.length).map fun i => F i j) w v := by
  obtain ⟨i, xl, xr, e1, e2, e3, e4, e5⟩ := upperBound_cell hs hw
  have hi : i + 1 < t.coords0.length := (List.getElem?_eq_some_iff.mp e3).1
  refine ⟨_, ?_, i, xl, xr, F i j, F (i + 1) j, e2, e3, ?_, ?_, e4, e5, rfl⟩
  · unfold Lookup2d.interpLinearFirst
    rw [rd_ok (by omega), rd_ok (by omega), e1]
    simp only [except_bind_ok, predIdx]
    exact interpCellFirst_spec t F hT e2 e3 hj e4 e5
  · simp [(by omega : i < t.coords0.length)]
  · simp [hi]

example : Spec.IsTable 3 1 (fun i _ => (i : ℝ)) [0, 1, 2] := by
  refine ⟨rfl, ?_⟩
  intro i j hi hj
  have h1 : i = 0 ∨ i = 1 ∨ i = 2 := by omega
  have h2 : j = 0 := by omega
  subst h2
  rcases h1 with rfl | rfl | rfl <;> simp

/-! ### C11 -/

/-- C11: every pair of indices addresses its own cell inside the block, and every cell is addressed
by a pair. -/
theorem C11_row_major_bijection (n1 n2 : ℕ) :
    (∀ i j, i < n1 → j < n2 → rowMajor i j n1 n2 < n1 * n2) ∧
    (∀ i j i' j', j < n2 → j' < n2 → rowMajor i j n1 n2 = rowMajor i' j' n1 n2 →
      i = i' ∧ j = j') ∧
    (∀ k, k < n1 * n2 → ∃ i j, i < n1 ∧ j < n2 ∧ rowMajor i j n1 n2 = k) := by
  refine ⟨?_, ?_, ?_⟩
  · intro i j hi hj
    unfold rowMajor
    calc i * n2 + j < i * n2 + n2 := by omega
      _ = (i + 1) * n2 := by ring
      _ ≤ n1 * n2 := Nat.mul_le_mul_right _ hi
  · intro i j i' j' hj hj' h
    unfold rowMajor at h
    have h2 : j = j' := by
      have := congrArg (· % n2) h
      simpa [Nat.add_mod, Nat.mod_eq_of_lt hj, Nat.mod_eq_of_lt hj'] using this
    subst h2
    have hn : 0 < n2 := by omega
    have : i * n2 = i' * n2 := by omega
    exact ⟨Nat.eq_of_mul_eq_mul_right hn this, rfl⟩
  · intro k hk
    have hn : 0 < n2 := by
      rcases Nat.eq_zero_or_pos n2 with h | h
      · subst h; omega
      · exact h
    refine ⟨k / n2, k % n2, ?_, Nat.mod_lt _ hn, ?_⟩
    · rw [Nat.div_lt_iff_lt_mul hn]; exact hk
    · unfold rowMajor; rw [Nat.mul_comm]; exact Nat.div_add_mod k n2

/-- C11: the value returned for a pair of coordinate indices is the value stored for that pair: a
table filled row by row (outer loop over the first coordinate) gives back `F i j`. -/
theorem C11_data_at_coords (c0 c1 : List ℝ) (F : ℕ → ℕ → ℝ) (i j : ℕ) (hi : i < c0.length)
    (hj : j < c1.length) :
    (Lookup2d.mk' c0 c1 ((List.range c0.length).flatMap fun i =>
      (List.range c1.length).map fun j => F i j)).dataAtCoords i j = .ok (F i j) := by
  unfold Lookup2d.dataAtCoords Lookup2d.mk'
  apply rd_eq_ok
  simp only [rowMajor]
  have key : ∀ (n : ℕ) (i j : ℕ) (off : ℕ), i < n → j < c1.length →
      ((List.range' off n).flatMap fun i => (List.range c1.length).map fun j => F i j)[
        i * c1.length + j]? = some (F (off + i) j) := by
    intro n
    induction n with
    | zero => intro i j off hi; omega
    | succ n ih =>
      intro i j off hi hj
      rw [List.range'_succ, List.flatMap_cons]
      cases i with
      | zero =>
        rw [List.getElem?_append_left (by simpa using hj)]
        simp [hj]
      | succ i =>
        rw [List.getElem?_append_right (by simp; nlinarith)]
        have : (i + 1) * c1.length + j - ((List.range c1.length).map fun j => F off j).length
            = i * c1.length + j := by
          simp only [List.length_map, List.length_range]
          have : (i + 1) * c1.length = i * c1.length + c1.length := by ring
          omega
        rw [this, ih i j (off + 1) (by omega) hj]
        congr 2
        omega
  have := key c0.length i j 0 hi hj
  rw [List.range_eq_range' (n := c0.length)]
  simpa using this

example : 1 < ([0, 1] : List ℝ).length ∧ 2 < ([5, 6, 7] : List ℝ).length := by simp

end Picsar.Props
