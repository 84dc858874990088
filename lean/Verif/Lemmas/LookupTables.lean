import Verif.Model.LookupTables
import Verif.Spec.LookupTables
import Verif.Lemmas.Utilities

namespace Picsar

theorem rd_eq_ok {α : Type _} {l : List α} {i : ℕ} {x : α} (h : l[i]? = some x) :
    rd l i = .ok x := by simp [rd, h]

theorem fdiv_ok {a b : ℝ} (h : b ≠ 0) : fdiv a b = .ok (a / b) := by simp [fdiv, h]

theorem equispaced_front {xs : List ℝ} {x0 h a : ℝ} (hl : 2 ≤ xs.length)
    (he : ∀ i : ℕ, i < xs.length → xs[i]? = some (x0 + i * h)) (ha : xs.head? = some a) :
    a = x0 := by
  have := he 0 (by omega)
  rw [← List.head?_eq_getElem?, ha] at this
  simpa using this

theorem equispaced_back {xs : List ℝ} {x0 h b : ℝ} (hl : 2 ≤ xs.length)
    (he : ∀ i : ℕ, i < xs.length → xs[i]? = some (x0 + i * h)) (hb : xs.getLast? = some b) :
    b = x0 + ((xs.length - 1 : ℕ) : ℝ) * h := by
  have := he (xs.length - 1) (by omega)
  rw [← List.getLast?_eq_getElem?, hb] at this
  simpa using this

theorem equispaced_pairwise {xs : List ℝ} (he : Spec.IsEquispaced xs) : xs.Pairwise (· < ·) := by
  obtain ⟨_, x0, h, hh, he⟩ := he
  rw [List.pairwise_iff_getElem]
  intro i j hi hj hij
  have h1 := he i hi
  have h2 := he j hj
  rw [List.getElem?_eq_getElem hi, Option.some.injEq] at h1
  rw [List.getElem?_eq_getElem hj, Option.some.injEq] at h2
  rw [h1, h2]
  have : (i : ℝ) < j := by exact_mod_cast hij
  have := mul_lt_mul_of_pos_right this hh
  linarith

/-- On an equispaced grid the index computation returns the cell that contains the point. -/
theorem equispacedIndex_spec {xs : List ℝ} {w : ℝ} (he : Spec.IsEquispaced xs)
    (hw : Spec.InHalfOpenRange xs w) :
    ∃ i xl xr, equispacedIndex xs w = .ok i ∧ xs[i]? = some xl ∧ xs[i + 1]? = some xr ∧
      xl ≤ w ∧ w < xr := by
  obtain ⟨hl, x0, h, hh, he⟩ := he
  obtain ⟨a, b, ha, hb, haw, hwb⟩ := hw
  have ea := equispaced_front hl he ha
  have eb := equispaced_back hl he hb
  have hn : (0 : ℝ) < ((xs.length - 1 : ℕ) : ℝ) := by exact_mod_cast (by omega : 0 < xs.length - 1)
  set n : ℝ := ((xs.length - 1 : ℕ) : ℝ) with hn'
  have hsz : b - a ≠ 0 := by
    rw [ea, eb]; have := mul_pos hn hh; linarith
  have hq : n * (w - a) / (b - a) = (w - x0) / h := by
    rw [ea, eb]
    rw [show x0 + n * h - x0 = n * h by ring]
    field_simp
  have hq0 : 0 ≤ (w - x0) / h := div_nonneg (by linarith) hh.le
  have hq1 : (w - x0) / h < n := by
    rw [div_lt_iff₀ hh]; linarith
  have hfl : ⌊(w - x0) / h⌋₊ < xs.length - 1 := by
    rw [Nat.floor_lt hq0]; exact hq1
  refine ⟨⌊(w - x0) / h⌋₊, _, _, ?_, he _ (by omega), he _ (by omega), ?_, ?_⟩
  · unfold equispacedIndex
    rw [rd_eq_ok (by rw [← List.head?_eq_getElem?]; exact ha),
      rd_eq_ok (by rw [← List.getLast?_eq_getElem?]; exact hb)]
    simp only [except_bind_ok]
    rw [fdiv_ok hsz]
    simp only [except_bind_ok]
    rw [← hn', hq, toSizeT, if_pos hq0]
  · have := Nat.floor_le hq0
    rw [le_div_iff₀ hh] at this
    linarith
  · have := Nat.lt_floor_add_one ((w - x0) / h)
    rw [div_lt_iff₀ hh] at this
    push_cast
    linarith

/-- At the last grid point the index computation returns the last index. -/
theorem equispacedIndex_back {xs : List ℝ} {b : ℝ} (he : Spec.IsEquispaced xs)
    (hb : xs.getLast? = some b) : equispacedIndex xs b = .ok (xs.length - 1) := by
  obtain ⟨hl, x0, h, hh, he⟩ := he
  have hn : (0 : ℝ) < ((xs.length - 1 : ℕ) : ℝ) := by exact_mod_cast (by omega : 0 < xs.length - 1)
  have eb := equispaced_back hl he hb
  unfold equispacedIndex
  rw [rd_eq_ok (he 0 (by omega)), rd_eq_ok (by rw [← List.getLast?_eq_getElem?]; exact hb)]
  simp only [except_bind_ok, Nat.cast_zero, zero_mul, add_zero]
  have : b - x0 ≠ 0 := by
    rw [eb]; have := mul_pos hn hh; linarith
  rw [fdiv_ok this]
  simp only [except_bind_ok]
  rw [mul_div_assoc, div_self this, mul_one, toSizeT, if_pos hn.le, Nat.floor_natCast]

/-- The search finds the cell that contains the point. -/
theorem upperBound_cell {xs : List ℝ} {w : ℝ} (hs : xs.Pairwise (· < ·))
    (hw : Spec.InHalfOpenRange xs w) :
    ∃ i xl xr, upperBound xs w = .ok (i + 1) ∧ xs[i]? = some xl ∧ xs[i + 1]? = some xr ∧
      xl ≤ w ∧ w < xr := by
  obtain ⟨a, b, ha, hb, haw, hwb⟩ := hw
  have hlen : 0 < xs.length := by
    cases xs with
    | nil => simp at ha
    | cons x t => simp
  obtain ⟨k, hk, hkl, hk1, hk2⟩ := upperBoundLoop_spec xs w (hs.imp le_of_lt) xs.length 0 (by omega)
    (fun _ _ h => absurd h (by omega)) (fun i h hi => absurd h (by omega))
  rw [List.head?_eq_getElem?, List.getElem?_eq_getElem hlen, Option.some.injEq] at ha
  rw [List.getLast?_eq_getElem?, List.getElem?_eq_getElem (by omega), Option.some.injEq] at hb
  have hk0 : k ≠ 0 := by
    rintro rfl
    have := hk2 hlen
    rw [ha] at this
    linarith
  have hkn : k < xs.length := by
    by_contra hge
    have := hk1 (xs.length - 1) (by omega) (by omega)
    rw [hb] at this
    linarith
  obtain ⟨i, rfl⟩ : ∃ i, k = i + 1 := ⟨k - 1, by omega⟩
  exact ⟨i, _, _, hk, List.getElem?_eq_getElem (by omega), List.getElem?_eq_getElem hkn,
    hk1 i (by omega) (by omega), hk2 hkn⟩

/-- At the last node (or beyond) the search returns the end of the vector. -/
theorem upperBound_end {xs : List ℝ} {w : ℝ} (hs : xs.Pairwise (· < ·))
    (hw : ∀ x ∈ xs, x ≤ w) : upperBound xs w = .ok xs.length := by
  obtain ⟨k, hk, hkl, hk1, hk2⟩ := upperBoundLoop_spec xs w (hs.imp le_of_lt) xs.length 0 (by omega)
    (fun _ _ h => absurd h (by omega)) (fun i h hi => absurd h (by omega))
  have : k = xs.length := by
    by_contra hne
    have hlt : k < xs.length := by omega
    have := hk2 hlt
    have := hw _ (List.getElem_mem hlt)
    linarith
  subst this
  exact hk

theorem interpCell_spec {xs ys : List ℝ} {i : ℕ} {w xl xr : ℝ} (hxl : xs[i]? = some xl)
    (hxr : xs[i + 1]? = some xr) (h1 : xl ≤ w) (h2 : w < xr) (hlen : ys.length = xs.length) :
    ∃ v, interpCell xs ys i (i + 1) w = .ok v ∧ Spec.IsLinInterp xs ys w v := by
  have hi : i + 1 < xs.length := (List.getElem?_eq_some_iff.mp hxr).1
  have hne : xr - xl ≠ 0 := by linarith
  have hyl : ys[i]? = some ys[i] := List.getElem?_eq_getElem _
  have hyr : ys[i + 1]? = some ys[i + 1] := List.getElem?_eq_getElem _
  refine ⟨_, ?_, i, xl, xr, _, _, hxl, hxr, hyl, hyr, h1, h2, rfl⟩
  unfold interpCell
  rw [rd_eq_ok hxl, rd_eq_ok hxr, rd_eq_ok hyl, rd_eq_ok hyr]
  simp only [except_bind_ok]
  rw [fdiv_ok hne]
  simp only [except_bind_ok, except_pure]
  congr 1
  field_simp
  ring

/-- The cell of a strictly increasing grid containing a point is unique. -/
theorem cell_unique {xs : List ℝ} (hs : xs.Pairwise (· < ·)) {i j : ℕ} {w a b c d : ℝ}
    (ha : xs[i]? = some a) (hb : xs[i + 1]? = some b) (hc : xs[j]? = some c)
    (hd : xs[j + 1]? = some d) (h1 : a ≤ w) (h2 : w < b) (h3 : c ≤ w) (h4 : w < d) : i = j := by
  obtain ⟨hi, rfl⟩ := List.getElem?_eq_some_iff.mp ha
  obtain ⟨hi', rfl⟩ := List.getElem?_eq_some_iff.mp hb
  obtain ⟨hj, rfl⟩ := List.getElem?_eq_some_iff.mp hc
  obtain ⟨hj', rfl⟩ := List.getElem?_eq_some_iff.mp hd
  have mono : ∀ p q (hp : p < xs.length) (hq : q < xs.length), p ≤ q → xs[p] ≤ xs[q] := by
    intro p q hp hq hpq
    rcases Nat.eq_or_lt_of_le hpq with rfl | h
    · exact le_refl _
    · exact (List.pairwise_iff_getElem.mp hs _ _ hp hq h).le
  by_contra hne
  rcases Nat.lt_or_gt_of_ne hne with h | h
  · have := mono (i + 1) j hi' hj h
    linarith
  · have := mono (j + 1) i hj' hi h
    linarith

theorem linInterp_unique {xs ys : List ℝ} (hs : xs.Pairwise (· < ·)) {w v v' : ℝ}
    (h : Spec.IsLinInterp xs ys w v) (h' : Spec.IsLinInterp xs ys w v') : v = v' := by
  obtain ⟨i, xl, xr, yl, yr, a1, a2, a3, a4, a5, a6, rfl⟩ := h
  obtain ⟨j, xl', xr', yl', yr', b1, b2, b3, b4, b5, b6, rfl⟩ := h'
  have := cell_unique hs a1 a2 b1 b2 a5 a6 b5 b6
  subst this
  rw [a1] at b1; rw [a2] at b2; rw [a3] at b3; rw [a4] at b4
  simp only [Option.some.injEq] at b1 b2 b3 b4
  subst b1 b2 b3 b4
  rfl

theorem interpCell2_spec (t : Lookup2d) (F : ℕ → ℕ → ℝ)
    (hT : Spec.IsTable t.coords0.length t.coords1.length F t.data) {i j : ℕ}
    {wx wy xl xr yl yr : ℝ} (hxl : t.coords0[i]? = some xl)
    (hxr : t.coords0[i + 1]? = some xr) (hyl : t.coords1[j]? = some yl)
    (hyr : t.coords1[j + 1]? = some yr) (h1 : xl ≤ wx) (h2 : wx < xr) (h3 : yl ≤ wy) (h4 : wy < yr) :
    ∃ v, t.interpCell2 i (i + 1) j (j + 1) wx wy = .ok v ∧
      Spec.IsBilinInterp t.coords0 t.coords1 F wx wy v := by
  have hi : i + 1 < t.coords0.length := (List.getElem?_eq_some_iff.mp hxr).1
  have hj : j + 1 < t.coords1.length := (List.getElem?_eq_some_iff.mp hyr).1
  have hne : xr - xl ≠ 0 := by linarith
  have hne' : yr - yl ≠ 0 := by linarith
  refine ⟨_, ?_, i, j, xl, xr, yl, yr, hxl, hxr, hyl, hyr, h1, h2, h3, h4, _, _, rfl, rfl, rfl⟩
  unfold Lookup2d.interpCell2 rowMajor
  rw [rd_eq_ok hxl, rd_eq_ok hxr, rd_eq_ok hyl, rd_eq_ok hyr]
  simp only [except_bind_ok]
  rw [rd_eq_ok (hT.2 i j (by omega) (by omega)), rd_eq_ok (hT.2 i (j + 1) (by omega) (by omega)),
    rd_eq_ok (hT.2 (i + 1) j (by omega) (by omega)),
    rd_eq_ok (hT.2 (i + 1) (j + 1) (by omega) (by omega))]
  simp only [except_bind_ok]
  rw [fdiv_ok (mul_ne_zero hne hne')]
  congr 1
  field_simp
  ring

theorem interpCellFirst_spec (t : Lookup2d) (F : ℕ → ℕ → ℝ)
    (hT : Spec.IsTable t.coords0.length t.coords1.length F t.data) {i j : ℕ}
    {wx xl xr : ℝ} (hxl : t.coords0[i]? = some xl)
    (hxr : t.coords0[i + 1]? = some xr) (hj : j < t.coords1.length)
    (h1 : xl ≤ wx) (h2 : wx < xr) :
    t.interpCellFirst i (i + 1) wx j
      = .ok ((xr - wx) / (xr - xl) * F i j + (wx - xl) / (xr - xl) * F (i + 1) j) := by
  have hi : i + 1 < t.coords0.length := (List.getElem?_eq_some_iff.mp hxr).1
  have hne : xr - xl ≠ 0 := by linarith
  unfold Lookup2d.interpCellFirst rowMajor
  rw [rd_eq_ok hxl, rd_eq_ok hxr]
  simp only [except_bind_ok]
  rw [rd_eq_ok (hT.2 i j (by omega) (by omega)), rd_eq_ok (hT.2 (i + 1) j (by omega) (by omega))]
  simp only [except_bind_ok]
  rw [fdiv_ok hne]
  congr 1
  field_simp

end Picsar
