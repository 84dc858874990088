import Verif.Spec.QuantumSync
import Verif.Lemmas.BreitWheeler

namespace Picsar

/-- Interpolation along the first coordinate of a finite table: a fixed convex combination of two rows. -/
theorem photCol {t : Tab2X} {lo hi : ℝ} {F : ℕ → ℕ → ℝ} (ht : Spec.IsPhotonTable lo hi F t) (w : ℝ) :
    ∃ i i' a b, i < t.coords0.length ∧ i' < t.coords0.length ∧ 0 ≤ a ∧ 0 ≤ b ∧ a + b = 1 ∧
      ∀ j, j < t.coords1.length → BW.colVal t w j
        = .ok (.fin (Real.exp (a * Real.log (F i j) + b * Real.log (F i' j)))) := by
  obtain ⟨he, hhead, hlast, ⟨hl1, _⟩, _, _, hd⟩ := ht
  have hl := he.1
  set n1 := t.coords0.length with hn1
  set n2 := t.coords1.length with hn2
  have hfront : t.coords0[0]? = some (Real.log lo) := by rw [← List.head?_eq_getElem?]; exact hhead
  have hback : t.coords0[n1 - 1]? = some (Real.log hi) := by
    rw [← List.getLast?_eq_getElem?]; exact hlast
  have hlog : ∀ i j, i < n1 → j < n2 → XR.log (F i j) = .fin (Real.log (F i j)) := by
    intro i j hi hj
    unfold XR.log; rw [if_pos (hd i j hi hj).1]
  rcases le_or_gt w (Real.log lo) with hw1 | hw1
  · refine ⟨0, 0, 1, 0, by omega, by omega, by norm_num, le_refl _, by norm_num, ?_⟩
    intro j hj
    unfold BW.colVal Tab2X.interpFirst
    rw [rd_eq_ok hfront]
    simp only [except_bind_ok, hw1, if_true, rowMajor, ← hn2]
    rw [rd_eq_ok (hd 0 j (by omega) hj).2, hlog 0 j (by omega) hj]
    simp [XR.exp, bind, Except.bind, pure, Except.pure]
  · rcases le_or_gt (Real.log hi) w with hw2 | hw2
    · refine ⟨n1 - 1, n1 - 1, 1, 0, by omega, by omega, by norm_num, le_refl _, by norm_num, ?_⟩
      intro j hj
      unfold BW.colVal Tab2X.interpFirst
      rw [rd_eq_ok hfront]
      simp only [except_bind_ok, not_le.mpr hw1, if_false, ← hn2, ← hn1]
      rw [rd_eq_ok hback]
      simp only [except_bind_ok, ge_iff_le, hw2, if_true, rowMajor]
      rw [rd_eq_ok (hd (n1 - 1) j (by omega) hj).2, hlog _ j (by omega) hj]
      simp [XR.exp, bind, Except.bind, pure, Except.pure]
    · obtain ⟨i, xl, xr, e1, e2, e3, e4, e5⟩ :=
        equispacedIndex_spec he ⟨_, _, hhead, hlast, hw1.le, hw2⟩
      have hi : i + 1 < n1 := (List.getElem?_eq_some_iff.mp e3).1
      have hne : xr - xl ≠ 0 := by linarith
      have hpos : 0 < xr - xl := by linarith
      refine ⟨i, i + 1, (xr - w) / (xr - xl), (w - xl) / (xr - xl), by omega, hi,
        div_nonneg (by linarith) hpos.le, div_nonneg (by linarith) hpos.le, by field_simp; ring, ?_⟩
      intro j hj
      unfold BW.colVal Tab2X.interpFirst
      rw [rd_eq_ok hfront]
      simp only [except_bind_ok, not_le.mpr hw1, if_false, ← hn2, ← hn1]
      rw [rd_eq_ok hback]
      simp only [except_bind_ok, ge_iff_le, not_le.mpr hw2, if_false, rowMajor]
      rw [e1]
      simp only [except_bind_ok]
      rw [rd_eq_ok e2, rd_eq_ok e3]
      simp only [except_bind_ok]
      rw [rd_eq_ok (hd i j (by omega) hj).2, rd_eq_ok (hd (i + 1) j hi hj).2, fdiv_ok hne,
        hlog i j (by omega) hj, hlog (i + 1) j hi hj]
      simp only [except_bind_ok, XR.smul_fin, XR.add, XR.exp, pure, Except.pure]
      congr 3
      field_simp

/-- The fraction taken by a photon: well defined, and between the bounds of the table entries. -/
theorem photFrac {t : Tab2X} {lo hi : ℝ} {F : ℕ → ℕ → ℝ} (ht : Spec.IsPhotonTable lo hi F t) (w u : ℝ)
    (h0 : 0 ≤ u) (h1 : u < 1) :
    ∃ f, QS.fracOf t w u = .ok (some f) ∧ 0 < f ∧
      ((∀ i j, i < t.coords0.length → j < t.coords1.length → F i j ≤ 1) → f ≤ 1) := by
  obtain ⟨i, i', a, b, hi, hi', ha, hb, hab, hcol⟩ := photCol ht w
  obtain ⟨_, _, _, ⟨hl1, x0, h, hh, he⟩, hh1, hlst, hd⟩ := id ht
  set n2 := t.coords1.length with hn2
  have ex0 : 0 = x0 := equispaced_front hl1 he hh1
  have exb := equispaced_back hl1 he hlst
  have hn : (0 : ℝ) < ((n2 - 1 : ℕ) : ℝ) := by exact_mod_cast (by omega : 0 < n2 - 1)
  have hh' : ((n2 - 1 : ℕ) : ℝ) * h = 1 := by rw [exb, ← ex0]; ring
  set k := ⌊((n2 - 1 : ℕ) : ℝ) * u⌋₊ with hk
  have hk1 : (k : ℝ) ≤ ((n2 - 1 : ℕ) : ℝ) * u := Nat.floor_le (by positivity)
  have hk2 : ((n2 - 1 : ℕ) : ℝ) * u < k + 1 := Nat.lt_floor_add_one _
  have hkn : k + 1 < n2 := by
    have : (k : ℝ) < ((n2 - 1 : ℕ) : ℝ) := by nlinarith
    have : k < n2 - 1 := by exact_mod_cast this
    omega
  have c1 := he k (by omega)
  have c2 := he (k + 1) hkn
  rw [← ex0, zero_add] at c1 c2
  push_cast at c2
  set L := Real.exp (a * Real.log (F i k) + b * Real.log (F i' k)) with hL
  set R := Real.exp (a * Real.log (F i (k + 1)) + b * Real.log (F i' (k + 1))) with hR
  have hL0 : 0 < L := Real.exp_pos _
  have hR0 : 0 < R := Real.exp_pos _
  have hne : ((k : ℝ) + 1) * h - k * h ≠ 0 := by
    rw [show ((k : ℝ) + 1) * h - k * h = h by ring]; exact hh.ne'
  have hu1 : k * h ≤ u := by
    have := mul_le_mul_of_nonneg_right hk1 hh.le
    nlinarith
  have hu2 : u < (k + 1) * h := by
    have := mul_lt_mul_of_pos_right hk2 hh
    nlinarith
  set s := (u - k * h) / (((k : ℝ) + 1) * h - k * h) with hs
  have hs0 : 0 ≤ s := div_nonneg (by linarith) (by linarith)
  have hs1 : s < 1 := by rw [hs, div_lt_one (by linarith)]; linarith
  refine ⟨L + (u - k * h) * (R - L) / (((k : ℝ) + 1) * h - k * h), ?_, ?_, ?_⟩
  · unfold QS.fracOf
    simp only [← hn2, ← hk]
    rw [rd_eq_ok c1, rd_eq_ok c2]
    simp only [except_bind_ok]
    rw [hcol k (by omega), hcol (k + 1) hkn]
    simp only [except_bind_ok, XR.toFl]
    rw [if_neg hne]
    rfl
  · rw [show L + (u - k * h) * (R - L) / (((k : ℝ) + 1) * h - k * h) = (1 - s) * L + s * R by
      rw [hs]; ring]
    have : 0 < 1 - s := by linarith
    positivity
  · intro hF
    have hlog : ∀ i j, i < t.coords0.length → j < n2 → Real.log (F i j) ≤ 0 := by
      intro i j hi hj
      exact Real.log_nonpos (hd i j hi hj).1.le (hF i j hi hj)
    have hL1 : L ≤ 1 := by
      rw [hL, Real.exp_le_one_iff]
      have := mul_nonpos_of_nonneg_of_nonpos ha (hlog i k hi (by omega))
      have := mul_nonpos_of_nonneg_of_nonpos hb (hlog i' k hi' (by omega))
      linarith
    have hR1 : R ≤ 1 := by
      rw [hR, Real.exp_le_one_iff]
      have := mul_nonpos_of_nonneg_of_nonpos ha (hlog i (k + 1) hi hkn)
      have := mul_nonpos_of_nonneg_of_nonpos hb (hlog i' (k + 1) hi' hkn)
      linarith
    rw [show L + (u - k * h) * (R - L) / (((k : ℝ) + 1) * h - k * h) = (1 - s) * L + s * R by
      rw [hs]; ring]
    nlinarith

/-- The emission loop. `fs` are the fractions. -/
theorem emitAll_spec {t : Tab2X} {lo hi : ℝ} {F : ℕ → ℕ → ℝ} (ht : Spec.IsPhotonTable lo hi F t)
    (mec w chi gamma : ℝ) (n : V3) (os wt : ℝ) (hchi : chi ≠ 0) :
    ∀ (us : List ℝ) (cur : V3), (∀ u ∈ us, 0 ≤ u ∧ u < 1) →
      ∃ fs : List ℝ, fs.length = us.length ∧ (∀ f ∈ fs, 0 < f) ∧
        ((∀ i j, i < t.coords0.length → j < t.coords1.length → F i j ≤ 1) → ∀ f ∈ fs, f ≤ 1) ∧
        QS.emitAll mec t w chi gamma n os wt cur us
          = .ok (some (cur.sub (V3.smul (os * (fs.sum * (gamma - 1) * mec)) n),
              fs.map fun f => (V3.smul (f * (gamma - 1) * mec) n, wt))) := by
  intro us
  induction us with
  | nil =>
    intro cur _
    refine ⟨[], rfl, by simp, by simp, ?_⟩
    simp [QS.emitAll, V3.sub, V3.smul]
  | cons u us ih =>
    intro cur hu
    obtain ⟨f, hf, hf0, hf1⟩ := photFrac ht w u (hu u (by simp)).1 (hu u (by simp)).2
    have hph : V3.smul mec (V3.smul (f * chi / chi * (gamma - 1)) n) = V3.smul (f * (gamma - 1) * mec) n := by
      rw [mul_div_cancel_right₀ _ hchi]
      simp only [V3.smul, V3.mk.injEq]
      refine ⟨?_, ?_, ?_⟩ <;> ring
    obtain ⟨fs, e1, e2, e3, e4⟩ := ih (cur.sub (V3.smul os (V3.smul (f * (gamma - 1) * mec) n)))
      (fun x hx => hu x (by simp [hx]))
    refine ⟨f :: fs, by simp [e1], ?_, ?_, ?_⟩
    · intro x hx
      rcases List.mem_cons.mp hx with rfl | hx
      · exact hf0
      · exact e2 x hx
    · intro hF x hx
      rcases List.mem_cons.mp hx with rfl | hx
      · exact hf1 hF
      · exact e3 hF x hx
    · simp only [QS.emitAll, hf, except_bind_ok, if_neg hchi, hph, e4]
      simp only [List.map_cons, List.sum_cons, pure, Except.pure]
      congr 3
      simp only [V3.sub, V3.smul, V3.mk.injEq]
      refine ⟨?_, ?_, ?_⟩ <;> ring

end Picsar
