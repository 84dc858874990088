import Verif.Spec.OpticalDepth
import Verif.Lemmas.BreitWheeler

namespace Picsar

theorem stepDepth_spec {r dt depth : ℝ} (hr : 0 < r) (hd : 0 ≤ depth) :
    ∃ ev, stepDepth r dt depth = .ok ev ∧ Spec.IsEvolution r dt depth ev := by
  unfold stepDepth
  by_cases h : depth - r * dt < 0
  · rw [if_pos h, fdiv_ok hr.ne']
    refine ⟨_, rfl, rfl, ?_, ?_, ?_⟩
    · simp; linarith
    · intro _
      have e : (depth - r * dt) / r + dt = depth / r := by field_simp; ring
      refine ⟨e, ?_, ?_⟩
      · rw [show (⟨depth - r * dt, true, (depth - r * dt) / r + dt⟩ : Evolved).eventDt
          = (depth - r * dt) / r + dt from rfl, e]
        positivity
      · show (depth - r * dt) / r + dt < dt
        have := div_neg_of_neg_of_pos h hr
        linarith
    · intro h; simp at h
  · rw [if_neg h]
    refine ⟨_, rfl, rfl, ?_, ?_, ?_⟩
    · simp; linarith
    · intro h; simp at h
    · intro _; exact ⟨rfl, not_lt.mp h⟩

theorem lam_idem (U : Units) (l : ℝ) : U.lam (U.lam l) = U.lam l := by
  unfold Units.lam; cases U.si <;> simp

theorem chiPhoton_lam (U : Units) (p e b : V3) (l : ℝ) : chiPhoton U p e b (U.lam l) = chiPhoton U p e b l := by
  unfold chiPhoton; simp only [lam_idem]

theorem chiLepton_lam (U : Units) (p e b : V3) (l : ℝ) : chiLepton U p e b (U.lam l) = chiLepton U p e b l := by
  unfold chiLepton; simp only [lam_idem]

/-- Log of a quantum parameter strictly inside the range lies in the half-open range of a rate table. -/
theorem rateTable_range {lo hi chi : ℝ} {t : Lookup1d} (h0 : 0 < lo) (ht : Spec.IsRateTable lo hi t)
    (h1 : lo ≤ chi) (h2 : chi < hi) : Spec.InHalfOpenRange t.coords (Real.log chi) :=
  ⟨_, _, ht.2.2.2.1, ht.2.2.2.2, Real.log_le_log h0 h1, Real.log_lt_log (by linarith) h2⟩

theorem rateTable_interp {lo hi chi : ℝ} {t : Lookup1d} (h0 : 0 < lo) (ht : Spec.IsRateTable lo hi t)
    (h1 : lo ≤ chi) (h2 : chi < hi) :
    ∃ v, t.interpLinearEquispaced (Real.log chi) = .ok v ∧
      Spec.IsLinInterp t.coords t.data (Real.log chi) v :=
  Props.C06_equispaced_interp t _ ht.2.1 ht.2.2.1 (rateTable_range h0 ht h1 h2)

/-- Tables generated by the engines are rate tables. -/
theorem genTable_isRateTable {lo hi : ℝ} {n : ℕ} (h0 : 0 < lo) (h : lo < hi) (hn : 2 ≤ n) (F : ℝ → ℝ) :
    Spec.IsRateTable lo hi (Lookup1d.mk' (((generateLogSpacedVec lo hi n).filterMap id).map Real.log)
      (((generateLogSpacedVec lo hi n).filterMap id).map F)) := by
  obtain ⟨l, hl, hlen, h1, h2, h3, h4⟩ := logGrid_equispaced h0 h hn
  rw [hl]
  exact ⟨rfl, h1, by simp [Lookup1d.mk'], h2, h3⟩

theorem firstEvent_spec {f : ℝ → ℝ → Res Evolved} {r : ℝ} (hr : 0 < r)
    (hf : ∀ dt depth, 0 ≤ dt → 0 ≤ depth → ∃ ev, f dt depth = .ok ev ∧ Spec.IsEvolution r dt depth ev) :
    ∀ (dts : List ℝ) (k : ℕ) (start depth : ℝ), (∀ dt ∈ dts, 0 ≤ dt) → 0 ≤ depth →
      (dts.sum ≤ depth / r → Spec.firstEvent f k start depth dts = .ok none) ∧
      (depth / r < dts.sum → ∃ i, Spec.firstEvent f k start depth dts
          = .ok (some (k + i, start + depth / r)) ∧ i < dts.length ∧
          (dts.take i).sum ≤ depth / r ∧ depth / r < (dts.take (i + 1)).sum) := by
  intro dts
  induction dts with
  | nil =>
    intro k start depth _ hd
    refine ⟨fun _ => rfl, fun h => ?_⟩
    exfalso
    simp only [List.sum_nil] at h
    have : 0 ≤ depth / r := by positivity
    linarith
  | cons dt dts ih =>
    intro k start depth hdt hd
    have h0 : 0 ≤ dt := hdt dt (by simp)
    obtain ⟨ev, hev, h1, h2, h3, h4⟩ := hf dt depth h0 hd
    have hs : 0 ≤ dts.sum := List.sum_nonneg fun x hx => hdt x (by simp [hx])
    have hq : 0 ≤ depth / r := by positivity
    have hlt : depth < r * dt ↔ depth / r < dt := by rw [div_lt_iff₀ hr, mul_comm]
    simp only [Spec.firstEvent, hev, except_bind_ok, List.sum_cons]
    cases he : ev.event with
    | true =>
      have hd' := hlt.mp (h2.mp he)
      obtain ⟨e1, e2, e3⟩ := h3 he
      refine ⟨fun h => ?_, fun _ => ⟨0, ?_, by simp, by simpa using hq, by simpa using hd'⟩⟩
      · exfalso; linarith
      · simp only [if_true, e1]
        rfl
    | false =>
      have hd' : dt ≤ depth / r := by
        by_contra h
        rw [h2.mpr (hlt.mpr (not_le.mp h))] at he
        cases he
      obtain ⟨_, e2⟩ := h4 he
      have hrem : ev.depth / r = depth / r - dt := by rw [h1]; field_simp
      obtain ⟨i1, i2⟩ := ih (k + 1) (start + dt) ev.depth (fun x hx => hdt x (by simp [hx])) e2
      simp only [Bool.false_eq_true, if_false]
      refine ⟨fun h => i1 (by rw [hrem]; linarith), fun h => ?_⟩
      obtain ⟨i, a1, a2, a3, a4⟩ := i2 (by rw [hrem]; linarith)
      refine ⟨i + 1, ?_, by simpa using a2, ?_, ?_⟩
      · rw [a1, hrem]
        congr 3
        · omega
        · ring
      · simp only [List.take_succ_cons, List.sum_cons]; linarith
      · simp only [List.take_succ_cons, List.sum_cons] at a4 ⊢; linarith

end Picsar
