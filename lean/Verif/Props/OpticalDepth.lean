import Verif.Lemmas.OpticalDepth
import Verif.Props.Chi

/-
Property theorems C20-C23, C26, C28: optical depths and rates of the Breit-Wheeler and quantum-synchrotron engines.
-/
namespace Picsar.Props
open Picsar

/-! ### C20 -/

/-- C20: the optical depth drawn from `u` in `[0,1)` is non-negative. -/
theorem C20_depth_nonneg (u : ℝ) (h0 : 0 ≤ u) (h1 : u < 1) : 0 ≤ getOpticalDepth u := by
  unfold getOpticalDepth
  have := Real.log_nonpos (by linarith : (0 : ℝ) ≤ 1 - u) (by linarith)
  linarith

/-- C20: it strictly increases with `u`. -/
theorem C20_depth_strict_mono (u v : ℝ) (h1 : v < 1) (h : u < v) :
    getOpticalDepth u < getOpticalDepth v := by
  unfold getOpticalDepth
  have := Real.log_lt_log (by linarith : (0 : ℝ) < 1 - v) (by linarith : 1 - v < 1 - u)
  linarith

/-- C20: it has the exponential distribution: `depth ≤ t` exactly when `u ≤ 1 - exp(-t)`. -/
theorem C20_depth_exponential (u t : ℝ) (h1 : u < 1) :
    getOpticalDepth u ≤ t ↔ u ≤ 1 - Real.exp (-t) := by
  unfold getOpticalDepth
  have hp : (0 : ℝ) < 1 - u := by linarith
  rw [neg_le, ← Real.exp_le_exp, Real.exp_log hp]
  constructor <;> intro h <;> linarith

example : getOpticalDepth (1 / 2) = Real.log 2 := by
  unfold getOpticalDepth
  rw [show (1 : ℝ) - 1 / 2 = 2⁻¹ by norm_num, Real.log_inv, neg_neg]

/-! ### C21 -/

/-- C21 for photons: above threshold and at rate `r > 0`, the optical depth evolves as it should. -/
theorem C21_evolve_photon (U : Units) (ctrl : BWCtrl) (t : Lookup1d) (TT : ℝ → ℝ)
    (lambda : ℝ) (p e b : V3) (ha : Spec.PhotonAboveThreshold U ctrl p e b lambda) (r : ℝ) (hr : 0 < r)
    (hrate : Spec.photonRate U ctrl t TT lambda p e b = .ok r) (dt depth : ℝ) (hd : 0 ≤ depth) :
    ∃ ev, BW.evolve U ctrl t TT lambda p e b dt depth = .ok ev ∧ Spec.IsEvolution r dt depth ev := by
  obtain ⟨h1, h2⟩ := ha
  obtain ⟨ev, hev, hspec⟩ := stepDepth_spec (dt := dt) hr hd
  refine ⟨ev, ?_, hspec⟩
  have hn : ¬ (chiPhoton U p e b (U.lam lambda) ≤ ctrl.chiPhotMin ∨
      p.norm * U.c < 2 * (U.emass * U.c * U.c)) := by
    rw [chiPhoton_lam]
    rintro (h | h)
    · linarith
    · unfold Spec.photonEnergy at h2
      nlinarith
  unfold BW.evolve BW.evolveInternal
  simp only [if_neg hn]
  unfold Spec.photonRate at hrate
  cases hi : t.init with
  | true =>
    simp only [hi, if_true] at hrate ⊢
    have e1 : BW.interpDnDt U ctrl t (U.lam lambda) (p.norm * U.c) (chiPhoton U p e b (U.lam lambda))
        = .ok r := by
      rw [chiPhoton_lam, ← hrate]
      unfold BW.interpDnDt Spec.photonEnergy
      simp only [lam_idem]
    rw [e1]
    simp only [except_bind_ok, hev]
    rfl
  | false =>
    simp only [hi] at hrate ⊢
    cases hrate
    exact hev

/-- C21 for leptons. -/
theorem C21_evolve_lepton (U : Units) (ctrl : QSCtrl) (t : Lookup1d) (KK : ℝ → ℝ)
    (lambda : ℝ) (p e b : V3) (ha : Spec.LeptonAboveThreshold U ctrl p e b lambda) (r : ℝ) (hr : 0 < r)
    (hrate : Spec.leptonRate U ctrl t KK lambda p e b = .ok r) (dt depth : ℝ) (hd : 0 ≤ depth) :
    ∃ ev, QS.evolve U ctrl t KK lambda p e b dt depth = .ok ev ∧ Spec.IsEvolution r dt depth ev := by
  obtain ⟨ev, hev, hspec⟩ := stepDepth_spec (dt := dt) hr hd
  refine ⟨ev, ?_, hspec⟩
  have hn : ¬ (chiLepton U p e b (U.lam lambda) ≤ ctrl.chiPartMin) := by
    rw [chiLepton_lam]; exact not_le.mpr ha
  unfold QS.evolve QS.evolveInternal
  simp only [if_neg hn]
  unfold Spec.leptonRate at hrate
  cases hi : t.init with
  | true =>
    simp only [hi, if_true] at hrate ⊢
    rw [chiLepton_lam, hrate]
    simp only [except_bind_ok, hev]
    rfl
  | false =>
    simp only [hi] at hrate ⊢
    cases hrate
    exact hev

/-! ### C22 -/

/-- C22 for photons: whatever the sub-steps, the first event is reported in the sub-step containing the time `depth/r`,
and at that absolute time; if the sub-steps do not reach that time no event is reported. -/
theorem C22_subdivision_photon (U : Units) (ctrl : BWCtrl) (t : Lookup1d) (TT : ℝ → ℝ)
    (lambda : ℝ) (p e b : V3) (ha : Spec.PhotonAboveThreshold U ctrl p e b lambda) (r : ℝ) (hr : 0 < r)
    (hrate : Spec.photonRate U ctrl t TT lambda p e b = .ok r) (dts : List ℝ) (hdt : ∀ dt ∈ dts, 0 ≤ dt)
    (depth : ℝ) (hd : 0 ≤ depth) :
    (dts.sum ≤ depth / r →
      Spec.firstEvent (BW.evolve U ctrl t TT lambda p e b) 0 0 depth dts = .ok none) ∧
    (depth / r < dts.sum → ∃ i, Spec.firstEvent (BW.evolve U ctrl t TT lambda p e b) 0 0 depth dts
        = .ok (some (i, depth / r)) ∧ i < dts.length ∧
        (dts.take i).sum ≤ depth / r ∧ depth / r < (dts.take (i + 1)).sum) := by
  have := firstEvent_spec hr
    (fun dt d _ h => C21_evolve_photon U ctrl t TT lambda p e b ha r hr hrate dt d h) dts 0 0 depth hdt hd
  simpa only [zero_add] using this

/-- C22 for leptons. -/
theorem C22_subdivision_lepton (U : Units) (ctrl : QSCtrl) (t : Lookup1d) (KK : ℝ → ℝ)
    (lambda : ℝ) (p e b : V3) (ha : Spec.LeptonAboveThreshold U ctrl p e b lambda) (r : ℝ) (hr : 0 < r)
    (hrate : Spec.leptonRate U ctrl t KK lambda p e b = .ok r) (dts : List ℝ) (hdt : ∀ dt ∈ dts, 0 ≤ dt)
    (depth : ℝ) (hd : 0 ≤ depth) :
    (dts.sum ≤ depth / r →
      Spec.firstEvent (QS.evolve U ctrl t KK lambda p e b) 0 0 depth dts = .ok none) ∧
    (depth / r < dts.sum → ∃ i, Spec.firstEvent (QS.evolve U ctrl t KK lambda p e b) 0 0 depth dts
        = .ok (some (i, depth / r)) ∧ i < dts.length ∧
        (dts.take i).sum ≤ depth / r ∧ depth / r < (dts.take (i + 1)).sum) := by
  have := firstEvent_spec hr
    (fun dt d _ h => C21_evolve_lepton U ctrl t KK lambda p e b ha r hr hrate dt d h) dts 0 0 depth hdt hd
  simpa only [zero_add] using this

/-- C22: hence two subdivisions of the same time interval agree on whether there is an event, and on its time. -/
theorem C22_subdivision_independent (U : Units) (ctrl : BWCtrl) (t : Lookup1d) (TT : ℝ → ℝ)
    (lambda : ℝ) (p e b : V3) (ha : Spec.PhotonAboveThreshold U ctrl p e b lambda) (r : ℝ) (hr : 0 < r)
    (hrate : Spec.photonRate U ctrl t TT lambda p e b = .ok r) (dts dts' : List ℝ)
    (hdt : ∀ dt ∈ dts, 0 ≤ dt) (hdt' : ∀ dt ∈ dts', 0 ≤ dt) (hsum : dts.sum = dts'.sum)
    (depth : ℝ) (hd : 0 ≤ depth) :
    ∃ x y, Spec.firstEvent (BW.evolve U ctrl t TT lambda p e b) 0 0 depth dts = .ok x ∧
      Spec.firstEvent (BW.evolve U ctrl t TT lambda p e b) 0 0 depth dts' = .ok y ∧
      x.map Prod.snd = y.map Prod.snd := by
  obtain ⟨a1, a2⟩ := C22_subdivision_photon U ctrl t TT lambda p e b ha r hr hrate dts hdt depth hd
  obtain ⟨b1, b2⟩ := C22_subdivision_photon U ctrl t TT lambda p e b ha r hr hrate dts' hdt' depth hd
  rcases le_or_gt dts.sum (depth / r) with h | h
  · exact ⟨_, _, a1 h, b1 (hsum ▸ h), rfl⟩
  · obtain ⟨i, e1, _⟩ := a2 h
    obtain ⟨j, e2, _⟩ := b2 (hsum ▸ h)
    exact ⟨_, _, e1, e2, rfl⟩

/-! ### C23 -/

/-- C23 for photons: below threshold nothing happens and the internal routine reports success, whatever the table. -/
theorem C23_below_threshold_photon (U : Units) (hU : U.Pos) (ctrl : BWCtrl) (t : Lookup1d) (TT : ℝ → ℝ)
    (lambda : ℝ) (p e b : V3)
    (h : Spec.photonEnergy U p < 2 * (U.emass * U.c ^ 2) ∨ chiPhoton U p e b lambda ≤ ctrl.chiPhotMin)
    (dt depth : ℝ) :
    BW.evolveInternal U ctrl t lambda p e b dt depth = .ok (true, ⟨depth, false, 0⟩) ∧
    BW.evolve U ctrl t TT lambda p e b dt depth = .ok ⟨depth, false, 0⟩ := by
  have hc := hU.c
  have hn : (chiPhoton U p e b (U.lam lambda) ≤ ctrl.chiPhotMin ∨
      p.norm * U.c < 2 * (U.emass * U.c * U.c)) := by
    rw [chiPhoton_lam]
    rcases h with h | h
    · right; unfold Spec.photonEnergy at h; nlinarith
    · left; exact h
  have e1 : BW.evolveInternal U ctrl t lambda p e b dt depth = .ok (true, ⟨depth, false, 0⟩) := by
    unfold BW.evolveInternal
    simp only [if_pos hn]
  refine ⟨e1, ?_⟩
  unfold BW.evolve
  rw [e1]
  rfl

/-- C23 for leptons. -/
theorem C23_below_threshold_lepton (U : Units) (ctrl : QSCtrl) (t : Lookup1d) (KK : ℝ → ℝ)
    (lambda : ℝ) (p e b : V3) (h : chiLepton U p e b lambda ≤ ctrl.chiPartMin) (dt depth : ℝ) :
    QS.evolveInternal U ctrl t lambda p e b dt depth = .ok (true, ⟨depth, false, 0⟩) ∧
    QS.evolve U ctrl t KK lambda p e b dt depth = .ok ⟨depth, false, 0⟩ := by
  have e1 : QS.evolveInternal U ctrl t lambda p e b dt depth = .ok (true, ⟨depth, false, 0⟩) := by
    unfold QS.evolveInternal
    simp only [chiLepton_lam, if_pos h]
  refine ⟨e1, ?_⟩
  unfold QS.evolve
  rw [e1]
  rfl

/-! ### C26 -/

/-- C26: the rate vanishes for zero energy or zero quantum parameter, whatever the table. -/
theorem C26_rate_zero (U : Units) (ctrl : BWCtrl) (t : Lookup1d) (lambda energy chi : ℝ)
    (h : energy = 0 ∨ chi = 0) : BW.interpDnDt U ctrl t lambda energy chi = .ok 0 := by
  unfold BW.interpDnDt; rw [if_pos h]

/-- C26: otherwise it is well defined (no read outside the table, for any quantum parameter and any table content)
and strictly positive. -/
theorem C26_rate_pos (U : Units) (hU : U.Pos) (ctrl : BWCtrl) (t : Lookup1d) (h0 : 0 < ctrl.tdndtMin)
    (ht : Spec.IsRateTable ctrl.tdndtMin ctrl.tdndtMax t) (lambda energy chi : ℝ) (hl : 0 < lambda)
    (he : 0 < energy) (hc : 0 < chi) :
    ∃ r, BW.interpDnDt U ctrl t lambda energy chi = .ok r ∧ 0 < r := by
  have hlam := lam_pos (U := U) hl
  have hcoeff : 0 < U.pairCoeff * U.lam lambda * (1 / (chi * energy)) := by
    have := hU.pairCoeff
    positivity
  unfold BW.interpDnDt
  rw [if_neg (by rintro (h | h) <;> linarith)]
  simp only
  split_ifs with h1 h2
  · refine ⟨_, rfl, mul_pos hcoeff ?_⟩
    have := Real.pi_pos
    unfold BW.erberA BW.erberB
    positivity
  · refine ⟨_, rfl, mul_pos hcoeff ?_⟩
    have := Real.Gamma_pos_of_pos (by norm_num : (0 : ℝ) < 1 / 3)
    unfold BW.erberA BW.erberB
    positivity
  · obtain ⟨v, hv, _⟩ := rateTable_interp h0 ht (not_le.mp h1).le (lt_of_not_ge h2)
    rw [hv]
    exact ⟨_, rfl, mul_pos hcoeff (Real.exp_pos _)⟩

/-- C26: inside the range of the table the rate is the exponential of the interpolated logarithm, times the physical
prefactor. -/
theorem C26_rate_interp (U : Units) (ctrl : BWCtrl) (t : Lookup1d) (h0 : 0 < ctrl.tdndtMin)
    (ht : Spec.IsRateTable ctrl.tdndtMin ctrl.tdndtMax t) (lambda energy chi : ℝ)
    (he : 0 < energy) (h1 : ctrl.tdndtMin < chi) (h2 : chi < ctrl.tdndtMax) :
    ∃ v, Spec.IsLinInterp t.coords t.data (Real.log chi) v ∧
      BW.interpDnDt U ctrl t lambda energy chi
        = .ok (U.pairCoeff * U.lam lambda / (chi * energy) * Real.exp v) := by
  obtain ⟨v, hv, hs⟩ := rateTable_interp h0 ht h1.le h2
  refine ⟨v, hs, ?_⟩
  unfold BW.interpDnDt
  rw [if_neg (by rintro (h | h) <;> linarith)]
  simp only [if_neg (not_le.mpr h1), ge_iff_le, if_neg (not_le.mpr h2), hv, except_bind_ok]
  simp only [mul_one_div]
  rfl

/-- C26: the table computed by the engine has the shape assumed above. -/
theorem C26_generated_table (ctrl : BWCtrl) (TT : ℝ → ℝ) (h0 : 0 < ctrl.tdndtMin)
    (h : ctrl.tdndtMin < ctrl.tdndtMax) (hn : 2 ≤ ctrl.tdndtHowMany) :
    Spec.IsRateTable ctrl.tdndtMin ctrl.tdndtMax (BW.dnDtTable ctrl TT) :=
  genTable_isRateTable h0 h hn _

/-! ### C28 -/

/-- C28 (quantum parameter below the table maximum): well defined and positive. -/
theorem C28_rate_partial (U : Units) (hU : U.Pos) (ctrl : QSCtrl) (t : Lookup1d) (h0 : 0 < ctrl.tdndtMin)
    (hlt : ctrl.tdndtMin < ctrl.tdndtMax)
    (ht : Spec.IsRateTable ctrl.tdndtMin ctrl.tdndtMax t) (lambda energy chi : ℝ) (hl : 0 < lambda)
    (he : 0 < energy) (hc : 0 < chi) (hmax : chi < ctrl.tdndtMax) :
    ∃ r, QS.interpDnDt U ctrl t lambda energy chi = .ok r ∧ 0 < r := by
  have hcoeff : 0 < U.qsCoeff * lambda * 1 / energy := by
    have := hU.qsCoeff
    positivity
  have hr : ctrl.tdndtMin ≤ QS.clampRate ctrl.tdndtMin ctrl.tdndtMax chi ∧
      QS.clampRate ctrl.tdndtMin ctrl.tdndtMax chi < ctrl.tdndtMax := by
    unfold QS.clampRate
    split_ifs with h1 h2
    · exact ⟨le_refl _, hlt⟩
    · linarith
    · exact ⟨(not_le.mp h1).le, hmax⟩
  obtain ⟨v, hv, _⟩ := rateTable_interp h0 ht hr.1 hr.2
  unfold QS.interpDnDt
  rw [if_neg (by rintro (h | h) <;> linarith), hv]
  exact ⟨_, rfl, mul_pos hcoeff (Real.exp_pos _)⟩

/-- C28 is false of the code: for every table and every quantum parameter at or above the table maximum, the rate lookup
reads past the end of the table. -/
theorem C28_rate_refuted (U : Units) (ctrl : QSCtrl) (t : Lookup1d) (h0 : 0 < ctrl.tdndtMin)
    (hlt : ctrl.tdndtMin < ctrl.tdndtMax)
    (ht : Spec.IsRateTable ctrl.tdndtMin ctrl.tdndtMax t) (lambda energy chi : ℝ)
    (he : energy ≠ 0) (hmax : ctrl.tdndtMax ≤ chi) :
    QS.interpDnDt U ctrl t lambda energy chi = .error .outOfBounds := by
  have hr : QS.clampRate ctrl.tdndtMin ctrl.tdndtMax chi = ctrl.tdndtMax := by
    unfold QS.clampRate
    rw [if_neg (by linarith), if_pos hmax]
  unfold QS.interpDnDt
  rw [if_neg (by rintro (h | h) <;> [exact he h; linarith]), hr,
    C07_closed_range_refuted t _ ht.2.1 ht.2.2.2.2]
  rfl

/-- Consequently the evolution of a lepton with such a quantum parameter reads outside the table. -/
theorem C28_evolve_refuted (U : Units) (ctrl : QSCtrl) (t : Lookup1d) (KK : ℝ → ℝ) (h0 : 0 < ctrl.tdndtMin)
    (hlt : ctrl.tdndtMin < ctrl.tdndtMax) (hmin : ctrl.chiPartMin < ctrl.tdndtMax)
    (ht : Spec.IsRateTable ctrl.tdndtMin ctrl.tdndtMax t) (hU : U.Pos) (lambda : ℝ) (p e b : V3)
    (hmax : ctrl.tdndtMax ≤ chiLepton U p e b lambda) (dt depth : ℝ) :
    QS.evolve U ctrl t KK lambda p e b dt depth = .error .outOfBounds := by
  have hp : p.norm * U.c ≠ 0 := by
    intro h
    rcases mul_eq_zero.mp h with h | h
    · rw [V3.norm_eq_zero] at h
      subst h
      have : chiLepton U V3.zero e b lambda = 0 := by
        unfold chiLepton; rw [if_pos]; simp [V3.norm2, V3.zero]
      linarith
    · exact hU.c.ne' h
  unfold QS.evolve QS.evolveInternal
  simp only [chiLepton_lam]
  rw [if_neg (by linarith), if_pos ht.1,
    C28_rate_refuted U ctrl t h0 hlt ht _ _ _ hp hmax]
  rfl

/-- C28: the table computed by the engine is of this kind. -/
theorem C28_generated_table (ctrl : QSCtrl) (KK : ℝ → ℝ) (h0 : 0 < ctrl.tdndtMin)
    (h : ctrl.tdndtMin < ctrl.tdndtMax) (hn : 2 ≤ ctrl.tdndtHowMany) :
    Spec.IsRateTable ctrl.tdndtMin ctrl.tdndtMax (QS.dnDtTable ctrl KK) :=
  genTable_isRateTable h0 h hn _

/-! ### Non-vacuity -/

/-- Unit constants, for the examples. -/
noncomputable def exUnits : Units := ⟨false, 1, 1, 1, 1, 1, 1⟩

theorem exUnits_pos : exUnits.Pos := by
  constructor <;> norm_num [exUnits]

theorem exChi (px by' : ℝ) (hp : 0 < px) : chiPhoton exUnits ⟨px, 0, 0⟩ V3.zero ⟨0, by', 0⟩ 1 = |by'| * px := by
  have hn : (⟨px, 0, 0⟩ : V3).norm = px := by
    simp only [V3.norm, V3.norm2]
    rw [show px * px + 0 * 0 + 0 * 0 = px * px by ring, Real.sqrt_mul_self hp.le]
  unfold chiPhoton
  simp only [hn]
  rw [if_neg hp.ne']
  have : ((V3.zero.sub (V3.smul (((⟨px, 0, 0⟩ : V3).sdiv px).dot V3.zero)
      ((⟨px, 0, 0⟩ : V3).sdiv px))).add ((V3.smul exUnits.c ((⟨px, 0, 0⟩ : V3).sdiv px)).cross
        ⟨0, by', 0⟩)).norm = |by'| := by
    simp only [V3.norm, V3.norm2, V3.zero, V3.sub, V3.smul, V3.dot, V3.sdiv, V3.add, V3.cross, exUnits]
    rw [div_self hp.ne']
    norm_num
    rw [← sq, Real.sqrt_sq_eq_abs]
  rw [this]
  simp [exUnits, Units.lam]

/-- A photon of energy 4 mc^2 in a magnetic field: above threshold, with a positive rate, and an event in the
step. -/
example : ∃ (ctrl : BWCtrl) (t : Lookup1d) (p e b : V3) (r : ℝ),
    Spec.PhotonAboveThreshold exUnits ctrl p e b 1 ∧ 0 < r ∧
    Spec.photonRate exUnits ctrl t (fun _ => 1) 1 p e b = .ok r := by
  refine ⟨⟨1, 1, 16, 3, 1, 16, 3, 3⟩, BW.dnDtTable ⟨1, 1, 16, 3, 1, 16, 3, 3⟩ (fun _ => 1),
    ⟨4, 0, 0⟩, V3.zero, ⟨0, 1, 0⟩, ?_⟩
  have hchi := exChi 4 1 (by norm_num)
  have hen : Spec.photonEnergy exUnits ⟨4, 0, 0⟩ = 4 := by
    simp only [Spec.photonEnergy, V3.norm, V3.norm2, exUnits]
    rw [show (4 : ℝ) * 4 + 0 * 0 + 0 * 0 = 4 * 4 by ring, Real.sqrt_mul_self (by norm_num), mul_one]
  obtain ⟨r, hr, hr0⟩ := C26_rate_pos exUnits exUnits_pos ⟨1, 1, 16, 3, 1, 16, 3, 3⟩ _ (by norm_num)
    (C26_generated_table ⟨1, 1, 16, 3, 1, 16, 3, 3⟩ (fun _ => 1) (by norm_num) (by norm_num) (by norm_num))
    1 4 4 (by norm_num) (by norm_num) (by norm_num)
  refine ⟨r, ⟨?_, ?_⟩, hr0, ?_⟩
  · rw [hchi]; norm_num
  · rw [hen]; norm_num [exUnits]
  · unfold Spec.photonRate
    rw [hchi, hen, if_pos (by rfl)]
    norm_num
    exact hr

/-- The refuted case is reachable: chi = 4 for a table ending at 2. -/
example : ∃ (ctrl : QSCtrl) (t : Lookup1d), 0 < ctrl.tdndtMin ∧ ctrl.tdndtMin < ctrl.tdndtMax ∧
    Spec.IsRateTable ctrl.tdndtMin ctrl.tdndtMax t ∧ ctrl.tdndtMax ≤ (4 : ℝ) :=
  ⟨⟨1, 1, 2, 3, 1, 16, 3, 3⟩, _, by norm_num, by norm_num,
    C28_generated_table ⟨1, 1, 2, 3, 1, 16, 3, 3⟩ (fun _ => 1) (by norm_num) (by norm_num) (by norm_num),
    by norm_num⟩

end Picsar.Props
