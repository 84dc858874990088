import Verif.Lemmas.Rates
import Verif.Props.QuantumSync
import Verif.Props.OpticalDepth
import Verif.Props.BreitWheeler

/-
C111, C112, C113: the tables of the two engines hold the distributions and rates that they stand for.
-/
namespace Picsar.Props
open Picsar MeasureTheory Set

/-! ### C111: the energy of a pair -/

/-- C111: the pair-production rate function is positive for every positive quantum parameter, so that no division by zero happens. -/
theorem C111_rate (chi : ℝ) (h : 0 < chi) : 0 < BW.ttFunction chi := BW.ttFunction_pos h

/-- C111: for every photon the cumulative distribution of the quantum parameter of the electron is a distribution on `[0, chi]` and treats
electron and positron alike; so half of the electrons have less than half of the quantum parameter. -/
theorem C111_distribution (chi : ℝ) (h : 0 < chi) :
    ∃ F : ℝ → ℝ, (∀ x, BW.cumulativePair chi x = .ok (F x)) ∧ Spec.IsDistribution chi F ∧ Spec.IsSymmetric chi F ∧ F (chi / 2) = 1 / 2 := by
  have hp := BW.ttFunction_pos h
  have hsym : ∀ a, 0 ≤ a → a ≤ chi → (∫ c in (0 : ℝ)..(chi - a), BW.ttIntegrand chi c) / BW.ttFunction chi
      = 1 - (∫ c in (0 : ℝ)..a, BW.ttIntegrand chi c) / BW.ttFunction chi := by
    intro a h0 h1
    rw [BW.tt_reflect h h0 h1, sub_div, div_self hp.ne']
  refine ⟨fun x => (∫ c in (0 : ℝ)..x, BW.ttIntegrand chi c) / BW.ttFunction chi, fun x => BW.cum_ok h, ⟨by simp, ?_, ?_⟩, hsym, ?_⟩
  · have := hsym 0 (le_refl _) h.le
    simpa using this
  · intro a b h0 hab hb
    exact div_lt_div_of_pos_right (Rates.primitive_mono (BW.tt_integrable h) (fun _ g0 g1 => BW.tt_pos g0 g1) h0 hab hb) hp
  · have := hsym (chi / 2) (by linarith) (by linarith)
    rw [show chi - chi / 2 = chi / 2 by ring] at this
    beta_reduce; linarith

/-- C111: the table computed by the engine is a table of cumulative probabilities, and each entry (the first and the last column, which are
filled in without integrating, included) is the probability that the electron has at most the fraction `f` of the quantum parameter. -/
theorem C111_table (ctrl : BWCtrl) (cum : ℝ → ℝ → ℝ) (hcum : ∀ chi x, 0 < chi → BW.cumulativePair chi x = .ok (cum chi x))
    (h0 : 0 < ctrl.tpairMin) (h : ctrl.tpairMin < ctrl.tpairMax) (hn : 2 ≤ ctrl.tpairHowMany) (hf : 2 ≤ ctrl.fracHowMany) :
    (∃ P, Spec.IsPairTable ctrl.tpairMin ctrl.tpairMax P (BW.pairTable ctrl cum)) ∧
    (BW.pairTable ctrl cum).coords0.length = ctrl.tpairHowMany ∧ (BW.pairTable ctrl cum).coords1.length = ctrl.fracHowMany ∧
    ∀ i j, i < ctrl.tpairHowMany → j < ctrl.fracHowMany → ∃ chi f v, 0 < chi ∧ (BW.pairTable ctrl cum).coords0[i]? = some (Real.log chi) ∧
      (BW.pairTable ctrl cum).coords1[j]? = some f ∧ BW.cumulativePair chi (f * chi) = .ok v ∧
      (BW.pairTable ctrl cum).data[i * ctrl.fracHowMany + j]? = some (XR.log v) := by
  have key : ∀ chi, 0 < chi → Spec.IsDistribution chi (cum chi) ∧ cum chi (chi / 2) = 1 / 2 := by
    intro chi hc
    obtain ⟨F, h1, h2, _, h4⟩ := C111_distribution chi hc
    have : F = cum chi := by
      funext x
      have := h1 x
      rw [hcum chi x hc] at this
      exact (Except.ok.inj this).symm
    rw [← this]; exact ⟨h2, h4⟩
  refine ⟨pairTable_ok ctrl cum h0 h hn hf ?_ ?_, ?_⟩
  · intro chi f hc hf0 hf1
    obtain ⟨hd, hhalf⟩ := key chi hc
    constructor
    · rw [← hd.zero]; exact hd.mono 0 (chi * f) (le_refl _) (by positivity) (by nlinarith)
    · rw [← hhalf]; exact hd.mono _ _ (by positivity) (by nlinarith) (by linarith)
  · intro chi f g hc hf0 hfg hg
    exact (key chi hc).1.mono _ _ (by positivity) (by nlinarith) (by nlinarith)
  · obtain ⟨l, hl, hlen, e1, e2, e3, e4⟩ := logGrid_equispaced h0 h hn
    obtain ⟨f1, f2, f3, f4⟩ := linGrid_equispaced (by norm_num : (0 : ℝ) < 1 / 2) hf
    unfold BW.pairTable
    simp only [hl]
    set fr := generateLinSpacedVec 0 (1 / 2) ctrl.fracHowMany with hfr
    refine ⟨by simpa using hlen, f2, ?_⟩
    intro i j hi hj
    have hi' : i < l.length := by omega
    have hj' : j < fr.length := by omega
    have hc : 0 < l[i] := e4 _ (List.getElem_mem hi')
    refine ⟨l[i], fr[j], cum l[i] (fr[j] * l[i]), hc, by simp [List.getElem?_eq_getElem hi'], List.getElem?_eq_getElem hj', hcum _ _ hc, ?_⟩
    rw [← f2, flatMap_getElem? (n := fr.length) (by intro x; simp) l i j hj', List.getElem?_eq_getElem hi']
    simp only [Option.bind_some, List.getElem?_map, List.getElem?_range hj', Option.map_some, Option.some.injEq]
    congr 1
    unfold BW.pairVal
    split_ifs with g1 g2
    · subst g1
      have : fr[0] = 0 := by
        rw [List.head?_eq_getElem?, List.getElem?_eq_getElem hj'] at f3; exact Option.some.inj f3
      rw [this, zero_mul, (key _ hc).1.zero]
    · subst g2
      have : fr[fr.length - 1] = 1 / 2 := by
        rw [List.getLast?_eq_getElem?, List.getElem?_eq_getElem hj'] at f4; exact Option.some.inj f4
      rw [this, show (1 / 2 : ℝ) * l[i] = l[i] / 2 by ring, (key _ hc).2]
    · rw [List.getElem?_eq_getElem hj']
      simp only [mul_comm]

/-- Non-vacuity: such a function exists, so that the engine's table for 1 ≤ chi ≤ 16 with 3 rows and 3 columns is one. -/
example : ∃ cum : ℝ → ℝ → ℝ, ∀ chi x, 0 < chi → BW.cumulativePair chi x = .ok (cum chi x) := by
  classical
  have hex : ∀ chi : ℝ, ∃ F : ℝ → ℝ, 0 < chi → ∀ x, BW.cumulativePair chi x = .ok (F x) := by
    intro chi
    by_cases h : 0 < chi
    · obtain ⟨F, h1, _⟩ := C111_distribution chi h
      exact ⟨F, fun _ => h1⟩
    · exact ⟨fun _ => 0, fun h' => absurd h' h⟩
  choose F hF using hex
  exact ⟨F, fun chi x h => hF chi h x⟩

example : 0 < exBWCtrl.tpairMin ∧ exBWCtrl.tpairMin < exBWCtrl.tpairMax ∧ 2 ≤ exBWCtrl.tpairHowMany ∧ 2 ≤ exBWCtrl.fracHowMany := by
  norm_num [exBWCtrl]

/-! ### C112: the energy of an emitted photon -/

/-- C112: the emission rate function is positive for every positive quantum parameter. -/
theorem C112_rate (chi : ℝ) (h : 0 < chi) : 0 < QS.kkFunction chi := QS.kkFunction_pos h

/-- C112: for every lepton the cumulative distribution of the quantum parameter of the photon is a distribution on `[0, chi]` that takes every
value between 0 and 1 at exactly one point. -/
theorem C112_distribution (chi : ℝ) (h : 0 < chi) :
    ∃ F : ℝ → ℝ, (∀ x, 0 ≤ x → x ≤ chi → QS.cumulativePhotEm x chi = .ok (F x)) ∧ Spec.IsDistribution chi F ∧
      ∀ p, 0 < p → p < 1 → ∃! x, (0 < x ∧ x < chi) ∧ F x = p := by
  refine ⟨QS.dist chi, fun x => QS.cum_ok h, ⟨QS.dist_zero chi, QS.dist_one h, fun a b => QS.dist_mono h⟩, ?_⟩
  intro p h0 h1
  obtain ⟨x, hx0, hx1, he⟩ := QS.dist_surj h h0 h1
  refine ⟨x, ⟨⟨hx0, hx1⟩, he⟩, ?_⟩
  rintro y ⟨⟨hy0, hy1⟩, hy⟩
  rcases lt_trichotomy y x with hl | rfl | hl
  · have := QS.dist_mono h hy0.le hl hx1.le; linarith
  · rfl
  · have := QS.dist_mono h hx0.le hl hy1.le; linarith

/-- C112: beyond the quantum parameter of the lepton the cumulative distribution is 1. -/
theorem C112_beyond (chi x : ℝ) (h : 0 < chi) (hx : chi ≤ x) : QS.cumulativePhotEm x chi = .ok 1 := by
  have hnum := QS.num_eq h (h.le.trans hx)
  have e : (∫ c in (0 : ℝ)..x, QS.kkIntegrand chi c) = QS.kkFunction chi := by
    rw [QS.kkFunction_eq h, ← intervalIntegral.integral_add_adjacent_intervals (QS.kk_integrable h) (QS.kk_integrable_far hx)]
    have : (∫ c in chi..x, QS.kkIntegrand chi c) = ∫ c in chi..x, (0 : ℝ) := by
      refine intervalIntegral.integral_congr fun c hc => ?_
      rw [uIcc_of_le hx] at hc
      exact QS.kk_zero hc.1
    rw [this]; simp
  unfold QS.cumulativePhotEm
  simp only
  rw [if_pos]
  rw [ge_iff_le, hnum, e]

/-- C112: with a root finder that finds roots, each entry of the table computed by the engine is the logarithm of the fraction of the quantum
parameter that the photon has with the probability of the column; the fractions lie strictly between 0 and 1 and increase along each row. -/
theorem C112_table (ctrl : QSCtrl) (solve : ℝ → ℝ → ℝ → Option ℝ → ℝ) (hs : QS.SolvesRoots solve) (h0 : 0 < ctrl.temMin)
    (h : ctrl.temMin < ctrl.temMax) (hn : 2 ≤ ctrl.temHowMany) (hp : 2 ≤ ctrl.probHowMany) :
    ∃ F, Spec.IsPhotonTable ctrl.temMin ctrl.temMax F (QS.photTable ctrl solve) ∧
      (QS.photTable ctrl solve).coords0.length = ctrl.temHowMany ∧ (QS.photTable ctrl solve).coords1.length = ctrl.probHowMany ∧
      (∀ i j, i < ctrl.temHowMany → j < ctrl.probHowMany → F i j < 1 ∧ ∃ chi, 0 < chi ∧
        (QS.photTable ctrl solve).coords0[i]? = some (Real.log chi) ∧
        QS.cumulativePhotEm (F i j * chi) chi = .ok (Spec.columnProb ctrl.probHowMany j)) ∧
      ∀ i j k, i < ctrl.temHowMany → j < k → k < ctrl.probHowMany → F i j < F i k := by
  obtain ⟨l, hl, hlen, e1, e2, e3, e4⟩ := logGrid_equispaced h0 h hn
  obtain ⟨f1, f2, f3, f4⟩ := linGrid_equispaced (by norm_num : (0 : ℝ) < 1) hp
  have hpget : ∀ {j}, j < ctrl.probHowMany → (QS.rowProbs (generateLinSpacedVec 0 1 ctrl.probHowMany))[j]? = some (Spec.columnProb ctrl.probHowMany j) :=
    fun {j} hj => QS.rowProbs_get hp hj
  have hplen : (QS.rowProbs (generateLinSpacedVec 0 1 ctrl.probHowMany)).length = ctrl.probHowMany := by simp [QS.rowProbs, f2]
  set pr := generateLinSpacedVec 0 1 ctrl.probHowMany with hpr
  have hrl : ∀ chi, ((QS.rowFrom solve chi (-10) none (QS.rowProbs pr)).map XR.log).length = pr.length := by
    intro chi; simp [rowFrom_length, QS.rowProbs]
  have hrow : ∀ chi, 0 < chi → List.Forall₂ (fun x p => 0 < x ∧ x < 1 ∧ QS.dist chi (x * chi) = p)
      (QS.rowFrom solve chi (-10) none (QS.rowProbs pr)) (QS.rowProbs pr) := by
    intro chi hc
    refine QS.rowFrom_spec hs hc _ _ _ ?_ ?_ (by intro q hq; cases hq)
    · rw [List.pairwise_iff_getElem]
      intro i j hi hj hij
      have hi1 := hpget (j := i) (by omega)
      have hj1 := hpget (j := j) (by omega)
      rw [List.getElem?_eq_getElem hi] at hi1
      rw [List.getElem?_eq_getElem hj] at hj1
      rw [Option.some.inj hi1, Option.some.inj hj1]
      exact QS.columnProb_mono hij (by omega)
    · intro p hpm
      obtain ⟨j, hj, rfl⟩ := List.getElem_of_mem hpm
      have hj1 := hpget (j := j) (by omega)
      rw [List.getElem?_eq_getElem hj] at hj1
      rw [Option.some.inj hj1]
      exact QS.columnProb_range hp (by omega)
  have hget : ∀ chi j, 0 < chi → j < ctrl.probHowMany → ∃ x, (QS.rowFrom solve chi (-10) none (QS.rowProbs pr))[j]? = some x ∧
      0 < x ∧ x < 1 ∧ QS.dist chi (x * chi) = Spec.columnProb ctrl.probHowMany j := by
    intro chi j hc hj
    obtain ⟨hlen2, hget2⟩ := List.forall₂_iff_get.mp (hrow chi hc)
    have g1 : j < (QS.rowFrom solve chi (-10) none (QS.rowProbs pr)).length := by omega
    have g2 : j < (QS.rowProbs pr).length := by omega
    have h3 := hget2 j g1 g2
    have hj1 := hpget hj
    rw [List.getElem?_eq_getElem g2] at hj1
    simp only [List.get_eq_getElem] at h3
    rw [Option.some.inj hj1] at h3
    exact ⟨_, List.getElem?_eq_getElem g1, h3⟩
  refine ⟨fun i j => ((QS.rowFrom solve ((l[i]?).getD 0) (-10) none (QS.rowProbs pr))[j]?).getD 1, ?_, ?_, ?_, ?_, ?_⟩
  · unfold Spec.IsPhotonTable QS.photTable
    simp only [hl, ← hpr]
    refine ⟨e1, e2, e3, f1, f3, f4, ?_⟩
    intro i j hi hj
    simp only [List.length_map] at hi
    obtain ⟨x, g2, g3, _⟩ := hget l[i] j (e4 _ (List.getElem_mem hi)) (by omega)
    simp only [List.getElem?_eq_getElem hi, Option.getD_some, g2]
    refine ⟨g3, ?_⟩
    rw [flatMap_getElem? (n := pr.length) hrl l i j hj, List.getElem?_eq_getElem hi]
    simp [g2]
  · simp only [QS.photTable, hl, List.length_map, hlen]
  · simp only [QS.photTable]; exact f2
  · intro i j hi hj
    have hi' : i < l.length := by omega
    have hc : 0 < l[i] := e4 _ (List.getElem_mem hi')
    obtain ⟨x, g2, g3, g4, g5⟩ := hget l[i] j hc hj
    simp only [List.getElem?_eq_getElem hi', Option.getD_some, g2]
    refine ⟨g4, l[i], hc, by simp only [QS.photTable, hl, List.getElem?_map, List.getElem?_eq_getElem hi', Option.map_some], ?_⟩
    rw [QS.cum_ok hc (by positivity) (by nlinarith)]
    exact congrArg Except.ok g5
  · intro i j k hi hjk hk
    have hi' : i < l.length := by omega
    have hc : 0 < l[i] := e4 _ (List.getElem_mem hi')
    obtain ⟨x, g2, g3, g4, g5⟩ := hget l[i] j hc (by omega)
    obtain ⟨y, k2, k3, k4, k5⟩ := hget l[i] k hc hk
    simp only [List.getElem?_eq_getElem hi', Option.getD_some, g2, k2]
    have : x * l[i] < y * l[i] := QS.dist_lt hc (by positivity) (by nlinarith) (by
      rw [g5, k5]; exact QS.columnProb_mono hjk hk)
    exact lt_of_mul_lt_mul_right this hc.le

/-- C112, C75: with the table computed by the engine, emission only slows the lepton down, with no assumption on the entries of the table. -/
theorem C112_recoil (U : Units) (hU : U.Pos) (ctrl : QSCtrl) (solve : ℝ → ℝ → ℝ → Option ℝ → ℝ) (hs : QS.SolvesRoots solve)
    (h0 : 0 < ctrl.temMin) (h : ctrl.temMin < ctrl.temMax) (hn : 2 ≤ ctrl.temHowMany) (hp : 2 ≤ ctrl.probHowMany)
    (lambda : ℝ) (p e b : V3) (hp0 : p ≠ V3.zero) (hchi : chiLepton U p e b lambda ≠ 0) (weight : ℝ) (us : List ℝ)
    (hus : ∀ u ∈ us, 0 ≤ u ∧ u < 1) :
    ∃ a phs, QS.generatePhotons U ctrl (QS.photTable ctrl solve) lambda p e b weight us = .ok (some (V3.smul a p, phs)) ∧ 0 ≤ a ∧ a ≤ 1 := by
  obtain ⟨F, h1, h2, h3, h4, _⟩ := C112_table ctrl solve hs h0 h hn hp
  exact C75_recoil U hU ctrl _ F h1 (fun i j hi hj => (h4 i j (by omega) (by omega)).1.le) lambda p e b hp0 hchi weight us hus

/-- Non-vacuity: there is a root finder that finds roots. -/
example : ∃ solve, QS.SolvesRoots solve := by
  classical
  refine ⟨fun c p _ v => if h : ∃ r, QS.closure c p v r = .ok 0 then h.choose else 0, ?_⟩
  intro c p g v h
  beta_reduce
  rw [dif_pos h]; exact h.choose_spec

/-- Non-vacuity: with four columns the probabilities are 1/30, 1/3, 2/3 and 29/30. -/
example : Spec.columnProb 4 0 = 1 / 30 ∧ Spec.columnProb 4 1 = 1 / 3 ∧ Spec.columnProb 4 2 = 2 / 3 ∧ Spec.columnProb 4 3 = 29 / 30 := by
  unfold Spec.columnProb; norm_num

/-! ### C113: the rates -/

theorem linInterp_between {lo hi : ℝ} {n : ℕ} (h0 : 0 < lo) (h : lo < hi) (hn : 2 ≤ n) {G : ℝ → ℝ} (hG : ∀ c, 0 < c → 0 < G c)
    {chi v : ℝ} (hchi : 0 < chi)
    (hv : Spec.IsLinInterp (((generateLogSpacedVec lo hi n).filterMap id).map Real.log)
      (((generateLogSpacedVec lo hi n).filterMap id).map fun c => Real.log (G c)) (Real.log chi) v) :
    ∃ i cl cr, (((generateLogSpacedVec lo hi n).filterMap id).map Real.log)[i]? = some (Real.log cl) ∧
      (((generateLogSpacedVec lo hi n).filterMap id).map Real.log)[i + 1]? = some (Real.log cr) ∧ 0 < cl ∧ cl ≤ chi ∧ chi < cr ∧
      Spec.Between (G cl) (G cr) (Real.exp v) ∧ (chi = cl → Real.exp v = G chi) := by
  obtain ⟨l, hl, hlen, e1, e2, e3, e4⟩ := logGrid_equispaced h0 h hn
  rw [hl] at hv ⊢
  obtain ⟨i, xl, xr, yl, yr, a1, a2, a3, a4, a5, a6, a7⟩ := hv
  have hi : i + 1 < l.length := by
    have := (List.getElem?_eq_some_iff.mp a2).1; simpa using this
  have hi0 : i < l.length := by omega
  simp only [List.getElem?_map, List.getElem?_eq_getElem hi, List.getElem?_eq_getElem hi0, Option.map_some, Option.some.injEq] at a1 a2 a3 a4 ⊢
  have p1 := e4 _ (List.getElem_mem hi0)
  have p2 := e4 _ (List.getElem_mem hi)
  have q1 := hG _ p1
  have q2 := hG _ p2
  subst a1 a2 a3 a4
  have b1 : l[i] ≤ chi := (Real.log_le_log_iff p1 hchi).mp a5
  have b2 : chi < l[i + 1] := (Real.log_lt_log_iff hchi p2).mp a6
  set a := Real.log l[i]
  set b := Real.log l[i + 1]
  set w := Real.log chi
  have hab : 0 < b - a := by linarith
  have ht : (b - w) / (b - a) = 1 - (w - a) / (b - a) := by field_simp; ring
  have t0 : 0 ≤ (w - a) / (b - a) := div_nonneg (by linarith) hab.le
  have t1 : (w - a) / (b - a) ≤ 1 := by rw [div_le_one hab]; linarith
  set t := (w - a) / (b - a) with htd
  rw [ht] at a7
  refine ⟨i, l[i], l[i + 1], by simp [List.getElem?_eq_getElem hi0], by simp [List.getElem?_eq_getElem hi], p1, b1, b2, ?_, ?_⟩
  · unfold Spec.Between
    rcases le_total (G l[i]) (G l[i + 1]) with hle | hle
    · left
      have hlog := Real.log_le_log q1 hle
      constructor
      · rw [← Real.log_le_iff_le_exp q1]; nlinarith
      · rw [← Real.le_log_iff_exp_le q2]; nlinarith
    · right
      have hlog := Real.log_le_log q2 hle
      constructor
      · rw [← Real.log_le_iff_le_exp q2]; nlinarith
      · rw [← Real.le_log_iff_exp_le q1]; nlinarith
  · intro hc
    have : t = 0 := by rw [htd]; simp [w, a, ← hc]
    rw [a7, this, hc]; simp [Real.exp_log q1]

/-- C113: for every quantum parameter inside the range of the table, the tabulated pair-production rate is the formula with a value of the
integral between its values at the two neighbouring nodes; at a node it is the value at that node. -/
theorem C113_pair_rate (U : Units) (ctrl : BWCtrl) (h0 : 0 < ctrl.tdndtMin) (h : ctrl.tdndtMin < ctrl.tdndtMax) (hn : 2 ≤ ctrl.tdndtHowMany)
    (lambda energy chi : ℝ) (he : 0 < energy) (h1 : ctrl.tdndtMin < chi) (h2 : chi < ctrl.tdndtMax) :
    ∃ i cl cr v, (BW.dnDtTable ctrl BW.ttFunction).coords[i]? = some (Real.log cl) ∧
      (BW.dnDtTable ctrl BW.ttFunction).coords[i + 1]? = some (Real.log cr) ∧ 0 < cl ∧ cl ≤ chi ∧ chi < cr ∧
      Spec.Between (BW.ttFunction cl) (BW.ttFunction cr) v ∧ (chi = cl → v = BW.ttFunction chi) ∧
      BW.interpDnDt U ctrl (BW.dnDtTable ctrl BW.ttFunction) lambda energy chi = .ok (U.pairCoeff * U.lam lambda / (chi * energy) * v) := by
  obtain ⟨v, hv, hr⟩ := C26_rate_interp U ctrl _ h0 (C26_generated_table ctrl BW.ttFunction h0 h hn) lambda energy chi he h1 h2
  obtain ⟨i, cl, cr, c1, c2, c3, c4, c5, c6, c7⟩ := linInterp_between h0 h hn (fun c hc => BW.ttFunction_pos hc) (h0.trans h1) hv
  exact ⟨i, cl, cr, Real.exp v, c1, c2, c3, c4, c5, c6, c7, hr⟩

/-- C113: so at a node the rate from the table is the rate computed without the table, for an engine whose `lambda` is the one that its constructor
stores. -/
theorem C113_pair_node_partial (U : Units) (ctrl : BWCtrl) (h0 : 0 < ctrl.tdndtMin) (h : ctrl.tdndtMin < ctrl.tdndtMax) (hn : 2 ≤ ctrl.tdndtHowMany)
    (lambda energy chi : ℝ) (he : 0 < energy) (h1 : ctrl.tdndtMin < chi) (h2 : chi < ctrl.tdndtMax)
    (hnode : Real.log chi ∈ (BW.dnDtTable ctrl BW.ttFunction).coords) :
    BW.interpDnDt U ctrl (BW.dnDtTable ctrl BW.ttFunction) (U.lam lambda) energy chi
      = .ok (BW.computeDnDt U BW.ttFunction (U.lam lambda) energy chi) := by
  obtain ⟨i, cl, cr, v, c1, c2, c3, c4, c5, c6, c7, c8⟩ := C113_pair_rate U ctrl h0 h hn (U.lam lambda) energy chi he h1 h2
  have hc : 0 < chi := h0.trans h1
  have hpw := equispaced_pairwise (C26_generated_table ctrl BW.ttFunction h0 h hn).2.1
  have hcl : chi = cl := by
    obtain ⟨k, hk, hke⟩ := List.getElem_of_mem hnode
    obtain ⟨hi, hie⟩ := List.getElem?_eq_some_iff.mp c1
    obtain ⟨hi2, hie2⟩ := List.getElem?_eq_some_iff.mp c2
    rw [List.pairwise_iff_getElem] at hpw
    rcases lt_trichotomy k i with hki | rfl | hki
    · have := hpw k i hk hi hki
      rw [hke, hie] at this
      have := (Real.log_lt_log_iff hc c3).mp this
      linarith
    · rw [hke] at hie
      exact Real.log_injOn_pos hc c3 hie
    · exfalso
      have h3 : cr ≤ chi := by
        rw [← Real.log_le_log_iff (by linarith) hc, ← hke, ← hie2]
        rcases eq_or_lt_of_le (by omega : i + 1 ≤ k) with rfl | h'
        · exact le_refl _
        · exact (hpw (i + 1) k hi2 hk h').le
      linarith
  rw [c8, c7 hcl, lam_idem]
  unfold BW.computeDnDt
  rw [if_neg (by rintro (h | h) <;> linarith)]
  congr 1; ring

/-- C113 is false of an engine whose `lambda` has been set in SI units: the setter stores what it is given although the constructor enforces 1, so
without the table the rate is `lambda` times the one with the table. -/
theorem C113_set_lambda_refuted (U : Units) (hU : U.Pos) (hsi : U.si = true) (ctrl : BWCtrl) (h0 : 0 < ctrl.tdndtMin)
    (h : ctrl.tdndtMin < ctrl.tdndtMax) (hn : 2 ≤ ctrl.tdndtHowMany)
    (lambda energy chi : ℝ) (hl : lambda ≠ 1) (he : 0 < energy) (h1 : ctrl.tdndtMin < chi) (h2 : chi < ctrl.tdndtMax)
    (hnode : Real.log chi ∈ (BW.dnDtTable ctrl BW.ttFunction).coords) :
    ∃ r, BW.interpDnDt U ctrl (BW.dnDtTable ctrl BW.ttFunction) lambda energy chi = .ok r ∧
      BW.computeDnDt U BW.ttFunction lambda energy chi = lambda * r ∧ BW.computeDnDt U BW.ttFunction lambda energy chi ≠ r := by
  have hc : 0 < chi := h0.trans h1
  have hlam : ∀ l, U.lam l = 1 := fun l => by unfold Units.lam; rw [hsi]; rfl
  have key := C113_pair_node_partial U ctrl h0 h hn lambda energy chi he h1 h2 hnode
  have e : BW.interpDnDt U ctrl (BW.dnDtTable ctrl BW.ttFunction) lambda energy chi
      = BW.interpDnDt U ctrl (BW.dnDtTable ctrl BW.ttFunction) (U.lam lambda) energy chi := by
    unfold BW.interpDnDt; simp only [hlam]
  have hpos : 0 < BW.computeDnDt U BW.ttFunction 1 energy chi := by
    unfold BW.computeDnDt
    rw [if_neg (by rintro (h | h) <;> linarith)]
    have := BW.ttFunction_pos hc
    have := hU.pairCoeff
    positivity
  have hmul : BW.computeDnDt U BW.ttFunction lambda energy chi = lambda * BW.computeDnDt U BW.ttFunction 1 energy chi := by
    unfold BW.computeDnDt
    split_ifs <;> ring
  rw [hlam] at key e
  refine ⟨_, e.trans key, hmul, ?_⟩
  rw [hmul]
  intro hh
  apply hl
  have := mul_right_cancel₀ hpos.ne' (hh.trans (one_mul _).symm)
  exact this

/-- C113: the same for photon emission, for every quantum parameter inside the range of the table. -/
theorem C113_photon_rate (U : Units) (ctrl : QSCtrl) (h0 : 0 < ctrl.tdndtMin) (h : ctrl.tdndtMin < ctrl.tdndtMax) (hn : 2 ≤ ctrl.tdndtHowMany)
    (lambda energy chi : ℝ) (he : 0 < energy) (h1 : ctrl.tdndtMin ≤ chi) (h2 : chi < ctrl.tdndtMax) :
    ∃ i cl cr v, (QS.dnDtTable ctrl QS.kkFunction).coords[i]? = some (Real.log cl) ∧
      (QS.dnDtTable ctrl QS.kkFunction).coords[i + 1]? = some (Real.log cr) ∧ 0 < cl ∧ cl ≤ chi ∧ chi < cr ∧
      Spec.Between (QS.kkFunction cl) (QS.kkFunction cr) v ∧ (chi = cl → v = QS.kkFunction chi) ∧
      QS.interpDnDt U ctrl (QS.dnDtTable ctrl QS.kkFunction) lambda energy chi = .ok (U.qsCoeff * lambda / energy * v) ∧
      (chi = cl → QS.interpDnDt U ctrl (QS.dnDtTable ctrl QS.kkFunction) lambda energy chi
        = .ok (QS.computeDnDt U QS.kkFunction lambda energy chi)) := by
  have hc : 0 < chi := h0.trans_le h1
  obtain ⟨v, hv, hs⟩ := rateTable_interp h0 (C28_generated_table ctrl QS.kkFunction h0 h hn) h1 h2
  obtain ⟨i, cl, cr, c1, c2, c3, c4, c5, c6, c7⟩ := linInterp_between h0 h hn (fun c hc => QS.kkFunction_pos hc) hc hs
  have hcl : QS.clampRate ctrl.tdndtMin ctrl.tdndtMax chi = chi := by
    unfold QS.clampRate
    split_ifs with g1 g2
    · exact le_antisymm h1 g1
    · linarith
    · rfl
  have hr : QS.interpDnDt U ctrl (QS.dnDtTable ctrl QS.kkFunction) lambda energy chi = .ok (U.qsCoeff * lambda / energy * Real.exp v) := by
    unfold QS.interpDnDt
    rw [if_neg (by rintro (h | h) <;> linarith), hcl, hv]
    simp only [except_bind_ok, mul_one]
    rfl
  refine ⟨i, cl, cr, Real.exp v, c1, c2, c3, c4, c5, c6, c7, hr, fun hh => ?_⟩
  rw [hr, c7 hh]
  unfold QS.computeDnDt
  rw [if_neg (by rintro (h | h) <;> linarith)]
  congr 1; ring

/-- Non-vacuity: with three nodes from 1 to 16 the middle one is 4. -/
example : 1 < (4 : ℝ) ∧ (4 : ℝ) < 16 ∧ Real.log 4 ∈ (BW.dnDtTable exBWCtrl BW.ttFunction).coords := by
  refine ⟨by norm_num, by norm_num, ?_⟩
  obtain ⟨l, hl, hlen, ⟨hl2, a, d, hd, hget⟩, e2, e3, e4⟩ := logGrid_equispaced (lo := 1) (hi := 16) (n := 3) (by norm_num) (by norm_num) (by norm_num)
  simp only [List.length_map] at hget
  have hlen' : (l.map Real.log).length = 3 := by simpa using hlen
  have g0 := hget 0 (by omega)
  have g1 := hget 1 (by omega)
  have g2 := hget 2 (by omega)
  rw [List.head?_eq_getElem?, g0] at e2
  rw [List.getLast?_eq_getElem?, hlen', g2] at e3
  have k1 := Option.some.inj e2
  have k2 := Option.some.inj e3
  have : Real.log 4 = a + (1 : ℕ) * d := by
    have h16 : Real.log 16 = 2 * Real.log 4 := by rw [show (16 : ℝ) = 4 ^ 2 by norm_num, Real.log_pow]; norm_num
    rw [Real.log_one] at k1
    rw [h16] at k2
    push_cast at k1 k2 ⊢
    linarith
  show Real.log 4 ∈ (((generateLogSpacedVec 1 16 3).filterMap id).map Real.log)
  rw [hl, this]
  exact List.mem_of_getElem? g1

end Picsar.Props
