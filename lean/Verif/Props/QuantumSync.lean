import Verif.Lemmas.QuantumSync
import Verif.Props.OpticalDepth

/-
Property theorems C27, C75: photon emission (quantum_sync_engine.hpp).
-/
namespace Picsar.Props
open Picsar

theorem carried_const (wl wt : ℝ) (n : V3) (c : ℝ) (fs : List ℝ) :
    Spec.carriedMomentum wl (fs.map fun f => (V3.smul (f * c) n, wt))
      = V3.smul (wt / wl * (fs.sum * c)) n := by
  induction fs with
  | nil => simp [Spec.carriedMomentum, V3.smul, V3.zero]
  | cons f fs ih =>
    simp only [List.map_cons, Spec.carriedMomentum, ih, List.sum_cons]
    simp only [V3.smul, V3.add, V3.mk.injEq]
    refine ⟨?_, ?_, ?_⟩ <;> ring

/-- C27 (moving lepton with non-vanishing quantum parameter): the photons carry weight `w/s`, go along the lepton
momentum, and momentum is conserved. -/
theorem C27_emission_partial (U : Units) (hU : U.Pos) (ctrl : QSCtrl) (t : Tab2X) (F : ℕ → ℕ → ℝ)
    (ht : Spec.IsPhotonTable ctrl.temMin ctrl.temMax F t) (lambda : ℝ) (p e b : V3) (hp : p ≠ V3.zero)
    (hchi : chiLepton U p e b lambda ≠ 0) (weight : ℝ) (hw : weight ≠ 0) (us : List ℝ)
    (hus : ∀ u ∈ us, 0 ≤ u ∧ u < 1) :
    ∃ pf phs, QS.generatePhotons U ctrl t lambda p e b weight us = .ok (some (pf, phs)) ∧
      phs.length = us.length ∧ (∀ ph ∈ phs, ph.2 = weight / us.length ∧ Spec.Along ph.1 p) ∧
      p = pf.add (Spec.carriedMomentum weight phs) := by
  have hm : 0 < U.emass * U.c := mul_pos hU.emass hU.c
  have hn : 0 < Real.sqrt p.norm2 := V3.norm_pos hp
  have hg : 1 ≤ Real.sqrt (1 + p.norm2 / (U.emass * U.c) / (U.emass * U.c)) := by
    rw [Real.one_le_sqrt]
    have := p.norm2_nonneg
    have : 0 ≤ p.norm2 / (U.emass * U.c) / (U.emass * U.c) := by positivity
    linarith
  unfold QS.generatePhotons
  simp only [chiLepton_lam]
  rw [if_neg hn.ne']
  obtain ⟨fs, e1, e2, _, e4⟩ := emitAll_spec ht (U.emass * U.c)
    (Real.log (BW.clampChi ctrl.temMin ctrl.temMax (chiLepton U p e b lambda))) _
    (Real.sqrt (1 + p.norm2 / (U.emass * U.c) / (U.emass * U.c))) (p.sdiv (Real.sqrt p.norm2))
    (1 / (us.length : ℝ)) (weight / us.length) hchi us p hus
  rw [e4]
  refine ⟨_, _, rfl, by simp [e1], ?_, ?_⟩
  · intro ph hph
    simp only [List.mem_map] at hph
    obtain ⟨f, hf, rfl⟩ := hph
    have := e2 f hf
    refine ⟨rfl, along_unit ?_⟩
    have : 0 ≤ Real.sqrt (1 + p.norm2 / (U.emass * U.c) / (U.emass * U.c)) - 1 := by linarith
    positivity
  · set g := Real.sqrt (1 + p.norm2 / (U.emass * U.c) / (U.emass * U.c)) - 1 with hgd
    have hcc := carried_const weight (weight / us.length) (p.sdiv (Real.sqrt p.norm2)) (g * (U.emass * U.c)) fs
    simp only [mul_assoc] at hcc ⊢
    rw [hcc]
    have : weight / (us.length : ℝ) / weight = 1 / us.length := by field_simp
    rw [this]
    generalize Real.sqrt p.norm2 = nn
    cases p
    simp only [V3.sub, V3.add, V3.smul, V3.sdiv, V3.mk.injEq]
    refine ⟨?_, ?_, ?_⟩ <;> ring

/-- C27 is false of the code for a lepton without quantum parameter (no field) or at rest: all generated momenta and
the lepton momentum become not-a-number (`0/0`). -/
theorem C27_zero_chi_refuted (U : Units) (ctrl : QSCtrl) (t : Tab2X) (F : ℕ → ℕ → ℝ)
    (ht : Spec.IsPhotonTable ctrl.temMin ctrl.temMax F t) (lambda : ℝ) (p e b : V3)
    (hchi : chiLepton U p e b lambda = 0) (weight u : ℝ) (h0 : 0 ≤ u) (h1 : u < 1) (us : List ℝ) :
    QS.generatePhotons U ctrl t lambda p e b weight (u :: us) = .ok none := by
  unfold QS.generatePhotons
  simp only [chiLepton_lam, hchi]
  split_ifs with h
  · rfl
  · obtain ⟨f, hf, _⟩ := photFrac ht (Real.log (BW.clampChi ctrl.temMin ctrl.temMax 0)) u h0 h1
    simp only [QS.emitAll, hf, except_bind_ok, if_true]
    rfl

/-- C75: if all tabulated photon fractions are at most 1, emission only slows the lepton down: its final momentum is
a fraction in `[0,1]` of the initial one. -/
theorem C75_recoil (U : Units) (hU : U.Pos) (ctrl : QSCtrl) (t : Tab2X) (F : ℕ → ℕ → ℝ)
    (ht : Spec.IsPhotonTable ctrl.temMin ctrl.temMax F t)
    (hF : ∀ i j, i < t.coords0.length → j < t.coords1.length → F i j ≤ 1)
    (lambda : ℝ) (p e b : V3) (hp : p ≠ V3.zero)
    (hchi : chiLepton U p e b lambda ≠ 0) (weight : ℝ) (us : List ℝ)
    (hus : ∀ u ∈ us, 0 ≤ u ∧ u < 1) :
    ∃ a phs, QS.generatePhotons U ctrl t lambda p e b weight us = .ok (some (V3.smul a p, phs)) ∧
      0 ≤ a ∧ a ≤ 1 := by
  have hm : 0 < U.emass * U.c := mul_pos hU.emass hU.c
  have hn : 0 < Real.sqrt p.norm2 := V3.norm_pos hp
  set q := Real.sqrt p.norm2 with hq
  have hq2 : p.norm2 = q * q := (V3.norm_sq p).symm
  set mec := U.emass * U.c with hmec
  set g := Real.sqrt (1 + p.norm2 / mec / mec) with hg
  have hg1 : 1 ≤ g := by
    rw [hg, Real.one_le_sqrt]
    have := p.norm2_nonneg
    have : 0 ≤ p.norm2 / mec / mec := by positivity
    linarith
  have hg2 : (g - 1) * mec ≤ q := by
    have : g ≤ 1 + q / mec := by
      rw [hg]
      apply Real.sqrt_le_iff.mpr
      refine ⟨by positivity, ?_⟩
      rw [hq2]
      have : 0 ≤ q / mec := by positivity
      have e : q * q / mec / mec = (q / mec) ^ 2 := by field_simp
      rw [e]; nlinarith
    have := mul_le_mul_of_nonneg_right this hm.le
    have e : (1 + q / mec) * mec = mec + q := by field_simp
    rw [e] at this
    linarith
  unfold QS.generatePhotons
  simp only [chiLepton_lam]
  rw [if_neg hn.ne']
  obtain ⟨fs, e1, e2, e3, e4⟩ := emitAll_spec ht mec
    (Real.log (BW.clampChi ctrl.temMin ctrl.temMax (chiLepton U p e b lambda))) _
    g (p.sdiv q) (1 / (us.length : ℝ)) (weight / us.length) hchi us p hus
  rw [e4]
  have hs0 : 0 ≤ fs.sum := List.sum_nonneg fun x hx => (e2 x hx).le
  have hs1 : fs.sum ≤ us.length := by
    have := List.sum_le_card_nsmul fs 1 (e3 hF)
    simpa [e1] using this
  have hpf : p.sub (V3.smul (1 / (us.length : ℝ) * (fs.sum * (g - 1) * mec)) (p.sdiv q))
      = V3.smul (1 - 1 / (us.length : ℝ) * (fs.sum * (g - 1) * mec) / q) p := by
    simp only [V3.sub, V3.smul, V3.sdiv, V3.mk.injEq]
    refine ⟨?_, ?_, ?_⟩ <;> ring
  rw [hpf]
  refine ⟨1 - 1 / (us.length : ℝ) * (fs.sum * (g - 1) * mec) / q, _, rfl, ?_, ?_⟩
  · have h1 : 1 / (us.length : ℝ) * fs.sum ≤ 1 := by
      rcases Nat.eq_zero_or_pos us.length with h | h
      · simp [h]
      · have : (0 : ℝ) < us.length := by exact_mod_cast h
        rw [one_div, inv_mul_le_one₀ this]; exact hs1
    have h2 : 1 / (us.length : ℝ) * (fs.sum * (g - 1) * mec) ≤ q := by
      have h3 : 0 ≤ (g - 1) * mec := mul_nonneg (by linarith) hm.le
      calc 1 / (us.length : ℝ) * (fs.sum * (g - 1) * mec)
          = (1 / (us.length : ℝ) * fs.sum) * ((g - 1) * mec) := by ring
        _ ≤ 1 * ((g - 1) * mec) := mul_le_mul_of_nonneg_right h1 h3
        _ ≤ q := by linarith
    have := (div_le_one hn).mpr h2
    linarith
  · have : 0 ≤ g - 1 := by linarith
    have : 0 ≤ 1 / (us.length : ℝ) * (fs.sum * (g - 1) * mec) / q := by positivity
    linarith

theorem rowFrom_length (solve : ℝ → ℝ → ℝ → Option ℝ → ℝ) (chi : ℝ) :
    ∀ (probs : List ℝ) (g : ℝ) (prev : Option ℝ), (QS.rowFrom solve chi g prev probs).length = probs.length
  | [], _, _ => rfl
  | p :: ps, g, prev => by simp [QS.rowFrom, rowFrom_length solve chi ps]

theorem rowFrom_pos (solve : ℝ → ℝ → ℝ → Option ℝ → ℝ) (chi : ℝ) :
    ∀ (probs : List ℝ) (g : ℝ) (prev : Option ℝ), ∀ x ∈ QS.rowFrom solve chi g prev probs, 0 < x
  | [], _, _, x, hx => by simp [QS.rowFrom] at hx
  | p :: ps, g, prev, x, hx => by
    simp only [QS.rowFrom, List.mem_cons] at hx
    rcases hx with rfl | hx
    · exact Real.exp_pos _
    · exact rowFrom_pos solve chi ps _ _ x hx

theorem rowFrom_le_one (solve : ℝ → ℝ → ℝ → Option ℝ → ℝ) (hs : ∀ c p g v, solve c p g v ≤ 0) (chi : ℝ) :
    ∀ (probs : List ℝ) (g : ℝ) (prev : Option ℝ), ∀ x ∈ QS.rowFrom solve chi g prev probs, x ≤ 1
  | [], _, _, x, hx => by simp [QS.rowFrom] at hx
  | p :: ps, g, prev, x, hx => by
    simp only [QS.rowFrom, List.mem_cons] at hx
    rcases hx with rfl | hx
    · exact Real.exp_le_one_iff.mpr (hs _ _ _ _)
    · exact rowFrom_le_one solve hs chi ps _ _ x hx

/-- C27, C75: the table computed by the engine has the assumed shape, whatever the root finder returns; its fractions
are at most 1 if the root finder returns non-positive logarithms. -/
theorem C27_generated_table (ctrl : QSCtrl) (solve : ℝ → ℝ → ℝ → Option ℝ → ℝ) (h0 : 0 < ctrl.temMin)
    (h : ctrl.temMin < ctrl.temMax) (hn : 2 ≤ ctrl.temHowMany) (hp : 2 ≤ ctrl.probHowMany) :
    ∃ F, Spec.IsPhotonTable ctrl.temMin ctrl.temMax F (QS.photTable ctrl solve) ∧
      ((∀ c p g v, solve c p g v ≤ 0) → ∀ i j, i < (QS.photTable ctrl solve).coords0.length →
        j < (QS.photTable ctrl solve).coords1.length → F i j ≤ 1) := by
  obtain ⟨l, hl, hlen, e1, e2, e3, e4⟩ := logGrid_equispaced h0 h hn
  obtain ⟨f1, f2, f3, f4⟩ := linGrid_equispaced (by norm_num : (0 : ℝ) < 1) hp
  set pr := generateLinSpacedVec 0 1 ctrl.probHowMany with hpr
  have hrl : ∀ chi, ((QS.rowFrom solve chi (-10) none (QS.rowProbs pr)).map XR.log).length = pr.length := by
    intro chi; simp [rowFrom_length, QS.rowProbs]
  have hget : ∀ i j, i < l.length → j < pr.length → ∃ chi x, l[i]? = some chi ∧
      (QS.rowFrom solve chi (-10) none (QS.rowProbs pr))[j]? = some x := by
    intro i j hi hj
    refine ⟨l[i], (QS.rowFrom solve l[i] (-10) none (QS.rowProbs pr))[j]'(by
      rw [rowFrom_length]; simp [QS.rowProbs, hj]), List.getElem?_eq_getElem hi,
      List.getElem?_eq_getElem _⟩
  refine ⟨fun i j => ((QS.rowFrom solve ((l[i]?).getD 0) (-10) none (QS.rowProbs pr))[j]?).getD 1, ?_, ?_⟩
  · unfold Spec.IsPhotonTable QS.photTable
    simp only [hl, ← hpr]
    refine ⟨e1, e2, e3, f1, f3, f4, ?_⟩
    intro i j hi hj
    simp only [List.length_map] at hi
    obtain ⟨chi, x, g1, g2⟩ := hget i j hi hj
    simp only [g1, Option.getD_some, g2]
    refine ⟨rowFrom_pos solve chi _ _ _ x (List.mem_of_getElem? g2), ?_⟩
    rw [flatMap_getElem? (n := pr.length) hrl l i j hj, g1]
    simp [g2]
  · intro hs i j hi hj
    simp only [QS.photTable, hl, ← hpr, List.length_map] at hi hj
    obtain ⟨chi, x, g1, g2⟩ := hget i j hi hj
    simp only [g1, Option.getD_some, g2]
    exact rowFrom_le_one solve hs chi _ _ _ x (List.mem_of_getElem? g2)

/-- Non-vacuity: a lepton moving along x in a transverse magnetic field has a non-zero quantum parameter. -/
example : (⟨1, 0, 0⟩ : V3) ≠ V3.zero ∧ chiLepton exUnits ⟨1, 0, 0⟩ V3.zero ⟨0, 1, 0⟩ 1 ≠ 0 := by
  constructor
  · simp [V3.zero]
  · have hb : Real.sqrt (1 - 1 / (1 + Real.sqrt 1 * Real.sqrt 1)) ≠ 0 := by
      rw [Real.sqrt_one]; apply (Real.sqrt_pos.mpr (by norm_num)).ne'
    unfold chiLepton
    simp only [V3.norm2, exUnits, V3.sdiv, V3.smul, V3.dot, V3.zero, V3.cross, V3.add, Units.lam]
    norm_num

/-- Non-vacuity: a 3x3 table generated by the engine with fractions at most 1. -/
example : ∃ t F, Spec.IsPhotonTable 1 16 F t ∧
    ∀ i j, i < t.coords0.length → j < t.coords1.length → F i j ≤ 1 := by
  obtain ⟨F, h1, h2⟩ := C27_generated_table ⟨1, 1, 2, 3, 1, 16, 3, 3⟩ (fun _ _ _ _ => -1) (by norm_num)
    (by norm_num) (by norm_num) (by norm_num)
  exact ⟨_, F, h1, h2 (fun _ _ _ _ => by norm_num)⟩

end Picsar.Props
