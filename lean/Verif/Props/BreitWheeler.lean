import Verif.Lemmas.BreitWheeler
import Verif.Props.OpticalDepth

/-
Property theorems C24, C25: generation of electron-positron pairs (breit_wheeler_engine.hpp).
-/
namespace Picsar.Props
open Picsar

/-! ### C25 -/

/-- C25: for every table of cumulative probabilities, every chi and every draw, the search ends, the two columns it
finds are adjacent, inside the table, and bracket the drawn probability. `Vs` are the probabilities the table gives
for this chi. -/
theorem C25_search (t : Tab2X) (lo hi : ℝ) (P : ℕ → ℕ → ℝ) (ht : Spec.IsPairTable lo hi P t) (logChi u : ℝ)
    (h0 : 0 ≤ u) (h1 : u < 1) :
    ∃ Vs : List ℝ, Spec.IsGrid Vs 0 (1 / 2) t.coords1.length ∧
      (∀ j v, 0 < j → Vs[j]? = some v → BW.colVal t logChi j = .ok (.fin v)) ∧
      ∃ lower vl vu, BW.search t logChi (Spec.folded u) 0 t.coords1.length = .ok (lower + 1) ∧
        Vs[lower]? = some vl ∧ Vs[lower + 1]? = some vu ∧ vl ≤ Spec.folded u ∧ Spec.folded u < vu := by
  obtain ⟨V, hV0, hVl, hVm, hV, hz1, hz2⟩ := colVal_spec ht logChi
  have hl1 : 2 ≤ t.coords1.length := ht.2.2.2.1.1
  have hp0 : 0 ≤ Spec.folded u := by unfold Spec.folded; split_ifs <;> linarith
  have hp1 : Spec.folded u < 1 / 2 := by unfold Spec.folded; split_ifs <;> linarith
  obtain ⟨l, s1, s2, s3, s4⟩ := search_bracket ht logChi _ hp0 hp1 hV0 hVl hVm hV (by
    by_cases hnode : Spec.IsInteriorNode t.coords0 logChi
    · exact .inr (hz2 hnode)
    · exact .inl (hz1 hnode))
  have hget : ∀ j, j < t.coords1.length →
      ((List.range t.coords1.length).map V)[j]? = some (V j) := by
    intro j hj
    simp [List.getElem?_range hj]
  refine ⟨(List.range t.coords1.length).map V, ⟨by simp, ?_, ?_, ?_⟩, ?_, l, V l, V (l + 1), s1,
    hget _ (by omega), hget _ s2, s3, s4⟩
  · rw [List.head?_eq_getElem?, hget 0 (by omega), hV0]
  · rw [List.getLast?_eq_getElem?]
    simp only [List.length_map, List.length_range]
    rw [hget _ (by omega), hVl]
  · rw [List.pairwise_iff_getElem]
    intro i j hi hj hij
    simp only [List.length_map, List.length_range] at hi hj
    simpa using hVm i j hij hj
  · intro j v hj hv
    have hjl : j < t.coords1.length := by
      have := (List.getElem?_eq_some_iff.mp hv).1
      simpa using this
    rw [hget j hjl] at hv
    cases hv
    exact hV j hj hjl

/-- C25: when the logarithm of chi is not an interior grid point, the fraction is the linear interpolation of the
inverse of the cumulative distribution; it lies in `[0,1/2]`. -/
theorem C25_fraction (t : Tab2X) (lo hi : ℝ) (P : ℕ → ℕ → ℝ) (ht : Spec.IsPairTable lo hi P t) (logChi u : ℝ)
    (hok : ¬ Spec.IsInteriorNode t.coords0 logChi ∨
      ∃ v, BW.colVal t logChi 1 = .ok (.fin v) ∧ v ≤ Spec.folded u)
    (h0 : 0 ≤ u) (h1 : u < 1) :
    ∃ Vs f, Spec.IsGrid Vs 0 (1 / 2) t.coords1.length ∧
      (∀ j v, 0 < j → Vs[j]? = some v → BW.colVal t logChi j = .ok (.fin v)) ∧
      BW.fracOf t logChi (Spec.folded u) = .ok (some f) ∧
      Spec.IsLinInterp Vs t.coords1 (Spec.folded u) f ∧ 0 ≤ f ∧ f ≤ 1 / 2 := by
  obtain ⟨Vs, hg, hc, l, vl, vu, s1, s2, s3, s4, s5⟩ := C25_search t lo hi P ht logChi u h0 h1
  obtain ⟨glen, ghead, glast, gpw⟩ := id hg
  obtain ⟨_, _, _, he1, hh1, hl1, _, _⟩ := id ht
  have hpw1 := equispaced_pairwise he1
  have hup : l + 1 < t.coords1.length := by
    have := (List.getElem?_eq_some_iff.mp s3).1; omega
  have hlow : l < t.coords1.length := by omega
  set fl := t.coords1[l] with hfl
  set fu := t.coords1[l + 1] with hfu
  have hfl' : t.coords1[l]? = some fl := List.getElem?_eq_getElem hlow
  have hfu' : t.coords1[l + 1]? = some fu := List.getElem?_eq_getElem hup
  have hll : BW.colVal t logChi l = .ok (.fin vl) := by
    rcases Nat.eq_zero_or_pos l with rfl | hl
    · have hv0 : vl = 0 := by
        rw [← List.head?_eq_getElem?, ghead] at s2; cases s2; rfl
      rcases hok with hn | ⟨v, hv, hv2⟩
      · obtain ⟨V, _, _, _, _, hz1, _⟩ := colVal_spec ht logChi
        rw [hz1 hn, hv0]
      · exfalso
        rw [hc 1 vu (by norm_num) s3] at hv
        cases hv
        linarith
    · exact hc l vl hl s2
  have hlu := hc (l + 1) vu (by omega) s3
  have hne : vu - vl ≠ 0 := by linarith
  have hd : 0 < vu - vl := by linarith
  have hflu : fl < fu := List.pairwise_iff_getElem.mp hpw1 l (l + 1) hlow hup (by omega)
  have hfl0 : 0 ≤ fl := by
    rcases Nat.eq_zero_or_pos l with rfl | hl
    · rw [List.head?_eq_getElem?, hfl', Option.some.injEq] at hh1; rw [hh1]
    · have := List.pairwise_iff_getElem.mp hpw1 0 l (by omega) hlow hl
      rw [List.head?_eq_getElem?, List.getElem?_eq_getElem (by omega)] at hh1
      simp only [Option.some.injEq] at hh1
      rw [hh1] at this
      exact this.le
  have hfu1 : fu ≤ 1 / 2 := by
    rw [List.getLast?_eq_getElem?, List.getElem?_eq_getElem (by omega)] at hl1
    simp only [Option.some.injEq] at hl1
    rcases Nat.lt_or_ge (l + 1) (t.coords1.length - 1) with hl | hl
    · have := List.pairwise_iff_getElem.mp hpw1 (l + 1) (t.coords1.length - 1) hup (by omega) hl
      rw [hl1] at this
      exact this.le
    · have : l + 1 = t.coords1.length - 1 := by omega
      have e : t.coords1[l + 1] = 1 / 2 := by
        rw [← hl1]; congr 1
      rw [hfu, e]
  have hr : 0 ≤ (Spec.folded u - vl) / (vu - vl) := div_nonneg (by linarith) hd.le
  have hr1 : (Spec.folded u - vl) / (vu - vl) ≤ 1 := by rw [div_le_one hd]; linarith
  have hf : fl + (Spec.folded u - vl) * (fu - fl) / (vu - vl)
      = fl + (Spec.folded u - vl) / (vu - vl) * (fu - fl) := by ring
  refine ⟨Vs, fl + (Spec.folded u - vl) * (fu - fl) / (vu - vl), hg, hc, ?_, ?_, ?_, ?_⟩
  · unfold BW.fracOf
    rw [s1]
    simp only [except_bind_ok, predIdx]
    rw [rd_eq_ok hfu']
    simp only [except_bind_ok]
    rw [rd_eq_ok (by exact hfl')]
    simp only [except_bind_ok, hlu]
    rw [hll]
    simp only [except_bind_ok, XR.toFl]
    rw [if_neg hne]
    rfl
  · refine ⟨l, vl, vu, fl, fu, s2, s3, hfl', hfu', s4, s5, ?_⟩
    field_simp
    ring
  · rw [hf]; nlinarith
  · rw [hf]; nlinarith

/-! ### C24 -/

/-- C24, one pair. -/
theorem C24_pair (U : Units) (hU : U.Pos) (t : Tab2X) (lo hi : ℝ) (P : ℕ → ℕ → ℝ)
    (ht : Spec.IsPairTable lo hi P t) (logChi chi : ℝ) (hchi : 0 < chi) (p : V3)
    (hth : 2 * (U.emass * U.c ^ 2) ≤ Spec.photonEnergy U p) (wt u : ℝ)
    (hok : ¬ Spec.IsInteriorNode t.coords0 logChi ∨
      ∃ v, BW.colVal t logChi 1 = .ok (.fin v) ∧ v ≤ Spec.folded u)
    (h0 : 0 ≤ u) (h1 : u < 1) :
    ∃ q, BW.genOne U t logChi chi p wt u = .ok (some q) ∧ Spec.IsConservingPair U p chi wt q := by
  have hc := hU.c
  have hm := hU.emass
  obtain ⟨_, f, _, _, hf, _, hf0, hf1⟩ := C25_fraction t lo hi P ht logChi u hok h0 h1
  have hpn : 0 < p.norm := by
    unfold Spec.photonEnergy at hth
    have h2 : 0 < p.norm * U.c := lt_of_lt_of_le (by positivity) hth
    exact pos_of_mul_pos_left h2 hc.le
  have hg : 2 ≤ p.norm / (U.emass * U.c) := by
    rw [le_div_iff₀ (by positivity)]
    unfold Spec.photonEnergy at hth
    have : 2 * (U.emass * U.c) * U.c ≤ p.norm * U.c := by nlinarith
    exact le_of_mul_le_mul_right this hc
  set g := p.norm / (U.emass * U.c) with hgdef
  have hco : 0 ≤ (g - 2) / chi := div_nonneg (by linarith) hchi.le
  have hE : Spec.photonEnergy U p = U.emass * U.c ^ 2 * g := by
    unfold Spec.photonEnergy; rw [hgdef]; field_simp
  have habs : ∀ x, 0 ≤ x → BW.absMom (U.emass * U.c) x ((g - 2) / chi)
      = some (Real.sqrt ((1 + x * ((g - 2) / chi)) * (1 + x * ((g - 2) / chi)) - 1) * (U.emass * U.c)) := by
    intro x hx
    unfold BW.absMom
    have : 0 ≤ x * ((g - 2) / chi) := mul_nonneg hx hco
    simp only
    rw [if_neg (by nlinarith)]
  have key : ∀ ce cp, 0 ≤ ce → 0 ≤ cp → ce + cp = chi →
      Spec.IsConservingPair U p chi wt
        ⟨V3.smul (Real.sqrt ((1 + ce * ((g - 2) / chi)) * (1 + ce * ((g - 2) / chi)) - 1) *
            (U.emass * U.c)) (p.sdiv p.norm),
          V3.smul (Real.sqrt ((1 + cp * ((g - 2) / chi)) * (1 + cp * ((g - 2) / chi)) - 1) *
            (U.emass * U.c)) (p.sdiv p.norm), wt, wt⟩ := by
    intro ce cp hce hcp hsum
    have e1 := leptonEnergy_along U hU hpn.ne' (mul_nonneg hce hco)
    have e2 := leptonEnergy_along U hU hpn.ne' (mul_nonneg hcp hco)
    refine ⟨rfl, rfl, along_unit (by positivity), along_unit (by positivity), ?_, ce, cp, hce, hcp, hsum, ?_, ?_⟩
    · simp only [e1, e2, hE]
      have : ce * ((g - 2) / chi) + cp * ((g - 2) / chi) = g - 2 := by
        rw [← add_mul, hsum]; field_simp
      linear_combination (U.emass * U.c ^ 2) * this
    · simp only [e1, hE]; field_simp
    · simp only [e2, hE]; field_simp
  have hfold : (if u ≥ 1 / 2 then u - 1 / 2 else u) = Spec.folded u := rfl
  unfold BW.genOne
  simp only [hfold, hf, except_bind_ok]
  rw [if_neg (by rintro (h | h) <;> linarith)]
  have hx1 : 0 ≤ f * chi := mul_nonneg hf0 hchi.le
  have hx2 : 0 ≤ chi - f * chi := by nlinarith
  by_cases hinv : u ≥ 1 / 2
  · simp only [hinv, if_true, ← hgdef, habs _ hx1, habs _ hx2]
    exact ⟨_, rfl, key _ _ hx2 hx1 (by ring)⟩
  · simp only [hinv, if_false, ← hgdef, habs _ hx1, habs _ hx2]
    exact ⟨_, rfl, key _ _ hx1 hx2 (by ring)⟩

/-- C24: `s` pairs, each conserving weight, direction, quantum parameter and energy, for every photon above the
threshold and every sequence of draws in `[0,1)`, provided no draw falls in the first cell of the table while `log chi`
is exactly an interior grid point. -/
theorem C24_generate_partial (U : Units) (hU : U.Pos) (ctrl : BWCtrl) (t : Tab2X) (P : ℕ → ℕ → ℝ)
    (ht : Spec.IsPairTable ctrl.tpairMin ctrl.tpairMax P t) (lambda : ℝ) (p e b : V3)
    (hth : 2 * (U.emass * U.c ^ 2) ≤ Spec.photonEnergy U p) (hchi : 0 < chiPhoton U p e b lambda)
    (weight : ℝ) (us : List ℝ) (hus : ∀ u ∈ us, 0 ≤ u ∧ u < 1)
    (hok : ∀ u ∈ us,
      ¬ Spec.IsInteriorNode t.coords0
          (Real.log (BW.clampChi ctrl.tpairMin ctrl.tpairMax (chiPhoton U p e b lambda))) ∨
      ∃ v, BW.colVal t (Real.log (BW.clampChi ctrl.tpairMin ctrl.tpairMax (chiPhoton U p e b lambda))) 1
        = .ok (.fin v) ∧ v ≤ Spec.folded u) :
    ∃ qs : List BW.Pair, BW.generatePairs U ctrl t lambda p e b weight us = .ok (qs.map some) ∧
      qs.length = us.length ∧
      ∀ q ∈ qs, Spec.IsConservingPair U p (chiPhoton U p e b lambda) (weight / us.length) q := by
  unfold BW.generatePairs
  simp only
  generalize weight / (us.length : ℝ) = wt
  generalize Real.log (BW.clampChi ctrl.tpairMin ctrl.tpairMax (chiPhoton U p e b lambda)) = logChi at *
  induction us with
  | nil => exact ⟨[], rfl, rfl, by simp⟩
  | cons u us ih =>
    obtain ⟨qs, h1, h2, h3⟩ := ih (fun v hv => hus v (by simp [hv])) (fun v hv => hok v (by simp [hv]))
    obtain ⟨q, hq, hq2⟩ := C24_pair U hU t _ _ P ht logChi _ hchi p hth wt u (hok u (by simp))
      (hus u (by simp)).1 (hus u (by simp)).2
    refine ⟨q :: qs, ?_, by simp [h2], ?_⟩
    · simp only [BW.genAll, hq, h1, except_bind_ok, List.map_cons]
      rfl
    · intro x hx
      rcases List.mem_cons.mp hx with rfl | hx
      · exact hq2
      · exact h3 x hx

/-- C24 is false of the code when `log chi` is exactly an interior grid point of the table: the first column stores
`log(0) = -inf`, interpolation computes `0 * (-inf)`, and every draw in the first cell (for instance 0) gives
momenta that are not numbers. -/
theorem C24_generate_refuted (U : Units) (ctrl : BWCtrl) (t : Tab2X) (P : ℕ → ℕ → ℝ)
    (ht : Spec.IsPairTable ctrl.tpairMin ctrl.tpairMax P t) (lambda : ℝ) (p e b : V3)
    (hnode : Spec.IsInteriorNode t.coords0
      (Real.log (BW.clampChi ctrl.tpairMin ctrl.tpairMax (chiPhoton U p e b lambda)))) (weight : ℝ) :
    BW.generatePairs U ctrl t lambda p e b weight [0] = .ok [none] := by
  unfold BW.generatePairs
  simp only
  generalize Real.log (BW.clampChi ctrl.tpairMin ctrl.tpairMax (chiPhoton U p e b lambda)) = w at *
  obtain ⟨V, hV0, hVl, hVm, hV, _, hz2⟩ := colVal_spec ht w
  have hl1 : 2 ≤ t.coords1.length := ht.2.2.2.1.1
  obtain ⟨l, s1, s2, s3, s4⟩ := search_bracket ht w 0 (le_refl _) (by norm_num) hV0 hVl hVm hV (.inr (hz2 hnode))
  have hl : l = 0 := by
    by_contra h
    have := hVm 0 l (by omega) (by omega)
    rw [hV0] at this
    linarith
  subst hl
  have hfr : BW.fracOf t w 0 = .ok none := by
    unfold BW.fracOf
    rw [s1]
    simp only [except_bind_ok, predIdx]
    rw [rd_eq_ok (List.getElem?_eq_getElem s2)]
    simp only [except_bind_ok]
    rw [rd_eq_ok (List.getElem?_eq_getElem (by omega))]
    simp only [except_bind_ok, zero_add, hV 1 (by norm_num) (by omega)]
    rw [hz2 hnode]
    rfl
  have hg : BW.genOne U t w (chiPhoton U p e b lambda) p (weight / (([0] : List ℝ).length : ℝ)) 0
      = .ok none := by
    unfold BW.genOne
    simp only [show ¬ (0 : ℝ) ≥ 1 / 2 by norm_num, if_false, hfr, except_bind_ok]
    rfl
  simp only [BW.genAll, hg, except_bind_ok]
  rfl

/-- C24 is also false of the code when the quantum parameter vanishes (no field): the shares are `0/0`. -/
theorem C24_zero_chi_refuted (U : Units) (ctrl : BWCtrl) (t : Tab2X) (P : ℕ → ℕ → ℝ)
    (ht : Spec.IsPairTable ctrl.tpairMin ctrl.tpairMax P t) (lambda : ℝ) (p e b : V3)
    (hchi : chiPhoton U p e b lambda = 0) (weight u : ℝ) (h0 : 0 ≤ u) (h1 : u < 1) :
    BW.generatePairs U ctrl t lambda p e b weight [u] = .ok [none] := by
  unfold BW.generatePairs
  simp only [hchi]
  generalize Real.log (BW.clampChi ctrl.tpairMin ctrl.tpairMax 0) = w at *
  obtain ⟨Vs, hg, hc, l, vl, vu, s1, s2, s3, s4, s5⟩ := C25_search t _ _ P ht w u h0 h1
  have hlen := hg.1
  have hup : l + 1 < t.coords1.length := by
    have := (List.getElem?_eq_some_iff.mp s3).1; omega
  have hl0 : ∃ x, BW.colVal t w l = .ok x := by
    rcases Nat.eq_zero_or_pos l with rfl | hl
    · obtain ⟨V, _, _, _, _, hz1, hz2⟩ := colVal_spec ht w
      by_cases hn : Spec.IsInteriorNode t.coords0 w
      · exact ⟨_, hz2 hn⟩
      · exact ⟨_, hz1 hn⟩
    · exact ⟨_, hc l vl hl s2⟩
  obtain ⟨x, hx⟩ := hl0
  have hfr : ∃ f, BW.fracOf t w (Spec.folded u) = .ok f := by
    unfold BW.fracOf
    rw [s1]
    simp only [except_bind_ok, predIdx]
    rw [rd_eq_ok (List.getElem?_eq_getElem hup)]
    simp only [except_bind_ok]
    rw [rd_eq_ok (List.getElem?_eq_getElem (by omega))]
    simp only [except_bind_ok, hc (l + 1) vu (by omega) s3]
    rw [hx]
    simp only [except_bind_ok]
    split
    · split_ifs <;> exact ⟨_, rfl⟩
    · exact ⟨_, rfl⟩
  obtain ⟨f, hf⟩ := hfr
  have hfold : (if u ≥ 1 / 2 then u - 1 / 2 else u) = Spec.folded u := rfl
  have hgo : BW.genOne U t w 0 p (weight / (([u] : List ℝ).length : ℝ)) u = .ok none := by
    unfold BW.genOne
    simp only [hfold, hf, except_bind_ok]
    cases f with
    | none => rfl
    | some f => simp only [or_true, if_true]; rfl
  simp only [BW.genAll, hgo, except_bind_ok]
  rfl

/-- C24: the table computed by the engine has the assumed shape whenever the cumulative distribution is strictly
increasing from 0 to 1/2. -/
theorem C24_generated_table (ctrl : BWCtrl) (cum : ℝ → ℝ → ℝ) (h0 : 0 < ctrl.tpairMin)
    (h : ctrl.tpairMin < ctrl.tpairMax) (hn : 2 ≤ ctrl.tpairHowMany) (hf : 2 ≤ ctrl.fracHowMany)
    (hpos : ∀ chi f, 0 < chi → 0 < f → f < 1 / 2 → 0 < cum chi (chi * f) ∧ cum chi (chi * f) < 1 / 2)
    (hmono : ∀ chi f g, 0 < chi → 0 < f → f < g → g < 1 / 2 → cum chi (chi * f) < cum chi (chi * g)) :
    ∃ P, Spec.IsPairTable ctrl.tpairMin ctrl.tpairMax P (BW.pairTable ctrl cum) :=
  pairTable_ok ctrl cum h0 h hn hf hpos hmono

/-! ### Non-vacuity -/

/-- A 3x3 table from 1 to 16 with the uniform distribution: the middle node is `log 4`. -/
noncomputable def exBWCtrl : BWCtrl := ⟨1, 1, 16, 3, 1, 16, 3, 3⟩

theorem exBW_table : ∃ P, Spec.IsPairTable exBWCtrl.tpairMin exBWCtrl.tpairMax P
    (BW.pairTable exBWCtrl fun chi x => x / chi) := by
  refine C24_generated_table exBWCtrl _ (by norm_num [exBWCtrl]) (by norm_num [exBWCtrl])
    (by norm_num [exBWCtrl]) (by norm_num [exBWCtrl]) ?_ ?_
  · intro chi f hc h1 h2
    rw [mul_div_cancel_left₀ _ hc.ne']; exact ⟨h1, h2⟩
  · intro chi f g hc h1 h2 h3
    rw [mul_div_cancel_left₀ _ hc.ne', mul_div_cancel_left₀ _ hc.ne']; exact h2

theorem exBW_energy : Spec.photonEnergy exUnits ⟨4, 0, 0⟩ = 4 := by
  simp only [Spec.photonEnergy, V3.norm, V3.norm2, exUnits]
  rw [show (4 : ℝ) * 4 + 0 * 0 + 0 * 0 = 4 * 4 by ring, Real.sqrt_mul_self (by norm_num), mul_one]

/-- The middle row of the table is an interior node: `log 4`. -/
theorem exBW_node : Spec.IsInteriorNode (BW.pairTable exBWCtrl fun chi x => x / chi).coords0 (Real.log 4) := by
  obtain ⟨l, hl, hg, hi⟩ := C03_log_spaced_partial 1 16 3 (by norm_num) (by norm_num) (by norm_num)
  have e : (generateLogSpacedVec exBWCtrl.tpairMin exBWCtrl.tpairMax exBWCtrl.tpairHowMany).filterMap id
      = l := by
    show (generateLogSpacedVec 1 16 3).filterMap id = l
    rw [hl]; simp [List.filterMap_map]
  refine ⟨1, by norm_num, ?_, ?_⟩
  · simp only [BW.pairTable, e, List.length_map, hg.1]; norm_num
  · simp only [BW.pairTable, e, List.getElem?_map, hi 1 (by norm_num)]
    simp only [Option.map_some, Option.some.injEq]
    congr 1
    rw [pow_one, one_mul, div_one]
    norm_num

/-- The refuted case is reachable: a photon of energy 4 in a field that gives it chi = 4. -/
example : BW.generatePairs exUnits exBWCtrl (BW.pairTable exBWCtrl fun chi x => x / chi) 1
    ⟨4, 0, 0⟩ V3.zero ⟨0, 1, 0⟩ 1 [0] = .ok [none] := by
  obtain ⟨P, hP⟩ := exBW_table
  refine C24_generate_refuted exUnits exBWCtrl _ P hP 1 _ _ _ ?_ 1
  rw [exChi 4 1 (by norm_num)]
  have : BW.clampChi exBWCtrl.tpairMin exBWCtrl.tpairMax (|1| * 4) = 4 := by
    norm_num [BW.clampChi, exBWCtrl]
  rw [this]
  exact exBW_node

/-- The hypotheses of the partial theorem are met by the same photon at chi = 2 with three draws. -/
example : ∃ qs : List BW.Pair, BW.generatePairs exUnits exBWCtrl
    (BW.pairTable exBWCtrl fun chi x => x / chi) 1 ⟨4, 0, 0⟩ V3.zero ⟨0, 1 / 2, 0⟩ 1 [0, 1 / 3, 3 / 4]
      = .ok (qs.map some) ∧ qs.length = 3 := by
  obtain ⟨P, hP⟩ := exBW_table
  have hchi := exChi 4 (1 / 2) (by norm_num)
  have hcl : BW.clampChi exBWCtrl.tpairMin exBWCtrl.tpairMax (|1 / 2| * 4) = 2 := by
    norm_num [BW.clampChi, exBWCtrl, abs_of_pos]
  have hnn : ¬ Spec.IsInteriorNode (BW.pairTable exBWCtrl fun chi x => x / chi).coords0 (Real.log 2) := by
    rintro ⟨i, h1, h2, h3⟩
    obtain ⟨j, k1, k2, k3⟩ := exBW_node
    have hlen : (BW.pairTable exBWCtrl fun chi x => x / chi).coords0.length = 3 := by
      obtain ⟨l, hl, hlen, _⟩ := logGrid_equispaced (lo := 1) (hi := 16) (n := 3) (by norm_num) (by norm_num)
        (by norm_num)
      have e : (generateLogSpacedVec exBWCtrl.tpairMin exBWCtrl.tpairMax exBWCtrl.tpairHowMany).filterMap id
        = l := hl
      simp only [BW.pairTable, e, List.length_map, hlen]
    have hi : i = 1 := by omega
    have hj : j = 1 := by omega
    subst hi; subst hj
    rw [h3] at k3
    simp only [Option.some.injEq] at k3
    have := Real.log_lt_log (by norm_num : (0 : ℝ) < 2) (by norm_num : (2 : ℝ) < 4)
    linarith
  obtain ⟨qs, h1, h2, _⟩ := C24_generate_partial exUnits exUnits_pos exBWCtrl _ P hP 1 ⟨4, 0, 0⟩ V3.zero
    ⟨0, 1 / 2, 0⟩ (by rw [exBW_energy]; norm_num [exUnits]) (by rw [hchi]; norm_num) 1 [0, 1 / 3, 3 / 4]
    (by intro u hu; simp only [List.mem_cons, List.not_mem_nil, or_false] at hu
        rcases hu with rfl | rfl | rfl <;> norm_num)
    (by intro u _; left; rw [hchi, hcl]; exact hnn)
  exact ⟨qs, h1, h2⟩

end Picsar.Props
