import Verif.Spec.BreitWheeler
import Verif.Lemmas.Vec3
import Verif.Lemmas.LookupTables
import Verif.Props.Utilities
import Verif.Props.LookupTables

namespace Picsar

/-- The logarithms of a log-spaced grid form an equispaced grid. -/
theorem logGrid_equispaced {lo hi : ℝ} {n : ℕ} (h0 : 0 < lo) (h : lo < hi) (hn : 2 ≤ n) :
    ∃ l : List ℝ, (generateLogSpacedVec lo hi n).filterMap id = l ∧ l.length = n ∧
      Spec.IsEquispaced (l.map Real.log) ∧ (l.map Real.log).head? = some (Real.log lo) ∧
      (l.map Real.log).getLast? = some (Real.log hi) ∧ ∀ x ∈ l, 0 < x := by
  obtain ⟨l, hl, hg, hi'⟩ := Props.C03_log_spaced_partial lo hi n h0 h hn
  obtain ⟨hlen, hhead, hlast, _⟩ := hg
  have hn1 : (0 : ℝ) < (n : ℝ) - 1 := by
    have : (2 : ℝ) ≤ n := by exact_mod_cast hn
    linarith
  have hq : 1 < hi / lo := by rw [lt_div_iff₀ h0]; linarith
  set r := (hi / lo) ^ (1 / ((n : ℝ) - 1)) with hr
  have hr1 : 1 < r := Real.one_lt_rpow hq (by positivity)
  have hr0 : 0 < r := by linarith
  refine ⟨l, ?_, hlen, ⟨by simpa [hlen] using hn, Real.log lo, Real.log r, Real.log_pos hr1, ?_⟩,
    ?_, ?_, ?_⟩
  · rw [hl]; simp [List.filterMap_map]
  · intro i hi2
    rw [List.length_map, hlen] at hi2
    rw [List.getElem?_map, hi' i hi2]
    simp only [Option.map_some]
    rw [Real.log_mul h0.ne' (by positivity), Real.log_pow]
  · rw [List.head?_map, hhead]; rfl
  · rw [List.getLast?_map, hlast]; rfl
  · intro x hx
    obtain ⟨i, hi3⟩ := List.mem_iff_getElem?.mp hx
    have hi4 : i < n := by rw [← hlen]; exact (List.getElem?_eq_some_iff.mp hi3).1
    rw [hi' i hi4] at hi3
    cases hi3
    positivity

theorem XR.smul_fin (w x : ℝ) : XR.smul w (.fin x) = .fin (w * x) := rfl

/-- Value of a column of a pair table. -/
theorem colVal_spec {t : Tab2X} {lo hi : ℝ} {P : ℕ → ℕ → ℝ} (ht : Spec.IsPairTable lo hi P t) (w : ℝ) :
    ∃ V : ℕ → ℝ, V 0 = 0 ∧ V (t.coords1.length - 1) = 1 / 2 ∧
      (∀ j k, j < k → k < t.coords1.length → V j < V k) ∧
      (∀ j, 0 < j → j < t.coords1.length → BW.colVal t w j = .ok (.fin (V j))) ∧
      (¬ Spec.IsInteriorNode t.coords0 w → BW.colVal t w 0 = .ok (.fin 0)) ∧
      (Spec.IsInteriorNode t.coords0 w → BW.colVal t w 0 = .ok .nan) := by
  obtain ⟨he, hhead, hlast, ⟨hl1, _⟩, _, _, hd, hc⟩ := ht
  have hl := he.1
  set n1 := t.coords0.length with hn1
  set n2 := t.coords1.length with hn2
  have hfront : t.coords0[0]? = some (Real.log lo) := by rw [← List.head?_eq_getElem?]; exact hhead
  have hback : t.coords0[n1 - 1]? = some (Real.log hi) := by
    rw [← List.getLast?_eq_getElem?]; exact hlast
  have hpw := equispaced_pairwise he
  have hPpos : ∀ i j, i < n1 → 0 < j → j < n2 → 0 < P i j := by
    intro i j hi hj hj2
    have := (hc i hi).2.2 0 j hj hj2
    rw [(hc i hi).1] at this
    exact this
  -- common shape: a convex combination of two rows
  have key : ∀ (i i' : ℕ) (a b : ℝ), i < n1 → i' < n1 → 0 ≤ a → 0 ≤ b → a + b = 1 →
      (∀ j, 0 < j → j < n2 → BW.colVal t w j
        = .ok (.fin (Real.exp (a * Real.log (P i j) + b * Real.log (P i' j))))) →
      (¬ Spec.IsInteriorNode t.coords0 w → BW.colVal t w 0 = .ok (.fin 0)) →
      (Spec.IsInteriorNode t.coords0 w → BW.colVal t w 0 = .ok .nan) →
      ∃ V : ℕ → ℝ, V 0 = 0 ∧ V (n2 - 1) = 1 / 2 ∧
      (∀ j k, j < k → k < n2 → V j < V k) ∧
      (∀ j, 0 < j → j < n2 → BW.colVal t w j = .ok (.fin (V j))) ∧
      (¬ Spec.IsInteriorNode t.coords0 w → BW.colVal t w 0 = .ok (.fin 0)) ∧
      (Spec.IsInteriorNode t.coords0 w → BW.colVal t w 0 = .ok .nan) := by
    intro i i' a b hi hi' ha hb hab hv h01 h02
    refine ⟨fun j => if j = 0 then 0 else Real.exp (a * Real.log (P i j) + b * Real.log (P i' j)),
      by simp, ?_, ?_, ?_, h01, h02⟩
    · have : n2 - 1 ≠ 0 := by omega
      simp only [this, if_false]
      rw [(hc i hi).2.1, (hc i' hi').2.1, ← add_mul, hab, one_mul, Real.exp_log (by norm_num)]
    · intro j k hjk hk
      have hk0 : k ≠ 0 := by omega
      simp only [hk0, if_false]
      by_cases hj : j = 0
      · simp only [hj, if_true]; exact Real.exp_pos _
      · simp only [hj, if_false]
        rw [Real.exp_lt_exp]
        have h1 := Real.log_lt_log (hPpos i j hi (by omega) (by omega)) ((hc i hi).2.2 j k hjk hk)
        have h2 := Real.log_lt_log (hPpos i' j hi' (by omega) (by omega)) ((hc i' hi').2.2 j k hjk hk)
        rcases ha.eq_or_lt with rfl | ha
        · have : b = 1 := by linarith
          subst this; linarith
        · have e1 := mul_lt_mul_of_pos_left h1 ha
          have e2 := mul_le_mul_of_nonneg_left h2.le hb
          linarith
    · intro j hj hj2
      have : j ≠ 0 := by omega
      simp only [this, if_false]
      exact hv j hj hj2
  have hlogfin : ∀ i j, i < n1 → 0 < j → j < n2 → XR.log (P i j) = .fin (Real.log (P i j)) := by
    intro i j hi hj hj2
    unfold XR.log; rw [if_pos (hPpos i j hi hj hj2)]
  have hlog0 : ∀ i, i < n1 → XR.log (P i 0) = .ninf := by
    intro i hi
    unfold XR.log; rw [(hc i hi).1]; simp
  rcases le_or_gt w (Real.log lo) with hw1 | hw1
  · -- at or below the first node
    have hnode : ¬ Spec.IsInteriorNode t.coords0 w := by
      rintro ⟨i, hi0, hi1, hiw⟩
      have h0 : 0 < t.coords0.length := by omega
      have := List.pairwise_iff_getElem.mp hpw 0 i h0 (by omega) hi0
      obtain ⟨h3, h4⟩ := List.getElem?_eq_some_iff.mp hiw
      obtain ⟨h5, h6⟩ := List.getElem?_eq_some_iff.mp hfront
      rw [h4, h6] at this
      linarith
    have hval : ∀ j, j < n2 → BW.colVal t w j = .ok (XR.exp (XR.log (P 0 j))) := by
      intro j hj
      unfold BW.colVal Tab2X.interpFirst
      rw [rd_eq_ok hfront]
      simp only [except_bind_ok, hw1, if_true, rowMajor, ← hn2]
      rw [rd_eq_ok (hd 0 j (by omega) hj)]
      rfl
    refine key 0 0 1 0 (by omega) (by omega) (by norm_num) (le_refl _) (by norm_num) ?_ ?_ ?_
    · intro j hj hj2
      rw [hval j hj2, hlogfin 0 j (by omega) hj hj2]
      simp [XR.exp]
    · intro _
      rw [hval 0 (by omega), hlog0 0 (by omega)]; rfl
    · intro h; exact absurd h hnode
  · rcases le_or_gt (Real.log hi) w with hw2 | hw2
    · have hnode : ¬ Spec.IsInteriorNode t.coords0 w := by
        rintro ⟨i, hi0, hi1, hiw⟩
        obtain ⟨h5, h6⟩ := List.getElem?_eq_some_iff.mp hback
        have := List.pairwise_iff_getElem.mp hpw i (n1 - 1) (by omega) h5 (by omega)
        obtain ⟨h3, h4⟩ := List.getElem?_eq_some_iff.mp hiw
        rw [h4, h6] at this
        linarith
      have hval : ∀ j, j < n2 → BW.colVal t w j = .ok (XR.exp (XR.log (P (n1 - 1) j))) := by
        intro j hj
        unfold BW.colVal Tab2X.interpFirst
        rw [rd_eq_ok hfront]
        simp only [except_bind_ok, not_le.mpr hw1, if_false, ← hn2, ← hn1]
        rw [rd_eq_ok hback]
        simp only [except_bind_ok, ge_iff_le, hw2, if_true, rowMajor]
        rw [rd_eq_ok (hd (n1 - 1) j (by omega) hj)]
        rfl
      refine key (n1 - 1) (n1 - 1) 1 0 (by omega) (by omega) (by norm_num) (le_refl _) (by norm_num) ?_ ?_ ?_
      · intro j hj hj2
        rw [hval j hj2, hlogfin _ j (by omega) hj hj2]
        simp [XR.exp]
      · intro _
        rw [hval 0 (by omega), hlog0 _ (by omega)]; rfl
      · intro h; exact absurd h hnode
    · obtain ⟨i, xl, xr, e1, e2, e3, e4, e5⟩ :=
        equispacedIndex_spec he ⟨_, _, hhead, hlast, hw1.le, hw2⟩
      have hi : i + 1 < n1 := (List.getElem?_eq_some_iff.mp e3).1
      have hne : xr - xl ≠ 0 := by linarith
      have hpos : 0 < xr - xl := by linarith
      have hval : ∀ j, j < n2 → BW.colVal t w j = .ok (XR.exp (XR.smul (1 / (xr - xl))
          (XR.add (XR.smul (xr - w) (XR.log (P i j))) (XR.smul (w - xl) (XR.log (P (i + 1) j)))))) := by
        intro j hj
        unfold BW.colVal Tab2X.interpFirst
        rw [rd_eq_ok hfront]
        simp only [except_bind_ok, not_le.mpr hw1, if_false, ← hn2, ← hn1]
        rw [rd_eq_ok hback]
        simp only [except_bind_ok, ge_iff_le, not_le.mpr hw2, if_false, rowMajor]
        rw [e1]
        simp only [except_bind_ok]
        rw [rd_eq_ok e2, rd_eq_ok e3]
        simp only [except_bind_ok]
        rw [rd_eq_ok (hd i j (by omega) hj), rd_eq_ok (hd (i + 1) j hi hj), fdiv_ok hne]
        rfl
      refine key i (i + 1) ((xr - w) / (xr - xl)) ((w - xl) / (xr - xl)) (by omega) hi
        (div_nonneg (by linarith) hpos.le) (div_nonneg (by linarith) hpos.le) (by field_simp; ring) ?_ ?_ ?_
      · intro j hj hj2
        rw [hval j hj2, hlogfin i j (by omega) hj hj2, hlogfin (i + 1) j hi hj hj2]
        simp only [XR.smul_fin, XR.add, XR.exp]
        congr 3
        field_simp
      · intro hnode
        rw [hval 0 (by omega), hlog0 i (by omega), hlog0 (i + 1) hi]
        have hxl : xl ≠ w := by
          rintro rfl
          refine hnode ⟨i, ?_, hi, e2⟩
          rcases Nat.eq_zero_or_pos i with rfl | h
          · rw [hfront] at e2; cases e2; linarith
          · exact h
        have h1 : xr - w ≠ 0 := by linarith
        have h2 : w - xl ≠ 0 := fun h => hxl (by linarith)
        have h3 : 0 < xr - w := by linarith
        have h4 : 0 < w - xl := lt_of_le_of_ne (by linarith) (Ne.symm h2)
        have h5 : (1 / (xr - xl)) ≠ 0 := by positivity
        have h6 : 0 < 1 / (xr - xl) := by positivity
        simp only [XR.smul, h1, h2, h3, h4, if_true, if_false, XR.add, h5, h6, XR.exp]
      · rintro ⟨i', hi0, hi1, hiw⟩
        obtain ⟨r, hr⟩ : ∃ r, t.coords0[i' + 1]? = some r := ⟨_, List.getElem?_eq_getElem hi1⟩
        have hlt : w < r := by
          obtain ⟨h3, h4⟩ := List.getElem?_eq_some_iff.mp hiw
          obtain ⟨h5, h6⟩ := List.getElem?_eq_some_iff.mp hr
          have := List.pairwise_iff_getElem.mp hpw i' (i' + 1) h3 h5 (by omega)
          rwa [h4, h6] at this
        have := cell_unique hpw e2 e3 hiw hr e4 e5 (le_refl w) hlt
        subst this
        rw [hiw] at e2; cases e2
        rw [hval 0 (by omega), hlog0 i (by omega), hlog0 (i + 1) hi]
        have h1 : xr - w ≠ 0 := by linarith
        have h3 : 0 < xr - w := by linarith
        simp only [XR.smul, h1, h3, if_true, if_false, XR.add, sub_self, XR.exp]

/-- The search finds the threshold of any monotone column predicate. -/
theorem search_spec {t : Tab2X} {w prob : ℝ} {n k : ℕ}
    (h : ∀ j, j < n → ∃ v, BW.colVal t w j = .ok v ∧ (v.rlt prob ↔ k ≤ j)) :
    ∀ count first, first ≤ k → k ≤ first + count → first + count ≤ n →
      BW.search t w prob first count = .ok k := by
  intro count
  induction count using Nat.strong_induction_on with
  | _ count ih =>
    intro first h1 h2 h3
    rw [BW.search]
    by_cases hc : 0 < count
    · rw [if_pos hc]
      obtain ⟨v, hv, hk⟩ := h (first + count / 2) (by omega)
      simp only [hv]
      by_cases hlt : v.rlt prob
      · rw [if_neg (not_not.mpr hlt)]
        have := hk.mp hlt
        exact ih (count / 2) (by omega) first h1 (by omega) (by omega)
      · rw [if_pos hlt]
        have : ¬ k ≤ first + count / 2 := fun h => hlt (hk.mpr h)
        exact ih _ (by omega) _ (by omega) (by omega) (by omega)
    · rw [if_neg hc]
      congr 1
      omega

/-- Bracketing columns for a probability in `[0,1/2)`. -/
theorem search_bracket {t : Tab2X} {lo hi : ℝ} {P : ℕ → ℕ → ℝ} (ht : Spec.IsPairTable lo hi P t)
    (w prob : ℝ) (h0 : 0 ≤ prob) (h1 : prob < 1 / 2) {V : ℕ → ℝ} (hV0 : V 0 = 0)
    (hVl : V (t.coords1.length - 1) = 1 / 2)
    (hVm : ∀ j k, j < k → k < t.coords1.length → V j < V k)
    (hV : ∀ j, 0 < j → j < t.coords1.length → BW.colVal t w j = .ok (.fin (V j)))
    (hz : BW.colVal t w 0 = .ok (.fin 0) ∨ BW.colVal t w 0 = .ok .nan) :
    ∃ l, BW.search t w prob 0 t.coords1.length = .ok (l + 1) ∧ l + 1 < t.coords1.length ∧
      V l ≤ prob ∧ prob < V (l + 1) := by
  have hl1 : 2 ≤ t.coords1.length := ht.2.2.2.1.1
  set n := t.coords1.length
  classical
  have hex : ∃ j, prob < V j ∧ j < n := ⟨n - 1, by rw [hVl]; exact h1, by omega⟩
  set k := Nat.find hex with hk
  have hks := Nat.find_spec hex
  have hkm := fun m (hm : m < k) => Nat.find_min hex hm
  have hk0 : k ≠ 0 := by
    intro e
    have := hks.1
    rw [← hk, e, hV0] at this
    linarith
  obtain ⟨l, hl⟩ := Nat.exists_eq_succ_of_ne_zero hk0
  have hkn : k < n := hks.2
  refine ⟨l, ?_, by omega, ?_, ?_⟩
  · rw [show l + 1 = k by omega]
    refine search_spec (n := n) ?_ n 0 (by omega) (by omega) (by omega)
    intro j hj
    rcases Nat.eq_zero_or_pos j with rfl | hj0
    · rcases hz with hz | hz
      · refine ⟨_, hz, ?_⟩
        simp only [XR.rlt]
        constructor
        · intro h; linarith
        · intro h; omega
      · refine ⟨_, hz, ?_⟩
        simp only [XR.rlt]
        constructor
        · intro h; exact h.elim
        · intro h; omega
    · refine ⟨_, hV j hj0 hj, ?_⟩
      simp only [XR.rlt]
      constructor
      · intro h
        by_contra hlt
        exact hkm j (by omega) ⟨h, hj⟩
      · intro h
        rcases h.eq_or_lt with h | h
        · rw [← h]; exact hks.1
        · exact lt_trans hks.1 (hVm k j h hj)
  · have := hkm l (by omega)
    by_contra hlt
    exact this ⟨not_le.mp hlt, by omega⟩
  · have := hks.1
    rw [← hk, hl] at this
    exact this

theorem flatMap_getElem? {α β : Type _} {f : α → List β} {n : ℕ} (hf : ∀ x, (f x).length = n) :
    ∀ (l : List α) (i j : ℕ), j < n → (l.flatMap f)[i * n + j]? = (l[i]?).bind fun x => (f x)[j]?
  | [], i, j, _ => by simp
  | x :: l, 0, j, hj => by
    simp only [List.flatMap_cons, zero_mul, zero_add]
    rw [List.getElem?_append_left (by rw [hf]; exact hj)]
    simp
  | x :: l, i + 1, j, hj => by
    simp only [List.flatMap_cons]
    rw [List.getElem?_append_right (by rw [hf]; nlinarith), hf,
      show (i + 1) * n + j - n = i * n + j by rw [Nat.succ_mul]; omega, flatMap_getElem? hf l i j hj]
    simp

theorem linGrid_equispaced {a b : ℝ} {n : ℕ} (h : a < b) (hn : 2 ≤ n) :
    Spec.IsEquispaced (generateLinSpacedVec a b n) ∧ (generateLinSpacedVec a b n).length = n ∧
      (generateLinSpacedVec a b n).head? = some a ∧ (generateLinSpacedVec a b n).getLast? = some b := by
  obtain ⟨⟨h1, h2, h3, _⟩, h5⟩ := Props.C02_lin_spaced a b n h hn
  have hn1 : (0 : ℝ) < (n : ℝ) - 1 := by
    have : (2 : ℝ) ≤ n := by exact_mod_cast hn
    linarith
  refine ⟨⟨by omega, a, (b - a) / ((n : ℝ) - 1), div_pos (by linarith) hn1, ?_⟩, h1, h2, h3⟩
  intro i hi
  exact h5 i (by omega)

/-- The pair table computed by the engine. -/
theorem pairTable_ok (ctrl : BWCtrl) (cum : ℝ → ℝ → ℝ) (h0 : 0 < ctrl.tpairMin)
    (h : ctrl.tpairMin < ctrl.tpairMax) (hn : 2 ≤ ctrl.tpairHowMany) (hf : 2 ≤ ctrl.fracHowMany)
    (hpos : ∀ chi f, 0 < chi → 0 < f → f < 1 / 2 → 0 < cum chi (chi * f) ∧ cum chi (chi * f) < 1 / 2)
    (hmono : ∀ chi f g, 0 < chi → 0 < f → f < g → g < 1 / 2 → cum chi (chi * f) < cum chi (chi * g)) :
    ∃ P, Spec.IsPairTable ctrl.tpairMin ctrl.tpairMax P (BW.pairTable ctrl cum) := by
  obtain ⟨l, hl, hlen, e1, e2, e3, e4⟩ := logGrid_equispaced h0 h hn
  obtain ⟨f1, f2, f3, f4⟩ := linGrid_equispaced (by norm_num : (0 : ℝ) < 1 / 2) hf
  set fr := generateLinSpacedVec 0 (1 / 2) ctrl.fracHowMany with hfr
  have hval : ∀ i j, i < l.length → j < fr.length → ∃ chi, 0 < chi ∧ l[i]? = some chi := by
    intro i j hi hj
    exact ⟨_, e4 _ (List.getElem_mem hi), List.getElem?_eq_getElem hi⟩
  refine ⟨fun i j => BW.pairVal cum ((l[i]?).getD 1) fr j, ?_⟩
  unfold Spec.IsPairTable BW.pairTable
  simp only [hl, ← hfr]
  refine ⟨e1, e2, e3, f1, f3, f4, ?_, ?_⟩
  · intro i j hi hj
    simp only [List.length_map] at hi
    rw [flatMap_getElem? (n := fr.length) (by intro x; simp) l i j hj]
    obtain ⟨chi, _, hchi⟩ := hval i j hi hj
    rw [hchi]
    simp [List.getElem?_range hj]
  · intro i hi
    simp only [List.length_map] at hi
    obtain ⟨chi, hc0, hchi⟩ := hval i 0 hi (by omega)
    simp only [hchi, Option.getD_some]
    refine ⟨by simp [BW.pairVal], ?_, ?_⟩
    · have : fr.length - 1 ≠ 0 := by omega
      simp [BW.pairVal, this]
    · intro j k hjk hk
      have hfrv : ∀ m, 0 < m → m < fr.length - 1 → ∃ f, fr[m]? = some f ∧ 0 < f ∧ f < 1 / 2 := by
        intro m hm hm2
        have hpw := List.pairwise_iff_getElem.mp (equispaced_pairwise f1)
        have hm' : m < fr.length := by omega
        refine ⟨fr[m], List.getElem?_eq_getElem hm', ?_, ?_⟩
        · have := hpw 0 m (by omega) hm' hm
          rw [List.head?_eq_getElem?, List.getElem?_eq_getElem (by omega)] at f3
          simp only [Option.some.injEq] at f3; rw [f3] at this; exact this
        · have := hpw m (fr.length - 1) hm' (by omega) hm2
          rw [List.getLast?_eq_getElem?, List.getElem?_eq_getElem (by omega)] at f4
          simp only [Option.some.injEq] at f4; rw [f4] at this; exact this
      have hk0 : k ≠ 0 := by omega
      have hjl : j ≠ fr.length - 1 := by omega
      by_cases hj : j = 0
      · by_cases hkl : k = fr.length - 1
        · simp only [BW.pairVal, hj, if_true, hkl]
          rw [if_neg (by omega)]; norm_num
        · obtain ⟨f, hf1, hf2, hf3⟩ := hfrv k (by omega) (by omega)
          simp only [BW.pairVal, hj, if_true, hk0, if_false, hkl, hf1]
          exact (hpos chi f hc0 hf2 hf3).1
      · obtain ⟨f, hf1, hf2, hf3⟩ := hfrv j (by omega) (by omega)
        by_cases hkl : k = fr.length - 1
        · have : fr.length - 1 ≠ 0 := by omega
          simp only [BW.pairVal, hj, if_true, if_false, hkl, hjl, hf1, this]
          exact (hpos chi f hc0 hf2 hf3).2
        · obtain ⟨g, hg1, hg2, hg3⟩ := hfrv k (by omega) (by omega)
          simp only [BW.pairVal, hj, hk0, if_false, hkl, hjl, hf1, hg1]
          refine hmono chi f g hc0 hf2 ?_ hg3
          obtain ⟨a1, rfl⟩ := List.getElem?_eq_some_iff.mp hf1
          obtain ⟨a2, rfl⟩ := List.getElem?_eq_some_iff.mp hg1
          exact List.pairwise_iff_getElem.mp (equispaced_pairwise f1) j k a1 a2 hjk

theorem leptonEnergy_along (U : Units) (hU : U.Pos) {p : V3} (hp : p.norm ≠ 0) {x : ℝ} (hx : 0 ≤ x) :
    Spec.leptonEnergy U (V3.smul (Real.sqrt ((1 + x) * (1 + x) - 1) * (U.emass * U.c)) (p.sdiv p.norm))
      = U.emass * U.c ^ 2 * (1 + x) := by
  have hc := hU.c
  have hm := hU.emass
  have ha : 0 ≤ (1 + x) * (1 + x) - 1 := by nlinarith
  unfold Spec.leptonEnergy
  have hn : (p.sdiv p.norm).norm = 1 := by
    rw [V3.norm, V3.norm2_unit hp, Real.sqrt_one]
  rw [V3.norm_smul, hn, abs_of_nonneg (by positivity)]
  rw [show (U.emass * U.c ^ 2) ^ 2 + (Real.sqrt ((1 + x) * (1 + x) - 1) * (U.emass * U.c) * 1 * U.c) ^ 2
    = (U.emass * U.c ^ 2) ^ 2 * (1 + Real.sqrt ((1 + x) * (1 + x) - 1) ^ 2) by ring, Real.sq_sqrt ha,
    show (U.emass * U.c ^ 2) ^ 2 * (1 + ((1 + x) * (1 + x) - 1)) = (U.emass * U.c ^ 2 * (1 + x)) ^ 2 by ring,
    Real.sqrt_sq (by positivity)]

theorem along_unit {p : V3} {a : ℝ} (ha : 0 ≤ a) : Spec.Along (V3.smul a (p.sdiv p.norm)) p := by
  refine ⟨a / p.norm, div_nonneg ha p.norm_nonneg, ?_⟩
  simp only [V3.smul, V3.sdiv, V3.mk.injEq]
  refine ⟨?_, ?_, ?_⟩ <;> ring

end Picsar
