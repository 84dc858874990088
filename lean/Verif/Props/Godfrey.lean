import Verif.Lemmas.Godfrey

/-
C116: the filter is a convolution along z with a symmetric stencil, and needs as many guard cells as the stencil is long minus one.
C117: the stencils of the Godfrey corrector leave constant fields as they are, multiply a wave by a polynomial in sin² and amplify none.
C118: the coefficients between two columns of the table are not the interpolated ones.
-/
namespace Picsar.Props
open Picsar Picsar.Grid Picsar.Godfrey Picsar.Spec

/-! ### C116 -/

/-- **C116** Inside `lo .. hi` the output is the convolution of the input, outside it is what it was. -/
theorem C116_convolution {lo hi : I3} {sten : List ℝ} (hs : sten ≠ []) {fin fou : Arr}
    (hin : ∀ i, InBox lo hi i → ∀ d : ℤ, -((sten.length : ℤ) - 1) ≤ d → d ≤ (sten.length : ℤ) - 1 → InBox fin.lo fin.hi ⟨i.j, i.k, i.l + d⟩)
    (hou : ∀ i, InBox lo hi i → InBox fou.lo fou.hi i) :
    ∃ r, applyFilter lo hi sten fin fou = .ok r ∧ r.lo = fou.lo ∧ r.hi = fou.hi ∧ (∀ i, InBox lo hi i → r.val i = convolved sten fin.val i) ∧
      ∀ i, ¬ InBox lo hi i → r.val i = fou.val i := by
  obtain ⟨s, ss, rfl⟩ := List.exists_cons_of_ne_nil hs
  refine ⟨_, filter_ok hin hou, rfl, rfl, ?_, ?_⟩
  · intro i hi'
    simp only [if_pos hi', convolved_eq]
  · intro i hi'
    simp only [if_neg hi']

/-- **C116** It runs exactly when the input has all the cells the stencil reaches and the output the cells that are written. -/
theorem C116_guard_cells {lo hi : I3} {sten : List ℝ} (hs : sten ≠ []) (fin fou : Arr) :
    (∃ r, applyFilter lo hi sten fin fou = .ok r) ↔
      (∀ i, InBox lo hi i → ∀ d : ℤ, -((sten.length : ℤ) - 1) ≤ d → d ≤ (sten.length : ℤ) - 1 → InBox fin.lo fin.hi ⟨i.j, i.k, i.l + d⟩) ∧
      ∀ i, InBox lo hi i → InBox fou.lo fou.hi i := by
  constructor
  · rintro ⟨r, hr⟩
    obtain ⟨s, ss, rfl⟩ := List.exists_cons_of_ne_nil hs
    by_contra h
    have := filter_fault (s := s) (ss := ss) (lo := lo) (hi := hi) (fin := fin) (fou := fou) h
    rw [this] at hr
    exact absurd hr (by simp)
  · rintro ⟨h1, h2⟩
    obtain ⟨r, hr, _⟩ := C116_convolution hs h1 h2
    exact ⟨r, hr⟩

/-- **C116** The same for two-dimensional arrays. -/
theorem C116_plane {lo hi : ℤ × ℤ} {sten : List ℝ} (hs : sten ≠ []) {fin fou : Arr} (hk : fin.lo.k = 0 ∧ fin.hi.k = 0 ∧ fou.lo.k = 0 ∧ fou.hi.k = 0)
    (hin : fin.lo.j ≤ lo.1 ∧ hi.1 ≤ fin.hi.j ∧ fin.lo.l + ((sten.length : ℤ) - 1) ≤ lo.2 ∧ hi.2 + ((sten.length : ℤ) - 1) ≤ fin.hi.l)
    (hou : fou.lo.j ≤ lo.1 ∧ hi.1 ≤ fou.hi.j ∧ fou.lo.l ≤ lo.2 ∧ hi.2 ≤ fou.hi.l) :
    ∃ r, applyFilter2 lo hi sten fin fou = .ok r ∧
      ∀ j l, r.val ⟨j, 0, l⟩ = if lo.1 ≤ j ∧ j ≤ hi.1 ∧ lo.2 ≤ l ∧ l ≤ hi.2 then convolved sten fin.val ⟨j, 0, l⟩ else fou.val ⟨j, 0, l⟩ := by
  obtain ⟨r, h1, _, _, h2, h3⟩ := C116_convolution (lo := ⟨lo.1, 0, lo.2⟩) (hi := ⟨hi.1, 0, hi.2⟩) hs (fin := fin) (fou := fou)
    (by intro i hi' d d1 d2; simp only [InBox] at *; omega) (by intro i hi'; simp only [InBox] at *; omega)
  refine ⟨r, h1, ?_⟩
  intro j l
  split_ifs with h
  · exact h2 _ (by simp only [InBox]; omega)
  · exact h3 _ (by simp only [InBox]; omega)

def gfIn : Arr := ⟨⟨0, 0, -4⟩, ⟨3, 2, 12⟩, fun i => i.l⟩
def gfOut : Arr := ⟨⟨0, 0, 0⟩, ⟨3, 2, 8⟩, fun _ => 0⟩

example : (∃ r, applyFilter ⟨0, 0, 0⟩ ⟨3, 2, 8⟩ [1, 2, 3, 4, 5] gfIn gfOut = .ok r) ∧ ¬ ∃ r, applyFilter ⟨0, 0, 0⟩ ⟨3, 2, 8⟩ [1, 2, 3, 4, 5, 6] gfIn gfOut = .ok r := by
  constructor
  · rw [C116_guard_cells (by simp)]
    refine ⟨?_, ?_⟩
    · intro i hi d d1 d2
      simp only [InBox, gfIn, List.length_cons, List.length_nil] at *
      push_cast at *
      omega
    · intro i hi
      exact hi
  · rw [C116_guard_cells (by simp)]
    rintro ⟨h, _⟩
    have := h ⟨0, 0, 0⟩ (by norm_num [InBox]) (-5) (by norm_num) (by norm_num)
    norm_num [InBox, gfIn] at this

/-! ### C117 -/

/-- **C117** For every ratio `c dt/dz` the routine gives two stencils of five values; a wave along z comes out of the filter multiplied by
`1 + Σ p_m sin^{2m}(θ/2)`, a constant field unchanged. -/
theorem C117_response (c : ℝ) {lower : ℤ} (hl : lower ≠ 0) : ∃ sx sy px py, initFilter 5 c lower = .ok (sx, sy) ∧ sx.length = 5 ∧ sy.length = 5 ∧
    ∀ A θ φ i, convolved sx (waveZ A θ φ) i = gain px θ * waveZ A θ φ i ∧ convolved sy (waveZ A θ φ) i = gain py θ * waveZ A θ φ i := by
  obtain ⟨a, _, b, _, _, _, h1⟩ := prestencil_ok ex_length c
  obtain ⟨a', _, b', _, _, _, h2⟩ := prestencil_ok by_length c
  exact ⟨_, _, _, _, init_ok hl h1 h2, rfl, rfl, fun A θ φ i => ⟨stencil_wave _ A θ φ i, stencil_wave _ A θ φ i⟩⟩

/-- **C117** A constant field is unchanged. -/
theorem C117_constant (c : ℝ) {lower : ℤ} (hl : lower ≠ 0) {sx sy : List ℝ} (h : initFilter 5 c lower = .ok (sx, sy)) (A : ℝ) (i : I3) :
    convolved sx (fun _ => A) i = A ∧ convolved sy (fun _ => A) i = A := by
  obtain ⟨sx', sy', px, py, h', _, _, hw⟩ := C117_response c hl
  rw [h] at h'
  injection h' with h'
  injection h' with e1 e2
  subst e1 e2
  have := hw A 0 0 i
  have e : waveZ A 0 0 = fun _ => A := by funext i; simp [waveZ]
  rw [e] at this
  simpa [gain] using this

/-- **C117** For every stable ratio `0 ≤ c dt/dz ≤ 1` no wave is amplified, none changes sign by more than 1/700, and the wave of two cells is
suppressed to 1/700. -/
theorem C117_no_amplification {c : ℝ} (h0 : 0 ≤ c) (h1 : c ≤ 1) {lower : ℤ} (hl : lower ≠ 0) : ∃ sx sy, initFilter 5 c lower = .ok (sx, sy) ∧
    ∃ Gx Gy : ℝ → ℝ, (∀ A θ φ i, convolved sx (waveZ A θ φ) i = Gx θ * waveZ A θ φ i ∧ convolved sy (waveZ A θ φ) i = Gy θ * waveZ A θ φ i) ∧
      (∀ θ, -(1 / 700) ≤ Gx θ ∧ Gx θ ≤ 1 ∧ -(1 / 700) ≤ Gy θ ∧ Gy θ ≤ 1) ∧ |Gx Real.pi| ≤ 1 / 700 ∧ |Gy Real.pi| ≤ 1 / 700 := by
  obtain ⟨a, ha, b, hb, _, _, q1⟩ := prestencil_ok ex_length c
  obtain ⟨a', ha', b', hb', _, _, q2⟩ := prestencil_ok by_length c
  have hx := List.all_eq_true.mp ex_rows
  have hy := List.all_eq_true.mp by_rows
  have nx := List.all_eq_true.mp ex_nyq
  have ny := List.all_eq_true.mp by_nyq
  have mix : ∀ {u v l h : ℝ}, l ≤ u ∧ u ≤ h → l ≤ v ∧ v ≤ h → l ≤ (1 - c) * u + c * v ∧ (1 - c) * u + c * v ≤ h := by
    intro u v l h hu hv
    constructor <;> nlinarith [mul_le_mul_of_nonneg_left hu.1 (by linarith : 0 ≤ 1 - c), mul_le_mul_of_nonneg_left hu.2 (by linarith : 0 ≤ 1 - c),
      mul_le_mul_of_nonneg_left hv.1 h0, mul_le_mul_of_nonneg_left hv.2 h0]
  refine ⟨_, _, init_ok hl q1 q2, gain _, gain _, fun A θ φ i => ⟨stencil_wave _ A θ φ i, stencil_wave _ A θ φ i⟩, ?_, ?_, ?_⟩
  · intro θ
    rw [gain_rows, gain_rows]
    have m1 := mix (gain_row_bound (hx a ha) θ) (gain_row_bound (hx b hb) θ)
    have m2 := mix (gain_row_bound (hy a' ha') θ) (gain_row_bound (hy b' hb') θ)
    exact ⟨m1.1, m1.2, m2.1, m2.2⟩
  · rw [gain_rows, abs_le]
    exact mix (gain_row_nyquist (hx a ha) (nx a ha)) (gain_row_nyquist (hx b hb) (nx b hb))
  · rw [gain_rows, abs_le]
    exact mix (gain_row_nyquist (hy a' ha') (ny a' ha')) (gain_row_nyquist (hy b' hb') (ny b' hb'))

/-- **C117** With another length of the stencil or without lower order in v the routine stops the program. -/
theorem C117_stops (n lower : ℤ) (c : ℝ) (h : n ≠ 5 ∨ lower = 0) : initFilter n c lower = .error .exception := by
  unfold initFilter
  rcases h with h | h
  · rw [if_pos h]
  · split_ifs with h1 h2
    · rfl
    · exact absurd h h2
    · rfl

example : ∃ sx sy, initFilter 5 (1 / 2) 1 = .ok (sx, sy) ∧ ∀ i, convolved sx (fun _ => 7) i = 7 := by
  obtain ⟨sx, sy, _, _, h, _⟩ := C117_response (1 / 2) (lower := 1) (by norm_num)
  exact ⟨sx, sy, h, fun i => (C117_constant (1 / 2) (by norm_num) h 7 i).1⟩

/-! ### C118 -/

theorem trunc_index {c : ℝ} (h0 : 0 ≤ c) (h1 : c < 99 / 100) : index 100 c = ⌊100 * c⌋ + 1 := by
  have f0 : 0 ≤ ⌊100 * c⌋ := Int.floor_nonneg.mpr (by linarith)
  have f1 : ⌊100 * c⌋ < 99 := by rw [Int.floor_lt]; push_cast; linarith
  unfold index truncI
  dsimp only
  push_cast
  rw [if_pos (by linarith : (0 : ℝ) ≤ 100 * c), if_neg (by omega), if_neg (by omega)]

/-- **C118** Below the last two columns, the coefficients for `c` are taken from the two columns around `100 c`, the second with the weight `c`
instead of the fractional part of `100 c`. -/
theorem C118_columns_partial {c : ℝ} (h0 : 0 ≤ c) (h1 : c < 99 / 100) {t : List Row} (ht : t.length = 100) : ∃ a b,
    t[⌊100 * c⌋.toNat]? = some a ∧ t[⌊100 * c⌋.toNat + 1]? = some b ∧
    prestencil t 100 c = .ok ((1 - c) * a.c1 + c * b.c1, (1 - c) * a.c2 + c * b.c2, (1 - c) * a.c3 + c * b.c3, (1 - c) * a.c4 + c * b.c4) := by
  obtain ⟨a, _, b, _, s1, s2, q⟩ := prestencil_ok ht c
  have f0 : 0 ≤ ⌊100 * c⌋ := Int.floor_nonneg.mpr (by linarith)
  rw [trunc_index h0 h1] at s1 s2
  refine ⟨a, b, ?_, ?_, q⟩
  · rw [← s1]; congr 1; omega
  · rw [← s2]; congr 1; omega

/-- **C118** So the stencil for `Ex`, `Ey`, `Bz` comes from the first list, the one for `Ez`, `Bx`, `By` from the second. -/
theorem C118_stencils_partial {c : ℝ} (h0 : 0 ≤ c) (h1 : c < 99 / 100) {lower : ℤ} (hl : lower ≠ 0) : ∃ sx sy a b a' b',
    initFilter 5 c lower = .ok (sx, sy) ∧ exList[⌊100 * c⌋.toNat]? = some a ∧ exList[⌊100 * c⌋.toNat + 1]? = some b ∧
    byList[⌊100 * c⌋.toNat]? = some a' ∧ byList[⌊100 * c⌋.toNat + 1]? = some b' ∧
    ∀ A θ φ i, convolved sx (waveZ A θ φ) i = ((1 - c) * gain (a.c1, a.c2, a.c3, a.c4) θ + c * gain (b.c1, b.c2, b.c3, b.c4) θ) * waveZ A θ φ i ∧
      convolved sy (waveZ A θ φ) i = ((1 - c) * gain (a'.c1, a'.c2, a'.c3, a'.c4) θ + c * gain (b'.c1, b'.c2, b'.c3, b'.c4) θ) * waveZ A θ φ i := by
  obtain ⟨a, b, s1, s2, q1⟩ := C118_columns_partial h0 h1 ex_length
  obtain ⟨a', b', s1', s2', q2⟩ := C118_columns_partial h0 h1 by_length
  have up : ∀ (t : List Row) (k : ℕ) (r : Row), (t.take 100)[k]? = some r → t[k]? = some r := by
    intro t k r h
    rw [List.getElem?_take] at h
    split_ifs at h
    exact h
  refine ⟨_, _, a, b, a', b', init_ok hl q1 q2, up _ _ _ s1, up _ _ _ s2, up _ _ _ s1', up _ _ _ s2', ?_⟩
  intro A θ φ i
  rw [← gain_rows, ← gain_rows]
  exact ⟨stencil_wave _ A θ φ i, stencil_wave _ A θ φ i⟩

/-- **C118** The coefficients for a ratio that is in the table are not those of the table: for 1/2, column 51, the routine returns the mean of columns
51 and 52. -/
theorem C118_tabulated_refuted : ∃ r : Row, exTable[50]? = some r ∧ ∃ p, prestencil exTable 100 (1 / 2) = .ok p ∧ p ≠ ((r.c1 : ℝ), (r.c2 : ℝ), (r.c3 : ℝ), (r.c4 : ℝ)) := by
  obtain ⟨a, b, h1, h2, h3⟩ := C118_columns_partial (c := 1 / 2) (by norm_num) (by norm_num) ex_length
  have e : ⌊(100 : ℝ) * (1 / 2)⌋ = 50 := by norm_num
  rw [e] at h1 h2
  have e1 : exTable[50]? = some ⟨-2.5436, 2.19471, -0.704331, 0.0539417⟩ := by decide +kernel
  have e2 : exTable[51]? = some ⟨-2.54531, 2.19852, -0.70701, 0.0545141⟩ := by decide +kernel
  change exTable[50]? = some a at h1
  change exTable[51]? = some b at h2
  rw [e1] at h1
  rw [e2] at h2
  injection h1 with h1
  injection h2 with h2
  subst h1 h2
  refine ⟨_, e1, _, h3, ?_⟩
  intro h
  have := congrArg Prod.fst h
  norm_num at this

/-- **C118** The coefficients jump where they should be continuous: just below 1/2 they are near the mean of columns 50 and 51, at 1/2 the mean of
columns 51 and 52. -/
theorem C118_continuity_refuted : ∃ p, prestencil exTable 100 (1 / 2) = .ok p ∧ ∀ ε : ℝ, 0 < ε → ε < 1 / 100 → ∃ q, prestencil exTable 100 (1 / 2 - ε) = .ok q ∧
    p.1 + 1 / 1000 < q.1 := by
  obtain ⟨a, b, h1, h2, h3⟩ := C118_columns_partial (c := 1 / 2) (by norm_num) (by norm_num) ex_length
  have e : ⌊(100 : ℝ) * (1 / 2)⌋ = 50 := by norm_num
  rw [e] at h1 h2
  have e0 : exTable[49]? = some ⟨-2.54175, 2.19059, -0.701452, 0.053333⟩ := by decide +kernel
  have e1 : exTable[50]? = some ⟨-2.5436, 2.19471, -0.704331, 0.0539417⟩ := by decide +kernel
  have e2 : exTable[51]? = some ⟨-2.54531, 2.19852, -0.70701, 0.0545141⟩ := by decide +kernel
  change exTable[50]? = some a at h1
  change exTable[51]? = some b at h2
  rw [e1] at h1
  rw [e2] at h2
  injection h1 with h1
  injection h2 with h2
  subst h1 h2
  refine ⟨_, h3, ?_⟩
  intro ε p1 p2
  obtain ⟨a, b, g1, g2, g3⟩ := C118_columns_partial (c := 1 / 2 - ε) (by linarith) (by linarith) ex_length
  have e : ⌊(100 : ℝ) * (1 / 2 - ε)⌋ = 49 := by
    rw [Int.floor_eq_iff]
    push_cast
    constructor <;> linarith
  rw [e] at g1 g2
  change exTable[49]? = some a at g1
  change exTable[50]? = some b at g2
  rw [e0] at g1
  rw [e1] at g2
  injection g1 with g1
  injection g2 with g2
  subst g1 g2
  refine ⟨_, g3, ?_⟩
  norm_num
  nlinarith

/-- **C118** For the ratio 1 the routine returns the column for 0.99: the column for 1 is in the list, but the table is one column too short. -/
theorem C118_last_column_refuted : ∃ r r' : Row, exList[99]? = some r ∧ exList[100]? = some r' ∧ r ≠ r' ∧
    prestencil exTable 100 1 = .ok ((r.c1 : ℝ), (r.c2 : ℝ), (r.c3 : ℝ), (r.c4 : ℝ)) := by
  have e : index 100 1 = 99 := by
    unfold index truncI
    norm_num
  obtain ⟨a, _, b, _, s1, s2, q⟩ := prestencil_ok ex_length 1
  rw [e] at s1 s2
  change exTable[99]? = some b at s2
  have e1 : exTable[99]? = some ⟨-2.97991, 3.17632, -1.40234, 0.205964⟩ := by decide +kernel
  rw [e1] at s2
  injection s2 with s2
  subst s2
  refine ⟨⟨-2.97991, 3.17632, -1.40234, 0.205964⟩, ⟨-2.98769, 3.19374, -1.41463, 0.208607⟩, by decide +kernel, by decide +kernel, by decide +kernel, ?_⟩
  rw [q]
  simp

end Picsar.Props
