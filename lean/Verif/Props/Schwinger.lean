import Verif.Model.Schwinger
import Verif.Lemmas.OpticalDepth
import Verif.Props.OpticalDepth
import Mathlib.Analysis.Complex.Trigonometric

/-
Property theorems C29, C30 (schwinger_pair_engine.hpp) and C76 (reference length in normalised units).
-/
namespace Picsar.Props
open Picsar

theorem tanh_pos' {x : ℝ} (hx : 0 < x) : 0 < Real.tanh x := by
  rw [Real.tanh_eq]
  have h1 : Real.exp (-x) < Real.exp x := Real.exp_lt_exp.mpr (by linarith)
  have := Real.exp_pos x
  have := Real.exp_pos (-x)
  exact div_pos (by linarith) (by linarith)

theorem inner_ge (f g : ℝ) : |f| ≤ Real.sqrt (f * f + g * g) := by
  apply Real.abs_le_sqrt
  nlinarith [mul_self_nonneg g]

theorem epsi_eq_zero (f g : ℝ) : Real.sqrt (Real.sqrt (f * f + g * g) + f) = 0 ↔ f ≤ 0 ∧ g = 0 := by
  have h := inner_ge f g
  have h1 := neg_abs_le f
  rw [Real.sqrt_eq_zero (by linarith)]
  constructor
  · intro h2
    have h3 : Real.sqrt (f * f + g * g) = -f := by linarith
    have h4 : 0 ≤ -f := h3 ▸ Real.sqrt_nonneg _
    have h5 := Real.mul_self_sqrt (show 0 ≤ f * f + g * g by nlinarith [mul_self_nonneg f, mul_self_nonneg g])
    rw [h3] at h5
    refine ⟨by linarith, ?_⟩
    have : g * g = 0 := by linarith
    exact mul_self_eq_zero.mp this
  · rintro ⟨h2, rfl⟩
    rw [mul_zero, add_zero, ← neg_mul_neg, Real.sqrt_mul_self (by linarith)]
    ring

open Classical in
/-- Closed form of the rate. -/
noncomputable def rateVal (f g : ℝ) : ℝ :=
  let epsi := Real.sqrt (Real.sqrt (f * f + g * g) + f)
  let eta := Real.sqrt (Real.sqrt (f * f + g * g) - f)
  if epsi ≠ 0 ∧ eta ≠ 0 then epsi * eta * Real.exp (-Real.pi / epsi) / Real.tanh (Real.pi * eta / epsi)
  else if epsi = 0 then 0
  else epsi * epsi * Real.exp (-Real.pi / epsi) / Real.pi

theorem fdiv_ok {a b : ℝ} (h : b ≠ 0) : fdiv a b = .ok (a / b) := if_neg h

/-- No division by zero: the rate is its closed form. -/
theorem rateOf_eq (f g : ℝ) : Schwinger.rateOf f g = .ok (rateVal f g) := by
  unfold Schwinger.rateOf rateVal
  dsimp only
  have hpi := Real.pi_pos
  by_cases h : Real.sqrt (Real.sqrt (f * f + g * g) + f) ≠ 0 ∧ Real.sqrt (Real.sqrt (f * f + g * g) - f) ≠ 0
  · rw [if_pos h, if_pos h, fdiv_ok h.1, fdiv_ok h.1]
    have h1 : 0 < Real.sqrt (Real.sqrt (f * f + g * g) + f) := lt_of_le_of_ne (Real.sqrt_nonneg _) (Ne.symm h.1)
    have h2 : 0 < Real.sqrt (Real.sqrt (f * f + g * g) - f) := lt_of_le_of_ne (Real.sqrt_nonneg _) (Ne.symm h.2)
    simp only [except_bind_ok]
    exact fdiv_ok (tanh_pos' (by positivity)).ne'
  · rw [if_neg h, if_neg h]
    by_cases h1 : Real.sqrt (Real.sqrt (f * f + g * g) + f) = 0
    · rw [if_pos h1, if_pos h1]
    · rw [if_neg h1, if_neg h1, fdiv_ok h1]
      simp only [except_bind_ok]
      exact fdiv_ok hpi.ne'

theorem rate_eq (U : Units) (e b : V3) (l : ℝ) : Schwinger.rate U e b l =
    .ok (U.schwCoeff * U.lam l * U.lam l * U.lam l * U.lam l * rateVal (Schwinger.ff U e b) (Schwinger.gg U e b)) := by
  unfold Schwinger.rate
  rw [rateOf_eq]
  rfl

/-- The rate vanishes exactly for `f ≤ 0` and `g = 0`, and is positive otherwise. -/
theorem rateVal_pos (f g : ℝ) (h : ¬ (f ≤ 0 ∧ g = 0)) : 0 < rateVal f g := by
  have he : Real.sqrt (Real.sqrt (f * f + g * g) + f) ≠ 0 := fun e => h ((epsi_eq_zero f g).mp e)
  have he' : 0 < Real.sqrt (Real.sqrt (f * f + g * g) + f) := lt_of_le_of_ne (Real.sqrt_nonneg _) (Ne.symm he)
  have hpi := Real.pi_pos
  unfold rateVal
  simp only
  split_ifs with h1
  · have h2 : 0 < Real.sqrt (Real.sqrt (f * f + g * g) - f) := lt_of_le_of_ne (Real.sqrt_nonneg _) (Ne.symm h1.2)
    have := tanh_pos' (x := Real.pi * Real.sqrt (Real.sqrt (f * f + g * g) - f) /
      Real.sqrt (Real.sqrt (f * f + g * g) + f)) (by positivity)
    positivity
  · positivity

theorem rateVal_zero (f g : ℝ) (h : f ≤ 0 ∧ g = 0) : rateVal f g = 0 := by
  have he := (epsi_eq_zero f g).mpr h
  unfold rateVal
  simp only [he]
  simp

/-- C29: the rate is always computed without a division by zero, and is never negative. -/
theorem C29_nonneg (U : Units) (hU : U.Pos) (e b : V3) (lambda : ℝ) (hl : 0 < lambda) :
    ∃ r, Schwinger.rate U e b lambda = .ok r ∧ 0 ≤ r := by
  have h1 := lam_pos (U := U) hl
  have h2 := hU.schwCoeff
  refine ⟨_, rate_eq U e b lambda, ?_⟩
  have : 0 ≤ rateVal (Schwinger.ff U e b) (Schwinger.gg U e b) := by
    by_cases h : Schwinger.ff U e b ≤ 0 ∧ Schwinger.gg U e b = 0
    · rw [rateVal_zero _ _ h]
    · exact (rateVal_pos _ _ h).le
  positivity

/-- C29: the rate is zero exactly when the fields are orthogonal and the electric field does not exceed the magnetic
one (`E·B = 0` and `|E|² ≤ c²|B|²`); otherwise it is positive. -/
theorem C29_zero_iff (U : Units) (hU : U.Pos) (e b : V3) (lambda : ℝ) (hl : 0 < lambda) :
    Schwinger.rate U e b lambda = .ok 0 ↔ e.dot b = 0 ∧ e.norm2 ≤ U.c ^ 2 * b.norm2 := by
  have h1 := lam_pos (U := U) hl
  have h2 := hU.schwCoeff
  have hs := hU.schwinger
  have hc := hU.c
  have hff : Schwinger.ff U e b ≤ 0 ↔ e.norm2 ≤ U.c ^ 2 * b.norm2 := by
    unfold Schwinger.ff
    have : 0 < 1 / (2 * U.schwinger * U.schwinger) := by positivity
    constructor
    · intro h
      have := nonpos_of_mul_nonpos_left h this
      nlinarith
    · intro h
      exact mul_nonpos_of_nonpos_of_nonneg (by nlinarith) this.le
  have hgg : Schwinger.gg U e b = 0 ↔ e.dot b = 0 := by
    unfold Schwinger.gg
    have : U.c / U.schwinger / U.schwinger ≠ 0 := by positivity
    simp [this]
  rw [rate_eq]
  constructor
  · intro h
    injection h with h
    by_contra hn
    have := rateVal_pos (Schwinger.ff U e b) (Schwinger.gg U e b) (by rw [hff, hgg]; tauto)
    have : 0 < U.schwCoeff * U.lam lambda * U.lam lambda * U.lam lambda * U.lam lambda *
      rateVal (Schwinger.ff U e b) (Schwinger.gg U e b) := by positivity
    linarith
  · rintro ⟨h3, h4⟩
    rw [rateVal_zero _ _ ⟨hff.mpr h4, hgg.mpr h3⟩, mul_zero]

/-- C29: the value of the rate. `ε` and `η` are the electric and magnetic fields, in units of the critical field, in a frame where they are parallel: they
are given by the two invariants, `ε² - η² = (E² - c²B²)/E_s²` and `ε η = c |E·B|/E_s²`. The rate is `C λ⁴ ε η coth(π η/ε) exp(-π/ε)`, its limit
`C λ⁴ ε²/π exp(-π/ε)` without magnetic field, and zero without electric field. -/
theorem C29_formula (U : Units) (hU : U.Pos) (e b : V3) (lambda ε η : ℝ) (hε : 0 ≤ ε) (hη : 0 ≤ η)
    (h1 : ε ^ 2 - η ^ 2 = (e.norm2 - U.c ^ 2 * b.norm2) / U.schwinger ^ 2) (h2 : ε * η = U.c * |e.dot b| / U.schwinger ^ 2) :
    (0 < ε → 0 < η → Schwinger.rate U e b lambda =
      .ok (U.schwCoeff * U.lam lambda ^ 4 * (ε * η * (1 / Real.tanh (Real.pi * η / ε)) * Real.exp (-Real.pi / ε)))) ∧
    (0 < ε → η = 0 → Schwinger.rate U e b lambda = .ok (U.schwCoeff * U.lam lambda ^ 4 * (ε ^ 2 / Real.pi * Real.exp (-Real.pi / ε)))) ∧
    (ε = 0 → Schwinger.rate U e b lambda = .ok 0) := by
  have hs := hU.schwinger
  have hc := hU.c
  have hf : Schwinger.ff U e b = (ε ^ 2 - η ^ 2) / 2 := by
    unfold Schwinger.ff
    rw [h1]
    field_simp
  have hg : Schwinger.gg U e b * Schwinger.gg U e b = (ε * η) ^ 2 := by
    unfold Schwinger.gg
    rw [h2, div_pow, mul_pow, sq_abs]
    field_simp
  have hin : Real.sqrt (Schwinger.ff U e b * Schwinger.ff U e b + Schwinger.gg U e b * Schwinger.gg U e b) = (ε ^ 2 + η ^ 2) / 2 := by
    rw [hg, hf, show (ε ^ 2 - η ^ 2) / 2 * ((ε ^ 2 - η ^ 2) / 2) + (ε * η) ^ 2 = ((ε ^ 2 + η ^ 2) / 2) ^ 2 by ring, Real.sqrt_sq (by positivity)]
  have he : Real.sqrt (Real.sqrt (Schwinger.ff U e b * Schwinger.ff U e b + Schwinger.gg U e b * Schwinger.gg U e b) + Schwinger.ff U e b) = ε := by
    rw [hin, hf, show (ε ^ 2 + η ^ 2) / 2 + (ε ^ 2 - η ^ 2) / 2 = ε ^ 2 by ring, Real.sqrt_sq hε]
  have ht : Real.sqrt (Real.sqrt (Schwinger.ff U e b * Schwinger.ff U e b + Schwinger.gg U e b * Schwinger.gg U e b) - Schwinger.ff U e b) = η := by
    rw [hin, hf, show (ε ^ 2 + η ^ 2) / 2 - (ε ^ 2 - η ^ 2) / 2 = η ^ 2 by ring, Real.sqrt_sq hη]
  rw [rate_eq]
  unfold rateVal
  simp only [he, ht]
  refine ⟨fun h3 h4 => ?_, fun h3 h4 => ?_, fun h3 => ?_⟩
  · rw [if_pos ⟨h3.ne', h4.ne'⟩]
    congr 1; ring
  · rw [if_neg (fun h => h.2 h4), if_neg h3.ne']
    congr 1; ring
  · rw [if_neg (fun h => h.1 h3), if_pos h3, mul_zero]

/-- Parallel fields, both of the critical strength. -/
example : Schwinger.rate normUnits ⟨normUnits.schwinger, 0, 0⟩ ⟨normUnits.schwinger, 0, 0⟩ 1 =
    .ok (normUnits.schwCoeff * normUnits.lam 1 ^ 4 * (1 * 1 * (1 / Real.tanh (Real.pi * 1 / 1)) * Real.exp (-Real.pi / 1))) := by
  have hs := normUnits_pos.schwinger
  refine (C29_formula normUnits normUnits_pos _ _ 1 1 1 zero_le_one zero_le_one ?_ ?_).1 one_pos one_pos
  · simp [V3.norm2, normUnits]
  · have : |normUnits.schwinger * normUnits.schwinger| = normUnits.schwinger ^ 2 := by rw [abs_mul_self]; ring
    simp only [V3.dot, mul_zero, add_zero, this]
    rw [show normUnits.c = 1 from rfl, one_mul, one_mul, div_self (by positivity)]

/-- C29: the rate depends on the fields only through `|E|² - c²|B|²` and `E·B`. -/
theorem C29_invariants (U : Units) (e b e' b' : V3) (lambda : ℝ)
    (h1 : e.norm2 - U.c ^ 2 * b.norm2 = e'.norm2 - U.c ^ 2 * b'.norm2) (h2 : e.dot b = e'.dot b') :
    Schwinger.rate U e b lambda = Schwinger.rate U e' b' lambda := by
  unfold Schwinger.rate Schwinger.ff Schwinger.gg
  rw [h2, show e.norm2 - U.c * U.c * b.norm2 = e'.norm2 - U.c * U.c * b'.norm2 by
    rw [← sq]; exact h1]

/-- C29: no pairs in a plane wave (`B = n × E / c`, `E` transverse to the unit vector `n`). -/
theorem C29_plane_wave (U : Units) (hU : U.Pos) (n e : V3) (lambda : ℝ) (hl : 0 < lambda) (hn : n.norm2 = 1)
    (hne : n.dot e = 0) : Schwinger.rate U e (V3.smul (1 / U.c) (n.cross e)) lambda = .ok 0 := by
  have hc := hU.c
  rw [C29_zero_iff U hU _ _ _ hl]
  constructor
  · simp only [V3.dot, V3.smul, V3.cross]; ring
  · have h2 : (n.cross e).norm2 = n.norm2 * e.norm2 - n.dot e * n.dot e := by
      simp only [V3.norm2, V3.cross, V3.dot]; ring
    rw [V3.norm2_smul, h2, hn, hne]
    have : U.c ^ 2 * (1 / U.c * (1 / U.c) * (1 * e.norm2 - 0 * 0)) = e.norm2 := by field_simp; ring
    rw [this]

/-- C29: and none without electric field. -/
theorem C29_no_electric_field (U : Units) (hU : U.Pos) (b : V3) (lambda : ℝ) (hl : 0 < lambda) :
    Schwinger.rate U V3.zero b lambda = .ok 0 := by
  rw [C29_zero_iff U hU _ _ _ hl]
  refine ⟨by simp [V3.dot, V3.zero], ?_⟩
  have := b.norm2_nonneg
  have : 0 ≤ U.c ^ 2 * b.norm2 := by positivity
  simpa [V3.norm2, V3.zero] using this

/-- Both the zero and the non-zero case occur: a purely electric field produces pairs. -/
example : ∃ r, Schwinger.rate siUnits ⟨1, 0, 0⟩ V3.zero 1 = .ok r ∧ 0 < r := by
  obtain ⟨r, h1, h2⟩ := C29_nonneg _ siUnits_pos ⟨1, 0, 0⟩ V3.zero 1 one_pos
  refine ⟨r, h1, lt_of_le_of_ne h2 (Ne.symm ?_)⟩
  rintro rfl
  rw [C29_zero_iff _ siUnits_pos _ _ _ one_pos] at h1
  obtain ⟨_, h⟩ := h1
  simp [V3.norm2, V3.zero] at h
  linarith

/-! ### C30 -/

theorem rate_lam (U : Units) (e b : V3) (l : ℝ) : Schwinger.rate U e b (U.lam l) = Schwinger.rate U e b l := by
  unfold Schwinger.rate; simp only [lam_idem]

/-- C30: single-pair sampling in a cell that is not empty: an event exactly when the draw is below `rate * volume * dt`, with the inverse of the volume as
weight. -/
theorem C30_single (U : Units) (e b : V3) (dx dy dz dt lambda u : ℝ) (hv : dx * dy * dz ≠ 0) :
    ∃ r ev, Schwinger.rate U e b lambda = .ok r ∧ Schwinger.single U e b dx dy dz dt lambda u = .ok (ev, 1 / (dx * dy * dz)) ∧
      (ev = true ↔ u < r * (dx * dy * dz) * dt) := by
  classical
  refine ⟨_, decide (u < U.schwCoeff * U.lam lambda * U.lam lambda * U.lam lambda * U.lam lambda * rateVal (Schwinger.ff U e b) (Schwinger.gg U e b) *
      (dx * dy * dz) * dt), rate_eq U e b lambda, ?_, ?_⟩
  · unfold Schwinger.single
    dsimp only
    rw [rate_lam, rate_eq, fdiv_ok hv]
    simp only [except_bind_ok]
  · rw [decide_eq_true_eq]

/-- C30: multi-pair sampling inverts the Poisson distribution of mean `rate * volume * dt`. -/
theorem C30_multiple (U : Units) (hU : U.Pos) (e b : V3) (dx dy dz dt lambda u : ℝ) (hl : 0 < lambda)
    (hv : 0 < dx * dy * dz) (hdt : 0 ≤ dt) (hu : u < 1) :
    ∃ r k, Schwinger.rate U e b lambda = .ok r ∧ Schwinger.multiple U e b dx dy dz dt lambda u = .ok (some k, 1 / (dx * dy * dz)) ∧
      Spec.IsPoissonQuantile (r * (dx * dy * dz) * dt) u k := by
  obtain ⟨r, hr, h⟩ := C29_nonneg U hU e b lambda hl
  obtain ⟨k, h1, h2⟩ := C05_poisson (r * (dx * dy * dz) * dt) u (by positivity) hu
  refine ⟨r, k, hr, ?_, h2⟩
  unfold Schwinger.multiple
  dsimp only
  rw [rate_lam, hr, fdiv_ok hv.ne']
  simp only [except_bind_ok, h1]

/-- C30: with a vanishing rate neither produces a pair, for every draw in `[0,1]`. -/
theorem C30_no_rate (U : Units) (e b : V3) (dx dy dz dt lambda u : ℝ) (hv : dx * dy * dz ≠ 0)
    (hr : Schwinger.rate U e b lambda = .ok 0) (h0 : 0 ≤ u) (h1 : u ≤ 1) :
    Schwinger.single U e b dx dy dz dt lambda u = .ok (false, 1 / (dx * dy * dz)) ∧
    Schwinger.multiple U e b dx dy dz dt lambda u = .ok (some 0, 1 / (dx * dy * dz)) := by
  constructor
  · obtain ⟨r, ev, h2, h3, h4⟩ := C30_single U e b dx dy dz dt lambda u hv
    rw [hr] at h2
    injection h2 with h2
    subst h2
    rw [h3]
    cases ev with
    | false => rfl
    | true => have := h4.mp rfl; linarith
  · unfold Schwinger.multiple
    dsimp only
    rw [rate_lam, hr, fdiv_ok hv]
    simp only [except_bind_ok]
    rw [C05_poisson_zero]
    simp [h1]

/-- C30: the two samplings agree on whether anything happens up to the difference between `p` and `1 - exp(-p)`:
multi-pair sampling produces no pair exactly for draws up to `exp(-p)`. -/
theorem C30_multiple_none_iff (U : Units) (hU : U.Pos) (e b : V3) (dx dy dz dt lambda u : ℝ) (hl : 0 < lambda)
    (hv : 0 < dx * dy * dz) (hdt : 0 ≤ dt) (hu : u < 1) :
    ∃ r, Schwinger.rate U e b lambda = .ok r ∧
      (Schwinger.multiple U e b dx dy dz dt lambda u = .ok (some 0, 1 / (dx * dy * dz)) ↔ u ≤ Real.exp (-(r * (dx * dy * dz) * dt))) := by
  obtain ⟨r, k, hr, h1, h2, h3⟩ := C30_multiple U hU e b dx dy dz dt lambda u hl hv hdt hu
  refine ⟨r, hr, ?_, ?_⟩
  · intro h
    rw [h1] at h
    simp only [Except.ok.injEq, Prod.mk.injEq, Option.some.injEq, and_true] at h
    subst h
    simpa [Spec.poissonCdf] using h2
  · intro h
    unfold Schwinger.multiple
    dsimp only
    rw [rate_lam, hr, fdiv_ok hv.ne']
    simp only [except_bind_ok]
    rw [C05_poisson_zero _ _ h]

example : ∃ r ev, Schwinger.rate siUnits ⟨1, 0, 0⟩ V3.zero 1 = .ok r ∧ Schwinger.single siUnits ⟨1, 0, 0⟩ V3.zero 1 2 3 4 1 (1 / 2) =
    .ok (ev, 1 / (1 * 2 * 3)) ∧ (ev = true ↔ 1 / 2 < r * (1 * 2 * 3) * 4) := C30_single _ _ _ _ _ _ _ _ _ (by norm_num)

example : ∃ r k, Schwinger.rate siUnits ⟨1, 0, 0⟩ V3.zero 1 = .ok r ∧ Schwinger.multiple siUnits ⟨1, 0, 0⟩ V3.zero 1 2 3 4 1 (1 / 2) =
    .ok (some k, 1 / (1 * 2 * 3)) ∧ Spec.IsPoissonQuantile (r * (1 * 2 * 3) * 4) (1 / 2) k :=
  C30_multiple _ siUnits_pos _ _ _ _ _ _ _ _ one_pos (by norm_num) (by norm_num) (by norm_num)

/-! ### C76 -/

/-- C76: quantum parameters do not depend on the reference length (fields in normalised units are proportional to it).
-/
theorem C76_chi_photon (U : Units) (hn : U.si = false) (p e b : V3) (lambda k : ℝ) (hk : 0 < k) :
    chiPhoton U p (V3.smul k e) (V3.smul k b) (k * lambda) = chiPhoton U p e b lambda := by
  have h := (C31_linear_in_fields U p e b (k * lambda) k).1
  rw [h]
  unfold chiPhoton Units.lam
  simp only [hn]
  split_ifs
  · simp
  · simp at *
  · rw [abs_of_pos hk]
    have : 1 / (U.emass * U.c * U.schwinger * lambda) = k * (1 / (U.emass * U.c * U.schwinger * (k * lambda))) := by
      rw [mul_one_div, show U.emass * U.c * U.schwinger * (k * lambda)
        = k * (U.emass * U.c * U.schwinger * lambda) by ring]
      rcases eq_or_ne (U.emass * U.c * U.schwinger * lambda) 0 with h0 | h0
      · simp [h0]
      · field_simp
    rw [this]; ring

theorem C76_chi_lepton (U : Units) (hn : U.si = false) (p e b : V3) (lambda k : ℝ) (hk : 0 < k) :
    chiLepton U p (V3.smul k e) (V3.smul k b) (k * lambda) = chiLepton U p e b lambda := by
  have h := (C31_linear_in_fields U p e b (k * lambda) k).2
  rw [h]
  unfold chiLepton Units.lam
  simp only [hn]
  split_ifs
  · simp
  · simp at *
  · rw [abs_of_pos hk]
    have : 1 / (U.schwinger * lambda) = k * (1 / (U.schwinger * (k * lambda))) := by
      rw [mul_one_div, show U.schwinger * (k * lambda) = k * (U.schwinger * lambda) by ring]
      rcases eq_or_ne (U.schwinger * lambda) 0 with h0 | h0
      · simp [h0]
      · field_simp
    rw [this]; ring

/-- C76: rates per unit time scale with the reference length (normalised times are inversely proportional to it). -/
theorem C76_pair_rate (U : Units) (hn : U.si = false) (ctrl : BWCtrl) (t : Lookup1d) (lambda k energy chi r : ℝ)
    (hr : BW.interpDnDt U ctrl t lambda energy chi = .ok r) :
    BW.interpDnDt U ctrl t (k * lambda) energy chi = .ok (k * r) := by
  unfold BW.interpDnDt Units.lam at hr ⊢
  simp only [hn, Bool.false_eq_true, if_false] at hr ⊢
  split_ifs at hr ⊢ with h1 h2 h3
  · cases hr; simp
  · cases hr; congr 1; ring
  · cases hr; congr 1; ring
  · cases hv : t.interpLinearEquispaced (Real.log chi) with
    | error e => rw [hv] at hr; cases hr
    | ok v =>
      rw [hv] at hr
      simp only [except_bind_ok] at hr ⊢
      cases hr
      simp only [pure, Except.pure]
      congr 1; ring

theorem C76_emission_rate (U : Units) (ctrl : QSCtrl) (t : Lookup1d) (lambda k energy chi r : ℝ)
    (hr : QS.interpDnDt U ctrl t lambda energy chi = .ok r) :
    QS.interpDnDt U ctrl t (k * lambda) energy chi = .ok (k * r) := by
  unfold QS.interpDnDt at hr ⊢
  split_ifs at hr ⊢ with h1
  · cases hr; simp
  · cases hv : t.interpLinearEquispaced (Real.log (QS.clampRate ctrl.tdndtMin ctrl.tdndtMax chi)) with
    | error e => rw [hv] at hr; cases hr
    | ok v =>
      rw [hv] at hr
      simp only [except_bind_ok] at hr ⊢
      cases hr
      simp only [pure, Except.pure]
      congr 1; ring

theorem rateVal_electric {x : ℝ} (hx : 0 < x) :
    rateVal (x ^ 2 / 2) 0 = x ^ 2 * Real.exp (-Real.pi / x) / Real.pi := by
  have h1 : Real.sqrt (x ^ 2 / 2 * (x ^ 2 / 2) + 0 * 0) = x ^ 2 / 2 := by
    rw [mul_zero, add_zero, Real.sqrt_mul_self (by positivity)]
  unfold rateVal
  simp only [h1]
  rw [show x ^ 2 / 2 + x ^ 2 / 2 = x ^ 2 by ring, sub_self, Real.sqrt_sq hx.le, Real.sqrt_zero]
  simp only [ne_eq, not_true_eq_false, and_false, if_false, hx.ne']
  rw [← sq]

/-- C76 is false of the Schwinger engine: the number of pairs per unit volume and time scales as the fourth power of
the reference length, so describing the same physical fields with reference length `k·lambda` should multiply the rate by
`k⁴`; it does not, for every purely electric field and every `k > 1`, because the critical field is not scaled as it is
for the quantum parameters. -/
theorem C76_schwinger_refuted (U : Units) (hU : U.Pos) (hn : U.si = false) (ex : ℝ) (hex : 0 < ex) (lambda k : ℝ)
    (hl : 0 < lambda) (hk : 1 < k) :
    ∃ r r', Schwinger.rate U (V3.smul k ⟨ex, 0, 0⟩) (V3.smul k V3.zero) (k * lambda) = .ok r' ∧
      Schwinger.rate U ⟨ex, 0, 0⟩ V3.zero lambda = .ok r ∧ r' ≠ k ^ 4 * r := by
  refine ⟨_, _, rate_eq _ _ _ _, rate_eq _ _ _ _, ?_⟩
  have hs := hU.schwinger
  have hk0 : 0 < k := by linarith
  have hg : ∀ x, Schwinger.gg U ⟨x, 0, 0⟩ V3.zero = 0 := by
    intro x; simp [Schwinger.gg, V3.dot, V3.zero]
  have hf : ∀ x, Schwinger.ff U ⟨x, 0, 0⟩ V3.zero = (x / U.schwinger) ^ 2 / 2 := by
    intro x; simp only [Schwinger.ff, V3.norm2, V3.zero]; field_simp; ring
  have e1 : V3.smul k ⟨ex, 0, 0⟩ = ⟨k * ex, 0, 0⟩ := by simp [V3.smul, mul_comm]
  have e2 : V3.smul k V3.zero = V3.zero := by simp [V3.smul, V3.zero]
  rw [e1, e2]
  unfold Units.lam
  simp only [hn, Bool.false_eq_true, if_false, hf, hg]
  rw [rateVal_electric (by positivity), rateVal_electric (by positivity)]
  have hx : 0 < ex / U.schwinger := by positivity
  set x := ex / U.schwinger with hxd
  have hkx : k * ex / U.schwinger = k * x := by rw [hxd]; ring
  rw [hkx]
  have hpi := Real.pi_pos
  have hc := hU.schwCoeff
  have hexp : Real.exp (-Real.pi / x) < Real.exp (-Real.pi / (k * x)) := by
    rw [Real.exp_lt_exp, neg_div, neg_div, neg_lt_neg_iff]
    apply div_lt_div_of_pos_left hpi hx
    nlinarith
  have hmain : x ^ 2 * Real.exp (-Real.pi / x) / Real.pi < (k * x) ^ 2 * Real.exp (-Real.pi / (k * x)) / Real.pi := by
    apply div_lt_div_of_pos_right _ hpi
    apply mul_lt_mul
    · rw [mul_pow]
      have : 1 < k ^ 2 := by nlinarith
      have := mul_lt_mul_of_pos_right this (pow_pos hx 2)
      linarith
    · exact hexp.le
    · exact Real.exp_pos _
    · positivity
  apply ne_of_gt
  have h4 : 0 < U.schwCoeff * (k * lambda) * (k * lambda) * (k * lambda) * (k * lambda) := by positivity
  have := mul_lt_mul_of_pos_left hmain h4
  calc _ = U.schwCoeff * (k * lambda) * (k * lambda) * (k * lambda) * (k * lambda) *
        (x ^ 2 * Real.exp (-Real.pi / x) / Real.pi) := by ring
    _ < _ := this

example : normUnits.si = false ∧ normUnits.Pos := ⟨rfl, normUnits_pos⟩

end Picsar.Props
