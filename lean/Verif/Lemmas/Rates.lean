import Verif.Model.Rates
import Verif.Spec.Rates
import Verif.Lemmas.BreitWheeler
import Verif.Lemmas.QuantumSync
import Verif.Lemmas.OpticalDepth
import Mathlib.Topology.Order.IntermediateValue
import Mathlib.MeasureTheory.Integral.IntervalIntegral.IntegrationByParts
import Mathlib.MeasureTheory.Integral.Prod
import Mathlib.MeasureTheory.Integral.IntegralEqImproper
import Mathlib.Analysis.SpecialFunctions.ImproperIntegrals
import Mathlib.Analysis.SpecialFunctions.Integrals.Basic

set_option linter.unusedSectionVars false
namespace Picsar.Rates
open MeasureTheory Set

theorem exp_neg_le {u p : ℝ} (hu : 0 < u) (hp0 : 0 ≤ p) (hp2 : p ≤ 2) : Real.exp (-u) ≤ 3 * u ^ (-p) := by
  have h1 : u ^ p ≤ 1 + u ^ 2 := by
    rcases le_total u 1 with h | h
    · have := Real.rpow_le_one hu.le h hp0; nlinarith [sq_nonneg u]
    · have := Real.rpow_le_rpow_of_exponent_le h hp2
      rw [show (2 : ℝ) = ((2 : ℕ) : ℝ) by norm_num, Real.rpow_natCast] at this; linarith
  have h2 : (1 + u ^ 2) ≤ 3 * Real.exp u := by
    have := Real.quadratic_le_exp_of_nonneg hu.le
    have := Real.add_one_le_exp u
    nlinarith
  have h3 : 0 < u ^ p := Real.rpow_pos_of_pos hu p
  rw [Real.exp_neg, Real.rpow_neg hu.le, ← div_eq_mul_inv, inv_eq_one_div, div_le_div_iff₀ (Real.exp_pos _) h3]
  linarith

theorem half_exp_le_cosh (t : ℝ) : Real.exp t / 2 ≤ Real.cosh t := by
  rw [Real.cosh_eq]; have := Real.exp_pos (-t); linarith

theorem cosh_le_exp {t : ℝ} (ht : 0 ≤ t) : Real.cosh t ≤ Real.exp t := by
  rw [Real.cosh_eq]; have := Real.exp_le_exp.mpr (show -t ≤ t by linarith); linarith

/-- Bound of the integrand of `kv`. -/
theorem kv_bound {ν x p t : ℝ} (hν : 0 ≤ ν) (hp0 : 0 ≤ p) (hp2 : p ≤ 2) (hx : 0 < x) (ht : 0 ≤ t) :
    Real.exp (-x * Real.cosh t) * Real.cosh (ν * t) ≤ (3 * 2 ^ p * x ^ (-p)) * Real.exp (-(p - ν) * t) := by
  have hc : 0 < Real.cosh t := Real.cosh_pos t
  have h1 : Real.exp (-x * Real.cosh t) ≤ 3 * (x * Real.cosh t) ^ (-p) := by
    rw [neg_mul]; exact exp_neg_le (mul_pos hx hc) hp0 hp2
  have h2 : Real.cosh (ν * t) ≤ Real.exp (ν * t) := cosh_le_exp (mul_nonneg hν ht)
  have h3 : (x * Real.cosh t) ^ (-p) ≤ x ^ (-p) * (2 ^ p * Real.exp (-(p * t))) := by
    rw [Real.mul_rpow hx.le hc.le]
    refine mul_le_mul_of_nonneg_left ?_ (Real.rpow_nonneg hx.le _)
    have : (Real.cosh t) ^ (-p) ≤ (Real.exp t / 2) ^ (-p) :=
      Real.rpow_le_rpow_of_nonpos (by positivity) (half_exp_le_cosh t) (by linarith)
    refine this.trans (le_of_eq ?_)
    rw [Real.div_rpow (Real.exp_pos t).le (by norm_num), ← Real.exp_mul, Real.rpow_neg (by norm_num : (0 : ℝ) ≤ 2), div_inv_eq_mul]
    rw [mul_comm]; congr 2; ring
  calc _ ≤ (3 * (x ^ (-p) * (2 ^ p * Real.exp (-(p * t))))) * Real.exp (ν * t) := by
        refine mul_le_mul (h1.trans (by linarith)) h2 (Real.cosh_pos _).le (by positivity)
    _ = _ := by
        rw [show -(p - ν) * t = -(p * t) + ν * t by ring, Real.exp_add]; ring

theorem kv_integrable {ν x : ℝ} (hν : 0 ≤ ν) (hν2 : ν < 2) (hx : 0 < x) :
    IntegrableOn (fun t => Real.exp (-x * Real.cosh t) * Real.cosh (ν * t)) (Ioi (0 : ℝ)) := by
  have h : IntegrableOn (fun t => (3 * 2 ^ (2 : ℝ) * x ^ (-2 : ℝ)) * Real.exp (-(2 - ν) * t)) (Ioi (0 : ℝ)) :=
    (exp_neg_integrableOn_Ioi 0 (by linarith : 0 < 2 - ν)).const_mul _
  refine Integrable.mono' h (by fun_prop) ?_
  refine (ae_restrict_iff' measurableSet_Ioi).mpr (Filter.Eventually.of_forall fun t (ht : 0 < t) => ?_)
  rw [Real.norm_of_nonneg (mul_nonneg (Real.exp_pos _).le (Real.cosh_pos _).le)]
  exact kv_bound hν (by norm_num) le_rfl hx ht.le

theorem kv_pos {ν x : ℝ} (hν : 0 ≤ ν) (hν2 : ν < 2) (hx : 0 < x) : 0 < kv ν x := by
  unfold kv
  rw [setIntegral_pos_iff_support_of_nonneg_ae (Filter.Eventually.of_forall fun _ => mul_nonneg (Real.exp_pos _).le (Real.cosh_pos _).le)
    (kv_integrable hν hν2 hx)]
  have : Function.support (fun t : ℝ => Real.exp (-x * Real.cosh t) * Real.cosh (ν * t)) = univ := by
    ext t; simp [(Real.cosh_pos (ν * t)).ne']
  rw [this, univ_inter, Real.volume_Ioi]; exact ENNReal.zero_lt_top

theorem kv_nonneg (ν x : ℝ) : 0 ≤ kv ν x :=
  integral_nonneg fun _ => mul_nonneg (Real.exp_pos _).le (Real.cosh_pos _).le

theorem kv_le {ν p x : ℝ} (hν : 0 ≤ ν) (hp : ν < p) (hp2 : p ≤ 2) (hx : 0 < x) : kv ν x ≤ (3 * 2 ^ p / (p - ν)) * x ^ (-p) := by
  unfold kv
  have h : IntegrableOn (fun t => (3 * 2 ^ p * x ^ (-p)) * Real.exp (-(p - ν) * t)) (Ioi (0 : ℝ)) :=
    (exp_neg_integrableOn_Ioi 0 (by linarith : 0 < p - ν)).const_mul _
  calc _ ≤ ∫ t in Ioi (0 : ℝ), (3 * 2 ^ p * x ^ (-p)) * Real.exp (-(p - ν) * t) := by
        refine setIntegral_mono_on (kv_integrable hν (by linarith) hx) h measurableSet_Ioi fun t (ht : 0 < t) => ?_
        exact kv_bound hν (by linarith) hp2 hx ht.le
    _ = _ := by
        rw [integral_const_mul, integral_exp_mul_Ioi (by linarith : -(p - ν) < 0)]
        have : p - ν ≠ 0 := by linarith
        simp only [mul_zero, Real.exp_zero]
        field_simp

theorem kv_measurable (ν : ℝ) : Measurable (kv ν) := by
  unfold kv
  have : StronglyMeasurable (fun q : ℝ × ℝ => Real.exp (-q.1 * Real.cosh q.2) * Real.cosh (ν * q.2)) :=
    (by fun_prop : Continuous _).stronglyMeasurable
  exact (this.integral_prod_right' (ν := volume.restrict (Ioi (0 : ℝ)))).measurable

/-! ### Integrals of positive functions -/

variable {f : ℝ → ℝ} {top : ℝ}

theorem sub_integrable (hf : IntervalIntegrable f volume 0 top) {a b : ℝ} (ha : 0 ≤ a) (hat : a ≤ top) (hb : 0 ≤ b) (hbt : b ≤ top) :
    IntervalIntegrable f volume a b := by
  have h0 : 0 ≤ top := ha.trans hat
  refine hf.mono_set ?_
  rw [uIcc_of_le h0]
  intro x hx
  rcases le_total a b with h | h
  · rw [uIcc_of_le h] at hx; exact ⟨ha.trans hx.1, hx.2.trans hbt⟩
  · rw [uIcc_of_ge h] at hx; exact ⟨hb.trans hx.1, hx.2.trans hat⟩

theorem primitive_mono (hf : IntervalIntegrable f volume 0 top) (hpos : ∀ x, 0 < x → x < top → 0 < f x) {a b : ℝ} (ha : 0 ≤ a) (hab : a < b)
    (hb : b ≤ top) : (∫ t in (0 : ℝ)..a, f t) < ∫ t in (0 : ℝ)..b, f t := by
  have h1 := sub_integrable hf le_rfl (by linarith) ha (by linarith : a ≤ top)
  have h2 := sub_integrable hf ha (by linarith) (by linarith : 0 ≤ b) hb
  rw [← intervalIntegral.integral_add_adjacent_intervals h1 h2]
  have := intervalIntegral.intervalIntegral_pos_of_pos_on h2 (fun x hx => hpos x (by linarith [hx.1]) (by linarith [hx.2])) hab
  linarith

theorem primitive_continuous (hf : IntervalIntegrable f volume 0 top) (h0 : 0 ≤ top) :
    ContinuousOn (fun c => ∫ t in (0 : ℝ)..c, f t) (Icc 0 top) := by
  have := intervalIntegral.continuousOn_primitive_interval' hf (left_mem_uIcc)
  rwa [uIcc_of_le h0] at this

end Picsar.Rates

namespace Picsar.BW
open MeasureTheory Set Picsar.Rates

theorem x32 {chi c : ℝ} (h0 : 0 < c) (h1 : c < chi) : computeX chi c ^ (3 / 2 : ℝ) = chi / (c * (chi - c)) := by
  unfold computeX
  have : 0 < chi - c := by linarith
  have hp : 0 < chi / (c * (chi - c)) := div_pos (by linarith) (mul_pos h0 this)
  rw [← Real.rpow_mul hp.le]; norm_num

theorem x32_ge {chi c : ℝ} (h0 : 0 < c) (h1 : c < chi) : 4 / chi ≤ chi / (c * (chi - c)) := by
  have : 0 < chi - c := by linarith
  rw [div_le_div_iff₀ (by linarith) (mul_pos h0 this)]
  nlinarith [sq_nonneg (chi - 2 * c)]

/-- The function under the inner integral. -/
noncomputable def innerFun (s : ℝ) : ℝ := if s ≥ bigArg then 0 else Real.sqrt s * kv (1 / 3) (2 * s ^ (3 / 2 : ℝ) / 3)

theorem innerFun_nonneg (s : ℝ) : 0 ≤ innerFun s := by
  unfold innerFun; split_ifs
  · exact le_rfl
  · exact mul_nonneg (Real.sqrt_nonneg _) (kv_nonneg _ _)

theorem innerFun_measurable : Measurable innerFun := by
  unfold innerFun
  refine Measurable.ite (measurableSet_le measurable_const measurable_id) measurable_const ?_
  refine (Real.continuous_sqrt.measurable).mul ((kv_measurable _).comp ?_)
  fun_prop

theorem innerFun_le {s : ℝ} (hs : 0 < s) : innerFun s ≤ (3 * 2 ^ (2 : ℝ) / (2 - 1 / 3) * (2 / 3) ^ (-2 : ℝ)) * s ^ (-(5 / 2) : ℝ) := by
  unfold innerFun; split_ifs
  · positivity
  · have hp : 0 < s ^ (3 / 2 : ℝ) := Real.rpow_pos_of_pos hs _
    have := kv_le (ν := 1 / 3) (p := 2) (by norm_num) (by norm_num) le_rfl (show 0 < 2 * s ^ (3 / 2 : ℝ) / 3 by positivity)
    calc _ ≤ Real.sqrt s * (3 * 2 ^ (2 : ℝ) / (2 - 1 / 3) * (2 * s ^ (3 / 2 : ℝ) / 3) ^ (-2 : ℝ)) :=
          mul_le_mul_of_nonneg_left this (Real.sqrt_nonneg _)
      _ = _ := by
          rw [show 2 * s ^ (3 / 2 : ℝ) / 3 = 2 / 3 * s ^ (3 / 2 : ℝ) by ring, Real.mul_rpow (by norm_num) hp.le, ← Real.rpow_mul hs.le,
            Real.sqrt_eq_rpow, show (-(5 / 2) : ℝ) = 1 / 2 + 3 / 2 * -2 by norm_num, Real.rpow_add hs]
          ring

theorem innerFun_integrable {x : ℝ} (hx : 0 < x) : IntegrableOn innerFun (Ioi x) := by
  refine Integrable.mono' ((integrableOn_Ioi_rpow_of_lt (by norm_num : (-(5 / 2) : ℝ) < -1) hx).const_mul
    (3 * 2 ^ (2 : ℝ) / (2 - 1 / 3) * (2 / 3) ^ (-2 : ℝ))) innerFun_measurable.aestronglyMeasurable ?_
  refine (ae_restrict_iff' measurableSet_Ioi).mpr (Filter.Eventually.of_forall fun s (hs : x < s) => ?_)
  rw [Real.norm_of_nonneg (innerFun_nonneg s)]
  exact innerFun_le (hx.trans hs)

theorem inner_eq (x : ℝ) : innerIntegral x = ∫ s in Ioi x, innerFun s := rfl

theorem inner_nonneg (x : ℝ) : 0 ≤ innerIntegral x := by rw [inner_eq]; exact integral_nonneg fun s => innerFun_nonneg s

theorem inner_anti {x y : ℝ} (hx : 0 < x) (h : x ≤ y) : innerIntegral y ≤ innerIntegral x := by
  rw [inner_eq, inner_eq]
  exact setIntegral_mono_set (innerFun_integrable hx) (Filter.Eventually.of_forall fun s => innerFun_nonneg s)
    (LE.le.eventuallyLE (Ioi_subset_Ioi h))

theorem inner_measurable : Measurable innerIntegral := by
  have h : innerIntegral = fun x => ∫ s, (if x < s then innerFun s else 0) := by
    funext x
    rw [inner_eq, ← integral_indicator measurableSet_Ioi]
    rfl
  rw [h]
  have : StronglyMeasurable (fun q : ℝ × ℝ => if q.1 < q.2 then innerFun q.2 else 0) := by
    refine Measurable.stronglyMeasurable ?_
    exact Measurable.ite (measurableSet_lt measurable_fst measurable_snd) (innerFun_measurable.comp measurable_snd) measurable_const
  exact (this.integral_prod_right' (ν := volume)).measurable

theorem tt_eq {chi c : ℝ} (h0 : 0 < c) (h1 : c < chi) : ttIntegrand chi c =
    (innerIntegral (computeX chi c) + (chi * (chi / (c * (chi - c))) - 2) * kv (2 / 3) (2 / 3 * (chi / (c * (chi - c))))) /
      (Real.pi * Real.sqrt 3) := by
  unfold ttIntegrand
  rw [if_neg (by push Not; exact ⟨by linarith, h1, h0.ne'⟩)]
  simp only [x32 h0 h1]
  congr 1; ring

theorem tt_pos {chi c : ℝ} (h0 : 0 < c) (h1 : c < chi) : 0 < ttIntegrand chi c := by
  have hchi : 0 < chi := h0.trans h1
  rw [tt_eq h0 h1]
  have h4 := x32_ge h0 h1
  set a := chi / (c * (chi - c))
  have ha : 0 < a := lt_of_lt_of_le (by positivity) h4
  have h5 : 4 ≤ chi * a := by rw [div_le_iff₀ hchi] at h4; linarith
  have hk := kv_pos (ν := 2 / 3) (by norm_num) (by norm_num) (show 0 < 2 / 3 * a by positivity)
  have := inner_nonneg (computeX chi c)
  have : 0 < (chi * a - 2) * kv (2 / 3) (2 / 3 * a) := mul_pos (by linarith) hk
  have := Real.pi_pos
  positivity

theorem tt_le {chi c : ℝ} (h0 : 0 < c) (h1 : c < chi) : ttIntegrand chi c ≤
    (innerIntegral ((4 / chi) ^ (2 / 3 : ℝ)) + chi * (3 / 2 * (3 * 2 ^ (1 : ℝ) / (1 - 2 / 3)))) / (Real.pi * Real.sqrt 3) := by
  have hchi : 0 < chi := h0.trans h1
  rw [tt_eq h0 h1]
  have h4 := x32_ge h0 h1
  have hX : (4 / chi) ^ (2 / 3 : ℝ) ≤ computeX chi c := by
    unfold computeX; exact Real.rpow_le_rpow (by positivity) h4 (by norm_num)
  set a := chi / (c * (chi - c))
  have ha : 0 < a := lt_of_lt_of_le (by positivity) h4
  have hk := kv_le (ν := 2 / 3) (p := 1) (by norm_num) (by norm_num) (by norm_num) (show 0 < 2 / 3 * a by positivity)
  have hk0 := kv_nonneg (2 / 3) (2 / 3 * a)
  have hi := inner_anti (by positivity : (0 : ℝ) < (4 / chi) ^ (2 / 3 : ℝ)) hX
  have := Real.pi_pos
  refine div_le_div_of_nonneg_right (add_le_add hi ?_) (by positivity)
  rw [Real.rpow_neg_one] at hk
  have hk2 : a * kv (2 / 3) (2 / 3 * a) ≤ 3 / 2 * (3 * 2 ^ (1 : ℝ) / (1 - 2 / 3)) := by
    calc _ ≤ a * (3 * 2 ^ (1 : ℝ) / (1 - 2 / 3) * (2 / 3 * a)⁻¹) := mul_le_mul_of_nonneg_left hk ha.le
      _ = _ := by field_simp
  calc _ ≤ chi * (a * kv (2 / 3) (2 / 3 * a)) := by nlinarith
    _ ≤ _ := mul_le_mul_of_nonneg_left hk2 hchi.le

theorem tt_measurable (chi : ℝ) : Measurable (ttIntegrand chi) := by
  unfold ttIntegrand
  refine Measurable.ite ?_ measurable_const ?_
  · by_cases h : chi = 0
    · simp [h]
    · simp only [h, false_or]
      exact (measurableSet_le measurable_const measurable_id).union (measurableSet_singleton 0)
  · have hx : Measurable (fun c => computeX chi c) := by unfold computeX; fun_prop
    have h2 : Measurable (fun c => kv (2 / 3) (2 / 3 * computeX chi c ^ (3 / 2 : ℝ))) := (kv_measurable _).comp (by fun_prop)
    exact ((inner_measurable.comp hx).sub ((by fun_prop : Measurable fun c => 2 - chi * computeX chi c ^ (3 / 2 : ℝ)).mul h2)).div_const _

theorem tt_integrable {chi : ℝ} (hchi : 0 < chi) : IntervalIntegrable (ttIntegrand chi) volume 0 chi := by
  rw [intervalIntegrable_iff_integrableOn_Ioo_of_le hchi.le]
  refine Measure.integrableOn_of_bounded (M := (innerIntegral ((4 / chi) ^ (2 / 3 : ℝ)) + chi * (3 / 2 * (3 * 2 ^ (1 : ℝ) / (1 - 2 / 3)))) /
    (Real.pi * Real.sqrt 3)) (by simp) (tt_measurable chi).aestronglyMeasurable ?_
  refine (ae_restrict_iff' measurableSet_Ioo).mpr (Filter.Eventually.of_forall fun c hc => ?_)
  rw [Real.norm_of_nonneg (tt_pos hc.1 hc.2).le]
  exact tt_le hc.1 hc.2

theorem tt_symm {chi c : ℝ} (h0 : 0 < c) (h1 : c < chi) : ttIntegrand chi (chi - c) = ttIntegrand chi c := by
  rw [tt_eq h0 h1, tt_eq (by linarith) (by linarith)]
  unfold computeX
  rw [show (chi - c) * (chi - (chi - c)) = c * (chi - c) by ring]

theorem ttFunction_eq (chi : ℝ) : ttFunction chi = ∫ c in (0 : ℝ)..chi, ttIntegrand chi c := by
  unfold ttFunction quadAB
  congr 1; funext c
  beta_reduce
  split_ifs with h
  · unfold ttIntegrand
    rcases h with h | h
    · rw [if_pos (.inr (.inl (by linarith)))]
    · rw [if_pos (.inr (.inr h))]
  · rfl

theorem ttFunction_pos {chi : ℝ} (hchi : 0 < chi) : 0 < ttFunction chi := by
  rw [ttFunction_eq]
  have := primitive_mono (tt_integrable hchi) (fun x h0 h1 => tt_pos h0 h1) le_rfl hchi le_rfl
  simpa using this

theorem cum_ok {chi x : ℝ} (hchi : 0 < chi) : cumulativePair chi x = .ok ((∫ c in (0 : ℝ)..x, ttIntegrand chi c) / ttFunction chi) := by
  unfold cumulativePair quadAB
  simp only [(ttFunction_pos hchi).ne', if_false]

theorem tt_reflect {chi a : ℝ} (hchi : 0 < chi) (ha : 0 ≤ a) (hac : a ≤ chi) :
    (∫ c in (0 : ℝ)..(chi - a), ttIntegrand chi c) = ttFunction chi - ∫ c in (0 : ℝ)..a, ttIntegrand chi c := by
  have hI := tt_integrable hchi
  have h1 := sub_integrable hI le_rfl hchi.le (by linarith : 0 ≤ chi - a) (by linarith : chi - a ≤ chi)
  have h2 := sub_integrable hI (by linarith : 0 ≤ chi - a) (by linarith : chi - a ≤ chi) hchi.le le_rfl
  have h3 : (∫ c in (chi - a)..chi, ttIntegrand chi c) = ∫ c in (0 : ℝ)..a, ttIntegrand chi c := by
    have := intervalIntegral.integral_comp_sub_left (fun c => ttIntegrand chi c) (a := 0) (b := a) chi
    rw [sub_zero] at this
    rw [← this]
    refine intervalIntegral.integral_congr_ae ?_
    have hne : ∀ᵐ c : ℝ, c ≠ chi := by simp [ae_iff, measure_singleton]
    filter_upwards [hne] with c hne hc
    rw [uIoc_of_le ha] at hc
    exact tt_symm hc.1 (lt_of_le_of_ne (hc.2.trans hac) hne)
  rw [ttFunction_eq, ← intervalIntegral.integral_add_adjacent_intervals h1 h2, h3]; ring

end Picsar.BW

namespace Picsar.QS
open MeasureTheory Set Picsar.Rates

/-- The function under the inner integral. -/
noncomputable def innerFun (s : ℝ) : ℝ := if s > bigArg then 0 else kv (5 / 3) s

theorem innerFun_nonneg (s : ℝ) : 0 ≤ innerFun s := by
  unfold innerFun; split_ifs
  · exact le_rfl
  · exact kv_nonneg _ _

theorem innerFun_measurable : Measurable innerFun := by
  unfold innerFun
  exact Measurable.ite (measurableSet_lt measurable_const measurable_id) measurable_const (kv_measurable _)

theorem innerFun_le {s : ℝ} (hs : 0 < s) : innerFun s ≤ (3 * 2 ^ (11 / 6 : ℝ) / (11 / 6 - 5 / 3)) * s ^ (-(11 / 6) : ℝ) := by
  unfold innerFun; split_ifs
  · have : (0 : ℝ) ≤ 3 * 2 ^ (11 / 6 : ℝ) / (11 / 6 - 5 / 3) := by
      have : (0 : ℝ) < 11 / 6 - 5 / 3 := by norm_num
      positivity
    exact mul_nonneg this (Real.rpow_nonneg hs.le _)
  · exact kv_le (by norm_num) (by norm_num) (by norm_num) hs

theorem innerFun_integrable {y : ℝ} (hy : 0 < y) : IntegrableOn innerFun (Ioi y) := by
  refine Integrable.mono' ((integrableOn_Ioi_rpow_of_lt (by norm_num : (-(11 / 6) : ℝ) < -1) hy).const_mul
    (3 * 2 ^ (11 / 6 : ℝ) / (11 / 6 - 5 / 3))) innerFun_measurable.aestronglyMeasurable ?_
  refine (ae_restrict_iff' measurableSet_Ioi).mpr (Filter.Eventually.of_forall fun s (hs : y < s) => ?_)
  rw [Real.norm_of_nonneg (innerFun_nonneg s)]
  exact innerFun_le (hy.trans hs)

theorem inner_eq {y : ℝ} (hy : 0 < y) : innerIntegral y = ∫ s in Ioi y, innerFun s := by
  have h : y ≤ 2 * y := by linarith
  have h1 : innerIntegral y = (∫ s in y..(2 * y), innerFun s) + ∫ s in Ioi (2 * y), innerFun s := rfl
  rw [h1, intervalIntegral.integral_of_le h, ← setIntegral_union (Ioc_disjoint_Ioi le_rfl) measurableSet_Ioi
    ((innerFun_integrable hy).mono_set Ioc_subset_Ioi_self) ((innerFun_integrable hy).mono_set (Ioi_subset_Ioi h)), Ioc_union_Ioi_eq_Ioi h]

theorem inner_nonneg {y : ℝ} (hy : 0 < y) : 0 ≤ innerIntegral y := by
  rw [inner_eq hy]; exact integral_nonneg fun s => innerFun_nonneg s

theorem inner_le {y : ℝ} (hy : 0 < y) : innerIntegral y ≤ (3 * 2 ^ (11 / 6 : ℝ) / (11 / 6 - 5 / 3) * (6 / 5)) * y ^ (-(5 / 6) : ℝ) := by
  rw [inner_eq hy]
  have hint := (integrableOn_Ioi_rpow_of_lt (by norm_num : (-(11 / 6) : ℝ) < -1) hy).const_mul (3 * 2 ^ (11 / 6 : ℝ) / (11 / 6 - 5 / 3))
  calc _ ≤ ∫ s in Ioi y, (3 * 2 ^ (11 / 6 : ℝ) / (11 / 6 - 5 / 3)) * s ^ (-(11 / 6) : ℝ) :=
        setIntegral_mono_on (innerFun_integrable hy) hint measurableSet_Ioi fun s (hs : y < s) => innerFun_le (hy.trans hs)
    _ = _ := by
        rw [integral_const_mul, integral_Ioi_rpow_of_lt (by norm_num) hy, show (-(11 / 6) : ℝ) + 1 = -(5 / 6) by norm_num]
        ring

theorem inner_measurable : Measurable fun y => ∫ s in Ioi y, innerFun s := by
  have h : (fun y => ∫ s in Ioi y, innerFun s) = fun x => ∫ s, (if x < s then innerFun s else 0) := by
    funext x
    rw [← integral_indicator measurableSet_Ioi]
    rfl
  rw [h]
  have : StronglyMeasurable (fun q : ℝ × ℝ => if q.1 < q.2 then innerFun q.2 else 0) := by
    refine Measurable.stronglyMeasurable ?_
    exact Measurable.ite (measurableSet_lt measurable_fst measurable_snd) (innerFun_measurable.comp measurable_snd) measurable_const
  exact (this.integral_prod_right' (ν := volume)).measurable

theorem y_pos {chi c : ℝ} (h0 : 0 < c) (h1 : c < chi) : 0 < computeY c chi := by
  unfold computeY
  have : 0 < chi - c := by linarith
  have : 0 < chi := by linarith
  positivity

theorem y_ge {chi c : ℝ} (h0 : 0 < c) (h1 : c < chi) : 2 / (3 * chi ^ 2) * c ≤ computeY c chi := by
  unfold computeY
  have h2 : 0 < chi - c := by linarith
  have h3 : 0 < chi := by linarith
  rw [div_mul_eq_mul_div, div_le_div_iff₀ (by positivity) (by positivity)]
  have : 3 * chi * (chi - c) ≤ 3 * chi ^ 2 := by nlinarith
  nlinarith

theorem kk_eq {chi c : ℝ} (h0 : 0 < c) (h1 : c < chi) : kkIntegrand chi c =
    ((∫ s in Ioi (computeY c chi), innerFun s) + (3 * c * computeY c chi / 2) * kv (2 / 3) (computeY c chi)) *
      (1 / chi / (Real.pi * Real.sqrt 3)) := by
  unfold kkIntegrand
  rw [if_neg (by push Not; exact ⟨by linarith, h1, h0.ne'⟩)]
  simp only [inner_eq (y_pos h0 h1)]

theorem kk_pos {chi c : ℝ} (h0 : 0 < c) (h1 : c < chi) : 0 < kkIntegrand chi c := by
  rw [kk_eq h0 h1, ← inner_eq (y_pos h0 h1)]
  have hy := y_pos h0 h1
  have := inner_nonneg hy
  have hk := kv_pos (ν := 2 / 3) (by norm_num) (by norm_num) hy
  have : 0 < chi := by linarith
  have := Real.pi_pos
  positivity

/-- Constants of the bound. -/
noncomputable def bndA (chi : ℝ) : ℝ :=
  (3 * 2 ^ (11 / 6 : ℝ) / (11 / 6 - 5 / 3) * (6 / 5)) * (2 / (3 * chi ^ 2)) ^ (-(5 / 6) : ℝ) * (1 / chi / (Real.pi * Real.sqrt 3))

noncomputable def bndB (chi : ℝ) : ℝ := 3 * chi / 2 * (3 * 2 ^ (1 : ℝ) / (1 - 2 / 3)) * (1 / chi / (Real.pi * Real.sqrt 3))

theorem kk_le {chi c : ℝ} (h0 : 0 < c) (h1 : c < chi) : kkIntegrand chi c ≤ bndA chi * c ^ (-(5 / 6) : ℝ) + bndB chi := by
  rw [kk_eq h0 h1, ← inner_eq (y_pos h0 h1)]
  have hy := y_pos h0 h1
  have hchi : 0 < chi := by linarith
  have hpi := Real.pi_pos
  have hi := inner_le hy
  have hyy : computeY c chi ^ (-(5 / 6) : ℝ) ≤ (2 / (3 * chi ^ 2)) ^ (-(5 / 6) : ℝ) * c ^ (-(5 / 6) : ℝ) := by
    rw [← Real.mul_rpow (by positivity) h0.le]
    exact Real.rpow_le_rpow_of_nonpos (by positivity) (y_ge h0 h1) (by norm_num)
  have hC : (0 : ℝ) ≤ 3 * 2 ^ (11 / 6 : ℝ) / (11 / 6 - 5 / 3) * (6 / 5) := by
    have : (0 : ℝ) < 11 / 6 - 5 / 3 := by norm_num
    positivity
  have hi2 := hi.trans (mul_le_mul_of_nonneg_left hyy hC)
  have hk := kv_le (ν := 2 / 3) (p := 1) (by norm_num) (by norm_num) (by norm_num) hy
  rw [Real.rpow_neg_one] at hk
  have hk2 : computeY c chi * kv (2 / 3) (computeY c chi) ≤ 3 * 2 ^ (1 : ℝ) / (1 - 2 / 3) := by
    calc _ ≤ computeY c chi * (3 * 2 ^ (1 : ℝ) / (1 - 2 / 3) * (computeY c chi)⁻¹) := mul_le_mul_of_nonneg_left hk hy.le
      _ = _ := by field_simp
  have hk3 : (3 * c * computeY c chi / 2) * kv (2 / 3) (computeY c chi) ≤ 3 * chi / 2 * (3 * 2 ^ (1 : ℝ) / (1 - 2 / 3)) := by
    calc _ = 3 * c / 2 * (computeY c chi * kv (2 / 3) (computeY c chi)) := by ring
      _ ≤ 3 * chi / 2 * (3 * 2 ^ (1 : ℝ) / (1 - 2 / 3)) :=
        mul_le_mul (by linarith) hk2 (mul_nonneg hy.le (kv_nonneg _ _)) (by positivity)
  have hc : 0 ≤ 1 / chi / (Real.pi * Real.sqrt 3) := by positivity
  refine (mul_le_mul_of_nonneg_right (add_le_add hi2 hk3) hc).trans (le_of_eq ?_)
  unfold bndA bndB; ring

theorem kk_integrable {chi : ℝ} (hchi : 0 < chi) : IntervalIntegrable (kkIntegrand chi) volume 0 chi := by
  have hb : IntervalIntegrable (fun c : ℝ => bndA chi * c ^ (-(5 / 6) : ℝ) + bndB chi) volume 0 chi :=
    ((intervalIntegral.intervalIntegrable_rpow' (by norm_num)).const_mul _).add intervalIntegrable_const
  rw [intervalIntegrable_iff_integrableOn_Ioo_of_le hchi.le] at hb ⊢
  refine Integrable.mono' hb ?_ ?_
  · have hy : Measurable fun c => computeY c chi := by unfold computeY; fun_prop
    have hm : Measurable fun c => ((∫ s in Ioi (computeY c chi), innerFun s) + (3 * c * computeY c chi / 2) * kv (2 / 3) (computeY c chi)) *
      (1 / chi / (Real.pi * Real.sqrt 3)) :=
      (((inner_measurable.comp hy).add ((by fun_prop : Measurable fun c => 3 * c * computeY c chi / 2).mul ((kv_measurable _).comp hy)))).mul_const _
    refine hm.aestronglyMeasurable.congr ?_
    refine (ae_restrict_iff' measurableSet_Ioo).mpr (Filter.Eventually.of_forall fun c hc => ?_)
    exact (kk_eq hc.1 hc.2).symm
  · refine (ae_restrict_iff' measurableSet_Ioo).mpr (Filter.Eventually.of_forall fun c hc => ?_)
    rw [Real.norm_of_nonneg (kk_pos hc.1 hc.2).le]
    exact kk_le hc.1 hc.2

theorem kkFunction_eq {chi : ℝ} (hchi : 0 < chi) : kkFunction chi = ∫ c in (0 : ℝ)..chi, kkIntegrand chi c := by
  have hI := kk_integrable hchi
  exact intervalIntegral.integral_add_adjacent_intervals (sub_integrable hI le_rfl hchi.le (by linarith) (by linarith))
    (sub_integrable hI (by linarith) (by linarith) hchi.le le_rfl)

theorem kkFunction_pos {chi : ℝ} (hchi : 0 < chi) : 0 < kkFunction chi := by
  rw [kkFunction_eq hchi]
  have := primitive_mono (kk_integrable hchi) (fun x h0 h1 => kk_pos h0 h1) le_rfl hchi le_rfl
  simpa using this

theorem kk_zero {chi c : ℝ} (h : chi ≤ c) : kkIntegrand chi c = 0 := by
  unfold kkIntegrand; rw [if_pos (.inr (.inl h))]

theorem kk_integrable_far {chi b : ℝ} (hb : chi ≤ b) : IntervalIntegrable (kkIntegrand chi) volume chi b := by
  rw [intervalIntegrable_iff_integrableOn_Ioc_of_le hb]
  refine (integrableOn_congr_fun (f := fun _ => (0 : ℝ)) (fun c hc => (kk_zero hc.1.le).symm) measurableSet_Ioc).mp integrableOn_zero

theorem kk_integrable_all {chi b : ℝ} (hchi : 0 < chi) (hb : 0 ≤ b) : IntervalIntegrable (kkIntegrand chi) volume 0 b := by
  rcases le_total b chi with h | h
  · exact sub_integrable (kk_integrable hchi) le_rfl hchi.le hb h
  · exact (kk_integrable hchi).trans (kk_integrable_far h)

theorem num_eq {chi x : ℝ} (hchi : 0 < chi) (hx : 0 ≤ x) :
    quadAB (fun c => open Classical in if chi - c = 0 ∨ c = 0 then 0 else kkIntegrand chi c) 0 (x / 2) +
      quadAB (fun c => open Classical in if chi - c = 0 ∨ c = 0 then 0 else kkIntegrand chi c) (x / 2) x =
    ∫ c in (0 : ℝ)..x, kkIntegrand chi c := by
  have h : (fun c => open Classical in if chi - c = 0 ∨ c = 0 then 0 else kkIntegrand chi c) = kkIntegrand chi := by
    funext c
    split_ifs with h
    · rcases h with h | h
      · exact (kk_zero (by linarith)).symm
      · unfold kkIntegrand; rw [if_pos (.inr (.inr h))]
    · rfl
  rw [h]
  unfold quadAB
  have hI := kk_integrable_all hchi hx
  exact intervalIntegral.integral_add_adjacent_intervals (sub_integrable hI le_rfl hx (by linarith) (by linarith))
    (sub_integrable hI (by linarith) (by linarith) hx le_rfl)

theorem cum_ok {chi x : ℝ} (hchi : 0 < chi) (hx : 0 ≤ x) (hxc : x ≤ chi) :
    cumulativePhotEm x chi = .ok ((∫ c in (0 : ℝ)..x, kkIntegrand chi c) / kkFunction chi) := by
  unfold cumulativePhotEm
  simp only [num_eq hchi hx]
  have hk := kkFunction_pos hchi
  rcases eq_or_lt_of_le hxc with h | h
  · rw [h, ← kkFunction_eq hchi, if_pos le_rfl, div_self hk.ne']
  · have := primitive_mono (kk_integrable hchi) (fun x h0 h1 => kk_pos h0 h1) hx h le_rfl
    rw [← kkFunction_eq hchi] at this
    rw [if_neg (by simpa using this), if_neg hk.ne']

/-- The distribution of the photon energy. -/
noncomputable def dist (chi x : ℝ) : ℝ := (∫ c in (0 : ℝ)..x, kkIntegrand chi c) / kkFunction chi

theorem dist_mono {chi a b : ℝ} (hchi : 0 < chi) (ha : 0 ≤ a) (hab : a < b) (hb : b ≤ chi) : dist chi a < dist chi b :=
  div_lt_div_of_pos_right (primitive_mono (kk_integrable hchi) (fun _ h0 h1 => kk_pos h0 h1) ha hab hb) (kkFunction_pos hchi)

theorem dist_zero (chi : ℝ) : dist chi 0 = 0 := by simp [dist]

theorem dist_one {chi : ℝ} (hchi : 0 < chi) : dist chi chi = 1 := by
  unfold dist; rw [← kkFunction_eq hchi, div_self (kkFunction_pos hchi).ne']

theorem dist_surj {chi p : ℝ} (hchi : 0 < chi) (h0 : 0 < p) (h1 : p < 1) : ∃ x, 0 < x ∧ x < chi ∧ dist chi x = p := by
  have hc : ContinuousOn (dist chi) (Icc 0 chi) := (primitive_continuous (kk_integrable hchi) hchi.le).div_const _
  obtain ⟨x, hx, he⟩ := intermediate_value_Icc hchi.le hc (show p ∈ Icc (dist chi 0) (dist chi chi) by
    rw [dist_zero, dist_one hchi]; exact ⟨h0.le, h1.le⟩)
  refine ⟨x, lt_of_le_of_ne hx.1 ?_, lt_of_le_of_ne hx.2 ?_, he⟩
  · rintro rfl; rw [dist_zero] at he; linarith
  · rintro rfl; rw [dist_one hchi] at he; linarith

theorem dist_lt {chi a b : ℝ} (hchi : 0 < chi) (hb : 0 ≤ b) (ha : a ≤ chi) (h : dist chi a < dist chi b) : a < b := by
  by_contra hle
  rcases eq_or_lt_of_le (not_lt.mp hle) with h' | h'
  · rw [h'] at h; exact lt_irrefl _ h
  · exact absurd (dist_mono hchi hb h' ha) (not_lt.mpr h.le)

theorem closure_root {chi p r : ℝ} {prev : Option ℝ} (hchi : 0 < chi) (h : closure chi p prev r = .ok 0) :
    r < 0 ∧ dist chi (Real.exp r * chi) = p := by
  unfold closure at h
  split_ifs at h with h1 h2
  · simp at h
  · simp at h
  · push Not at h1
    have he : Real.exp r < 1 := by rw [Real.exp_lt_one_iff]; exact h1
    rw [cum_ok hchi (by positivity) (by nlinarith)] at h
    simp only [except_bind_ok, Except.ok.injEq] at h
    exact ⟨h1, by unfold dist; linarith⟩

theorem closure_exists {chi p : ℝ} {prev : Option ℝ} (hchi : 0 < chi) (h0 : 0 < p) (h1 : p < 1)
    (hprev : ∀ q, prev = some q → dist chi (Real.exp q * chi) < p) (hq : ∀ q, prev = some q → q < 0) :
    ∃ r, closure chi p prev r = .ok 0 := by
  obtain ⟨x, hx0, hx1, he⟩ := dist_surj hchi h0 h1
  have hd : 0 < x / chi := div_pos hx0 hchi
  have hxe : Real.exp (Real.log (x / chi)) * chi = x := by rw [Real.exp_log hd]; field_simp
  have hlog : Real.log (x / chi) < 0 := Real.log_neg hd (by rw [div_lt_one hchi]; exact hx1)
  refine ⟨Real.log (x / chi), ?_⟩
  unfold closure
  rw [if_neg (by linarith), if_neg ?_, hxe, cum_ok hchi hx0.le hx1.le]
  · simp only [except_bind_ok, Except.ok.injEq]; unfold dist at he; linarith
  · rintro ⟨q, rfl, hlt⟩
    have h2 := hprev q rfl
    rw [← he] at h2
    have hq1 : Real.exp q ≤ 1 := Real.exp_le_one_iff.mpr (hq q rfl).le
    have h3 := dist_lt hchi hx0.le (by nlinarith) h2
    have h4 : Real.exp (Real.log (x / chi)) * chi < Real.exp q * chi := mul_lt_mul_of_pos_right (Real.exp_lt_exp.mpr hlt) hchi
    rw [hxe] at h4; linarith

theorem rowFrom_spec {solve : ℝ → ℝ → ℝ → Option ℝ → ℝ} (hs : SolvesRoots solve) {chi : ℝ} (hchi : 0 < chi) :
    ∀ (probs : List ℝ) (guess : ℝ) (prev : Option ℝ), probs.Pairwise (· < ·) → (∀ p ∈ probs, 0 < p ∧ p < 1) →
      (∀ q, prev = some q → q < 0 ∧ ∀ p ∈ probs, dist chi (Real.exp q * chi) < p) →
      List.Forall₂ (fun x p => 0 < x ∧ x < 1 ∧ dist chi (x * chi) = p) (rowFrom solve chi guess prev probs) probs
  | [], _, _, _, _, _ => .nil
  | p :: ps, guess, prev, hpw, hp, hprev => by
    have hp0 := hp p (by simp)
    have hr := closure_root hchi (hs chi p guess prev (closure_exists hchi hp0.1 hp0.2 (fun q hq => (hprev q hq).2 p (by simp))
      (fun q hq => (hprev q hq).1)))
    rw [List.pairwise_cons] at hpw
    refine .cons ⟨Real.exp_pos _, Real.exp_lt_one_iff.mpr hr.1, hr.2⟩ ?_
    refine rowFrom_spec hs hchi ps _ _ hpw.2 (fun q hq => hp q (by simp [hq])) ?_
    intro q hq
    obtain rfl := Option.some.inj hq
    exact ⟨hr.1, fun p' hp' => by rw [hr.2]; exact hpw.1 p' hp'⟩

theorem rowProbs_get {n : ℕ} (hn : 2 ≤ n) {j : ℕ} (hj : j < n) :
    (rowProbs (generateLinSpacedVec 0 1 n))[j]? = some (Spec.columnProb n j) := by
  obtain ⟨⟨hlen, _⟩, hget⟩ := Props.C02_lin_spaced 0 1 n (by norm_num) hn
  have hn1 : (0 : ℝ) < (n : ℝ) - 1 := by
    have : (2 : ℝ) ≤ n := by exact_mod_cast hn
    linarith
  unfold rowProbs
  rw [List.getElem?_map, hlen, List.getElem?_range hj]
  simp only [Option.map_some, Option.some.injEq]
  rw [hget 1 (by omega), hget j hj, hget (n - 2) (by omega)]
  simp only [Option.getD_some]
  unfold Spec.columnProb
  have hcast : ((n - 2 : ℕ) : ℝ) = (n : ℝ) - 2 := by rw [Nat.cast_sub hn]; norm_num
  rw [hcast]
  by_cases h1 : j = 0
  · have : ¬ j = n - 1 := by omega
    rw [if_neg this, if_pos h1, if_pos h1]; push_cast; ring
  · by_cases h2 : j = n - 1
    · rw [if_pos h2, if_neg h1, if_pos h2]; field_simp; ring
    · rw [if_neg h2, if_neg h1, if_neg h1, if_neg h2]; ring

theorem columnProb_mono {n i j : ℕ} (hij : i < j) (hj : j < n) : Spec.columnProb n i < Spec.columnProb n j := by
  have hn1 : (1 : ℝ) ≤ (n : ℝ) - 1 := by
    have : (2 : ℝ) ≤ n := by exact_mod_cast (by omega : 2 ≤ n)
    linarith
  have hs : 0 < 1 / ((n : ℝ) - 1) := by positivity
  have hs1 : 1 / ((n : ℝ) - 1) ≤ 1 := by rw [div_le_one (by linarith)]; exact hn1
  have hij' : (i : ℝ) + 1 ≤ j := by exact_mod_cast hij
  have hj' : (j : ℝ) ≤ n - 1 := by
    have : j + 1 ≤ n := hj
    have : ((j + 1 : ℕ) : ℝ) ≤ n := by exact_mod_cast this
    push_cast at this; linarith
  unfold Spec.columnProb
  have e1 : (1 : ℝ) - 1 / (n - 1) = (n - 2) / (n - 1) := by field_simp; ring
  rw [if_neg (by omega : ¬ j = 0), if_neg (by omega : ¬ i = n - 1)]
  have hdiv : ∀ k : ℕ, (k : ℝ) / (n - 1) = k * (1 / ((n : ℝ) - 1)) := fun k => by ring
  split_ifs with h1 h2 h2
  · linarith
  · rw [hdiv]; nlinarith
  · have : (i : ℝ) + 2 ≤ n := by exact_mod_cast (by omega : i + 2 ≤ n)
    have h3 : (i : ℝ) / (n - 1) ≤ (n - 2) / (n - 1) := div_le_div_of_nonneg_right (by linarith) (by linarith)
    linarith
  · exact div_lt_div_of_pos_right (by linarith) (by linarith)

theorem columnProb_range {n j : ℕ} (hn : 2 ≤ n) (hj : j < n) : 0 < Spec.columnProb n j ∧ Spec.columnProb n j < 1 := by
  have hn1 : (1 : ℝ) ≤ (n : ℝ) - 1 := by
    have : (2 : ℝ) ≤ n := by exact_mod_cast hn
    linarith
  have hs : 0 < 1 / ((n : ℝ) - 1) := by positivity
  have hs1 : 1 / ((n : ℝ) - 1) ≤ 1 := by rw [div_le_one (by linarith)]; exact hn1
  have h0 : 0 < Spec.columnProb n 0 := by unfold Spec.columnProb; rw [if_pos rfl]; linarith
  have h1 : Spec.columnProb n (n - 1) < 1 := by
    unfold Spec.columnProb; rw [if_neg (by omega), if_pos rfl]; linarith
  constructor
  · rcases Nat.eq_zero_or_pos j with rfl | h
    · exact h0
    · exact h0.trans (columnProb_mono h hj)
  · rcases eq_or_lt_of_le (by omega : j ≤ n - 1) with rfl | h
    · exact h1
    · exact (columnProb_mono h (by omega)).trans h1

end Picsar.QS
