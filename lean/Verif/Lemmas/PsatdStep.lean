import Verif.Lemmas.PsatdGrid
import Verif.Lemmas.PsatdMode
import Mathlib.Analysis.Calculus.Deriv.Pow
import Mathlib.Analysis.Calculus.MeanValue

/-
One step of the pseudo-spectral solver on the grid.
-/
set_option linter.unusedSectionVars false

namespace Picsar.Psatd
open Picsar Picsar.Stencil Finset Complex

variable {nx ny nz : ℕ} [NeZero nx] [NeZero ny] [NeZero nz]

/-! Linear operations on sums over modes. -/

/-- Real part of a sum over the modes. -/
noncomputable def syn (U : ℕ → ℕ → ℕ → ℂ) (p : Grid nx ny nz) : ℝ :=
  ((((nx * ny * nz : ℕ) : ℂ))⁻¹ * kSum nx ny nz fun kx ky kz => U kx ky kz * basis kx ky kz p).re

theorem card_ne : (((nx * ny * nz : ℕ) : ℂ)) ≠ 0 := by
  exact_mod_cast mul_ne_zero (mul_ne_zero (NeZero.ne nx) (NeZero.ne ny)) (NeZero.ne nz)

theorem syn_r2c (u : Grid nx ny nz → ℝ) (p : Grid nx ny nz) : syn (r2c u) p = u p := by
  unfold syn
  rw [inversion, inv_mul_cancel_left₀ card_ne, ofReal_re]

theorem syn_congr {U V : ℕ → ℕ → ℕ → ℂ} (h : ∀ kx < nx, ∀ ky < ny, ∀ kz < nz, U kx ky kz = V kx ky kz) (p : Grid nx ny nz) :
    syn U p = syn V p := by
  unfold syn
  rw [kSum_congr _ (fun kx ky kz => V kx ky kz * basis kx ky kz p) fun kx hx ky hy kz hz => by rw [h kx hx ky hy kz hz]]

theorem syn_add (U V : ℕ → ℕ → ℕ → ℂ) (p : Grid nx ny nz) : syn (fun kx ky kz => U kx ky kz + V kx ky kz) p = syn U p + syn V p := by
  unfold syn
  rw [← add_re, ← mul_add, ← kSum_add]
  simp only [add_mul]

theorem syn_sub (U V : ℕ → ℕ → ℕ → ℂ) (p : Grid nx ny nz) : syn (fun kx ky kz => U kx ky kz - V kx ky kz) p = syn U p - syn V p := by
  unfold syn
  rw [← sub_re, ← mul_sub, ← kSum_sub]
  simp only [sub_mul]

theorem syn_mul (a : ℝ) (U : ℕ → ℕ → ℕ → ℂ) (p : Grid nx ny nz) : syn (fun kx ky kz => (a : ℂ) * U kx ky kz) p = a * syn U p := by
  unfold syn
  simp only [mul_assoc (a : ℂ)]
  rw [kSum_mul, mul_left_comm, re_ofReal_mul]

theorem syn_neg (U : ℕ → ℕ → ℕ → ℂ) (p : Grid nx ny nz) : syn (fun kx ky kz => -U kx ky kz) p = -syn U p := by
  have := syn_mul (-1) U p
  simpa using this

/-- A combination of values of `syn` is a `syn`. -/
theorem syn_comb (N : ℕ) (w : ℕ → ℝ) (s s' : ℕ → Grid nx ny nz) (U : ℕ → ℕ → ℕ → ℂ) :
    ∑ l ∈ Icc 1 N, w l • (syn U (s l) - syn U (s' l)) =
      ((((nx * ny * nz : ℕ) : ℂ))⁻¹ * kSum nx ny nz fun kx ky kz =>
        U kx ky kz * ∑ l ∈ Icc 1 N, w l • (basis kx ky kz (s l) - basis kx ky kz (s' l))).re := by
  simp only [mul_sum]
  rw [kSum_sum, mul_sum, re_sum]
  refine sum_congr rfl fun l _ => ?_
  unfold syn
  rw [← sub_re, ← mul_sub, ← kSum_sub, smul_eq_mul, ← re_ofReal_mul, mul_left_comm, ← kSum_mul]
  congr 3
  funext kx ky kz
  rw [real_smul]
  ring

theorem syn_dBwd (N : ℕ) (d : ℝ) (i : Fin 3) (U : ℕ → ℕ → ℕ → ℂ) (p : Grid nx ny nz) :
    dBwd (weight (2 * N) true) N d (axis i) (syn U) p = syn (fun kx ky kz =>
      I * (kappa (nn nx ny nz i) N d (nn kx ky kz i) * (half (nn nx ny nz i) (nn kx ky kz i))⁻¹) * U kx ky kz) p := by
  unfold dBwd
  rw [syn_comb]
  unfold syn
  congr 2
  refine kSum_congr _ _ fun kx _ ky _ kz _ => ?_
  have := dBwd_eigen (nn nx ny nz i) N d (nn kx ky kz i) (axis i) (basis kx ky kz) (basis_axis kx ky kz i) p
  unfold dBwd at this
  rw [this]
  ring

theorem syn_dFwd (N : ℕ) (d : ℝ) (i : Fin 3) (U : ℕ → ℕ → ℕ → ℂ) (p : Grid nx ny nz) :
    dFwd (weight (2 * N) true) N d (axis i) (syn U) p = syn (fun kx ky kz =>
      I * (kappa (nn nx ny nz i) N d (nn kx ky kz i) * half (nn nx ny nz i) (nn kx ky kz i)) * U kx ky kz) p := by
  unfold dFwd
  rw [syn_comb]
  unfold syn
  congr 2
  refine kSum_congr _ _ fun kx _ ky _ kz _ => ?_
  have := dFwd_eigen (nn nx ny nz i) N d (nn kx ky kz i) (axis i) (basis kx ky kz) (basis_axis kx ky kz i) p
  unfold dFwd at this
  rw [this]
  ring

theorem syn_deriv (U : ℝ → ℕ → ℕ → ℕ → ℂ) (U' : ℕ → ℕ → ℕ → ℂ) (t : ℝ)
    (h : ∀ kx < nx, ∀ ky < ny, ∀ kz < nz, HasDerivAt (fun t => U t kx ky kz) (U' kx ky kz) t) (p : Grid nx ny nz) :
    HasDerivAt (fun t => syn (U t) p) (syn U' p) t := by
  unfold syn
  have h1 : HasDerivAt (fun t => (((nx * ny * nz : ℕ) : ℂ))⁻¹ * kSum nx ny nz fun kx ky kz => U t kx ky kz * basis kx ky kz p)
      ((((nx * ny * nz : ℕ) : ℂ))⁻¹ * kSum nx ny nz fun kx ky kz => U' kx ky kz * basis kx ky kz p) t := by
    refine HasDerivAt.const_mul _ ?_
    unfold kSum
    refine HasDerivAt.fun_sum fun kx hx => HasDerivAt.fun_sum fun ky hy => HasDerivAt.fun_sum fun kz hz => ?_
    exact (h kx (mem_range.mp hx) ky (mem_range.mp hy) kz (mem_range.mp hz)).mul_const _
  exact (reCLM.hasFDerivAt.comp_hasDerivAt t h1)

/-! The transform back. -/

/-- The transform of half of the modes is `syn`. -/
theorem c2r_eq (U : ℕ → ℕ → ℕ → ℂ)
    (hU : ∀ kx < nx, ∀ ky < ny, ∀ kz < nz, U (neg1 nx kx) (neg1 ny ky) (neg1 nz kz) = (starRingEnd ℂ) (U kx ky kz)) (p : Grid nx ny nz) :
    c2r (fun kx ky kz => (((nx * ny * nz : ℕ) : ℂ))⁻¹ * U kx ky kz) p = syn U p := by
  unfold c2r
  have hN : ((((nx * ny * nz : ℕ) : ℂ))⁻¹ : ℂ) = (((nx * ny * nz : ℕ) : ℝ)⁻¹ : ℝ) := by push_cast; rfl
  rw [half_sum nx (NeZero.one_le) (fun kx => ∑ ky ∈ range ny, ∑ kz ∈ range nz, ((((nx * ny * nz : ℕ) : ℂ))⁻¹ * U kx ky kz * basis kx ky kz p).re)]
  · unfold syn kSum
    rw [mul_sum, re_sum]
    refine sum_congr rfl fun kx _ => ?_
    rw [mul_sum, re_sum]
    refine sum_congr rfl fun ky _ => ?_
    rw [mul_sum, re_sum]
    exact sum_congr rfl fun kz _ => by rw [mul_assoc]
  · intro m h1 h2
    have e : nx - m = neg1 nx m := by unfold neg1; rw [if_neg (by omega)]
    rw [e, ← sum_neg1 ny]
    refine sum_congr rfl fun ky hy => ?_
    rw [← sum_neg1 nz]
    refine sum_congr rfl fun kz hz => ?_
    rw [mem_range] at hy hz
    rw [basis_neg m ky kz h2 hy hz, hU m h2 ky hy kz hz, hN, mul_assoc ((_ : ℝ) : ℂ), mul_assoc ((_ : ℝ) : ℂ), ← map_mul, re_ofReal_mul, conj_re, re_ofReal_mul]

/-! Modes. -/

/-- Wave vectors of the code. -/
noncomputable def kF (n : Fin 3 → ℕ) (N : Fin 3 → ℕ) (d : Fin 3 → ℝ) (k : Fin 3 → ℕ) (i : Fin 3) : ℂ :=
  kappa (n i) (N i) (d i) (k i) * (half (n i) (k i))⁻¹
noncomputable def kB (n : Fin 3 → ℕ) (N : Fin 3 → ℕ) (d : Fin 3 → ℝ) (k : Fin 3 → ℕ) (i : Fin 3) : ℂ :=
  kappa (n i) (N i) (d i) (k i) * half (n i) (k i)
noncomputable def kQ (n : Fin 3 → ℕ) (N : Fin 3 → ℕ) (d : Fin 3 → ℝ) (k : Fin 3 → ℕ) : ℝ :=
  kappa (n 2) (N 2) (d 2) (k 2) ^ 2 + kappa (n 1) (N 1) (d 1) (k 1) ^ 2 + kappa (n 0) (N 0) (d 0) (k 0) ^ 2

theorem kQ_pos (n N : Fin 3 → ℕ) (d : Fin 3 → ℝ) (k : Fin 3 → ℕ) (hN : ∀ i, 1 ≤ N i) (hd : ∀ i, d i ≠ 0) (hk : ∀ i, k i < n i)
    (h0 : ¬ ∀ i, k i = 0) : 0 < kQ n N d k := by
  push Not at h0
  obtain ⟨i, hi⟩ := h0
  have := pow_pos (abs_pos.mpr (kappa_ne (n i) (N i) (d i) (k i) (hN i) (hd i) (by omega) (hk i))) 2
  rw [sq_abs] at this
  unfold kQ
  fin_cases i
  all_goals simp only [Fin.zero_eta, Fin.mk_one, Fin.reduceFinMk] at this
  all_goals positivity

theorem kfkb (n N : Fin 3 → ℕ) (d : Fin 3 → ℝ) (k : Fin 3 → ℕ) :
    kF n N d k 0 * kB n N d k 0 + kF n N d k 1 * kB n N d k 1 + kF n N d k 2 * kB n N d k 2 = (kQ n N d k : ℝ) := by
  unfold kF kB kQ
  have h := half_ne
  have e : ∀ i : Fin 3, (kappa (n i) (N i) (d i) (k i) * (half (n i) (k i))⁻¹ * (kappa (n i) (N i) (d i) (k i) * half (n i) (k i)) : ℂ) =
      kappa (n i) (N i) (d i) (k i) ^ 2 := by
    intro i
    have := half_ne (n i) (k i)
    field_simp
  rw [e, e, e]
  push_cast
  ring

/-- What `init_kspace` computes. -/
theorem kspace_eq (P : Par) (N : Fin 3 → ℕ) (n k : Fin 3 → ℕ) (hs : P.stg = true) (hN : ∀ i, 1 ≤ N i) (ho : ∀ i, P.norder i = 2 * N i)
    (hn : ∀ i, 1 ≤ n i) (hk : ∀ i, k i < n i) (h2 : P.twoD = true → n 1 = 1) :
    kspace P n (fun i => k i + 1) = .ok ⟨kF n N P.d k, kB n N P.d k, Real.sqrt (kQ n N P.d k)⟩ := by
  obtain ⟨c0, e0, q0⟩ := k1d_stag (n 0) (N 0) (P.d 0) (k 0) (hN 0) (hn 0)
  obtain ⟨c1, e1, q1⟩ := k1d_stag (n 1) (N 1) (P.d 1) (k 1) (hN 1) (hn 1)
  obtain ⟨c2, e2, q2⟩ := k1d_stag (n 2) (N 2) (P.d 2) (k 2) (hN 2) (hn 2)
  unfold kspace
  rw [hs, ho, ho, ho, e0, e1, e2]
  simp only [except_bind_ok]
  have hv : ∀ f : Fin 3 → ℂ, ![f 0, f 1, f 2] = f := by
    intro f
    funext i
    fin_cases i <;> rfl
  have hc : ∀ c : ℝ, ‖(c : ℂ)‖ ^ 2 = c ^ 2 := fun c => by rw [norm_real, Real.norm_eq_abs, sq_abs]
  by_cases ht : P.twoD = true
  · rw [if_pos ht]
    have k1 : k 1 = 0 := by have := hk 1; have := h2 ht; omega
    have z : kappa (n 1) (N 1) (P.d 1) (k 1) = 0 := by rw [k1, kappa_zero]
    refine congrArg Except.ok ?_
    have a1 : (0 : ℂ) = kF n N P.d k 1 := by unfold kF; rw [z]; simp
    have a2 : (0 : ℂ) = kB n N P.d k 1 := by unfold kB; rw [z]; simp
    rw [Kv.mk.injEq]
    refine ⟨?_, ?_, ?_⟩
    · conv_rhs => rw [← hv (kF n N P.d k), ← a1]
      rfl
    · conv_rhs => rw [← hv (kB n N P.d k), ← a2]
      rfl
    · rw [hc, hc, q0, q2, norm_zero]
      unfold kQ
      rw [z]
  · rw [if_neg ht]
    refine congrArg Except.ok ?_
    rw [Kv.mk.injEq]
    refine ⟨?_, ?_, ?_⟩
    · conv_rhs => rw [← hv (kF n N P.d k)]
      rfl
    · conv_rhs => rw [← hv (kB n N P.d k)]
      rfl
    · rw [hc, hc, hc, q0, q1, q2]
      rfl

/-- What a mode depends on, for given fields. -/
noncomputable def md (P : Par) (N : Fin 3 → ℕ) (F : EB nx ny nz) (J : Fin 3 → Grid nx ny nz → ℝ) (rho rhoold : Grid nx ny nz → ℝ)
    (kx ky kz : ℕ) : ModeData where
  kf := kF (nn nx ny nz) N P.d (nn kx ky kz)
  kb := kB (nn nx ny nz) N P.d (nn kx ky kz)
  q := (kQ (nn nx ny nz) N P.d (nn kx ky kz) : ℝ)
  iq := ((kQ (nn nx ny nz) N P.d (nn kx ky kz))⁻¹ : ℝ)
  c := P.c
  ic := (P.c⁻¹ : ℝ)
  ie := (P.eps0⁻¹ : ℝ)
  mu := P.mu0
  E := fun i => r2c (F.E i) kx ky kz
  B := fun i => r2c (F.B i) kx ky kz
  J := fun i => r2c (J i) kx ky kz
  r := r2c rhoold kx ky kz
  Dt := (r2c rho kx ky kz - r2c rhoold kx ky kz) * (P.dt⁻¹ : ℝ)

/-- What the theorems suppose about parameters and initial values. -/
structure Ready (P : Par) (N : Fin 3 → ℕ) (F : EB nx ny nz) (J : Fin 3 → Grid nx ny nz → ℝ) (rho rhoold : Grid nx ny nz → ℝ) : Prop where
  stg : P.stg = true
  order : ∀ i, P.norder i = 2 * N i
  pos : ∀ i, 1 ≤ N i
  d : ∀ i, P.d i ≠ 0
  dt : P.dt ≠ 0
  c : P.c ≠ 0
  units : P.mu0 * P.eps0 * P.c ^ 2 = 1
  two : P.twoD = true → ny = 1
  gauss : ∀ p, divg (fun i => dBwd (weight (2 * N i) true) (N i) (P.d i) (axis i)) F.E p = rhoold p / P.eps0
  gaussB : ∀ p, divg (fun i => dFwd (weight (2 * N i) true) (N i) (P.d i) (axis i)) F.B p = 0
  cont : ∀ p, divg (fun i => dBwd (weight (2 * N i) true) (N i) (P.d i) (axis i)) J p = -((rho p - rhoold p) / P.dt)

variable {P : Par} {N : Fin 3 → ℕ} {F : EB nx ny nz} {J : Fin 3 → Grid nx ny nz → ℝ} {rho rhoold : Grid nx ny nz → ℝ}

theorem nn_lt {kx ky kz : ℕ} (hx : kx < nx) (hy : ky < ny) (hz : kz < nz) (i : Fin 3) : nn kx ky kz i < nn nx ny nz i := by
  fin_cases i
  · exact hx
  · exact hy
  · exact hz

theorem nn_zero {kx ky kz : ℕ} : (∀ i, nn kx ky kz i = 0) ↔ kx = 0 ∧ ky = 0 ∧ kz = 0 := by
  constructor
  · intro h
    exact ⟨h 0, h 1, h 2⟩
  · rintro ⟨rfl, rfl, rfl⟩ i
    fin_cases i <;> rfl

theorem eps_ne (h : Ready P N F J rho rhoold) : P.eps0 ≠ 0 := by
  intro h0
  have := h.units
  rw [h0] at this
  simp at this

theorem r2c_divB (P : Par) (N : Fin 3 → ℕ) (u : Fin 3 → Grid nx ny nz → ℝ) (kx ky kz : ℕ) :
    r2c (divg (fun i => dBwd (weight (2 * N i) true) (N i) (P.d i) (axis i)) u) kx ky kz =
      I * (kF (nn nx ny nz) N P.d (nn kx ky kz) 0 * r2c (u 0) kx ky kz + kF (nn nx ny nz) N P.d (nn kx ky kz) 1 * r2c (u 1) kx ky kz +
        kF (nn nx ny nz) N P.d (nn kx ky kz) 2 * r2c (u 2) kx ky kz) := by
  unfold divg
  rw [r2c_add, r2c_add, r2c_dBwd, r2c_dBwd, r2c_dBwd]
  unfold kF
  ring

theorem r2c_divF (P : Par) (N : Fin 3 → ℕ) (u : Fin 3 → Grid nx ny nz → ℝ) (kx ky kz : ℕ) :
    r2c (divg (fun i => dFwd (weight (2 * N i) true) (N i) (P.d i) (axis i)) u) kx ky kz =
      I * (kB (nn nx ny nz) N P.d (nn kx ky kz) 0 * r2c (u 0) kx ky kz + kB (nn nx ny nz) N P.d (nn kx ky kz) 1 * r2c (u 1) kx ky kz +
        kB (nn nx ny nz) N P.d (nn kx ky kz) 2 * r2c (u 2) kx ky kz) := by
  unfold divg
  rw [r2c_add, r2c_add, r2c_dFwd, r2c_dFwd, r2c_dFwd]
  unfold kB
  ring

theorem md_good (h : Ready P N F J rho rhoold) (kx ky kz : ℕ) (hx : kx < nx) (hy : ky < ny) (hz : kz < nz)
    (h0 : ¬ (kx = 0 ∧ ky = 0 ∧ kz = 0)) : (md P N F J rho rhoold kx ky kz).Good := by
  have q0 := kQ_pos (nn nx ny nz) N P.d (nn kx ky kz) h.pos h.d (nn_lt hx hy hz) (by rwa [nn_zero])
  have he := eps_ne h
  refine ⟨kfkb _ _ _ _, ?_, ?_, ?_, ?_, ?_, ?_⟩
  · simp only [md]
    rw [← ofReal_mul, inv_mul_cancel₀ q0.ne', ofReal_one]
  · simp only [md]
    rw [← ofReal_mul, inv_mul_cancel₀ h.c, ofReal_one]
  · simp only [md]
    rw [← ofReal_pow, ← ofReal_mul]
    congr 1
    rw [inv_eq_one_div, eq_div_iff he, ← h.units]
    ring
  · have := r2c_divB P N F.E kx ky kz
    rw [funext h.gauss] at this
    simp only [div_eq_inv_mul] at this
    rw [r2c_mul] at this
    simp only [md]
    linear_combination I * this + (kF (nn nx ny nz) N P.d (nn kx ky kz) 0 * r2c (F.E 0) kx ky kz + kF (nn nx ny nz) N P.d (nn kx ky kz) 1 * r2c (F.E 1) kx ky kz +
        kF (nn nx ny nz) N P.d (nn kx ky kz) 2 * r2c (F.E 2) kx ky kz) * I_sq
  · have := r2c_divF P N F.B kx ky kz
    rw [funext h.gaussB] at this
    have z : r2c (fun _ : Grid nx ny nz => (0 : ℝ)) kx ky kz = 0 := by unfold r2c; simp
    rw [z] at this
    simp only [md]
    linear_combination I * this + (kB (nn nx ny nz) N P.d (nn kx ky kz) 0 * r2c (F.B 0) kx ky kz + kB (nn nx ny nz) N P.d (nn kx ky kz) 1 * r2c (F.B 1) kx ky kz +
        kB (nn nx ny nz) N P.d (nn kx ky kz) 2 * r2c (F.B 2) kx ky kz) * I_sq
  · have := r2c_divB P N J kx ky kz
    rw [funext h.cont] at this
    have e : (fun p => -((rho p - rhoold p) / P.dt)) = fun p => -P.dt⁻¹ * (rho p - rhoold p) := by
      funext p
      ring
    rw [e, r2c_mul, r2c_sub] at this
    simp only [md]
    push_cast at this ⊢
    linear_combination I * this + (kF (nn nx ny nz) N P.d (nn kx ky kz) 0 * r2c (J 0) kx ky kz + kF (nn nx ny nz) N P.d (nn kx ky kz) 1 * r2c (J 1) kx ky kz +
        kF (nn nx ny nz) N P.d (nn kx ky kz) 2 * r2c (J 2) kx ky kz) * I_sq

/-! The solution. -/

noncomputable def kN (nx ny nz : ℕ) (P : Par) (N : Fin 3 → ℕ) (kx ky kz : ℕ) : ℝ := Real.sqrt (kQ (nn nx ny nz) N P.d (nn kx ky kz))

noncomputable def hatE (P : Par) (N : Fin 3 → ℕ) (F : EB nx ny nz) (J : Fin 3 → Grid nx ny nz → ℝ) (rho rhoold : Grid nx ny nz → ℝ)
    (t : ℝ) (i : Fin 3) (kx ky kz : ℕ) : ℂ :=
  if kx = 0 ∧ ky = 0 ∧ kz = 0 then r2c (F.E i) 0 0 0 - (P.eps0⁻¹ : ℝ) * r2c (J i) 0 0 0 * t
  else (md P N F J rho rhoold kx ky kz).solE ((Real.cos (P.c * kN nx ny nz P N kx ky kz * t) : ℝ) : ℂ)
    ((Real.sin (P.c * kN nx ny nz P N kx ky kz * t) / kN nx ny nz P N kx ky kz : ℝ) : ℂ) t i

noncomputable def hatB (P : Par) (N : Fin 3 → ℕ) (F : EB nx ny nz) (J : Fin 3 → Grid nx ny nz → ℝ) (rho rhoold : Grid nx ny nz → ℝ)
    (t : ℝ) (i : Fin 3) (kx ky kz : ℕ) : ℂ :=
  if kx = 0 ∧ ky = 0 ∧ kz = 0 then r2c (F.B i) 0 0 0
  else (md P N F J rho rhoold kx ky kz).solB ((Real.cos (P.c * kN nx ny nz P N kx ky kz * t) : ℝ) : ℂ)
    ((Real.sin (P.c * kN nx ny nz P N kx ky kz * t) / kN nx ny nz P N kx ky kz : ℝ) : ℂ) i

theorem kN_ne (h : Ready P N F J rho rhoold) (kx ky kz : ℕ) (hx : kx < nx) (hy : ky < ny) (hz : kz < nz)
    (h0 : ¬ (kx = 0 ∧ ky = 0 ∧ kz = 0)) :
    kN nx ny nz P N kx ky kz ≠ 0 ∧ kN nx ny nz P N kx ky kz ^ 2 = kQ (nn nx ny nz) N P.d (nn kx ky kz) := by
  have q0 := kQ_pos (nn nx ny nz) N P.d (nn kx ky kz) h.pos h.d (nn_lt hx hy hz) (by rwa [nn_zero])
  exact ⟨(Real.sqrt_pos.mpr q0).ne', Real.sq_sqrt q0.le⟩

theorem k_zero (n N : Fin 3 → ℕ) (d : Fin 3 → ℝ) (k : Fin 3 → ℕ) (h : ∀ i, k i = 0) : kF n N d k = 0 ∧ kB n N d k = 0 := by
  constructor <;> funext i
  · unfold kF; rw [h i, kappa_zero]; simp
  · unfold kB; rw [h i, kappa_zero]; simp

theorem cross_zero (a : Fin 3 → ℂ) (i : Fin 3) : cross 0 a i = 0 := by
  fin_cases i <;> simp [cross]

theorem hatE_deriv (h : Ready P N F J rho rhoold) (t : ℝ) (i : Fin 3) (kx ky kz : ℕ) (hx : kx < nx) (hy : ky < ny) (hz : kz < nz) :
    HasDerivAt (fun t => hatE P N F J rho rhoold t i kx ky kz)
      ((P.c ^ 2 : ℝ) * (I * cross (kF (nn nx ny nz) N P.d (nn kx ky kz)) (fun j => hatB P N F J rho rhoold t j kx ky kz) i) -
        (P.eps0⁻¹ : ℝ) * r2c (J i) kx ky kz) t := by
  by_cases h0 : kx = 0 ∧ ky = 0 ∧ kz = 0
  · have z := (k_zero (nn nx ny nz) N P.d (nn kx ky kz) (nn_zero.mpr h0)).1
    rw [z, cross_zero]
    simp only [hatE, if_pos h0]
    obtain ⟨rfl, rfl, rfl⟩ := h0
    have ht : HasDerivAt (fun t : ℝ => (t : ℂ)) 1 t := (hasDerivAt_id t).ofReal_comp
    refine ((ht.const_mul _).const_sub _).congr_deriv ?_
    ring
  · obtain ⟨k0, k2⟩ := kN_ne h kx ky kz hx hy hz h0
    simp only [hatE, hatB, if_neg h0]
    refine (deriv_lin P.c (kN nx ny nz P N kx ky kz) t k0 _ _ _ _).congr_deriv ?_
    have := ModeData.rhsE (md_good h kx ky kz hx hy hz h0) ((Real.cos (P.c * kN nx ny nz P N kx ky kz * t) : ℝ) : ℂ)
      ((Real.sin (P.c * kN nx ny nz P N kx ky kz * t) / kN nx ny nz P N kx ky kz : ℝ) : ℂ) i
    have e : (kN nx ny nz P N kx ky kz : ℂ) ^ 2 = (md P N F J rho rhoold kx ky kz).q := by
      rw [← ofReal_pow, k2]
      rfl
    rw [e]
    refine this.trans ?_
    simp only [md]
    push_cast
    ring

theorem hatB_deriv (h : Ready P N F J rho rhoold) (t : ℝ) (i : Fin 3) (kx ky kz : ℕ) (hx : kx < nx) (hy : ky < ny) (hz : kz < nz) :
    HasDerivAt (fun t => hatB P N F J rho rhoold t i kx ky kz)
      (-(I * cross (kB (nn nx ny nz) N P.d (nn kx ky kz)) (fun j => hatE P N F J rho rhoold t j kx ky kz) i)) t := by
  by_cases h0 : kx = 0 ∧ ky = 0 ∧ kz = 0
  · have z := (k_zero (nn nx ny nz) N P.d (nn kx ky kz) (nn_zero.mpr h0)).2
    rw [z, cross_zero]
    simp only [hatB, if_pos h0]
    exact (hasDerivAt_const t _).congr_deriv (by simp)
  · obtain ⟨k0, k2⟩ := kN_ne h kx ky kz hx hy hz h0
    simp only [hatE, hatB, if_neg h0]
    have d0 := deriv_lin P.c (kN nx ny nz P N kx ky kz) t k0 ((md P N F J rho rhoold kx ky kz).aB i) ((md P N F J rho rhoold kx ky kz).bB i)
      ((md P N F J rho rhoold kx ky kz).cB i) 0
    simp only [zero_mul, add_zero] at d0
    refine d0.congr_deriv ?_
    have := ModeData.rhsB (md_good h kx ky kz hx hy hz h0) ((Real.cos (P.c * kN nx ny nz P N kx ky kz * t) : ℝ) : ℂ)
      ((Real.sin (P.c * kN nx ny nz P N kx ky kz * t) / kN nx ny nz P N kx ky kz : ℝ) : ℂ) t i
    have e : (kN nx ny nz P N kx ky kz : ℂ) ^ 2 = (md P N F J rho rhoold kx ky kz).q := by
      rw [← ofReal_pow, k2]
      rfl
    rw [e]
    refine this.trans ?_
    simp only [md]
    ring

/-- Curl of `syn`. -/
theorem curl_synB (P : Par) (N : Fin 3 → ℕ) (U : Fin 3 → ℕ → ℕ → ℕ → ℂ) (i : Fin 3) (p : Grid nx ny nz) :
    curl (fun i => dBwd (weight (2 * N i) true) (N i) (P.d i) (axis i)) (fun j => syn (U j)) i p =
      syn (fun kx ky kz => I * cross (kF (nn nx ny nz) N P.d (nn kx ky kz)) (fun j => U j kx ky kz) i) p := by
  fin_cases i
  all_goals simp only [curl, cross, Fin.zero_eta, Fin.mk_one, Fin.reduceFinMk, Matrix.cons_val_zero, Matrix.cons_val_one, Matrix.cons_val]
  all_goals rw [syn_dBwd, syn_dBwd, ← syn_sub]
  all_goals refine syn_congr (fun kx _ ky _ kz _ => ?_) p
  all_goals unfold kF
  all_goals ring

theorem curl_synF (P : Par) (N : Fin 3 → ℕ) (U : Fin 3 → ℕ → ℕ → ℕ → ℂ) (i : Fin 3) (p : Grid nx ny nz) :
    curl (fun i => dFwd (weight (2 * N i) true) (N i) (P.d i) (axis i)) (fun j => syn (U j)) i p =
      syn (fun kx ky kz => I * cross (kB (nn nx ny nz) N P.d (nn kx ky kz)) (fun j => U j kx ky kz) i) p := by
  fin_cases i
  all_goals simp only [curl, cross, Fin.zero_eta, Fin.mk_one, Fin.reduceFinMk, Matrix.cons_val_zero, Matrix.cons_val_one, Matrix.cons_val]
  all_goals rw [syn_dFwd, syn_dFwd, ← syn_sub]
  all_goals refine syn_congr (fun kx _ ky _ kz _ => ?_) p
  all_goals unfold kB
  all_goals ring

/-- There is a solution of Maxwell's equations with these initial values. -/
theorem sol_exists (h : Ready P N F J rho rhoold) :
    Maxwell P.c P.eps0 (fun i => dFwd (weight (2 * N i) true) (N i) (P.d i) (axis i)) (fun i => dBwd (weight (2 * N i) true) (N i) (P.d i) (axis i)) J
      (fun t i => syn (hatE P N F J rho rhoold t i)) (fun t i => syn (hatB P N F J rho rhoold t i)) := by
  constructor
  · intro t i p
    rw [curl_synB, ← syn_r2c (J i) p, div_eq_inv_mul, ← syn_mul, ← syn_mul, ← syn_sub]
    exact syn_deriv _ _ t (fun kx hx ky hy kz hz => hatE_deriv h t i kx ky kz hx hy hz) p
  · intro t i p
    rw [curl_synF, ← syn_neg]
    exact syn_deriv _ _ t (fun kx hx ky hy kz hz => hatB_deriv h t i kx ky kz hx hy hz) p

theorem sol_zero (i : Fin 3) (p : Grid nx ny nz) :
    syn (hatE P N F J rho rhoold 0 i) p = F.E i p ∧ syn (hatB P N F J rho rhoold 0 i) p = F.B i p := by
  constructor
  · rw [← syn_r2c (F.E i) p]
    refine syn_congr (fun kx hx ky hy kz hz => ?_) p
    unfold hatE
    split_ifs with h0
    · obtain ⟨rfl, rfl, rfl⟩ := h0
      simp
    · simp only [ModeData.solE, ModeData.aE, ModeData.bE, ModeData.cE, ModeData.dE, md]
      simp
  · rw [← syn_r2c (F.B i) p]
    refine syn_congr (fun kx hx ky hy kz hz => ?_) p
    unfold hatB
    split_ifs with h0
    · obtain ⟨rfl, rfl, rfl⟩ := h0
      simp
    · simp only [ModeData.solB, ModeData.aB, ModeData.bB, ModeData.cB, md]
      simp

end Picsar.Psatd
