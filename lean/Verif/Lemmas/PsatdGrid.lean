import Verif.Lemmas.PsatdKvec
import Mathlib.RingTheory.RootsOfUnity.Complex
import Mathlib.Algebra.Field.GeomSum
import Mathlib.Analysis.SpecialFunctions.Complex.Circle

/-
Discrete Fourier transforms on the periodic grid.
-/
set_option linter.unusedSectionVars false

namespace Picsar.Psatd
open Picsar Picsar.Stencil Finset Complex

variable {nx ny nz : ℕ} [NeZero nx] [NeZero ny] [NeZero nz]

theorem half_pow (n m : ℕ) [NeZero n] : (half n m ^ 2) ^ n = 1 := by
  have hn : (n : ℂ) ≠ 0 := by exact_mod_cast NeZero.ne n
  rw [half_sq, ← exp_nat_mul, show (n : ℂ) * (2 * Real.pi * I * m / n) = m * (2 * Real.pi * I) by field_simp]
  exact exp_nat_mul_two_pi_mul_I m

/-- One factor of `basis`. -/
noncomputable def b1 (n m : ℕ) (x : ZMod n) : ℂ := (half n m ^ 2) ^ x.val

theorem b1_ne (n m : ℕ) (x : ZMod n) : b1 n m x ≠ 0 := pow_ne_zero _ (pow_ne_zero _ (half_ne n m))

theorem b1_add (n m : ℕ) [NeZero n] (x y : ZMod n) : b1 n m (x + y) = b1 n m x * b1 n m y := by
  unfold b1
  rw [ZMod.val_add, ← pow_eq_pow_mod _ (half_pow n m), pow_add]

theorem b1_one (n m : ℕ) [NeZero n] : b1 n m 1 = half n m ^ 2 := by
  unfold b1
  rw [ZMod.val_one_eq_one_mod, ← pow_eq_pow_mod _ (half_pow n m), pow_one]

theorem b1_zero (n m : ℕ) [NeZero n] : b1 n m 0 = 1 := by
  unfold b1
  rw [ZMod.val_zero, pow_zero]

theorem basis_eq (kx ky kz : ℕ) (p : Grid nx ny nz) : basis kx ky kz p = b1 nx kx p.1 * b1 ny ky p.2.1 * b1 nz kz p.2.2 := by
  unfold basis b1
  rw [half_sq, half_sq, half_sq, ← exp_nat_mul, ← exp_nat_mul, ← exp_nat_mul, ← exp_add, ← exp_add]
  congr 1
  ring

theorem basis_ne (kx ky kz : ℕ) (p : Grid nx ny nz) : basis kx ky kz p ≠ 0 := exp_ne_zero _

theorem basis_add (kx ky kz : ℕ) (p q : Grid nx ny nz) : basis kx ky kz (p + q) = basis kx ky kz p * basis kx ky kz q := by
  rw [basis_eq, basis_eq, basis_eq, Prod.fst_add, Prod.snd_add, Prod.fst_add, Prod.snd_add, b1_add, b1_add, b1_add]
  ring

theorem basis_zero (kx ky kz : ℕ) : basis kx ky kz (0 : Grid nx ny nz) = 1 := by
  rw [basis_eq]
  simp only [Prod.fst_zero, Prod.snd_zero, b1_zero, mul_one]

/-- Numbers of points and of the mode by axis. -/
def nn (nx ny nz : ℕ) : Fin 3 → ℕ := ![nx, ny, nz]

theorem basis_axis (kx ky kz : ℕ) (i : Fin 3) (p : Grid nx ny nz) :
    basis kx ky kz (p + axis i) = half (nn nx ny nz i) (nn kx ky kz i) ^ 2 * basis kx ky kz p := by
  rw [basis_add, mul_comm]
  congr 1
  rw [basis_eq]
  fin_cases i
  all_goals simp [axis, nn, b1_zero, b1_one]

theorem b1_orth (n : ℕ) [NeZero n] (x y : ZMod n) : ∑ m ∈ range n, b1 n m x * (b1 n m y)⁻¹ = if x = y then (n : ℂ) else 0 := by
  split_ifs with h
  · subst h
    rw [sum_congr rfl fun m _ => mul_inv_cancel₀ (b1_ne n m x)]
    simp
  set ω : ℂ := exp (2 * Real.pi * I / n) with hω
  have prim : IsPrimitiveRoot ω n := Complex.isPrimitiveRoot_exp n (NeZero.ne n)
  have ω0 : ω ≠ 0 := exp_ne_zero _
  have hb : ∀ m (x : ZMod n), b1 n m x = (ω ^ x.val) ^ m := by
    intro m x
    unfold b1
    rw [half_sq, hω, ← exp_nat_mul, ← exp_nat_mul, ← exp_nat_mul]
    congr 1
    ring
  set r : ℂ := ω ^ x.val * (ω ^ y.val)⁻¹ with hr
  have hs : ∑ m ∈ range n, b1 n m x * (b1 n m y)⁻¹ = ∑ m ∈ range n, r ^ m := by
    refine sum_congr rfl fun m _ => ?_
    rw [hb, hb, hr, mul_pow, inv_pow]
  have r1 : r ≠ 1 := by
    intro h1
    rw [hr, mul_inv_eq_one₀ (pow_ne_zero _ ω0)] at h1
    exact h (ZMod.val_injective n (prim.pow_inj (ZMod.val_lt x) (ZMod.val_lt y) h1))
  have rn : r ^ n = 1 := by
    have e : ∀ a : ℕ, (ω ^ a) ^ n = 1 := fun a => by rw [← pow_mul, mul_comm, pow_mul, prim.pow_eq_one, one_pow]
    rw [hr, mul_pow, inv_pow, e, e, inv_one, mul_one]
  rw [hs, geom_sum_eq r1, rn, sub_self, zero_div]

/-- Sum over all modes. -/
noncomputable def kSum (nx ny nz : ℕ) (f : ℕ → ℕ → ℕ → ℂ) : ℂ := ∑ kx ∈ range nx, ∑ ky ∈ range ny, ∑ kz ∈ range nz, f kx ky kz

theorem basis_orth (p q : Grid nx ny nz) :
    kSum nx ny nz (fun kx ky kz => basis kx ky kz p * (basis kx ky kz q)⁻¹) = if p = q then ((nx * ny * nz : ℕ) : ℂ) else 0 := by
  have h : ∀ kx ky kz, basis kx ky kz p * (basis kx ky kz q)⁻¹ =
      (b1 nx kx p.1 * (b1 nx kx q.1)⁻¹) * ((b1 ny ky p.2.1 * (b1 ny ky q.2.1)⁻¹) * (b1 nz kz p.2.2 * (b1 nz kz q.2.2)⁻¹)) := by
    intro kx ky kz
    rw [basis_eq, basis_eq, mul_inv, mul_inv]
    ring
  unfold kSum
  simp only [h]
  simp only [← mul_sum]
  rw [b1_orth, ← sum_mul, b1_orth, ← sum_mul, b1_orth]
  obtain ⟨p1, p2, p3⟩ := p
  obtain ⟨q1, q2, q3⟩ := q
  simp only [Prod.mk.injEq]
  by_cases a : p1 = q1 <;> by_cases b : p2 = q2 <;> by_cases c : p3 = q3 <;> simp [a, b, c, mul_assoc]

theorem kSum_congr (f g : ℕ → ℕ → ℕ → ℂ) (h : ∀ kx < nx, ∀ ky < ny, ∀ kz < nz, f kx ky kz = g kx ky kz) : kSum nx ny nz f = kSum nx ny nz g :=
  sum_congr rfl fun _ hx => sum_congr rfl fun _ hy => sum_congr rfl fun _ hz => h _ (mem_range.mp hx) _ (mem_range.mp hy) _ (mem_range.mp hz)

theorem kSum_sum {ι : Type} (s : Finset ι) (f : ι → ℕ → ℕ → ℕ → ℂ) :
    kSum nx ny nz (fun kx ky kz => ∑ q ∈ s, f q kx ky kz) = ∑ q ∈ s, kSum nx ny nz (f q) := by
  unfold kSum
  have h : ∀ kx ky, ∑ kz ∈ range nz, ∑ q ∈ s, f q kx ky kz = ∑ q ∈ s, ∑ kz ∈ range nz, f q kx ky kz := fun _ _ => sum_comm
  have h' : ∀ kx, ∑ ky ∈ range ny, ∑ q ∈ s, ∑ kz ∈ range nz, f q kx ky kz = ∑ q ∈ s, ∑ ky ∈ range ny, ∑ kz ∈ range nz, f q kx ky kz :=
    fun _ => sum_comm
  simp only [h, h']
  exact sum_comm

theorem kSum_mul (a : ℂ) (f : ℕ → ℕ → ℕ → ℂ) : kSum nx ny nz (fun kx ky kz => a * f kx ky kz) = a * kSum nx ny nz f := by
  unfold kSum
  simp only [mul_sum]

theorem kSum_add (f g : ℕ → ℕ → ℕ → ℂ) : kSum nx ny nz (fun kx ky kz => f kx ky kz + g kx ky kz) = kSum nx ny nz f + kSum nx ny nz g := by
  unfold kSum
  simp only [sum_add_distrib]

theorem kSum_sub (f g : ℕ → ℕ → ℕ → ℂ) : kSum nx ny nz (fun kx ky kz => f kx ky kz - g kx ky kz) = kSum nx ny nz f - kSum nx ny nz g := by
  unfold kSum
  simp only [sum_sub_distrib]

/-- The transform back gives the function. -/
theorem inversion (u : Grid nx ny nz → ℝ) (p : Grid nx ny nz) :
    kSum nx ny nz (fun kx ky kz => r2c u kx ky kz * basis kx ky kz p) = ((nx * ny * nz : ℕ) : ℂ) * u p := by
  have h : ∀ kx ky kz, r2c u kx ky kz * basis kx ky kz p = ∑ q, (u q : ℂ) * (basis kx ky kz p * (basis kx ky kz q)⁻¹) := by
    intro kx ky kz
    unfold r2c
    rw [sum_mul]
    exact sum_congr rfl fun q _ => by ring
  simp only [h]
  rw [kSum_sum]
  simp only [kSum_mul, basis_orth]
  simp [mul_comm]

/-- The transform of a translate. -/
theorem r2c_shift (u : Grid nx ny nz → ℝ) (s : Grid nx ny nz) (kx ky kz : ℕ) :
    r2c (fun p => u (p + s)) kx ky kz = basis kx ky kz s * r2c u kx ky kz := by
  unfold r2c
  rw [mul_sum, ← Equiv.sum_comp (Equiv.addRight s) (fun q => basis kx ky kz s * ((u q : ℂ) * (basis kx ky kz q)⁻¹))]
  refine sum_congr rfl fun p _ => ?_
  simp only [Equiv.coe_addRight]
  rw [basis_add, mul_inv]
  have := basis_ne kx ky kz s
  field_simp

theorem r2c_add (u v : Grid nx ny nz → ℝ) (kx ky kz : ℕ) : r2c (fun p => u p + v p) kx ky kz = r2c u kx ky kz + r2c v kx ky kz := by
  unfold r2c
  rw [← sum_add_distrib]
  exact sum_congr rfl fun p _ => by push_cast; ring

theorem r2c_mul (a : ℝ) (u : Grid nx ny nz → ℝ) (kx ky kz : ℕ) : r2c (fun p => a * u p) kx ky kz = a * r2c u kx ky kz := by
  unfold r2c
  rw [mul_sum]
  exact sum_congr rfl fun p _ => by push_cast; ring

theorem r2c_sum {ι : Type} (s : Finset ι) (u : ι → Grid nx ny nz → ℝ) (kx ky kz : ℕ) :
    r2c (fun p => ∑ l ∈ s, u l p) kx ky kz = ∑ l ∈ s, r2c (u l) kx ky kz := by
  unfold r2c
  rw [sum_comm]
  refine sum_congr rfl fun p _ => ?_
  push_cast
  rw [sum_mul]

theorem r2c_sub (u v : Grid nx ny nz → ℝ) (kx ky kz : ℕ) : r2c (fun p => u p - v p) kx ky kz = r2c u kx ky kz - r2c v kx ky kz := by
  unfold r2c
  rw [← sum_sub_distrib]
  exact sum_congr rfl fun p _ => by push_cast; ring

/-- The transform of a difference between two translates, with weights. -/
theorem r2c_diff (N : ℕ) (w : ℕ → ℝ) (s s' : ℕ → Grid nx ny nz) (u : Grid nx ny nz → ℝ) (kx ky kz : ℕ) :
    r2c (fun p => ∑ l ∈ Icc 1 N, w l • (u (p + s l) - u (p + s' l))) kx ky kz =
      (∑ l ∈ Icc 1 N, w l • (basis kx ky kz (0 + s l) - basis kx ky kz (0 + s' l))) * r2c u kx ky kz := by
  rw [r2c_sum, sum_mul]
  refine sum_congr rfl fun l _ => ?_
  simp only [smul_eq_mul]
  rw [r2c_mul, r2c_sub, r2c_shift, r2c_shift, zero_add, zero_add, real_smul]
  ring

theorem r2c_dBwd (N : ℕ) (d : ℝ) (i : Fin 3) (u : Grid nx ny nz → ℝ) (kx ky kz : ℕ) :
    r2c (dBwd (weight (2 * N) true) N d (axis i) u) kx ky kz =
      I * (kappa (nn nx ny nz i) N d (nn kx ky kz i) * (half (nn nx ny nz i) (nn kx ky kz i))⁻¹) * r2c u kx ky kz := by
  have h := dBwd_eigen (nn nx ny nz i) N d (nn kx ky kz i) (axis i) (basis kx ky kz) (basis_axis kx ky kz i) (0 : Grid nx ny nz)
  rw [basis_zero, mul_one] at h
  rw [← h]
  have := r2c_diff N (fun l => weight (2 * N) true l / d) (fun l => l • axis i - axis i) (fun l => -(l • axis i)) u kx ky kz
  simp only [← add_sub_assoc, ← sub_eq_add_neg] at this
  exact this

theorem r2c_dFwd (N : ℕ) (d : ℝ) (i : Fin 3) (u : Grid nx ny nz → ℝ) (kx ky kz : ℕ) :
    r2c (dFwd (weight (2 * N) true) N d (axis i) u) kx ky kz =
      I * (kappa (nn nx ny nz i) N d (nn kx ky kz i) * half (nn nx ny nz i) (nn kx ky kz i)) * r2c u kx ky kz := by
  have h := dFwd_eigen (nn nx ny nz i) N d (nn kx ky kz i) (axis i) (basis kx ky kz) (basis_axis kx ky kz i) (0 : Grid nx ny nz)
  rw [basis_zero, mul_one] at h
  rw [← h]
  have := r2c_diff N (fun l => weight (2 * N) true l / d) (fun l => l • axis i) (fun l => axis i - l • axis i) u kx ky kz
  simp only [← add_sub_assoc] at this
  exact this

/-! Conjugate modes. -/

/-- The index of the conjugate mode. -/
def neg1 (n m : ℕ) : ℕ := if m = 0 then 0 else n - m

theorem neg1_lt (n m : ℕ) (h : m < n) : neg1 n m < n := by unfold neg1; split_ifs <;> omega
theorem neg1_neg1 (n m : ℕ) (h : m < n) : neg1 n (neg1 n m) = m := by unfold neg1; split_ifs <;> omega

theorem sum_neg1 {M : Type} [AddCommMonoid M] (n : ℕ) (f : ℕ → M) : ∑ m ∈ range n, f (neg1 n m) = ∑ m ∈ range n, f m :=
  sum_bij' (fun m _ => neg1 n m) (fun m _ => neg1 n m) (fun m hm => mem_range.mpr (neg1_lt n m (mem_range.mp hm)))
    (fun m hm => mem_range.mpr (neg1_lt n m (mem_range.mp hm))) (fun m hm => neg1_neg1 n m (mem_range.mp hm))
    (fun m hm => neg1_neg1 n m (mem_range.mp hm)) (fun _ _ => rfl)

theorem half_neg (n m : ℕ) [NeZero n] (h : m < n) : half n (neg1 n m) ^ 2 = (starRingEnd ℂ) (half n m ^ 2) := by
  have hn : (n : ℂ) ≠ 0 := by exact_mod_cast NeZero.ne n
  rw [half_sq, half_sq, ← exp_conj]
  have e : (starRingEnd ℂ) (2 * Real.pi * I * m / n) = -(2 * Real.pi * I * m / n) := by
    simp only [map_div₀, map_mul, conj_ofReal, conj_I, map_natCast, map_ofNat]
    ring
  rw [e]
  unfold neg1
  split_ifs with h0
  · subst h0
    simp
  · rw [Nat.cast_sub h.le, show 2 * Real.pi * I * ((n : ℂ) - m) / n = -(2 * Real.pi * I * m / n) + 2 * Real.pi * I by field_simp; ring,
      exp_add, exp_two_pi_mul_I, mul_one]

theorem b1_neg (n m : ℕ) [NeZero n] (h : m < n) (x : ZMod n) : b1 n (neg1 n m) x = (starRingEnd ℂ) (b1 n m x) := by
  unfold b1
  rw [half_neg n m h, ← map_pow]

theorem basis_neg (kx ky kz : ℕ) (hx : kx < nx) (hy : ky < ny) (hz : kz < nz) (p : Grid nx ny nz) :
    basis (neg1 nx kx) (neg1 ny ky) (neg1 nz kz) p = (starRingEnd ℂ) (basis kx ky kz p) := by
  rw [basis_eq, basis_eq, b1_neg _ _ hx, b1_neg _ _ hy, b1_neg _ _ hz, map_mul, map_mul]

theorem r2c_neg (u : Grid nx ny nz → ℝ) (kx ky kz : ℕ) (hx : kx < nx) (hy : ky < ny) (hz : kz < nz) :
    r2c u (neg1 nx kx) (neg1 ny ky) (neg1 nz kz) = (starRingEnd ℂ) (r2c u kx ky kz) := by
  unfold r2c
  rw [map_sum]
  refine sum_congr rfl fun p _ => ?_
  rw [basis_neg kx ky kz hx hy hz, map_mul, map_inv₀, conj_ofReal]

theorem kappa_neg_fwd (n N : ℕ) (d : ℝ) (m : ℕ) [NeZero n] (h : m < n) :
    (kappa n N d (neg1 n m) * half n (neg1 n m) : ℂ) = -(starRingEnd ℂ) (kappa n N d m * half n m) := by
  have h1 := symbol_fwd n N d (neg1 n m)
  have h2 := congrArg (starRingEnd ℂ) (symbol_fwd n N d m)
  rw [half_neg n m h] at h1
  rw [map_mul (starRingEnd ℂ) I, conj_I, map_sum] at h2
  have e : ∑ l ∈ Icc 1 N, ((weight (2 * N) true l / d : ℝ) : ℂ) * ((starRingEnd ℂ) (half n m ^ 2) ^ l -
        (starRingEnd ℂ) (half n m ^ 2) * ((starRingEnd ℂ) (half n m ^ 2) ^ l)⁻¹) =
      ∑ l ∈ Icc 1 N, (starRingEnd ℂ) (((weight (2 * N) true l / d : ℝ) : ℂ) * ((half n m ^ 2) ^ l - half n m ^ 2 * ((half n m ^ 2) ^ l)⁻¹)) := by
    refine sum_congr rfl fun l _ => ?_
    simp only [map_mul, map_sub, map_inv₀, map_pow, conj_ofReal]
  rw [e, h2] at h1
  have := mul_left_cancel₀ I_ne_zero (h1.symm.trans (by ring : -I * (starRingEnd ℂ) (kappa n N d m * half n m) = I * -(starRingEnd ℂ) (kappa n N d m * half n m)))
  exact this

theorem kappa_neg_bwd (n N : ℕ) (d : ℝ) (m : ℕ) [NeZero n] (h : m < n) :
    (kappa n N d (neg1 n m) * (half n (neg1 n m))⁻¹ : ℂ) = -(starRingEnd ℂ) (kappa n N d m * (half n m)⁻¹) := by
  have h1 := symbol_bwd n N d (neg1 n m)
  have h2 := congrArg (starRingEnd ℂ) (symbol_bwd n N d m)
  rw [half_neg n m h] at h1
  rw [map_mul (starRingEnd ℂ) I, conj_I, map_sum] at h2
  have e : ∑ l ∈ Icc 1 N, ((weight (2 * N) true l / d : ℝ) : ℂ) * ((starRingEnd ℂ) (half n m ^ 2) ^ l *
        ((starRingEnd ℂ) (half n m ^ 2))⁻¹ - ((starRingEnd ℂ) (half n m ^ 2) ^ l)⁻¹) =
      ∑ l ∈ Icc 1 N, (starRingEnd ℂ) (((weight (2 * N) true l / d : ℝ) : ℂ) * ((half n m ^ 2) ^ l * (half n m ^ 2)⁻¹ - ((half n m ^ 2) ^ l)⁻¹)) := by
    refine sum_congr rfl fun l _ => ?_
    simp only [map_mul, map_sub, map_inv₀, map_pow, conj_ofReal]
  rw [e, h2] at h1
  exact mul_left_cancel₀ I_ne_zero (h1.symm.trans (by ring : -I * (starRingEnd ℂ) (kappa n N d m * (half n m)⁻¹) = I * -(starRingEnd ℂ) (kappa n N d m * (half n m)⁻¹)))

/-- Half of the modes with weights. -/
theorem half_sum (n : ℕ) (hn : 1 ≤ n) (g : ℕ → ℝ) (hg : ∀ m, 1 ≤ m → m < n → g (n - m) = g m) :
    ∑ m ∈ range (n / 2 + 1), (if m = 0 ∨ 2 * m = n then 1 else 2) * g m = ∑ m ∈ range n, g m := by
  have h1 : range n = range (n / 2 + 1) ∩ range n ∪ Ico (n / 2 + 1) n := by
    ext m
    simp only [mem_union, mem_inter, mem_range, mem_Ico]
    omega
  have hd : Disjoint (range (n / 2 + 1) ∩ range n) (Ico (n / 2 + 1) n) := by
    rw [disjoint_left]
    intro m
    simp only [mem_inter, mem_range, mem_Ico]
    omega
  have h2 : ∑ m ∈ Ico (n / 2 + 1) n, g m = ∑ m ∈ (range (n / 2 + 1)).filter (fun m => ¬ (m = 0 ∨ 2 * m = n)), g m := by
    refine sum_bij' (fun m _ => n - m) (fun m _ => n - m) ?_ ?_ ?_ ?_ ?_
    · intro m hm
      simp only [mem_Ico, mem_filter, mem_range] at hm ⊢
      omega
    · intro m hm
      simp only [mem_Ico, mem_filter, mem_range] at hm ⊢
      omega
    · intro m hm
      simp only [mem_Ico] at hm
      omega
    · intro m hm
      simp only [mem_filter, mem_range] at hm
      omega
    · intro m hm
      simp only [mem_Ico] at hm
      exact (hg m (by omega) (by omega)).symm
  have h3 : range (n / 2 + 1) ∩ range n = range (n / 2 + 1) \ ((range (n / 2 + 1)).filter fun m => n ≤ m) := by
    ext m
    simp only [mem_inter, mem_sdiff, mem_filter, mem_range]
    omega
  by_cases hn1 : n = 1
  · subst hn1
    simp
  have h4 : range (n / 2 + 1) ∩ range n = range (n / 2 + 1) := by
    ext m
    simp only [mem_inter, mem_range]
    omega
  rw [h1, sum_union hd, h4, h2, sum_filter, ← sum_add_distrib]
  refine sum_congr rfl fun m _ => ?_
  split_ifs <;> ring

end Picsar.Psatd
