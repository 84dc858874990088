import Verif.Lemmas.PsatdStep

/-
The step of the pseudo-spectral solver is the solution of Maxwell's equations; uniqueness, energy and divergences of the solution.
-/
set_option linter.unusedSectionVars false
set_option linter.unusedSimpArgs false

namespace Picsar.Psatd
open Picsar Picsar.Stencil Finset Complex

variable {nx ny nz : ℕ} [NeZero nx] [NeZero ny] [NeZero nz]
variable {P : Par} {N : Fin 3 → ℕ} {F : EB nx ny nz} {J : Fin 3 → Grid nx ny nz → ℝ} {rho rhoold : Grid nx ny nz → ℝ}

/-! Conjugate modes. -/

theorem half_norm (n m : ℕ) : (starRingEnd ℂ) (half n m) = (half n m)⁻¹ := by
  unfold half
  rw [← exp_conj, ← exp_neg]
  congr 1
  simp only [map_div₀, map_mul, conj_ofReal, conj_I, map_natCast]
  ring

theorem kappa_sq_neg (n N : ℕ) (d : ℝ) (m : ℕ) [NeZero n] (h : m < n) : kappa n N d (neg1 n m) ^ 2 = kappa n N d m ^ 2 := by
  have a := kappa_neg_fwd n N d m h
  have b := kappa_neg_bwd n N d m h
  have e : ((kappa n N d (neg1 n m) ^ 2 : ℝ) : ℂ) = ((kappa n N d m ^ 2 : ℝ) : ℂ) := by
    have h1 := half_ne n (neg1 n m)
    have h2 := half_ne n m
    calc ((kappa n N d (neg1 n m) ^ 2 : ℝ) : ℂ)
        = (kappa n N d (neg1 n m) * half n (neg1 n m)) * (kappa n N d (neg1 n m) * (half n (neg1 n m))⁻¹) := by
          push_cast
          field_simp
      _ = (starRingEnd ℂ) ((kappa n N d m * half n m) * (kappa n N d m * (half n m)⁻¹)) := by
          rw [a, b, neg_mul_neg, ← map_mul]
      _ = _ := by
          rw [show (kappa n N d m * half n m : ℂ) * (kappa n N d m * (half n m)⁻¹) = ((kappa n N d m ^ 2 : ℝ) : ℂ) by push_cast; field_simp, conj_ofReal]
  exact_mod_cast e

theorem kF_neg (N : Fin 3 → ℕ) (d : Fin 3 → ℝ) (kx ky kz : ℕ) (hx : kx < nx) (hy : ky < ny) (hz : kz < nz) (i : Fin 3) :
    kF (nn nx ny nz) N d (nn (neg1 nx kx) (neg1 ny ky) (neg1 nz kz)) i = -(starRingEnd ℂ) (kF (nn nx ny nz) N d (nn kx ky kz) i) := by
  unfold kF
  fin_cases i
  · exact kappa_neg_bwd nx (N 0) (d 0) kx hx
  · exact kappa_neg_bwd ny (N 1) (d 1) ky hy
  · exact kappa_neg_bwd nz (N 2) (d 2) kz hz

theorem kB_neg (N : Fin 3 → ℕ) (d : Fin 3 → ℝ) (kx ky kz : ℕ) (hx : kx < nx) (hy : ky < ny) (hz : kz < nz) (i : Fin 3) :
    kB (nn nx ny nz) N d (nn (neg1 nx kx) (neg1 ny ky) (neg1 nz kz)) i = -(starRingEnd ℂ) (kB (nn nx ny nz) N d (nn kx ky kz) i) := by
  unfold kB
  fin_cases i
  · exact kappa_neg_fwd nx (N 0) (d 0) kx hx
  · exact kappa_neg_fwd ny (N 1) (d 1) ky hy
  · exact kappa_neg_fwd nz (N 2) (d 2) kz hz

theorem kQ_neg (N : Fin 3 → ℕ) (d : Fin 3 → ℝ) (kx ky kz : ℕ) (hx : kx < nx) (hy : ky < ny) (hz : kz < nz) :
    kQ (nn nx ny nz) N d (nn (neg1 nx kx) (neg1 ny ky) (neg1 nz kz)) = kQ (nn nx ny nz) N d (nn kx ky kz) := by
  unfold kQ
  have a : kappa (nn nx ny nz 0) (N 0) (d 0) (nn (neg1 nx kx) (neg1 ny ky) (neg1 nz kz) 0) ^ 2 = kappa (nn nx ny nz 0) (N 0) (d 0) (nn kx ky kz 0) ^ 2 :=
    kappa_sq_neg nx (N 0) (d 0) kx hx
  have b : kappa (nn nx ny nz 1) (N 1) (d 1) (nn (neg1 nx kx) (neg1 ny ky) (neg1 nz kz) 1) ^ 2 = kappa (nn nx ny nz 1) (N 1) (d 1) (nn kx ky kz 1) ^ 2 :=
    kappa_sq_neg ny (N 1) (d 1) ky hy
  have c : kappa (nn nx ny nz 2) (N 2) (d 2) (nn (neg1 nx kx) (neg1 ny ky) (neg1 nz kz) 2) ^ 2 = kappa (nn nx ny nz 2) (N 2) (d 2) (nn kx ky kz 2) ^ 2 :=
    kappa_sq_neg nz (N 2) (d 2) kz hz
  rw [a, b, c]

theorem neg1_zero {kx ky kz : ℕ} (hx : kx < nx) (hy : ky < ny) (hz : kz < nz) :
    (neg1 nx kx = 0 ∧ neg1 ny ky = 0 ∧ neg1 nz kz = 0) ↔ (kx = 0 ∧ ky = 0 ∧ kz = 0) := by
  have e : ∀ n m, m < n → (neg1 n m = 0 ↔ m = 0) := by
    intro n m h
    unfold neg1
    split_ifs <;> omega
  rw [e nx kx hx, e ny ky hy, e nz kz hz]

theorem r2c_zero (u : Grid nx ny nz → ℝ) : r2c u 0 0 0 = ((∑ p, u p : ℝ) : ℂ) := by
  unfold r2c
  push_cast
  refine sum_congr rfl fun p _ => ?_
  rw [basis_eq]
  have e : ∀ n (x : ZMod n), b1 n 0 x = 1 := by
    intro n x
    unfold b1
    rw [half_sq]
    simp
  rw [e, e, e]
  simp

theorem hatE_neg (t : ℝ) (i : Fin 3) (kx ky kz : ℕ) (hx : kx < nx) (hy : ky < ny) (hz : kz < nz) :
    hatE P N F J rho rhoold t i (neg1 nx kx) (neg1 ny ky) (neg1 nz kz) = (starRingEnd ℂ) (hatE P N F J rho rhoold t i kx ky kz) := by
  unfold hatE
  by_cases h0 : kx = 0 ∧ ky = 0 ∧ kz = 0
  · rw [if_pos h0, if_pos ((neg1_zero hx hy hz).mpr h0), r2c_zero, r2c_zero]
    simp only [map_sub, map_mul, conj_ofReal]
  · rw [if_neg h0, if_neg (mt (neg1_zero hx hy hz).mp h0)]
    have eq := kQ_neg (nx := nx) (ny := ny) (nz := nz) N P.d kx ky kz hx hy hz
    have ek : kN nx ny nz P N (neg1 nx kx) (neg1 ny ky) (neg1 nz kz) = kN nx ny nz P N kx ky kz := by unfold kN; rw [eq]
    rw [ek]
    fin_cases i
    all_goals simp only [ModeData.solE, ModeData.aE, ModeData.bE, ModeData.cE, ModeData.dE, md, cross, eq, kF_neg N P.d kx ky kz hx hy hz,
      kB_neg N P.d kx ky kz hx hy hz, r2c_neg _ kx ky kz hx hy hz,
      Fin.zero_eta, Fin.mk_one, Fin.reduceFinMk, Matrix.cons_val_zero, Matrix.cons_val_one, Matrix.cons_val]
    all_goals simp only [map_add, map_sub, map_mul, map_neg, conj_ofReal, conj_I]
    all_goals ring

theorem hatB_neg (t : ℝ) (i : Fin 3) (kx ky kz : ℕ) (hx : kx < nx) (hy : ky < ny) (hz : kz < nz) :
    hatB P N F J rho rhoold t i (neg1 nx kx) (neg1 ny ky) (neg1 nz kz) = (starRingEnd ℂ) (hatB P N F J rho rhoold t i kx ky kz) := by
  unfold hatB
  by_cases h0 : kx = 0 ∧ ky = 0 ∧ kz = 0
  · rw [if_pos h0, if_pos ((neg1_zero hx hy hz).mpr h0), r2c_zero]
    simp only [conj_ofReal]
  · rw [if_neg h0, if_neg (mt (neg1_zero hx hy hz).mp h0)]
    have eq := kQ_neg (nx := nx) (ny := ny) (nz := nz) N P.d kx ky kz hx hy hz
    have ek : kN nx ny nz P N (neg1 nx kx) (neg1 ny ky) (neg1 nz kz) = kN nx ny nz P N kx ky kz := by unfold kN; rw [eq]
    rw [ek]
    fin_cases i
    all_goals simp only [ModeData.solB, ModeData.aB, ModeData.bB, ModeData.cB, md, cross, eq,
      kB_neg N P.d kx ky kz hx hy hz, r2c_neg _ kx ky kz hx hy hz,
      Fin.zero_eta, Fin.mk_one, Fin.reduceFinMk, Matrix.cons_val_zero, Matrix.cons_val_one, Matrix.cons_val]
    all_goals simp only [map_add, map_sub, map_mul, map_neg, conj_ofReal, conj_I]
    all_goals ring

/-! The coefficients of the code. -/

/-- The operators at one mode. -/
noncomputable def opsOf (P : Par) (K : ℝ) : Ops :=
  ⟨P.c * P.dt * sinc (P.dt * P.c * K), Real.cos (P.dt * P.c * K), if K = 0 then (P.c * P.dt) ^ 2 / 2 else (1 - Real.cos (P.dt * P.c * K)) / K ^ 2,
    if K = 0 then 1 else K, decide (K = 0)⟩

theorem ops_eq (P : Par) (K : ℝ) (first : Bool) (h : K = 0 → first = true) : ops P K first = .ok (opsOf P K) := by
  unfold ops opsOf
  by_cases hK : K = 0
  · rw [h hK]
    simp [hK]
  · simp [hK]

theorem modeMat_eq (P : Par) (N : Fin 3 → ℕ) (hs : P.stg = true) (hN : ∀ i, 1 ≤ N i) (ho : ∀ i, P.norder i = 2 * N i) (hd : ∀ i, P.d i ≠ 0)
    (h2 : P.twoD = true → ny = 1) (kx ky kz : ℕ) (hx : kx < nx) (hy : ky < ny) (hz : kz < nz) :
    modeMat P nx ny nz kx ky kz = .ok fun i j => 1 / ((nx * ny * nz : ℕ) : ℂ) *
      ccMat P ⟨kF (nn nx ny nz) N P.d (nn kx ky kz), kB (nn nx ny nz) N P.d (nn kx ky kz), kN nx ny nz P N kx ky kz⟩ (opsOf P (kN nx ny nz P N kx ky kz)) i j := by
  have hk := kspace_eq P N (nn nx ny nz) (nn kx ky kz) hs hN ho (fun i => by have := nn_lt hx hy hz i; omega) (nn_lt hx hy hz) h2
  have ej : (fun i => nn kx ky kz i + 1) = ![kx + 1, ky + 1, kz + 1] := by
    funext i
    fin_cases i <;> rfl
  rw [ej] at hk
  unfold modeMat
  rw [show (![nx, ny, nz] : Fin 3 → ℕ) = nn nx ny nz from rfl, hk]
  simp only [except_bind_ok]
  rw [ops_eq]
  · rfl
  · intro h0
    by_contra hf
    have : 0 < kQ (nn nx ny nz) N P.d (nn kx ky kz) := kQ_pos _ _ _ _ hN hd (nn_lt hx hy hz) (by
      rw [nn_zero]
      rintro ⟨rfl, rfl, rfl⟩
      simp at hf)
    have h3 : Real.sqrt (kQ (nn nx ny nz) N P.d (nn kx ky kz)) = 0 := h0
    rw [Real.sqrt_eq_zero'] at h3
    linarith

theorem fold_modes {A : Type} (g : ℕ × ℕ × ℕ → Res A) (f : ℕ × ℕ × ℕ → A) (L : List (ℕ × ℕ × ℕ)) (h : ∀ k ∈ L, g k = .ok (f k))
    (m : ℕ → ℕ → ℕ → A) :
    L.foldlM (fun (m : ℕ → ℕ → ℕ → A) k => do
      let a ← g k
      (Except.ok fun kx ky kz => if (kx, ky, kz) = k then a else m kx ky kz : Res (ℕ → ℕ → ℕ → A))) m =
      .ok fun kx ky kz => if (kx, ky, kz) ∈ L then f (kx, ky, kz) else m kx ky kz := by
  induction L generalizing m with
  | nil => simp [pure, Except.pure]
  | cons k L ih =>
    rw [List.foldlM_cons, h k (by simp)]
    simp only [except_bind_ok]
    rw [ih fun k hk => h k (by simp [hk])]
    congr 1
    funext kx ky kz
    by_cases h1 : (kx, ky, kz) ∈ L
    · simp [h1]
    · by_cases h2 : (kx, ky, kz) = k
      · simp [h2]
      · simp [h1, h2]

theorem mem_modes (kx ky kz : ℕ) : (kx, ky, kz) ∈ modes nx ny nz ↔ kx ≤ nx / 2 ∧ ky < ny ∧ kz < nz := by
  unfold modes
  simp only [List.mem_flatMap, List.mem_map, List.mem_range, Prod.mk.injEq]
  constructor
  · rintro ⟨z, hz, y, hy, x, hx, rfl, rfl, rfl⟩
    exact ⟨by omega, hy, hz⟩
  · rintro ⟨hx, hy, hz⟩
    exact ⟨kz, hz, ky, hy, kx, by omega, rfl, rfl, rfl⟩

theorem init_eq (P : Par) (N : Fin 3 → ℕ) (hs : P.stg = true) (hN : ∀ i, 1 ≤ N i) (ho : ∀ i, P.norder i = 2 * N i) (hd : ∀ i, P.d i ≠ 0)
    (h2 : P.twoD = true → ny = 1) :
    ∃ m, initGpstd P nx ny nz = .ok m ∧ ∀ kx ky kz, kx ≤ nx / 2 → ky < ny → kz < nz → m kx ky kz = fun i j => 1 / ((nx * ny * nz : ℕ) : ℂ) *
      ccMat P ⟨kF (nn nx ny nz) N P.d (nn kx ky kz), kB (nn nx ny nz) N P.d (nn kx ky kz), kN nx ny nz P N kx ky kz⟩ (opsOf P (kN nx ny nz P N kx ky kz)) i j := by
  have hn : 1 ≤ nx := NeZero.one_le
  refine ⟨_, fold_modes (fun k => modeMat P nx ny nz k.1 k.2.1 k.2.2) (fun k i j => 1 / ((nx * ny * nz : ℕ) : ℂ) *
      ccMat P ⟨kF (nn nx ny nz) N P.d (nn k.1 k.2.1 k.2.2), kB (nn nx ny nz) N P.d (nn k.1 k.2.1 k.2.2), kN nx ny nz P N k.1 k.2.1 k.2.2⟩
        (opsOf P (kN nx ny nz P N k.1 k.2.1 k.2.2)) i j) (modes nx ny nz) ?_ _, ?_⟩
  · rintro ⟨kx, ky, kz⟩ hk
    rw [mem_modes] at hk
    exact modeMat_eq P N hs hN ho hd h2 kx ky kz (by omega) hk.2.1 hk.2.2
  · intro kx ky kz h1 h3 h4
    rw [if_pos ((mem_modes kx ky kz).mpr ⟨h1, h3, h4⟩)]

theorem c2r_congr {U V : ℕ → ℕ → ℕ → ℂ} (p : Grid nx ny nz)
    (h : ∀ kx ky kz, kx ≤ nx / 2 → ky < ny → kz < nz → (U kx ky kz * basis kx ky kz p).re = (V kx ky kz * basis kx ky kz p).re) : c2r U p = c2r V p := by
  unfold c2r
  refine sum_congr rfl fun kx hx => ?_
  congr 1
  refine sum_congr rfl fun ky hy => sum_congr rfl fun kz hz => ?_
  rw [mem_range] at hx hy hz
  exact h kx ky kz (by omega) hy hz

theorem basis_000 (p : Grid nx ny nz) : basis 0 0 0 p = 1 := by
  unfold basis
  simp

/-- The mode of a push with the given numbers. -/
noncomputable def mdOf (P : Par) (kf kb E B J : Fin 3 → ℂ) (r rn : ℂ) (K : ℝ) : ModeData :=
  ⟨kf, kb, (K ^ 2 : ℝ), ((K ^ 2)⁻¹ : ℝ), P.c, (P.c⁻¹ : ℝ), (P.eps0⁻¹ : ℝ), P.mu0, E, B, J, r, (rn - r) * (P.dt⁻¹ : ℝ)⟩

theorem push2_E (P : Par) (hc : P.c ≠ 0) (ht : P.dt ≠ 0) (he : P.eps0 ≠ 0) (kf kb E B J : Fin 3 → ℂ) (r rn M : ℂ) (S C K : ℝ) (hK : K ≠ 0) (f1 : kf 1 = 0) (b1 : kb 1 = 0)
    (i : Fin 3) :
    (push2d (fun i j => M * ccMat P ⟨kf, kb, K⟩ ⟨S, C, (1 - C) / K ^ 2, K, false⟩ i j) E B J rn r).1 i =
      M * (mdOf P kf kb E B J r rn K).solE C S P.dt i := by
  have htC : (P.dt : ℂ) ≠ 0 := ofReal_ne_zero.mpr ht
  have hcC : (P.c : ℂ) ≠ 0 := ofReal_ne_zero.mpr hc
  have hKC : (K : ℂ) ≠ 0 := ofReal_ne_zero.mpr hK
  have heC : (P.eps0 : ℂ) ≠ 0 := ofReal_ne_zero.mpr he
  unfold push2d
  fin_cases i
  all_goals simp only [ccMat, ccMat.rhoOld, ccMat.rhoNew, ModeData.solE, ModeData.aE, ModeData.bE, ModeData.cE, ModeData.dE, mdOf, cross, f1, b1, Fin.zero_eta, Fin.mk_one, Fin.reduceFinMk, Matrix.cons_val_zero, Matrix.cons_val_one, Matrix.cons_val, Bool.false_eq_true, if_false]
  all_goals push_cast
  all_goals field_simp
  all_goals ring

theorem push2_B (P : Par) (hc : P.c ≠ 0) (ht : P.dt ≠ 0) (he : P.eps0 ≠ 0) (kf kb E B J : Fin 3 → ℂ) (r rn M : ℂ) (S C K : ℝ) (hK : K ≠ 0) (f1 : kf 1 = 0) (b1 : kb 1 = 0)
    (i : Fin 3) :
    (push2d (fun i j => M * ccMat P ⟨kf, kb, K⟩ ⟨S, C, (1 - C) / K ^ 2, K, false⟩ i j) E B J rn r).2 i =
      M * (mdOf P kf kb E B J r rn K).solB C S i := by
  have htC : (P.dt : ℂ) ≠ 0 := ofReal_ne_zero.mpr ht
  have hcC : (P.c : ℂ) ≠ 0 := ofReal_ne_zero.mpr hc
  have hKC : (K : ℂ) ≠ 0 := ofReal_ne_zero.mpr hK
  have heC : (P.eps0 : ℂ) ≠ 0 := ofReal_ne_zero.mpr he
  unfold push2d
  fin_cases i
  all_goals simp only [ccMat, ModeData.solB, ModeData.aB, ModeData.bB, ModeData.cB, mdOf, cross, f1, b1, Fin.zero_eta, Fin.mk_one, Fin.reduceFinMk, Matrix.cons_val_zero, Matrix.cons_val_one, Matrix.cons_val]
  all_goals push_cast
  all_goals field_simp
  all_goals ring

theorem push3_E (P : Par) (hc : P.c ≠ 0) (ht : P.dt ≠ 0) (he : P.eps0 ≠ 0) (kf kb E B J : Fin 3 → ℂ) (r rn M : ℂ) (S C K : ℝ) (hK : K ≠ 0)
    (i : Fin 3) :
    (push3d (fun i j => M * ccMat P ⟨kf, kb, K⟩ ⟨S, C, (1 - C) / K ^ 2, K, false⟩ i j) E B J rn r).1 i =
      M * (mdOf P kf kb E B J r rn K).solE C S P.dt i := by
  have htC : (P.dt : ℂ) ≠ 0 := ofReal_ne_zero.mpr ht
  have hcC : (P.c : ℂ) ≠ 0 := ofReal_ne_zero.mpr hc
  have hKC : (K : ℂ) ≠ 0 := ofReal_ne_zero.mpr hK
  have heC : (P.eps0 : ℂ) ≠ 0 := ofReal_ne_zero.mpr he
  unfold push3d
  fin_cases i
  all_goals simp only [ccMat, ccMat.rhoOld, ccMat.rhoNew, ModeData.solE, ModeData.aE, ModeData.bE, ModeData.cE, ModeData.dE, mdOf, cross, Fin.zero_eta, Fin.mk_one, Fin.reduceFinMk, Matrix.cons_val_zero, Matrix.cons_val_one, Matrix.cons_val, Bool.false_eq_true, if_false]
  all_goals push_cast
  all_goals field_simp
  all_goals ring

theorem push3_B (P : Par) (hc : P.c ≠ 0) (ht : P.dt ≠ 0) (he : P.eps0 ≠ 0) (kf kb E B J : Fin 3 → ℂ) (r rn M : ℂ) (S C K : ℝ) (hK : K ≠ 0)
    (i : Fin 3) :
    (push3d (fun i j => M * ccMat P ⟨kf, kb, K⟩ ⟨S, C, (1 - C) / K ^ 2, K, false⟩ i j) E B J rn r).2 i =
      M * (mdOf P kf kb E B J r rn K).solB C S i := by
  have htC : (P.dt : ℂ) ≠ 0 := ofReal_ne_zero.mpr ht
  have hcC : (P.c : ℂ) ≠ 0 := ofReal_ne_zero.mpr hc
  have hKC : (K : ℂ) ≠ 0 := ofReal_ne_zero.mpr hK
  have heC : (P.eps0 : ℂ) ≠ 0 := ofReal_ne_zero.mpr he
  unfold push3d
  fin_cases i
  all_goals simp only [ccMat, ModeData.solB, ModeData.aB, ModeData.bB, ModeData.cB, mdOf, cross, Fin.zero_eta, Fin.mk_one, Fin.reduceFinMk, Matrix.cons_val_zero, Matrix.cons_val_one, Matrix.cons_val]
  all_goals push_cast
  all_goals field_simp
  all_goals ring

/-- At every mode but the first, the push gives the value of the solution. -/
theorem push_eq (h : Ready P N F J rho rhoold) (kx ky kz : ℕ) (hx : kx < nx) (hy : ky < ny) (hz : kz < nz)
    (h0 : ¬ (kx = 0 ∧ ky = 0 ∧ kz = 0)) (i : Fin 3) :
    ((if P.twoD then push2d else push3d) (fun i j => 1 / ((nx * ny * nz : ℕ) : ℂ) *
      ccMat P ⟨kF (nn nx ny nz) N P.d (nn kx ky kz), kB (nn nx ny nz) N P.d (nn kx ky kz), kN nx ny nz P N kx ky kz⟩ (opsOf P (kN nx ny nz P N kx ky kz)) i j)
      (fun i => r2c (F.E i) kx ky kz) (fun i => r2c (F.B i) kx ky kz) (fun i => r2c (J i) kx ky kz) (r2c rho kx ky kz) (r2c rhoold kx ky kz)).1 i =
      (((nx * ny * nz : ℕ) : ℂ))⁻¹ * hatE P N F J rho rhoold P.dt i kx ky kz ∧
    ((if P.twoD then push2d else push3d) (fun i j => 1 / ((nx * ny * nz : ℕ) : ℂ) *
      ccMat P ⟨kF (nn nx ny nz) N P.d (nn kx ky kz), kB (nn nx ny nz) N P.d (nn kx ky kz), kN nx ny nz P N kx ky kz⟩ (opsOf P (kN nx ny nz P N kx ky kz)) i j)
      (fun i => r2c (F.E i) kx ky kz) (fun i => r2c (F.B i) kx ky kz) (fun i => r2c (J i) kx ky kz) (r2c rho kx ky kz) (r2c rhoold kx ky kz)).2 i =
      (((nx * ny * nz : ℕ) : ℂ))⁻¹ * hatB P N F J rho rhoold P.dt i kx ky kz := by
  obtain ⟨k0, k2⟩ := kN_ne h kx ky kz hx hy hz h0
  have hc := h.c
  have ht := h.dt
  set K := kN nx ny nz P N kx ky kz with hK
  have es : P.c * P.dt * sinc (P.dt * P.c * K) = Real.sin (P.c * K * P.dt) / K := by
    unfold sinc
    rw [if_pos (mul_ne_zero (mul_ne_zero ht hc) k0), show P.dt * P.c * K = P.c * K * P.dt by ring]
    field_simp
  have ec : P.dt * P.c * K = P.c * K * P.dt := by ring
  have y1 : P.twoD = true → kF (nn nx ny nz) N P.d (nn kx ky kz) 1 = 0 ∧ kB (nn nx ny nz) N P.d (nn kx ky kz) 1 = 0 := by
    intro h2
    have : nn kx ky kz 1 = 0 := by
      have := h.two h2
      change ky = 0
      omega
    unfold kF kB
    rw [this, kappa_zero]
    simp
  have htC : (P.dt : ℂ) ≠ 0 := ofReal_ne_zero.mpr ht
  have hcC : (P.c : ℂ) ≠ 0 := ofReal_ne_zero.mpr hc
  have hKC : (K : ℂ) ≠ 0 := ofReal_ne_zero.mpr k0
  have heC : (P.eps0 : ℂ) ≠ 0 := ofReal_ne_zero.mpr (eps_ne h)
  unfold hatE hatB
  rw [if_neg h0, if_neg h0, ← hK]
  set S := Real.sin (P.c * K * P.dt) / K with hS
  set C := Real.cos (P.c * K * P.dt) with hC
  have eo : opsOf P K = ⟨S, C, (1 - C) / K ^ 2, K, false⟩ := by
    unfold opsOf
    rw [if_neg k0, if_neg k0, es, ec, ← hC]
    simp [k0]
  rw [eo]
  have emd : md P N F J rho rhoold kx ky kz = mdOf P (kF (nn nx ny nz) N P.d (nn kx ky kz)) (kB (nn nx ny nz) N P.d (nn kx ky kz))
      (fun i => r2c (F.E i) kx ky kz) (fun i => r2c (F.B i) kx ky kz) (fun i => r2c (J i) kx ky kz) (r2c rhoold kx ky kz) (r2c rho kx ky kz) K := by
    unfold md mdOf
    rw [k2]
  rw [emd, ← one_div]
  by_cases h2 : P.twoD = true
  · obtain ⟨f1, b1⟩ := y1 h2
    rw [if_pos h2]
    exact ⟨push2_E P hc ht (eps_ne h) _ _ _ _ _ _ _ _ S C K k0 f1 b1 i, push2_B P hc ht (eps_ne h) _ _ _ _ _ _ _ _ S C K k0 f1 b1 i⟩
  · rw [if_neg h2]
    exact ⟨push3_E P hc ht (eps_ne h) _ _ _ _ _ _ _ _ S C K k0 i, push3_B P hc ht (eps_ne h) _ _ _ _ _ _ _ _ S C K k0 i⟩

set_option maxHeartbeats 1000000 in
/-- At the first mode the real parts agree. -/
theorem push_zero (h : Ready P N F J rho rhoold) (i : Fin 3) :
    (((if P.twoD then push2d else push3d) (fun i j => 1 / ((nx * ny * nz : ℕ) : ℂ) *
      ccMat P ⟨kF (nn nx ny nz) N P.d (nn 0 0 0), kB (nn nx ny nz) N P.d (nn 0 0 0), kN nx ny nz P N 0 0 0⟩ (opsOf P (kN nx ny nz P N 0 0 0)) i j)
      (fun i => r2c (F.E i) 0 0 0) (fun i => r2c (F.B i) 0 0 0) (fun i => r2c (J i) 0 0 0) (r2c rho 0 0 0) (r2c rhoold 0 0 0)).1 i).re =
      ((((nx * ny * nz : ℕ) : ℂ))⁻¹ * hatE P N F J rho rhoold P.dt i 0 0 0).re ∧
    (((if P.twoD then push2d else push3d) (fun i j => 1 / ((nx * ny * nz : ℕ) : ℂ) *
      ccMat P ⟨kF (nn nx ny nz) N P.d (nn 0 0 0), kB (nn nx ny nz) N P.d (nn 0 0 0), kN nx ny nz P N 0 0 0⟩ (opsOf P (kN nx ny nz P N 0 0 0)) i j)
      (fun i => r2c (F.E i) 0 0 0) (fun i => r2c (F.B i) 0 0 0) (fun i => r2c (J i) 0 0 0) (r2c rho 0 0 0) (r2c rhoold 0 0 0)).2 i).re =
      ((((nx * ny * nz : ℕ) : ℂ))⁻¹ * hatB P N F J rho rhoold P.dt i 0 0 0).re := by
  have hz : ∀ i, nn 0 0 0 i = 0 := nn_zero.mpr ⟨rfl, rfl, rfl⟩
  obtain ⟨zf, zb⟩ := k_zero (nn nx ny nz) N P.d (nn 0 0 0) hz
  have zk : kN nx ny nz P N 0 0 0 = 0 := by
    unfold kN kQ
    rw [hz, hz, hz, kappa_zero, kappa_zero, kappa_zero]
    simp
  have eo : opsOf P 0 = ⟨P.c * P.dt, 1, (P.c * P.dt) ^ 2 / 2, 1, true⟩ := by
    unfold opsOf sinc
    simp
  have he := eps_ne h
  have hu : P.c * P.mu0 * (P.c * P.dt) = P.eps0⁻¹ * P.dt := by
    have := h.units
    field_simp
    linear_combination P.dt * this
  have hN : (1 / ((nx * ny * nz : ℕ) : ℂ)) = (((nx * ny * nz : ℕ) : ℝ)⁻¹ : ℝ) := by push_cast; rw [one_div]
  have hN' : ((((nx * ny * nz : ℕ) : ℂ))⁻¹ : ℂ) = (((nx * ny * nz : ℕ) : ℝ)⁻¹ : ℝ) := by push_cast; rfl
  rw [zf, zb, zk, eo, hN, hN']
  have hE0 : hatE P N F J rho rhoold P.dt i 0 0 0 = r2c (F.E i) 0 0 0 - (P.eps0⁻¹ : ℝ) * r2c (J i) 0 0 0 * P.dt := if_pos ⟨rfl, rfl, rfl⟩
  have hB0 : hatB P N F J rho rhoold P.dt i 0 0 0 = r2c (F.B i) 0 0 0 := if_pos ⟨rfl, rfl, rfl⟩
  rw [hE0, hB0]
  have im : ∀ a b x y : ℝ, ((a : ℂ) * (1 / (b : ℂ) * (x * I * (P.c * P.dt) ^ 2)) * (y : ℂ)).re = 0 := by
    intro a b x y
    rw [show (a : ℂ) * (1 / (b : ℂ) * (x * I * (P.c * P.dt) ^ 2)) * (y : ℂ) = ((a * b⁻¹ * x * (P.c * P.dt) ^ 2 * y : ℝ) : ℂ) * I by push_cast; rw [one_div]; ring]
    rw [mul_comm, I_mul_re, ofReal_im, neg_zero]
  have im1 : ∀ a b y : ℝ, ((a : ℂ) * (1 / (b : ℂ) * (-1 / 3 * I * (P.c * P.dt) ^ 2)) * (y : ℂ)).re = 0 := by
    intro a b y
    have := im a b (-1 / 3) y
    push_cast at this
    exact this
  have im2 : ∀ a b y : ℝ, ((a : ℂ) * (1 / (b : ℂ) * (-1 / 6 * I * (P.c * P.dt) ^ 2)) * (y : ℂ)).re = 0 := by
    intro a b y
    have := im a b (-1 / 6) y
    push_cast at this
    exact this
  simp only [r2c_zero]
  set M := ((nx * ny * nz : ℕ) : ℝ)⁻¹
  have mainE : ∀ e j : ℝ, ((M : ℂ) * ((1 : ℝ) : ℂ) * (e : ℂ)).re + ((M : ℂ) * (-1 * (P.c : ℂ) * (P.mu0 : ℂ) * ((P.c * P.dt : ℝ) : ℂ)) * (j : ℂ)).re =
      ((M : ℂ) * ((e : ℂ) - ((P.eps0⁻¹ : ℝ) : ℂ) * (j : ℂ) * (P.dt : ℂ))).re := by
    intro e j
    have : ((M : ℂ) * ((1 : ℝ) : ℂ) * (e : ℂ)) + ((M : ℂ) * (-1 * (P.c : ℂ) * (P.mu0 : ℂ) * ((P.c * P.dt : ℝ) : ℂ)) * (j : ℂ)) =
        (M : ℂ) * ((e : ℂ) - ((P.eps0⁻¹ : ℝ) : ℂ) * (j : ℂ) * (P.dt : ℂ)) := by
      have c : ((M * (P.c * P.mu0 * (P.c * P.dt)) * j : ℝ) : ℂ) = ((M * (P.eps0⁻¹ * P.dt) * j : ℝ) : ℂ) := by rw [hu]
      push_cast at c ⊢
      linear_combination -c
    rw [← add_re, this]
  by_cases h2 : P.twoD = true
  · rw [if_pos h2]
    constructor
    · fin_cases i
      all_goals simp only [push2d, ccMat, ccMat.rhoOld, ccMat.rhoNew, Pi.zero_apply, Fin.zero_eta, Fin.mk_one, Fin.reduceFinMk, Matrix.cons_val_zero, Matrix.cons_val_one, Matrix.cons_val,
        if_true, mul_zero, zero_mul, add_zero, add_re, im1, im2]
      all_goals exact mainE _ _
    · fin_cases i
      all_goals simp only [push2d, ccMat, Pi.zero_apply, Fin.zero_eta, Fin.mk_one, Fin.reduceFinMk, Matrix.cons_val_zero, Matrix.cons_val_one, Matrix.cons_val,
        mul_zero, zero_mul, zero_div, add_zero, ofReal_one, mul_one]
  · rw [if_neg h2]
    constructor
    · fin_cases i
      all_goals simp only [push3d, ccMat, ccMat.rhoOld, ccMat.rhoNew, Pi.zero_apply, Fin.zero_eta, Fin.mk_one, Fin.reduceFinMk, Matrix.cons_val_zero, Matrix.cons_val_one, Matrix.cons_val,
        if_true, mul_zero, zero_mul, add_zero, add_re, im1, im2]
      all_goals exact mainE _ _
    · fin_cases i
      all_goals simp only [push3d, ccMat, Pi.zero_apply, Fin.zero_eta, Fin.mk_one, Fin.reduceFinMk, Matrix.cons_val_zero, Matrix.cons_val_one, Matrix.cons_val,
        mul_zero, zero_mul, zero_div, add_zero, ofReal_one, mul_one]

/-- The step gives the solution at the end of the step. -/
theorem step_sol (h : Ready P N F J rho rhoold) (m : ℕ → ℕ → ℕ → ℕ → ℕ → ℂ) (hm : initGpstd P nx ny nz = .ok m) :
    step P m F J rho rhoold = ⟨fun i => syn (hatE P N F J rho rhoold P.dt i), fun i => syn (hatB P N F J rho rhoold P.dt i)⟩ := by
  obtain ⟨m', hm', e⟩ := init_eq (nx := nx) (ny := ny) (nz := nz) P N h.stg h.pos h.order h.d h.two
  obtain rfl : m = m' := by rw [hm] at hm'; exact Except.ok.inj hm'
  have hn : 1 ≤ nx := NeZero.one_le
  unfold step
  rw [EB.mk.injEq]
  constructor
  · funext i p
    rw [← c2r_eq _ (fun kx hx ky hy kz hz => hatE_neg P.dt i kx ky kz hx hy hz)]
    refine c2r_congr p fun kx ky kz hx hy hz => ?_
    beta_reduce
    rw [e kx ky kz hx hy hz]
    by_cases h0 : kx = 0 ∧ ky = 0 ∧ kz = 0
    · obtain ⟨rfl, rfl, rfl⟩ := h0
      rw [basis_000, mul_one, mul_one]
      exact (push_zero h i).1
    · rw [(push_eq h kx ky kz (by omega) hy hz h0 i).1]
  · funext i p
    rw [← c2r_eq _ (fun kx hx ky hy kz hz => hatB_neg P.dt i kx ky kz hx hy hz)]
    refine c2r_congr p fun kx ky kz hx hy hz => ?_
    beta_reduce
    rw [e kx ky kz hx hy hz]
    by_cases h0 : kx = 0 ∧ ky = 0 ∧ kz = 0
    · obtain ⟨rfl, rfl, rfl⟩ := h0
      rw [basis_000, mul_one, mul_one]
      exact (push_zero h i).2
    · rw [(push_eq h kx ky kz (by omega) hy hz h0 i).2]

end Picsar.Psatd
