import Verif.Spec.Stencil
import Verif.Lemmas.PsatdEnergy

/-
Properties C105, C106 and C107: the pseudo-spectral Maxwell solver.
-/
set_option linter.unusedSectionVars false

namespace Picsar.Props
open Picsar Picsar.Psatd Picsar.Stencil Finset Complex

theorem Psatd_stag {G V : Type} [AddCommGroup G] [AddCommGroup V] [Module ℝ V] (N : ℕ) (d : ℝ) (e : G) (u : G → V) :
    dFwd (stagCoef N) N d e u = dFwd (weight (2 * N) true) N d e u ∧ dBwd (stagCoef N) N d e u = dBwd (weight (2 * N) true) N d e u := by
  have h : ∀ l ∈ Icc 1 N, stagCoef N l = weight (2 * N) true l := by
    intro l hl
    rw [mem_Icc] at hl
    rw [weight_staggered N l hl.1 hl.2]
    rfl
  constructor <;> funext p
  · exact sum_congr rfl fun l hl => by rw [h l hl]
  · exact sum_congr rfl fun l hl => by rw [h l hl]

theorem Psatd_mid {G V : Type} [AddCommGroup G] [AddCommGroup V] [Module ℝ V] (N : ℕ) (d : ℝ) (e : G) (u : G → V) :
    dMid (midCoef N) N d e u = dMid (weight (2 * N) false) N d e u := by
  have h : ∀ l ∈ Icc 1 N, midCoef N l = weight (2 * N) false l := by
    intro l hl
    rw [mem_Icc] at hl
    rw [weight_nodal N l hl.1]
    unfold midCoef
    congr 1
    ring
  funext p
  exact sum_congr rfl fun l hl => by rw [h l hl]

/-- C105, staggered grid: for an even order, the wave numbers of mode `m` are those by which the two staggered differences of this order
multiply the wave; their product is the square of the wave number from which the frequency is computed, and this vanishes for no wave but the
constant one. -/
theorem C105_staggered (n N : ℕ) (d : ℝ) (m : ℕ) (hN : 1 ≤ N) (hd : d ≠ 0) (hm : m < n) :
    ∃ k, k1d n (2 * N) d true (m + 1) = .ok k ∧ (∀ x, dBwd (stagCoef N) N d 1 (wave n m) x = I * k.f * wave n m x) ∧
      (∀ x, dFwd (stagCoef N) N d 1 (wave n m) x = I * k.b * wave n m x) ∧ k.f * k.b = k.c ^ 2 ∧ (k.c = 0 ↔ m = 0) := by
  obtain ⟨c, hc, c2⟩ := k1d_stag n N d m hN (by omega)
  have hh := half_ne n m
  refine ⟨_, hc, fun x => ?_, fun x => ?_, ?_, ?_⟩
  · rw [(Psatd_stag N d 1 (wave n m)).2]
    exact dBwd_eigen n N d m 1 (wave n m) (wave_step n m) x
  · rw [(Psatd_stag N d 1 (wave n m)).1]
    exact dFwd_eigen n N d m 1 (wave n m) (wave_step n m) x
  · have : ((c ^ 2 : ℝ) : ℂ) = ((kappa n N d m ^ 2 : ℝ) : ℂ) := by rw [c2]
    push_cast at this
    change _ = (c : ℂ) ^ 2
    rw [this]
    field_simp
  · change (c : ℂ) = 0 ↔ m = 0
    rw [ofReal_eq_zero, ← pow_eq_zero_iff two_ne_zero, c2, pow_eq_zero_iff two_ne_zero]
    constructor
    · intro h
      by_contra h0
      exact kappa_ne n N d m hN hd (by omega) hm h
    · rintro rfl
      exact kappa_zero n N d

/-- C105, grid without staggering: the same with centred differences. Missing: the wave number is not zero for other waves than the constant
one, which is false. -/
theorem C105_nodal_partial (n N : ℕ) (d : ℝ) (m : ℕ) (hN : 1 ≤ N) (hm : m < n) :
    ∃ k, k1d n (2 * N) d false (m + 1) = .ok k ∧ k.f = k.c ∧ k.b = k.c ∧ ∀ x, dMid (midCoef N) N d 1 (wave n m) x = I * k.c * wave n m x := by
  refine ⟨_, k1d_mid n N d m hN (by omega), rfl, rfl, fun x => ?_⟩
  rw [Psatd_mid N d 1 (wave n m)]
  exact dMid_eigen n N d m 1 (wave n m) (wave_step n m) x

/-- C105 fails without staggering for an even number of points: the wave that alternates from point to point has wave number 0, and its norm,
by which the solver divides (init_kspace_3D.F90:512-519), is 0 if the wave is constant along the other axes. (With rounding the norm is a
multiple of the rounding error.) -/
theorem C105_alternating_refuted (h N : ℕ) (d : ℝ) (hN : 1 ≤ N) (hh : 1 ≤ h) :
    ∃ k, k1d (2 * h) (2 * N) d false (h + 1) = .ok k ∧ k.c = 0 ∧ ∀ x, wave (2 * h) h (x + 1) = -wave (2 * h) h x := by
  refine ⟨_, k1d_mid (2 * h) N d h hN (by omega), ?_, fun x => ?_⟩
  · have h0 : (h : ℝ) ≠ 0 := by exact_mod_cast (by omega : h ≠ 0)
    change ((kappaMid (2 * h) N d h : ℝ) : ℂ) = 0
    rw [ofReal_eq_zero]
    unfold kappaMid
    refine sum_eq_zero fun l _ => ?_
    push_cast
    rw [show (l : ℝ) * 2 * Real.pi * h / (2 * h) = l * Real.pi by field_simp, Real.sin_nat_mul_pi, mul_zero]
  · have h0 : (h : ℂ) ≠ 0 := by exact_mod_cast (by omega : h ≠ 0)
    rw [wave_step, half_sq]
    push_cast
    rw [show 2 * (Real.pi : ℂ) * I * h / (2 * h) = Real.pi * I by field_simp, exp_pi_mul_I]
    ring

/-- C105 fails for the infinite order: the wave number is a quarter of the one by which the derivative multiplies the wave. -/
theorem C105_infinite_refuted (n : ℕ) (d : ℝ) (m : ℕ) (hn : 2 ≤ n) (hm : m < n) :
    ∃ k, k1d n 0 d false (m + 1) = .ok k ∧ ∃ q : ℤ, 2 * |q| ≤ n ∧ (∀ x : ℤ, exp (2 * Real.pi * I * q * x / n) = wave n m x) ∧
      ∀ y : ℝ, HasDerivAt (fun y : ℝ => exp (2 * Real.pi * I * q * y / (n * d))) (I * (4 * k.c) * exp (2 * Real.pi * I * q * y / (n * d))) y := by
  obtain ⟨y, hy, hv⟩ := fftfreq_ok n d hn
  have hn0 : (n : ℂ) ≠ 0 := by exact_mod_cast (by omega : n ≠ 0)
  refine ⟨⟨y (m + 1), y (m + 1), y (m + 1)⟩, ?_, if 2 * m < n then (m : ℤ) else (m : ℤ) - n, ?_, ?_, ?_⟩
  · unfold k1d
    rw [if_neg (by simp), hy]
    simp only [except_bind_ok]
    rfl
  · split_ifs with h
    · rw [abs_of_nonneg (by omega)]
      omega
    · rw [abs_of_nonpos (by omega)]
      omega
  · intro x
    unfold wave
    split_ifs with h
    · push_cast
      rfl
    · push_cast
      rw [show 2 * (Real.pi : ℂ) * I * ((m : ℂ) - n) * x / n = 2 * Real.pi * I * m * x / n - x * (2 * Real.pi * I) by field_simp,
        exp_sub, exp_int_mul_two_pi_mul_I, div_one]
  · intro z
    rw [hv m hm]
    have ht : HasDerivAt (fun t : ℝ => (t : ℂ)) 1 z := (hasDerivAt_id z).ofReal_comp
    have h1 : ∀ q : ℂ, HasDerivAt (fun y : ℝ => exp (2 * Real.pi * I * q * y / (n * d)))
        (exp (2 * Real.pi * I * q * z / (n * d)) * (2 * Real.pi * I * q * 1 / (n * d))) z := fun q => ((ht.const_mul (2 * Real.pi * I * q)).div_const (n * d : ℂ)).cexp
    refine (h1 _).congr_deriv ?_
    split_ifs with h
    all_goals push_cast
    all_goals ring

/-- C105 fails for the infinite order along an axis with one point, as the second one of every run in two dimensions: an element outside of
the array is written. -/
theorem C105_one_point_refuted (d : ℝ) (stg : Bool) : k1d 1 0 d stg 1 = .error .outOfBounds := by
  unfold k1d fftfreq put ramp
  simp [bind, Except.bind, pure, Except.pure]

/-- The wave of shortest length but one on six points. -/
example : ∃ k, k1d 6 4 0.5 true 3 = .ok k ∧ (∀ x, dFwd (stagCoef 2) 2 0.5 1 (wave 6 2) x = I * k.b * wave 6 2 x) ∧ k.c ≠ 0 := by
  obtain ⟨k, h, _, hb, _, h0⟩ := C105_staggered 6 2 0.5 2 (by norm_num) (by norm_num) (by norm_num)
  exact ⟨k, h, hb, fun h => by have := h0.mp h; omega⟩

/-- The coefficients for one and two pairs of points. -/
example : stagCoef 1 1 = 1 ∧ stagCoef 2 1 = 9 / 8 ∧ stagCoef 2 2 = -1 / 24 ∧ midCoef 1 1 = 1 / 2 := by
  refine ⟨?_, ?_, ?_, ?_⟩ <;> norm_num [stagCoef, midCoef, Nat.factorial]

/-- Differences with these coefficients have the order `2 N` (C104). -/
example (N : ℕ) (hN : 1 ≤ N) : Exact (2 * N) (staggeredDiff (stagCoef N) N) := by
  have h : ∀ l ∈ Icc 1 N, stagCoef N l = weight (2 * N) true l := by
    intro l hl
    rw [mem_Icc] at hl
    rw [weight_staggered N l hl.1 hl.2]
    rfl
  intro d f x hd hf
  refine Eq.trans ?_ (exact_of_moments N _ (fun l => (l : ℝ) - 1 / 2) (fun j hj => moments_staggered N j hj) hN d hd f hf x)
  exact sum_congr rfl fun l hl => by rw [h l hl]

/-- What is supposed about the parameters of a run: a staggered grid, even orders `2 N i`, cells and time step of any size, consistent
constants; in two dimensions there is one point along the second axis. -/
structure PsatdRun (P : Par) (N : Fin 3 → ℕ) (ny : ℕ) : Prop where
  staggered : P.stg = true
  order : ∀ i, P.norder i = 2 * N i ∧ 1 ≤ N i
  cells : ∀ i, P.d i ≠ 0
  dt : P.dt ≠ 0
  c : P.c ≠ 0
  units : P.mu0 * P.eps0 * P.c ^ 2 = 1
  two : P.twoD = true → ny = 1

section
variable {nx ny nz : ℕ} [NeZero nx] [NeZero ny] [NeZero nz]

/-- The fields at the beginning of a step satisfy Gauss' law with the old charge density and `div B = 0`; the current and the charge densities
satisfy the equation of continuity. -/
structure PsatdFields (P : Par) (N : Fin 3 → ℕ) (F : EB nx ny nz) (J : Fin 3 → Grid nx ny nz → ℝ) (rho rhoold : Grid nx ny nz → ℝ) : Prop where
  gauss : ∀ p, divg (gridB N P.d) F.E p = rhoold p / P.eps0
  divB : ∀ p, divg (gridF N P.d) F.B p = 0
  continuity : ∀ p, (rho p - rhoold p) / P.dt + divg (gridB N P.d) J p = 0

theorem Psatd_gridF (N : Fin 3 → ℕ) (d : Fin 3 → ℝ) :
    (gridF N d : Fin 3 → (Grid nx ny nz → ℝ) → Grid nx ny nz → ℝ) = fun i => dFwd (weight (2 * N i) true) (N i) (d i) (axis i) := by
  funext i u
  exact (Psatd_stag (N i) (d i) (axis i) u).1

theorem Psatd_gridB (N : Fin 3 → ℕ) (d : Fin 3 → ℝ) :
    (gridB N d : Fin 3 → (Grid nx ny nz → ℝ) → Grid nx ny nz → ℝ) = fun i => dBwd (weight (2 * N i) true) (N i) (d i) (axis i) := by
  funext i u
  exact (Psatd_stag (N i) (d i) (axis i) u).2

theorem Psatd_ready {P : Par} {N : Fin 3 → ℕ} {F : EB nx ny nz} {J : Fin 3 → Grid nx ny nz → ℝ} {rho rhoold : Grid nx ny nz → ℝ}
    (h : PsatdRun P N ny) (hf : PsatdFields P N F J rho rhoold) : Ready P N F J rho rhoold := by
  obtain ⟨a, b, c⟩ := hf
  rw [Psatd_gridB] at a c
  rw [Psatd_gridF] at b
  exact ⟨h.staggered, fun i => (h.order i).1, fun i => (h.order i).2, h.cells, h.dt, h.c, h.units, h.two, a, b,
    fun p => by have := c p; linarith⟩

/-- C106: the coefficients are computed without fault, and one step takes E and B to the values that the solution of Maxwell's equations,
with finite differences of the given orders in space and no approximation in time, has at the end of the time step. There is exactly one solution.
No relation between the time step and the cells is needed. -/
theorem C106_exact (P : Par) (N : Fin 3 → ℕ) (h : PsatdRun P N ny) :
    ∃ m, initGpstd P nx ny nz = .ok m ∧ ∀ (F : EB nx ny nz) J rho rhoold, PsatdFields P N F J rho rhoold →
      (∃ E B, Maxwell P.c P.eps0 (gridF N P.d) (gridB N P.d) J E B ∧ E 0 = F.E ∧ B 0 = F.B) ∧
      ∀ E B, Maxwell P.c P.eps0 (gridF N P.d) (gridB N P.d) J E B → E 0 = F.E → B 0 = F.B → step P m F J rho rhoold = ⟨E P.dt, B P.dt⟩ := by
  obtain ⟨m, hm, _⟩ := init_eq (nx := nx) (ny := ny) (nz := nz) P N h.staggered (fun i => (h.order i).2) (fun i => (h.order i).1) h.cells h.two
  refine ⟨m, hm, fun F J rho rhoold hf => ?_⟩
  have r := Psatd_ready h hf
  have hs := sol_exists r
  have e0 : (fun i => syn (hatE P N F J rho rhoold 0 i)) = F.E := by funext i p; exact (sol_zero i p).1
  have b0 : (fun i => syn (hatB P N F J rho rhoold 0 i)) = F.B := by funext i p; exact (sol_zero i p).2
  rw [Psatd_gridF, Psatd_gridB]
  refine ⟨⟨_, _, hs, e0, b0⟩, fun E B hM hE hB => ?_⟩
  rw [step_sol r m hm]
  have := maxwell_unique (pair _ N P.d) P.c P.eps0 h.c J _ _ E B hs hM (e0.trans hE.symm) (b0.trans hB.symm) P.dt
  rw [EB.mk.injEq]
  exact this

/-- The field and the current can be anything: the charge densities follow from them. -/
example (P : Par) (N : Fin 3 → ℕ) (h : PsatdRun P N ny) (E J : Fin 3 → Grid nx ny nz → ℝ) :
    PsatdFields P N ⟨E, fun _ _ => 0⟩ J (fun p => P.eps0 * divg (gridB N P.d) E p - P.dt * divg (gridB N P.d) J p)
      (fun p => P.eps0 * divg (gridB N P.d) E p) := by
  have he : P.eps0 ≠ 0 := by
    intro h0
    have := h.units
    rw [h0] at this
    simp at this
  have ht := h.dt
  refine ⟨fun p => ?_, fun p => ?_, fun p => ?_⟩
  · field_simp
  · simp [divg, gridF, dFwd]
  · field_simp
    ring

/-- Parameters of a run: a time step of ten light crossings of a cell. -/
noncomputable def psatdP : Par := ⟨![4, 8, 16], ![1, 1, 1], true, false, 10, 1, 1, 1⟩

example (ny : ℕ) : PsatdRun psatdP ![2, 4, 8] ny := by
  refine ⟨rfl, fun i => ?_, fun i => ?_, ?_, ?_, ?_, ?_⟩
  · fin_cases i <;> simp [psatdP]
  · fin_cases i <;> simp [psatdP]
  all_goals simp [psatdP]

/-- C107: Gauss' law with the current charge density and `div B = 0` hold after every step of a run if they hold before the first and if
currents and charge densities satisfy the equation of continuity. -/
theorem C107_gauss (P : Par) (N : Fin 3 → ℕ) (h : PsatdRun P N ny) (m : ℕ → ℕ → ℕ → ℕ → ℕ → ℂ) (hm : initGpstd P nx ny nz = .ok m)
    (F : ℕ → EB nx ny nz) (J : ℕ → Fin 3 → Grid nx ny nz → ℝ) (rho : ℕ → Grid nx ny nz → ℝ)
    (hF : ∀ k, F (k + 1) = step P m (F k) (J k) (rho (k + 1)) (rho k))
    (hJ : ∀ k p, (rho (k + 1) p - rho k p) / P.dt + divg (gridB N P.d) (J k) p = 0)
    (g0 : ∀ p, divg (gridB N P.d) (F 0).E p = rho 0 p / P.eps0) (b0 : ∀ p, divg (gridF N P.d) (F 0).B p = 0) (k : ℕ) (p : Grid nx ny nz) :
    divg (gridB N P.d) (F k).E p = rho k p / P.eps0 ∧ divg (gridF N P.d) (F k).B p = 0 := by
  have hh : ∀ k, (∀ p, divg (gridB N P.d) (F k).E p = rho k p / P.eps0) ∧ ∀ p, divg (gridF N P.d) (F k).B p = 0 := by
    intro k
    induction k with
    | zero => exact ⟨g0, b0⟩
    | succ k ih =>
      have hf : PsatdFields P N (F k) (J k) (rho (k + 1)) (rho k) := ⟨ih.1, ih.2, hJ k⟩
      obtain ⟨m', hm', hx⟩ := C106_exact (nx := nx) (ny := ny) (nz := nz) P N h
      obtain rfl : m = m' := by rw [hm] at hm'; exact Except.ok.inj hm'
      obtain ⟨⟨E, B, hM, hE, hB⟩, hu⟩ := hx (F k) (J k) (rho (k + 1)) (rho k) hf
      have hs := hu E B hM hE hB
      rw [← hF] at hs
      rw [hs]
      have hM' := hM
      rw [Psatd_gridF, Psatd_gridB] at hM'
      have gs := gauss_sol (P := P) E B hM' P.dt
      rw [← Psatd_gridF, ← Psatd_gridB] at gs
      refine ⟨fun p => ?_, fun p => ?_⟩
      · rw [(gs p).1, hE, ih.1 p]
        have := hJ k p
        have ht := h.dt
        have e : divg (gridB N P.d) (J k) p = -((rho (k + 1) p - rho k p) / P.dt) := by linarith
        rw [e]
        field_simp
        ring
      · rw [(gs p).2, hB]
        exact ih.2 p
  exact ⟨(hh k).1 p, (hh k).2 p⟩

/-- C107: in vacuum the energy of the fields on the grid is the same after any number of steps, however large the time step. -/
theorem C107_energy (P : Par) (N : Fin 3 → ℕ) (h : PsatdRun P N ny) (m : ℕ → ℕ → ℕ → ℕ → ℕ → ℂ) (hm : initGpstd P nx ny nz = .ok m)
    (F : ℕ → EB nx ny nz) (hF : ∀ k, F (k + 1) = step P m (F k) 0 0 0)
    (g0 : ∀ p, divg (gridB N P.d) (F 0).E p = 0) (b0 : ∀ p, divg (gridF N P.d) (F 0).B p = 0) (k : ℕ) :
    ∑ p, ∑ i, ((F k).E i p ^ 2 + P.c ^ 2 * (F k).B i p ^ 2) = ∑ p, ∑ i, ((F 0).E i p ^ 2 + P.c ^ 2 * (F 0).B i p ^ 2) := by
  have dz : ∀ p : Grid nx ny nz, divg (gridB N P.d) (0 : Fin 3 → Grid nx ny nz → ℝ) p = 0 := by
    intro p
    simp [divg, gridB, dBwd]
  have hg : ∀ k p, divg (gridB N P.d) (F k).E p = 0 ∧ divg (gridF N P.d) (F k).B p = 0 := by
    intro k p
    have := C107_gauss P N h m hm F (fun _ => 0) (fun _ => 0) hF (fun k p => by rw [dz p]; simp) (fun p => by rw [g0 p]; simp) b0 k p
    refine ⟨this.1.trans (by simp), this.2⟩
  induction k with
  | zero => rfl
  | succ k ih =>
    have hf : PsatdFields P N (F k) 0 0 0 := ⟨fun p => by rw [(hg k p).1]; simp, fun p => (hg k p).2, fun p => by rw [dz p]; simp⟩
    obtain ⟨m', hm', hx⟩ := C106_exact (nx := nx) (ny := ny) (nz := nz) P N h
    obtain rfl : m = m' := by rw [hm] at hm'; exact Except.ok.inj hm'
    obtain ⟨⟨E, B, hM, hE, hB⟩, hu⟩ := hx (F k) 0 0 0 hf
    have hs := hu E B hM hE hB
    rw [← hF] at hs
    rw [Psatd_gridF, Psatd_gridB] at hM
    have he := energy_const (pair _ N P.d) P.c P.eps0 E B hM P.dt
    rw [hs]
    refine he.trans ?_
    rw [hE, hB]
    exact ih

/-- C107: the solver does not depend on how a time is divided into steps: with a constant current and a charge density that is linear in time,
`n` steps give what the solution of Maxwell's equations has at the end of all of them. -/
theorem C107_steps (P : Par) (N : Fin 3 → ℕ) (h : PsatdRun P N ny) (m : ℕ → ℕ → ℕ → ℕ → ℕ → ℂ) (hm : initGpstd P nx ny nz = .ok m)
    (F : ℕ → EB nx ny nz) (J : Fin 3 → Grid nx ny nz → ℝ) (rho : ℕ → Grid nx ny nz → ℝ)
    (hF : ∀ k, F (k + 1) = step P m (F k) J (rho (k + 1)) (rho k))
    (hJ : ∀ k p, (rho (k + 1) p - rho k p) / P.dt + divg (gridB N P.d) J p = 0)
    (g0 : ∀ p, divg (gridB N P.d) (F 0).E p = rho 0 p / P.eps0) (b0 : ∀ p, divg (gridF N P.d) (F 0).B p = 0)
    (E B : ℝ → Fin 3 → Grid nx ny nz → ℝ) (hM : Maxwell P.c P.eps0 (gridF N P.d) (gridB N P.d) J E B) (hE : E 0 = (F 0).E) (hB : B 0 = (F 0).B) (k : ℕ) :
    F k = ⟨E (k * P.dt), B (k * P.dt)⟩ := by
  induction k with
  | zero =>
    rw [Nat.cast_zero, zero_mul, hE, hB]
  | succ k ih =>
    have hg := C107_gauss P N h m hm F (fun _ => J) rho hF hJ g0 b0 k
    have hf : PsatdFields P N (F k) J (rho (k + 1)) (rho k) := ⟨fun p => (hg p).1, fun p => (hg p).2, hJ k⟩
    obtain ⟨m', hm', hx⟩ := C106_exact (nx := nx) (ny := ny) (nz := nz) P N h
    obtain rfl : m = m' := by rw [hm] at hm'; exact Except.ok.inj hm'
    have hs : Maxwell P.c P.eps0 (gridF N P.d) (gridB N P.d) J (fun t => E (t + k * P.dt)) (fun t => B (t + k * P.dt)) :=
      ⟨fun t i p => (hM.ampere (t + k * P.dt) i p).comp_add_const t (k * P.dt), fun t i p => (hM.faraday (t + k * P.dt) i p).comp_add_const t (k * P.dt)⟩
    have := (hx (F k) J (rho (k + 1)) (rho k) hf).2 _ _ hs (by rw [zero_add, ih]) (by rw [zero_add, ih])
    rw [hF, this]
    push_cast
    rw [show ((k : ℝ) + 1) * P.dt = P.dt + k * P.dt by ring]

/-- A wave along the first axis with any profile meets the conditions of C107 in vacuum. -/
example (N : Fin 3 → ℕ) (d : Fin 3 → ℝ) (f g : ZMod nx → ℝ) (p : Grid nx ny nz) :
    divg (gridB N d) (![0, fun p => f p.1, 0] : Fin 3 → Grid nx ny nz → ℝ) p = 0 ∧
      divg (gridF N d) (![0, 0, fun p => g p.1] : Fin 3 → Grid nx ny nz → ℝ) p = 0 := by
  constructor
  · simp [divg, gridB, dBwd, axis]
  · simp [divg, gridF, dFwd, axis]

end
end Picsar.Props
