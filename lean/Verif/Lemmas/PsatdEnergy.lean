import Verif.Lemmas.PsatdFinal

/-
Solutions of Maxwell's equations on the grid: energy, uniqueness, divergences.
-/
set_option linter.unusedSectionVars false

namespace Picsar.Psatd
open Picsar Picsar.Stencil Finset Complex

section parts
variable {G : Type} [AddCommGroup G] [Fintype G]

theorem sum_shift (f : G → ℝ) (s : G) : ∑ p, f (p + s) = ∑ p, f p := Equiv.sum_comp (Equiv.addRight s) f

/-- Summation by parts. -/
theorem sum_parts (w : ℕ → ℝ) (N : ℕ) (d : ℝ) (e : G) (u v : G → ℝ) :
    ∑ p, u p * dBwd w N d e v p = -∑ p, v p * dFwd w N d e u p := by
  unfold dBwd dFwd
  simp only [mul_sum, smul_eq_mul]
  rw [sum_comm, sum_comm (s := univ), ← sum_neg_distrib]
  refine sum_congr rfl fun l _ => ?_
  have a := sum_shift (fun p => u (p + e - l • e) * v p) (l • e - e)
  have b := sum_shift (fun p => u (p + l • e) * v p) (-(l • e))
  have a' : ∑ p, u p * v (p + l • e - e) = ∑ p, u (p + e - l • e) * v p := by
    rw [← a]
    refine sum_congr rfl fun p _ => ?_
    beta_reduce
    rw [show p + (l • e - e) + e - l • e = p by abel, show p + (l • e - e) = p + l • e - e by abel]
  have b' : ∑ p, u p * v (p - l • e) = ∑ p, u (p + l • e) * v p := by
    rw [← b]
    refine sum_congr rfl fun p _ => ?_
    beta_reduce
    rw [show p + -(l • e) + l • e = p by abel, show p + -(l • e) = p - l • e by abel]
  have c : ∑ p, u p * (w l / d * (v (p + l • e - e) - v (p - l • e))) = w l / d * (∑ p, u p * v (p + l • e - e) - ∑ p, u p * v (p - l • e)) := by
    rw [← sum_sub_distrib, mul_sum]
    exact sum_congr rfl fun p _ => by ring
  have c' : ∑ p, v p * (w l / d * (u (p + l • e) - u (p + e - l • e))) = w l / d * (∑ p, u (p + l • e) * v p - ∑ p, u (p + e - l • e) * v p) := by
    rw [← sum_sub_distrib, mul_sum]
    exact sum_congr rfl fun p _ => by ring
  rw [c, c', a', b']
  ring

theorem dBwd_comb (w : ℕ → ℝ) (N : ℕ) (d : ℝ) (e : G) (a b : ℝ) (u v : G → ℝ) (p : G) :
    dBwd w N d e (fun p => a * u p - b * v p) p = a * dBwd w N d e u p - b * dBwd w N d e v p := by
  unfold dBwd
  rw [mul_sum, mul_sum, ← sum_sub_distrib]
  exact sum_congr rfl fun l _ => by simp only [smul_eq_mul]; ring

theorem dFwd_comb (w : ℕ → ℝ) (N : ℕ) (d : ℝ) (e : G) (a b : ℝ) (u v : G → ℝ) (p : G) :
    dFwd w N d e (fun p => a * u p - b * v p) p = a * dFwd w N d e u p - b * dFwd w N d e v p := by
  unfold dFwd
  rw [mul_sum, mul_sum, ← sum_sub_distrib]
  exact sum_congr rfl fun l _ => by simp only [smul_eq_mul]; ring

theorem dBwd_deriv (w : ℕ → ℝ) (N : ℕ) (d : ℝ) (e : G) (u : ℝ → G → ℝ) (u' : G → ℝ) (t : ℝ) (h : ∀ p, HasDerivAt (fun t => u t p) (u' p) t) (p : G) :
    HasDerivAt (fun t => dBwd w N d e (u t) p) (dBwd w N d e u' p) t := by
  unfold dBwd
  exact HasDerivAt.fun_sum fun l _ => ((h _).sub (h _)).const_mul (w l / d)

theorem dFwd_deriv (w : ℕ → ℝ) (N : ℕ) (d : ℝ) (e : G) (u : ℝ → G → ℝ) (u' : G → ℝ) (t : ℝ) (h : ∀ p, HasDerivAt (fun t => u t p) (u' p) t) (p : G) :
    HasDerivAt (fun t => dFwd w N d e (u t) p) (dFwd w N d e u' p) t := by
  unfold dFwd
  exact HasDerivAt.fun_sum fun l _ => ((h _).sub (h _)).const_mul (w l / d)

/-- Difference operators that are adjoint up to the sign, and linear. -/
structure Pair (Df Db : Fin 3 → (G → ℝ) → G → ℝ) : Prop where
  parts : ∀ i u v, ∑ p, u p * Db i v p = -∑ p, v p * Df i u p
  combF : ∀ i a b u v p, Df i (fun p => a * u p - b * v p) p = a * Df i u p - b * Df i v p
  combB : ∀ i a b u v p, Db i (fun p => a * u p - b * v p) p = a * Db i u p - b * Db i v p

variable {Df Db : Fin 3 → (G → ℝ) → G → ℝ}

theorem curl_parts (h : Pair Df Db) (E B : Fin 3 → G → ℝ) : ∑ p, ∑ i, E i p * curl Db B i p = ∑ p, ∑ i, B i p * curl Df E i p := by
  rw [sum_comm, sum_comm (s := univ) (t := univ) (f := fun p i => B i p * curl Df E i p)]
  rw [Fin.sum_univ_three, Fin.sum_univ_three]
  simp only [curl, Matrix.cons_val_zero, Matrix.cons_val_one, Matrix.cons_val, mul_sub, sum_sub_distrib, h.parts]
  ring

theorem energy_const (h : Pair Df Db) (c eps0 : ℝ) (E B : ℝ → Fin 3 → G → ℝ) (hm : Maxwell c eps0 Df Db 0 E B) (t : ℝ) :
    ∑ p, ∑ i, (E t i p ^ 2 + c ^ 2 * B t i p ^ 2) = ∑ p, ∑ i, (E 0 i p ^ 2 + c ^ 2 * B 0 i p ^ 2) := by
  have hd : ∀ t, HasDerivAt (fun t => ∑ p, ∑ i, (E t i p ^ 2 + c ^ 2 * B t i p ^ 2)) 0 t := by
    intro t
    have : HasDerivAt (fun t => ∑ p, ∑ i, (E t i p ^ 2 + c ^ 2 * B t i p ^ 2))
        (∑ p, ∑ i, (2 * E t i p * (c ^ 2 * curl Db (B t) i p - 0 / eps0) + c ^ 2 * (2 * B t i p * (-curl Df (E t) i p)))) t := by
      refine HasDerivAt.fun_sum fun p _ => HasDerivAt.fun_sum fun i _ => ?_
      refine (((hm.ampere t i p).fun_pow 2).add (((hm.faraday t i p).fun_pow 2).const_mul (c ^ 2))).congr_deriv ?_
      simp
    refine this.congr_deriv ?_
    have e : ∀ p i, 2 * E t i p * (c ^ 2 * curl Db (B t) i p - 0 / eps0) + c ^ 2 * (2 * B t i p * (-curl Df (E t) i p)) =
        2 * c ^ 2 * (E t i p * curl Db (B t) i p - B t i p * curl Df (E t) i p) := by
      intro p i
      ring
    simp only [e, ← mul_sum, sum_sub_distrib]
    rw [curl_parts h]
    ring
  exact is_const_of_deriv_eq_zero (fun t => (hd t).differentiableAt) (fun t => (hd t).deriv) t 0

theorem curl_sub (D : Fin 3 → (G → ℝ) → G → ℝ) (h : ∀ i a b u v p, D i (fun p => a * u p - b * v p) p = a * D i u p - b * D i v p)
    (u v : Fin 3 → G → ℝ) (i : Fin 3) (p : G) : curl D (fun i p => u i p - v i p) i p = curl D u i p - curl D v i p := by
  have h' : ∀ i u v p, D i (fun p => u p - v p) p = D i u p - D i v p := by
    intro i u v p
    have := h i 1 1 u v p
    simpa using this
  fin_cases i
  all_goals simp only [curl, h', Fin.zero_eta, Fin.mk_one, Fin.reduceFinMk, Matrix.cons_val_zero, Matrix.cons_val_one, Matrix.cons_val]
  all_goals ring

/-- Two solutions with the same initial values are equal. -/
theorem maxwell_unique (h : Pair Df Db) (c eps0 : ℝ) (hc : c ≠ 0) (J : Fin 3 → G → ℝ) (E B E' B' : ℝ → Fin 3 → G → ℝ)
    (hm : Maxwell c eps0 Df Db J E B) (hm' : Maxwell c eps0 Df Db J E' B') (hE : E 0 = E' 0) (hB : B 0 = B' 0) (t : ℝ) : E t = E' t ∧ B t = B' t := by
  have hd : Maxwell c eps0 Df Db 0 (fun t i p => E t i p - E' t i p) (fun t i p => B t i p - B' t i p) := by
    constructor
    · intro t i p
      refine ((hm.ampere t i p).sub (hm'.ampere t i p)).congr_deriv ?_
      rw [curl_sub Db h.combB]
      simp
      ring
    · intro t i p
      refine ((hm.faraday t i p).sub (hm'.faraday t i p)).congr_deriv ?_
      rw [curl_sub Df h.combF]
      ring
  have := energy_const h c eps0 _ _ hd t
  rw [hE, hB] at this
  simp only [sub_self, ne_eq, OfNat.ofNat_ne_zero, not_false_eq_true, zero_pow, mul_zero, add_zero, sum_const_zero] at this
  have hp : ∀ p, ∑ i, ((E t i p - E' t i p) ^ 2 + c ^ 2 * (B t i p - B' t i p) ^ 2) = 0 := by
    have h0 : ∀ p ∈ univ, 0 ≤ ∑ i, ((E t i p - E' t i p) ^ 2 + c ^ 2 * (B t i p - B' t i p) ^ 2) := fun p _ => sum_nonneg fun i _ => by positivity
    intro p
    exact (sum_eq_zero_iff_of_nonneg h0).mp this p (mem_univ p)
  have hi : ∀ i p, (E t i p - E' t i p) ^ 2 + c ^ 2 * (B t i p - B' t i p) ^ 2 = 0 := by
    intro i p
    have h0 : ∀ i ∈ univ, 0 ≤ (E t i p - E' t i p) ^ 2 + c ^ 2 * (B t i p - B' t i p) ^ 2 := fun i _ => by positivity
    exact (sum_eq_zero_iff_of_nonneg h0).mp (hp p) i (mem_univ i)
  constructor <;> funext i p
  · have a := hi i p
    have b : 0 ≤ c ^ 2 * (B t i p - B' t i p) ^ 2 := by positivity
    have : (E t i p - E' t i p) ^ 2 = 0 := le_antisymm (by linarith) (sq_nonneg _)
    have := pow_eq_zero_iff (two_ne_zero) |>.mp this
    linarith
  · have a := hi i p
    have b : 0 ≤ (E t i p - E' t i p) ^ 2 := by positivity
    have : c ^ 2 * (B t i p - B' t i p) ^ 2 = 0 := le_antisymm (by linarith) (by positivity)
    rcases mul_eq_zero.mp this with h1 | h1
    · exact absurd (pow_eq_zero_iff (two_ne_zero) |>.mp h1) hc
    · have := pow_eq_zero_iff (two_ne_zero) |>.mp h1
      linarith

end parts

variable {nx ny nz : ℕ} [NeZero nx] [NeZero ny] [NeZero nz]

theorem pair (w : Fin 3 → ℕ → ℝ) (N : Fin 3 → ℕ) (d : Fin 3 → ℝ) :
    Pair (G := Grid nx ny nz) (fun i => dFwd (w i) (N i) (d i) (axis i)) (fun i => dBwd (w i) (N i) (d i) (axis i)) :=
  ⟨fun i u v => sum_parts _ _ _ _ u v, fun i a b u v p => dFwd_comb _ _ _ _ a b u v p, fun i a b u v p => dBwd_comb _ _ _ _ a b u v p⟩

theorem r2c_inj (u v : Grid nx ny nz → ℝ) (h : r2c u = r2c v) : u = v := by
  funext p
  rw [← syn_r2c u p, h, syn_r2c]

/-- Differences along two axes commute. -/
theorem dBwd_comm (N : Fin 3 → ℕ) (d : Fin 3 → ℝ) (i j : Fin 3) (u : Grid nx ny nz → ℝ) :
    dBwd (weight (2 * N i) true) (N i) (d i) (axis i) (dBwd (weight (2 * N j) true) (N j) (d j) (axis j) u) =
      dBwd (weight (2 * N j) true) (N j) (d j) (axis j) (dBwd (weight (2 * N i) true) (N i) (d i) (axis i) u) := by
  refine r2c_inj _ _ ?_
  funext kx ky kz
  rw [r2c_dBwd, r2c_dBwd, r2c_dBwd, r2c_dBwd]
  ring

theorem dFwd_comm (N : Fin 3 → ℕ) (d : Fin 3 → ℝ) (i j : Fin 3) (u : Grid nx ny nz → ℝ) :
    dFwd (weight (2 * N i) true) (N i) (d i) (axis i) (dFwd (weight (2 * N j) true) (N j) (d j) (axis j) u) =
      dFwd (weight (2 * N j) true) (N j) (d j) (axis j) (dFwd (weight (2 * N i) true) (N i) (d i) (axis i) u) := by
  refine r2c_inj _ _ ?_
  funext kx ky kz
  rw [r2c_dFwd, r2c_dFwd, r2c_dFwd, r2c_dFwd]
  ring

theorem div_curl {G : Type} (D : Fin 3 → (G → ℝ) → G → ℝ) (hc : ∀ i j u, D i (D j u) = D j (D i u))
    (h : ∀ i a b u v p, D i (fun p => a * u p - b * v p) p = a * D i u p - b * D i v p) (F : Fin 3 → G → ℝ) (p : G) : divg D (curl D F) p = 0 := by
  have h' : ∀ i u v p, D i (fun p => u p - v p) p = D i u p - D i v p := by
    intro i u v p
    have := h i 1 1 u v p
    simpa using this
  simp only [divg, curl, Matrix.cons_val_zero, Matrix.cons_val_one, Matrix.cons_val]
  rw [h', h', h']
  have a := congrFun (hc 0 1 (F 2)) p
  have b := congrFun (hc 0 2 (F 1)) p
  have c := congrFun (hc 1 2 (F 0)) p
  have e : ∀ i j, (fun p => D i (F j) p) = D i (F j) := fun _ _ => rfl
  linarith

/-- The divergence of E of a solution. -/
theorem gauss_sol {P : Par} {N : Fin 3 → ℕ} {J : Fin 3 → Grid nx ny nz → ℝ} (E B : ℝ → Fin 3 → Grid nx ny nz → ℝ)
    (hm : Maxwell P.c P.eps0 (fun i => dFwd (weight (2 * N i) true) (N i) (P.d i) (axis i)) (fun i => dBwd (weight (2 * N i) true) (N i) (P.d i) (axis i)) J E B)
    (t : ℝ) (p : Grid nx ny nz) :
    divg (fun i => dBwd (weight (2 * N i) true) (N i) (P.d i) (axis i)) (E t) p =
      divg (fun i => dBwd (weight (2 * N i) true) (N i) (P.d i) (axis i)) (E 0) p -
        t * (divg (fun i => dBwd (weight (2 * N i) true) (N i) (P.d i) (axis i)) J p / P.eps0) ∧
    divg (fun i => dFwd (weight (2 * N i) true) (N i) (P.d i) (axis i)) (B t) p =
      divg (fun i => dFwd (weight (2 * N i) true) (N i) (P.d i) (axis i)) (B 0) p := by
  set Db : Fin 3 → (Grid nx ny nz → ℝ) → Grid nx ny nz → ℝ := fun i => dBwd (weight (2 * N i) true) (N i) (P.d i) (axis i) with hDb
  set Df : Fin 3 → (Grid nx ny nz → ℝ) → Grid nx ny nz → ℝ := fun i => dFwd (weight (2 * N i) true) (N i) (P.d i) (axis i) with hDf
  have pr : Pair Df Db := pair _ N P.d
  constructor
  · have hd : ∀ t, HasDerivAt (fun t => divg Db (E t) p + t * (divg Db J p / P.eps0)) 0 t := by
      intro t
      have hi : ∀ i, HasDerivAt (fun t => Db i (E t i) p) (Db i (fun p => P.c ^ 2 * curl Db (B t) i p - P.eps0⁻¹ * J i p) p) t := by
        intro i
        refine dBwd_deriv _ _ _ _ (fun t => E t i) _ t (fun p => ?_) p
        refine (hm.ampere t i p).congr_deriv ?_
        ring
      refine ((((hi 0).add (hi 1)).add (hi 2)).add ((hasDerivAt_id t).mul_const _)).congr_deriv ?_
      rw [pr.combB, pr.combB, pr.combB]
      have dc := div_curl Db (fun i j u => dBwd_comm N P.d i j u) pr.combB (B t) p
      unfold divg at dc ⊢
      linear_combination P.c ^ 2 * dc
    have := is_const_of_deriv_eq_zero (fun t => (hd t).differentiableAt) (fun t => (hd t).deriv) t 0
    beta_reduce at this
    linarith
  · have hd : ∀ t, HasDerivAt (fun t => divg Df (B t) p) 0 t := by
      intro t
      have hi : ∀ i, HasDerivAt (fun t => Df i (B t i) p) (Df i (fun p => 0 * curl Df (E t) i p - 1 * curl Df (E t) i p) p) t := by
        intro i
        refine dFwd_deriv _ _ _ _ (fun t => B t i) _ t (fun p => ?_) p
        refine (hm.faraday t i p).congr_deriv ?_
        ring
      refine (((hi 0).add (hi 1)).add (hi 2)).congr_deriv ?_
      rw [pr.combF, pr.combF, pr.combF]
      have dc := div_curl Df (fun i j u => dFwd_comm N P.d i j u) pr.combF (E t) p
      unfold divg at dc
      linear_combination -dc
    exact is_const_of_deriv_eq_zero (fun t => (hd t).differentiableAt) (fun t => (hd t).deriv) t 0

end Picsar.Psatd
