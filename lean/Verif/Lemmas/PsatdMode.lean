import Verif.Model.Psatd
import Mathlib.Analysis.SpecialFunctions.Trigonometric.Deriv
import Mathlib.Analysis.Calculus.Deriv.Mul
import Mathlib.Analysis.Calculus.Deriv.Add
import Mathlib.Analysis.Complex.RealDeriv
import Mathlib.Tactic.LinearCombination
import Mathlib.Tactic.FieldSimp

/-
One mode of the pseudo-spectral solver: the solution of Maxwell's equations in time and its value after a step.
-/
namespace Picsar.Psatd
open Picsar Complex

def cross (a b : Fin 3 → ℂ) : Fin 3 → ℂ := ![a 1 * b 2 - a 2 * b 1, a 2 * b 0 - a 0 * b 2, a 0 * b 1 - a 1 * b 0]

/-- What a mode depends on. -/
structure ModeData where
  kf : Fin 3 → ℂ
  kb : Fin 3 → ℂ
  q : ℂ
  iq : ℂ
  c : ℂ
  ic : ℂ
  ie : ℂ
  mu : ℂ
  E : Fin 3 → ℂ
  B : Fin 3 → ℂ
  J : Fin 3 → ℂ
  r : ℂ
  Dt : ℂ

namespace ModeData

def aE (m : ModeData) (i : Fin 3) : ℂ := m.E i + I * m.ie * m.iq * m.kb i * m.r
def bE (m : ModeData) (i : Fin 3) : ℂ := I * m.c * cross m.kf m.B i - m.c * m.mu * m.J i + I * m.ie * m.iq * m.ic * m.kb i * m.Dt
def cE (m : ModeData) (i : Fin 3) : ℂ := -(I * m.ie * m.iq * m.kb i * m.r)
def dE (m : ModeData) (i : Fin 3) : ℂ := -(I * m.ie * m.iq * m.kb i * m.Dt)
def aB (m : ModeData) (i : Fin 3) : ℂ := m.B i - I * m.mu * m.iq * cross m.kb m.J i
def bB (m : ModeData) (i : Fin 3) : ℂ := -I * m.ic * cross m.kb m.E i
def cB (m : ModeData) (i : Fin 3) : ℂ := I * m.mu * m.iq * cross m.kb m.J i

structure Good (m : ModeData) : Prop where
  hq : m.kf 0 * m.kb 0 + m.kf 1 * m.kb 1 + m.kf 2 * m.kb 2 = m.q
  hiq : m.iq * m.q = 1
  hic : m.ic * m.c = 1
  hmu : m.mu * m.c ^ 2 = m.ie
  gauss : m.kf 0 * m.E 0 + m.kf 1 * m.E 1 + m.kf 2 * m.E 2 = -I * m.ie * m.r
  gaussB : m.kb 0 * m.B 0 + m.kb 1 * m.B 1 + m.kb 2 * m.B 2 = 0
  cont : m.kf 0 * m.J 0 + m.kf 1 * m.J 1 + m.kf 2 * m.J 2 = I * m.Dt

variable {m : ModeData}

theorem idS (h : m.Good) (i : Fin 3) : -m.c * m.q * m.aE i = I * m.c ^ 2 * cross m.kf m.bB i := by
  have hI : I ^ 2 = -1 := I_sq
  have hq := h.hq
  have hG := h.gauss
  fin_cases i
  all_goals simp only [cross, aE, bB, Fin.zero_eta, Fin.mk_one, Fin.reduceFinMk, Matrix.cons_val_zero, Matrix.cons_val_one, Matrix.cons_val]
  · linear_combination (m.c ^ 2 * m.ic * (m.kb 0 * (m.kf 1 * m.E 1 + m.kf 2 * m.E 2) - (m.kf 1 * m.kb 1 + m.kf 2 * m.kb 2) * m.E 0)) * hI +
      (-m.c * (m.kb 0 * (m.kf 1 * m.E 1 + m.kf 2 * m.E 2) - (m.kf 1 * m.kb 1 + m.kf 2 * m.kb 2) * m.E 0)) * h.hic + (-m.c * m.kb 0) * hG +
      (m.c * m.E 0) * hq + (-m.c * I * m.ie * m.kb 0 * m.r) * h.hiq
  · linear_combination (m.c ^ 2 * m.ic * (m.kb 1 * (m.kf 2 * m.E 2 + m.kf 0 * m.E 0) - (m.kf 2 * m.kb 2 + m.kf 0 * m.kb 0) * m.E 1)) * hI +
      (-m.c * (m.kb 1 * (m.kf 2 * m.E 2 + m.kf 0 * m.E 0) - (m.kf 2 * m.kb 2 + m.kf 0 * m.kb 0) * m.E 1)) * h.hic + (-m.c * m.kb 1) * hG +
      (m.c * m.E 1) * hq + (-m.c * I * m.ie * m.kb 1 * m.r) * h.hiq
  · linear_combination (m.c ^ 2 * m.ic * (m.kb 2 * (m.kf 0 * m.E 0 + m.kf 1 * m.E 1) - (m.kf 0 * m.kb 0 + m.kf 1 * m.kb 1) * m.E 2)) * hI +
      (-m.c * (m.kb 2 * (m.kf 0 * m.E 0 + m.kf 1 * m.E 1) - (m.kf 0 * m.kb 0 + m.kf 1 * m.kb 1) * m.E 2)) * h.hic + (-m.c * m.kb 2) * hG +
      (m.c * m.E 2) * hq + (-m.c * I * m.ie * m.kb 2 * m.r) * h.hiq

theorem idC (h : m.Good) (i : Fin 3) : m.c * m.bE i = I * m.c ^ 2 * cross m.kf m.aB i := by
  have hI : I ^ 2 = -1 := I_sq
  have hq := h.hq
  have hJ := h.cont
  fin_cases i
  all_goals simp only [cross, bE, aB, Fin.zero_eta, Fin.mk_one, Fin.reduceFinMk, Matrix.cons_val_zero, Matrix.cons_val_one, Matrix.cons_val]
  · linear_combination (m.c ^ 2 * m.mu * m.iq * (m.kb 0 * (m.kf 1 * m.J 1 + m.kf 2 * m.J 2) - (m.kf 1 * m.kb 1 + m.kf 2 * m.kb 2) * m.J 0)) * hI +
      (-m.c ^ 2 * m.mu * m.iq * m.kb 0) * hJ + (m.c ^ 2 * m.mu * m.iq * m.J 0) * hq + (m.c ^ 2 * m.mu * m.J 0) * h.hiq +
      (I * m.ie * m.iq * m.kb 0 * m.Dt) * h.hic + (-m.iq * m.kb 0 * I * m.Dt) * h.hmu
  · linear_combination (m.c ^ 2 * m.mu * m.iq * (m.kb 1 * (m.kf 2 * m.J 2 + m.kf 0 * m.J 0) - (m.kf 2 * m.kb 2 + m.kf 0 * m.kb 0) * m.J 1)) * hI +
      (-m.c ^ 2 * m.mu * m.iq * m.kb 1) * hJ + (m.c ^ 2 * m.mu * m.iq * m.J 1) * hq + (m.c ^ 2 * m.mu * m.J 1) * h.hiq +
      (I * m.ie * m.iq * m.kb 1 * m.Dt) * h.hic + (-m.iq * m.kb 1 * I * m.Dt) * h.hmu
  · linear_combination (m.c ^ 2 * m.mu * m.iq * (m.kb 2 * (m.kf 0 * m.J 0 + m.kf 1 * m.J 1) - (m.kf 0 * m.kb 0 + m.kf 1 * m.kb 1) * m.J 2)) * hI +
      (-m.c ^ 2 * m.mu * m.iq * m.kb 2) * hJ + (m.c ^ 2 * m.mu * m.iq * m.J 2) * hq + (m.c ^ 2 * m.mu * m.J 2) * h.hiq +
      (I * m.ie * m.iq * m.kb 2 * m.Dt) * h.hic + (-m.iq * m.kb 2 * I * m.Dt) * h.hmu

theorem id1 (h : m.Good) (i : Fin 3) : m.dE i = I * m.c ^ 2 * cross m.kf m.cB i - m.ie * m.J i := by
  have hI : I ^ 2 = -1 := I_sq
  have hq := h.hq
  have hJ := h.cont
  fin_cases i
  all_goals simp only [cross, dE, cB, Fin.zero_eta, Fin.mk_one, Fin.reduceFinMk, Matrix.cons_val_zero, Matrix.cons_val_one, Matrix.cons_val]
  · linear_combination (-m.c ^ 2 * m.mu * m.iq * (m.kb 0 * (m.kf 1 * m.J 1 + m.kf 2 * m.J 2) - (m.kf 1 * m.kb 1 + m.kf 2 * m.kb 2) * m.J 0)) * hI +
      (m.c ^ 2 * m.mu * m.iq * m.kb 0) * hJ + (-m.c ^ 2 * m.mu * m.iq * m.J 0) * hq + (-m.c ^ 2 * m.mu * m.J 0) * h.hiq +
      (m.iq * m.kb 0 * I * m.Dt - m.J 0) * h.hmu
  · linear_combination (-m.c ^ 2 * m.mu * m.iq * (m.kb 1 * (m.kf 2 * m.J 2 + m.kf 0 * m.J 0) - (m.kf 2 * m.kb 2 + m.kf 0 * m.kb 0) * m.J 1)) * hI +
      (m.c ^ 2 * m.mu * m.iq * m.kb 1) * hJ + (-m.c ^ 2 * m.mu * m.iq * m.J 1) * hq + (-m.c ^ 2 * m.mu * m.J 1) * h.hiq +
      (m.iq * m.kb 1 * I * m.Dt - m.J 1) * h.hmu
  · linear_combination (-m.c ^ 2 * m.mu * m.iq * (m.kb 2 * (m.kf 0 * m.J 0 + m.kf 1 * m.J 1) - (m.kf 0 * m.kb 0 + m.kf 1 * m.kb 1) * m.J 2)) * hI +
      (m.c ^ 2 * m.mu * m.iq * m.kb 2) * hJ + (-m.c ^ 2 * m.mu * m.iq * m.J 2) * hq + (-m.c ^ 2 * m.mu * m.J 2) * h.hiq +
      (m.iq * m.kb 2 * I * m.Dt - m.J 2) * h.hmu

theorem idBS (h : m.Good) (i : Fin 3) : -m.c * m.q * m.aB i = -I * cross m.kb m.bE i := by
  have hI : I ^ 2 = -1 := I_sq
  have hq := h.hq
  have hB := h.gaussB
  fin_cases i
  all_goals simp only [cross, bE, aB, Fin.zero_eta, Fin.mk_one, Fin.reduceFinMk, Matrix.cons_val_zero, Matrix.cons_val_one, Matrix.cons_val]
  · linear_combination (m.c * (m.kf 0 * (m.kb 1 * m.B 1 + m.kb 2 * m.B 2) - (m.kb 1 * m.kf 1 + m.kb 2 * m.kf 2) * m.B 0)) * hI +
      (-m.c * m.kf 0) * hB + (m.c * m.B 0) * hq + (m.c * I * m.mu * (m.kb 1 * m.J 2 - m.kb 2 * m.J 1)) * h.hiq
  · linear_combination (m.c * (m.kf 1 * (m.kb 2 * m.B 2 + m.kb 0 * m.B 0) - (m.kb 2 * m.kf 2 + m.kb 0 * m.kf 0) * m.B 1)) * hI +
      (-m.c * m.kf 1) * hB + (m.c * m.B 1) * hq + (m.c * I * m.mu * (m.kb 2 * m.J 0 - m.kb 0 * m.J 2)) * h.hiq
  · linear_combination (m.c * (m.kf 2 * (m.kb 0 * m.B 0 + m.kb 1 * m.B 1) - (m.kb 0 * m.kf 0 + m.kb 1 * m.kf 1) * m.B 2)) * hI +
      (-m.c * m.kf 2) * hB + (m.c * m.B 2) * hq + (m.c * I * m.mu * (m.kb 0 * m.J 1 - m.kb 1 * m.J 0)) * h.hiq

theorem idBC (h : m.Good) (i : Fin 3) : m.c * m.bB i = -I * cross m.kb m.aE i := by
  fin_cases i
  all_goals simp only [cross, aE, bB, Fin.zero_eta, Fin.mk_one, Fin.reduceFinMk, Matrix.cons_val_zero, Matrix.cons_val_one, Matrix.cons_val]
  · linear_combination (-I * (m.kb 1 * m.E 2 - m.kb 2 * m.E 1)) * h.hic
  · linear_combination (-I * (m.kb 2 * m.E 0 - m.kb 0 * m.E 2)) * h.hic
  · linear_combination (-I * (m.kb 0 * m.E 1 - m.kb 1 * m.E 0)) * h.hic

/-- The solution, from the cosine `C`, the sine over `K` and the time. -/
def solE (m : ModeData) (C S t : ℂ) (i : Fin 3) : ℂ := m.aE i * C + m.bE i * S + m.cE i + m.dE i * t
def solB (m : ModeData) (C S : ℂ) (i : Fin 3) : ℂ := m.aB i * C + m.bB i * S + m.cB i

theorem rhsE (h : m.Good) (C S : ℂ) (i : Fin 3) :
    m.aE i * (-m.c * m.q * S) + m.bE i * (m.c * C) + m.dE i = I * m.c ^ 2 * cross m.kf (m.solB C S) i - m.ie * m.J i := by
  have hl : cross m.kf (m.solB C S) i = cross m.kf m.aB i * C + cross m.kf m.bB i * S + cross m.kf m.cB i := by
    fin_cases i
    all_goals simp only [cross, solB, Fin.zero_eta, Fin.mk_one, Fin.reduceFinMk, Matrix.cons_val_zero, Matrix.cons_val_one, Matrix.cons_val]
    all_goals ring
  rw [hl]
  linear_combination S * idS h i + C * idC h i + id1 h i

theorem rhsB (h : m.Good) (C S t : ℂ) (i : Fin 3) :
    m.aB i * (-m.c * m.q * S) + m.bB i * (m.c * C) = -I * cross m.kb (m.solE C S t) i := by
  have hl : cross m.kb (m.solE C S t) i = cross m.kb m.aE i * C + cross m.kb m.bE i * S := by
    fin_cases i
    all_goals simp only [cross, solE, cE, dE, Fin.zero_eta, Fin.mk_one, Fin.reduceFinMk, Matrix.cons_val_zero, Matrix.cons_val_one, Matrix.cons_val]
    all_goals ring
  rw [hl]
  linear_combination S * idBS h i + C * idBC h i

end ModeData

theorem hasDeriv_cos (c K t : ℝ) (hK : K ≠ 0) :
    HasDerivAt (fun t : ℝ => ((Real.cos (c * K * t) : ℝ) : ℂ)) (-c * (K : ℂ) ^ 2 * ((Real.sin (c * K * t) / K : ℝ) : ℂ)) t := by
  have h1 : HasDerivAt (fun t : ℝ => Real.cos (c * K * t)) (-c * K ^ 2 * (Real.sin (c * K * t) / K)) t := by
    refine ((Real.hasDerivAt_cos (c * K * t)).comp t ((hasDerivAt_id t).const_mul (c * K))).congr_deriv ?_
    field_simp
  exact h1.ofReal_comp.congr_deriv (by push_cast; ring)

theorem hasDeriv_sin (c K t : ℝ) (hK : K ≠ 0) :
    HasDerivAt (fun t : ℝ => ((Real.sin (c * K * t) / K : ℝ) : ℂ)) (c * ((Real.cos (c * K * t) : ℝ) : ℂ)) t := by
  have h1 : HasDerivAt (fun t : ℝ => Real.sin (c * K * t) / K) (c * Real.cos (c * K * t)) t := by
    refine (((Real.hasDerivAt_sin (c * K * t)).comp t ((hasDerivAt_id t).const_mul (c * K))).div_const K).congr_deriv ?_
    field_simp
  exact h1.ofReal_comp.congr_deriv (by push_cast; ring)

theorem deriv_lin (c K t : ℝ) (hK : K ≠ 0) (a b g δ : ℂ) :
    HasDerivAt (fun t : ℝ => a * ((Real.cos (c * K * t) : ℝ) : ℂ) + b * ((Real.sin (c * K * t) / K : ℝ) : ℂ) + g + δ * (t : ℂ))
      (a * (-c * (K : ℂ) ^ 2 * ((Real.sin (c * K * t) / K : ℝ) : ℂ)) + b * (c * ((Real.cos (c * K * t) : ℝ) : ℂ)) + δ) t := by
  have ht : HasDerivAt (fun t : ℝ => (t : ℂ)) 1 t := (hasDerivAt_id t).ofReal_comp
  refine ((((hasDeriv_cos c K t hK).const_mul a).add ((hasDeriv_sin c K t hK).const_mul b)).add_const g).add (ht.const_mul δ) |>.congr_deriv ?_
  ring

end Picsar.Psatd
