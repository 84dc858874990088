import Verif.Spec.Lorentz
import Verif.Lemmas.Grid
import Mathlib.Tactic.Linarith
import Mathlib.Tactic.FieldSimp
import Mathlib.Tactic.Ring
import Mathlib.Tactic.LinearCombination
import Mathlib.Tactic.FinCases
import Mathlib.Tactic.NormNum
import Mathlib.Tactic.Positivity

namespace Picsar.Lorentz
open Picsar Picsar.Spec

theorem bind_ok {α β : Type} (x : α) (f : α → Res β) : ((.ok x : Res α) >>= f) = f x := rfl

/-- A sweep over distinct columns applies the body once to each of them. -/
theorem sweep_ok {ι α : Type} [DecidableEq ι] {body : α → Res α} {f : ι → α} {order : List ι} (hn : order.Nodup) {mem : ι → α}
    (h : ∀ i ∈ order, body (mem i) = .ok (f i)) : sweep body order mem = .ok fun i => if i ∈ order then f i else mem i := by
  unfold sweep
  induction order generalizing mem with
  | nil => simp [pure, Except.pure]
  | cons i l ih =>
    rw [List.nodup_cons] at hn
    rw [List.foldlM_cons, h i (List.mem_cons_self ..), bind_ok, bind_ok]
    rw [ih hn.2]
    · congr 1
      funext j
      by_cases hj : j ∈ l
      · rw [if_pos hj, if_pos (List.mem_cons_of_mem _ hj)]
      · rw [if_neg hj]
        by_cases hji : j = i
        · subst hji
          rw [Function.update_self, if_pos (List.mem_cons_self ..)]
        · rw [Function.update_of_ne hji, if_neg (by simp [hj, hji])]
    · intro j hj
      rw [Function.update_of_ne (by rintro rfl; exact hn.1 hj)]
      exact h j (List.mem_cons_of_mem _ hj)

/-- The columns after the transformation. -/
def cellVal (gam cbeta beta_c : ℝ) (f : ℕ → ℝ) : ℕ → ℝ := fun k =>
  if k = 0 then gam * (f 0 + cbeta * f 4) else if k = 1 then gam * (f 1 - cbeta * f 3) else if k = 3 then gam * (f 3 - cbeta * f 1)
  else if k = 4 then gam * (f 4 + beta_c * f 0) else if k = 8 then gam * (f 8 + cbeta * f 9) else if k = 9 then gam * (f 9 + beta_c * f 8)
  else f k

theorem cell_ok (gam cbeta beta_c : ℝ) (f : ℕ → ℝ) : cell gam cbeta beta_c f = .ok (cellVal gam cbeta beta_c f) := by
  unfold cell cellVal
  dsimp only
  congr 1
  funext k
  rcases k with _ | _ | _ | _ | _ | _ | _ | _ | _ | _ | k <;> simp

theorem boost_lt {beta gam : ℝ} (h : IsBoost beta gam) : |beta| < 1 := by
  obtain ⟨h1, h2⟩ := h
  rw [← sq_lt_one_iff_abs_lt_one]
  by_contra hb
  have : gam ^ 2 * (1 - beta ^ 2) ≤ 0 := mul_nonpos_of_nonneg_of_nonpos (sq_nonneg _) (by linarith [not_lt.1 hb])
  linarith

/-- Laboratory times of the two events differ when the particle is slower than light. -/
theorem times_ne {b : Boost} (hb : IsBoost b.beta b.gam) (hc : 0 < b.c) {z zp : ℝ} (hv : |z - zp| < b.c * b.dt) :
    0 < (b.gam * b.time - b.uzfrm * z * (1 / b.c ^ 2)) - (b.gam * (b.time - b.dt) - b.uzfrm * zp * (1 / b.c ^ 2)) := by
  have hl := boost_lt hb
  have e : (b.gam * b.time - b.uzfrm * z * (1 / b.c ^ 2)) - (b.gam * (b.time - b.dt) - b.uzfrm * zp * (1 / b.c ^ 2)) =
      b.gam / b.c * (b.c * b.dt + b.beta * (z - zp)) := by
    unfold Boost.uzfrm
    field_simp
    ring
  rw [e]
  refine mul_pos (div_pos hb.1 hc) ?_
  have h1 : |b.beta * (z - zp)| < b.c * b.dt := by
    rw [abs_mul]
    calc |b.beta| * |z - zp| ≤ 1 * |z - zp| := mul_le_mul_of_nonneg_right hl.le (abs_nonneg _)
      _ < b.c * b.dt := by rw [one_mul]; exact hv
  have := neg_abs_le (b.beta * (z - zp))
  linarith

/-- The tensor law in components. -/
theorem fieldLab_eq {c beta gam : ℝ} (hc : 0 < c) (hb : IsBoost beta gam) (ex ey ez bx bY bz : ℝ) :
    fieldLab beta gam (fieldM c ex ey ez bx bY bz) =
      fieldM c (gam * (ex + beta * c * bY)) (gam * (ey - beta * c * bx)) ez (gam * (bx - beta * (1 / c) * ey)) (gam * (bY + beta * (1 / c) * ex)) bz := by
  obtain ⟨_, hg⟩ := hb
  have hc' := hc.ne'
  ext μ ν
  fin_cases μ <;> fin_cases ν <;> simp [fieldLab, fieldM, boostM, Matrix.mul_apply, Fin.sum_univ_four] <;> field_simp <;>
    first
    | ring1
    | linear_combination ez * hg
    | linear_combination -ez * hg

theorem vectorLab_eq (beta gam a x y z : ℝ) : vectorLab beta gam ![a, x, y, z] = ![gam * (a + beta * z), x, y, gam * (z + beta * a)] := by
  funext μ
  fin_cases μ <;> simp [vectorLab, boostM, Matrix.mulVec, dotProduct, Fin.sum_univ_four] <;> ring

theorem fieldM_inj {c : ℝ} {a1 a2 a3 a4 a5 a6 b1 b2 b3 b4 b5 b6 : ℝ} (h : fieldM c a1 a2 a3 a4 a5 a6 = fieldM c b1 b2 b3 b4 b5 b6) : a4 = b4 := by
  have := congrFun (congrFun h 3) 2
  simpa [fieldM] using this

theorem fieldM_line (c l : ℝ) (a1 a2 a3 a4 a5 a6 b1 b2 b3 b4 b5 b6 : ℝ) :
    fieldM c b1 b2 b3 b4 b5 b6 + l • (fieldM c a1 a2 a3 a4 a5 a6 - fieldM c b1 b2 b3 b4 b5 b6) =
      fieldM c (b1 + l * (a1 - b1)) (b2 + l * (a2 - b2)) (b3 + l * (a3 - b3)) (b4 + l * (a4 - b4)) (b5 + l * (a5 - b5)) (b6 + l * (a6 - b6)) := by
  ext μ ν
  fin_cases μ <;> fin_cases ν <;> simp [fieldM] <;> ring

theorem over_ok {a b : ℝ} (h : b ≠ 0) : over a b = .ok (a / b) := if_neg h

end Picsar.Lorentz
