import Verif.Model.Chi
import Mathlib.Tactic.Linarith
import Mathlib.Tactic.Positivity
import Mathlib.Tactic.FieldSimp
import Mathlib.Tactic.NormNum

namespace Picsar
namespace V3

theorem norm2_nonneg (v : V3) : 0 ≤ v.norm2 := by
  unfold norm2; nlinarith [mul_self_nonneg v.x, mul_self_nonneg v.y, mul_self_nonneg v.z]

theorem norm_nonneg (v : V3) : 0 ≤ v.norm := Real.sqrt_nonneg _

theorem norm_sq (v : V3) : v.norm * v.norm = v.norm2 := Real.mul_self_sqrt v.norm2_nonneg

theorem norm2_eq_zero {v : V3} : v.norm2 = 0 ↔ v = zero := by
  constructor
  · intro h
    have hx := mul_self_nonneg v.x
    have hy := mul_self_nonneg v.y
    have hz := mul_self_nonneg v.z
    unfold norm2 at h
    have h1 : v.x = 0 := mul_self_eq_zero.mp (by linarith)
    have h2 : v.y = 0 := mul_self_eq_zero.mp (by linarith)
    have h3 : v.z = 0 := mul_self_eq_zero.mp (by linarith)
    ext <;> assumption
  · rintro rfl; simp [norm2, zero]

theorem norm_eq_zero {v : V3} : v.norm = 0 ↔ v = zero := by
  unfold norm
  rw [Real.sqrt_eq_zero v.norm2_nonneg, norm2_eq_zero]

theorem norm2_smul (s : ℝ) (v : V3) : (smul s v).norm2 = s * s * v.norm2 := by
  simp only [norm2, smul]; ring

theorem norm_smul (s : ℝ) (v : V3) : (smul s v).norm = |s| * v.norm := by
  unfold norm
  rw [norm2_smul, Real.sqrt_mul (mul_self_nonneg s), Real.sqrt_mul_self_eq_abs]

theorem norm2_sdiv (v : V3) (s : ℝ) : (sdiv v s).norm2 = v.norm2 / (s * s) := by
  simp only [norm2, sdiv]
  rcases eq_or_ne s 0 with rfl | h
  · simp
  · field_simp

theorem norm2_unit {v : V3} (h : v.norm ≠ 0) : (v.sdiv v.norm).norm2 = 1 := by
  rw [norm2_sdiv, norm_sq]
  refine div_self ?_
  rw [← norm_sq]; exact mul_ne_zero h h

theorem norm_pos {v : V3} (h : v ≠ zero) : 0 < v.norm :=
  lt_of_le_of_ne v.norm_nonneg (fun e => h (norm_eq_zero.mp e.symm))

theorem unit_smul {v : V3} {s : ℝ} (hs : 0 < s) :
    (smul s v).sdiv (smul s v).norm = v.sdiv v.norm := by
  rw [norm_smul, abs_of_pos hs]
  have : s ≠ 0 := hs.ne'
  rcases eq_or_ne v.norm 0 with h | h
  · rw [norm_eq_zero.mp h]; ext <;> simp [sdiv, smul, zero]
  · ext <;> simp only [sdiv, smul] <;> field_simp

/-- Cauchy–Schwarz. -/
theorem dot_sq_le (a b : V3) : a.dot b * a.dot b ≤ a.norm2 * b.norm2 := by
  unfold dot norm2
  nlinarith [mul_self_nonneg (a.x * b.y - a.y * b.x), mul_self_nonneg (a.y * b.z - a.z * b.y),
    mul_self_nonneg (a.z * b.x - a.x * b.z)]

theorem dot_cross_self (a b : V3) : a.dot (a.cross b) = 0 := by
  simp only [dot, cross]; ring

/-- `n × (n × e) = (n·e) n - (n·n) e`. -/
theorem cross_cross (n e : V3) :
    n.cross (n.cross e) = (smul (n.dot e) n).sub (smul n.norm2 e) := by
  ext <;> simp only [cross, smul, sub, dot, norm2] <;> ring

end V3

theorem siUnits_pos : siUnits.Pos := by
  have : 0 < cPi := Real.pi_pos
  constructor <;> simp only [siUnits, cPairRate, cQsRate, cSchwRate, cTauE, cRe, cSchwinger, cMe, cQe, cC, cHbar, cEps0, cAlpha]
    <;> positivity

theorem normUnits_pos : normUnits.Pos := by
  have : 0 < cPi := Real.pi_pos
  constructor <;> simp only [normUnits, cPairRate, cQsRate, cSchwRate, cTauE, cRe, cSchwinger, cMe, cQe, cC, cHbar, cEps0, cAlpha]
    <;> positivity

theorem lam_pos {U : Units} {l : ℝ} (hl : 0 < l) : 0 < U.lam l := by
  unfold Units.lam; split <;> [norm_num; exact hl]

end Picsar
