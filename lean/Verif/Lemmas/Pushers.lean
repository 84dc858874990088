import Verif.Model.Pushers
import Mathlib.Tactic.Linarith
import Mathlib.Tactic.FieldSimp
import Mathlib.Tactic.Positivity
import Mathlib.Tactic.LinearCombination
import Mathlib.Algebra.Order.Field.Basic

namespace Picsar.Push
open Picsar

/-- Squared length. -/
def sq (u : V3) : ℝ := u.x ^ 2 + u.y ^ 2 + u.z ^ 2

theorem sq_nonneg (u : V3) : 0 ≤ sq u := by unfold sq; positivity

theorem one_add_pos (c : ℝ) (u : V3) : 0 < 1 + (u.x ^ 2 + u.y ^ 2 + u.z ^ 2) * (1 / c ^ 2) := by positivity

theorem invGamma_pos (c : ℝ) (u : V3) : 0 < invGamma c u := by
  unfold invGamma
  have := Real.sqrt_pos.mpr (one_add_pos c u)
  positivity

theorem invGamma_sq (c : ℝ) (u : V3) : invGamma c u ^ 2 * (1 + sq u * (1 / c ^ 2)) = 1 := by
  unfold invGamma sq
  have h := one_add_pos c u
  rw [div_pow, Real.sq_sqrt h.le, one_pow, one_div_mul_cancel h.ne']

theorem invGamma_congr {c : ℝ} {u v : V3} (h : sq u = sq v) : invGamma c u = invGamma c v := by
  unfold invGamma sq at *
  rw [h]

/-- The magnetic rotation preserves length. -/
theorem bRot_sq (k g : ℝ) (u b : V3) : sq (bRot k g u b) = sq u := by
  unfold bRot sq
  simp only
  generalize g * b.x * k = tx
  generalize g * b.y * k = ty
  generalize g * b.z * k = tz
  have h : 0 < 1 + tx ^ 2 + ty ^ 2 + tz ^ 2 := by positivity
  field_simp
  ring

/-- The magnetic rotation with the opposite sign is its inverse. -/
theorem bRot_inv (k g : ℝ) (u b : V3) : bRot (-k) g (bRot k g u b) b = u := by
  unfold bRot
  simp only [mul_neg]
  generalize g * b.x * k = tx
  generalize g * b.y * k = ty
  generalize g * b.z * k = tz
  have h : 0 < 1 + tx ^ 2 + ty ^ 2 + tz ^ 2 := by positivity
  have h' : 1 + (-tx) ^ 2 + (-ty) ^ 2 + (-tz) ^ 2 = 1 + tx ^ 2 + ty ^ 2 + tz ^ 2 := by ring
  rw [h']
  ext
  · simp only
    field_simp
    ring
  · simp only
    field_simp
    ring
  · simp only
    field_simp
    ring

theorem bRot_zero (k g : ℝ) (u : V3) : bRot k g u V3.zero = u := by
  unfold bRot V3.zero
  ext <;> simp

theorem ePush_inv (k : ℝ) (u e : V3) : ePush (-k) (ePush k u e) e = u := by
  unfold ePush
  ext <;> simp only <;> ring

theorem ePush_zero (k : ℝ) (u : V3) : ePush k u V3.zero = u := by
  unfold ePush V3.zero
  ext <;> simp

/-! ### Loops -/

theorem atParticle_append {f : Part → Part} (pre : List Part) (p : Part) (suf : List Part) :
    atParticle f (pre.length + 1) (pre ++ p :: suf) = .ok (pre ++ f p :: suf) := by
  unfold atParticle
  have h : pre.length < (pre ++ p :: suf).length := by simp
  simp only [rd_ok h, except_bind_ok, wr_ok h]
  simp

theorem doLoop_spec {f : Part → Part} : ∀ (suf pre rest : List Part),
    doLoop f ((List.range' pre.length suf.length).map fun (i : ℕ) => i + 1) (pre ++ suf ++ rest) =
      .ok (pre ++ suf.map f ++ rest)
  | [], pre, rest => by simp [doLoop]
  | p :: suf, pre, rest => by
    rw [List.length_cons, List.range'_succ, List.map_cons, doLoop]
    have h := atParticle_append (f := f) pre p (suf ++ rest)
    rw [show pre ++ p :: suf ++ rest = pre ++ p :: (suf ++ rest) by simp, h]
    simp only [except_bind_ok]
    have ih := doLoop_spec (f := f) suf (pre ++ [f p]) rest
    simp only [List.length_append, List.length_cons, List.length_nil] at ih
    rw [show pre ++ f p :: (suf ++ rest) = pre ++ [f p] ++ suf ++ rest by simp, ih]
    simp

theorem plainLoop {f : Part → Part} {np : ℕ} {l : List Part} (h : np ≤ l.length) :
    doLoop f (plainIdx np) l = .ok ((l.take np).map f ++ l.drop np) := by
  have := doLoop_spec (f := f) (l.take np) [] (l.drop np)
  simp only [List.length_take, List.nil_append, List.take_append_drop, List.length_nil] at this
  rw [min_eq_left h] at this
  rw [plainIdx, List.range_eq_range']
  exact this

theorem range_map_add (a b : ℕ) : (List.range b).map (fun (n : ℕ) => a + n) = List.range' a b := by
  rw [List.range_eq_range', List.map_add_range', Nat.add_zero]

theorem blockIdx_eq {np lvect : ℕ} (hl : 0 < lvect) : blockIdx np lvect = plainIdx np := by
  have key : ∀ q, q ≤ (np + lvect - 1) / lvect →
      ((List.range q).flatMap fun (k : ℕ) =>
        (List.range (min lvect (np - (1 + k * lvect) + 1))).map fun (n : ℕ) => 1 + k * lvect + (n + 1) - 1) =
      List.range' 1 (min np (q * lvect)) := by
    intro q
    induction q with
    | zero => intro _; simp
    | succ q ih =>
      intro hq
      have hqn : q * lvect + 1 ≤ np := by
        have := (Nat.le_div_iff_mul_le hl).mp hq
        rw [Nat.succ_mul] at this
        omega
      rw [List.range_succ, List.flatMap_append, ih (by omega)]
      simp only [List.flatMap_cons, List.flatMap_nil, List.append_nil]
      rw [show (fun (n : ℕ) => 1 + q * lvect + (n + 1) - 1) = fun (n : ℕ) => (1 + q * lvect) + n by
        funext n; omega, range_map_add, min_eq_right (show q * lvect ≤ np by omega)]
      rw [List.range'_append_1, Nat.succ_mul]
      congr 1
      omega
  have h := key _ le_rfl
  unfold blockIdx
  rw [h, min_eq_left, plainIdx]
  · rw [← range_map_add]
    congr 1
    funext n
    omega
  · have h1 := Nat.div_add_mod (np + lvect - 1) lvect
    have h2 := Nat.mod_lt (np + lvect - 1) hl
    rw [Nat.mul_comm] at h1
    omega

/-! ### Vay -/

/-- `u = up + g u × tau`, with `g` the inverse Lorentz factor of `u`. -/
structure VaySol (c : ℝ) (up tau u : V3) (g : ℝ) : Prop where
  pos : 0 < g
  x : u.x = up.x + (u.y * tau.z - u.z * tau.y) * g
  y : u.y = up.y + (u.z * tau.x - u.x * tau.z) * g
  z : u.z = up.z + (u.x * tau.y - u.y * tau.x) * g
  gam : g ^ 2 * (1 + sq u * (1 / c ^ 2)) = 1

/-- The quadratic equation of the squared Lorentz factor. -/
theorem vay_quadratic {c : ℝ} {up tau u : V3} {g : ℝ} (h : VaySol c up tau u g) :
    (1 / g ^ 2) ^ 2 - (1 + sq up * (1 / c ^ 2) - sq tau) * (1 / g ^ 2) -
      (sq tau + (up.x * tau.x + up.y * tau.y + up.z * tau.z) ^ 2 * (1 / c ^ 2)) = 0 := by
  obtain ⟨hp, hx, hy, hz, hg⟩ := h
  have hg2 : 0 < g ^ 2 := by positivity
  have hne := hp.ne'
  generalize hC : 1 / c ^ 2 = C at *
  have h1 : 1 / g ^ 2 = 1 + sq u * C := by
    rw [div_eq_iff hg2.ne']
    linarith
  -- (1 + t^2)|u|^2 = |up|^2 + (up.t)^2
  have h2 : sq up * 1 + (up.x * tau.x + up.y * tau.y + up.z * tau.z) ^ 2 * g ^ 2 = (1 + sq tau * g ^ 2) * sq u := by
    have ex : up.x = u.x - (u.y * tau.z - u.z * tau.y) * g := by linarith
    have ey : up.y = u.y - (u.z * tau.x - u.x * tau.z) * g := by linarith
    have ez : up.z = u.z - (u.x * tau.y - u.y * tau.x) * g := by linarith
    unfold sq
    rw [ex, ey, ez]
    ring
  have h3 : g ^ 2 * (1 / g ^ 2) = 1 := by field_simp
  rw [h1] at *
  generalize sq u = U at *
  generalize (up.x * tau.x + up.y * tau.y + up.z * tau.z) ^ 2 = W at *
  generalize sq up = P at *
  generalize sq tau = T at *
  generalize g ^ 2 = G at *
  have e1 : P = (1 + T * G) * U - W * G := by linarith
  rw [e1]
  linear_combination (T + W * C - T * (1 + U * C)) * hg

/-- The positive root chosen by the code. -/
theorem vay_root {S K : ℝ} (hK : 0 ≤ K) (hS : K = 0 → 0 < S) :
    0 < S + Real.sqrt (S * S + 4 * K) ∧
      ((S + Real.sqrt (S * S + 4 * K)) / 2) ^ 2 - S * ((S + Real.sqrt (S * S + 4 * K)) / 2) - K = 0 := by
  have hD0 : 0 ≤ S * S + 4 * K := by have := mul_self_nonneg S; linarith
  have hD := Real.mul_self_sqrt hD0
  have hD1 := Real.sqrt_nonneg (S * S + 4 * K)
  generalize Real.sqrt (S * S + 4 * K) = D at *
  refine ⟨?_, by nlinarith⟩
  rcases hK.eq_or_lt with h | h
  · have := hS h.symm
    linarith
  · by_contra hc
    push Not at hc
    nlinarith

theorem vay_root_unique {S K Y Z : ℝ} (hK : 0 ≤ K) (hY : 0 < Y) (hZ : 0 < Z)
    (h1 : Y ^ 2 - S * Y - K = 0) (h2 : Z ^ 2 - S * Z - K = 0) : Y = Z := by
  by_contra hne
  have h3 : (Y - Z) * (Y + Z - S) = 0 := by linear_combination h1 - h2
  rcases mul_eq_zero.mp h3 with h | h
  · exact hne (by linarith)
  · have : Y * Z = -K := by
      have : S = Y + Z := by linarith
      subst this
      linarith
    have := mul_pos hY hZ
    linarith

/-- What the code computes is a solution of the implicit equation. -/
theorem vaySolve_sol {c : ℝ} (k : ℝ) (up b : V3) (hc : c ≠ 0) :
    VaySol c up ⟨k * b.x, k * b.y, k * b.z⟩ (vaySolve c k up b).1 (vaySolve c k up b).2 := by
  unfold vaySolve
  simp only
  have r1 : ∀ g, k * g * b.x = k * b.x * g := fun g => by ring
  have r2 : ∀ g, k * g * b.y = k * b.y * g := fun g => by ring
  have r3 : ∀ g, k * g * b.z = k * b.z * g := fun g => by ring
  simp only [r1, r2, r3]
  clear r1 r2 r3
  generalize k * b.x = tx
  generalize k * b.y = ty
  generalize k * b.z = tz
  have hcc : 1 / (c * c) = 1 / c ^ 2 := by rw [pow_two]
  rw [hcc]
  have hu : (up.x * tx + up.y * ty + up.z * tz) * (1 / c) * ((up.x * tx + up.y * ty + up.z * tz) * (1 / c)) =
      (up.x * tx + up.y * ty + up.z * tz) ^ 2 * (1 / c ^ 2) := by
    field_simp
  rw [hu]
  have hC : 0 < 1 / c ^ 2 := by positivity
  generalize hCd : 1 / c ^ 2 = C at *
  obtain ⟨x, y, z⟩ := up
  simp only
  set W := x * tx + y * ty + z * tz with hW
  set T := tx * tx + ty * ty + tz * tz with hT
  set P := x * x + y * y + z * z with hP
  have hTn : 0 ≤ T := by
    have h1 := mul_self_nonneg tx
    have h2 := mul_self_nonneg ty
    have h3 := mul_self_nonneg tz
    linarith
  have hPn : 0 ≤ P := by
    have h1 := mul_self_nonneg x
    have h2 := mul_self_nonneg y
    have h3 := mul_self_nonneg z
    linarith
  have hK : 0 ≤ T + W ^ 2 * C := by positivity
  have hS : T + W ^ 2 * C = 0 → 0 < 1 + P * C - T := by
    intro h0
    have hW0 : 0 ≤ W ^ 2 * C := by positivity
    have : T = 0 := by linarith
    rw [this]
    have : 0 ≤ P * C := by positivity
    linarith
  obtain ⟨hpos, hq⟩ := vay_root hK hS
  generalize 1 + P * C - T + Real.sqrt ((1 + P * C - T) * (1 + P * C - T) + 4 * (T + W ^ 2 * C)) = R at *
  have hgg : 0 < 2 / R := by positivity
  have hg := Real.sqrt_pos.mpr hgg
  have hg2 := Real.sq_sqrt hgg.le
  generalize Real.sqrt (2 / R) = g at *
  have hden : 0 < 1 + T * (2 / R) := by positivity
  rw [← hg2] at hden ⊢
  have hden' : 0 < 1 + T * g ^ 2 := hden
  refine ⟨hg, ?_, ?_, ?_, ?_⟩
  · simp only
    field_simp
    rw [hT]
    ring
  · simp only
    field_simp
    rw [hT]
    ring
  · simp only
    field_simp
    rw [hT]
    ring
  · have hsq : sq ⟨1 / (1 + T * g ^ 2) * (x + tx * g * (tx * g * x + ty * g * y + tz * g * z) + y * (tz * g) - z * (ty * g)),
        1 / (1 + T * g ^ 2) * (y + ty * g * (tx * g * x + ty * g * y + tz * g * z) + z * (tx * g) - x * (tz * g)),
        1 / (1 + T * g ^ 2) * (z + tz * g * (tx * g * x + ty * g * y + tz * g * z) + x * (ty * g) - y * (tx * g))⟩ =
        (P + W ^ 2 * g ^ 2) / (1 + T * g ^ 2) := by
      unfold sq
      simp only
      field_simp
      rw [hT, hP, hW]
      ring
    rw [hsq, hCd]
    have hR : R = 2 / g ^ 2 := by rw [hg2]; field_simp
    rw [hR] at hq
    have hgne := hg.ne'
    field_simp at hq ⊢
    nlinarith [hq]

/-- The implicit equation has one solution only. -/
theorem vay_unique {c : ℝ} {up tau u v : V3} {g h : ℝ} (h1 : VaySol c up tau u g) (h2 : VaySol c up tau v h) :
    u = v ∧ g = h := by
  have hK : 0 ≤ sq tau + (up.x * tau.x + up.y * tau.y + up.z * tau.z) ^ 2 * (1 / c ^ 2) := by
    have := sq_nonneg tau
    positivity
  have hgh : 1 / g ^ 2 = 1 / h ^ 2 :=
    vay_root_unique hK (by have := h1.pos; positivity) (by have := h2.pos; positivity) (vay_quadratic h1) (vay_quadratic h2)
  have hg2 : g ^ 2 = h ^ 2 := by
    have e := congrArg (fun t => 1 / t) hgh
    simpa using e
  have hg : g = h := by
    have := h1.pos
    have := h2.pos
    nlinarith [sq_nonneg tau]
  subst hg
  refine ⟨?_, rfl⟩
  have lin : ∀ w : V3, VaySol c up tau w g →
      (1 + sq tau * g ^ 2) * w.x = up.x + tau.x * g * (tau.x * g * up.x + tau.y * g * up.y + tau.z * g * up.z) +
        up.y * (tau.z * g) - up.z * (tau.y * g) ∧
      (1 + sq tau * g ^ 2) * w.y = up.y + tau.y * g * (tau.x * g * up.x + tau.y * g * up.y + tau.z * g * up.z) +
        up.z * (tau.x * g) - up.x * (tau.z * g) ∧
      (1 + sq tau * g ^ 2) * w.z = up.z + tau.z * g * (tau.x * g * up.x + tau.y * g * up.y + tau.z * g * up.z) +
        up.x * (tau.y * g) - up.y * (tau.x * g) := by
    intro w hw
    have ex : up.x = w.x - (w.y * tau.z - w.z * tau.y) * g := by linarith [hw.x]
    have ey : up.y = w.y - (w.z * tau.x - w.x * tau.z) * g := by linarith [hw.y]
    have ez : up.z = w.z - (w.x * tau.y - w.y * tau.x) * g := by linarith [hw.z]
    rw [ex, ey, ez]
    unfold sq
    refine ⟨by ring, by ring, by ring⟩
  have hpos : 0 < 1 + sq tau * g ^ 2 := by
    have := sq_nonneg tau
    positivity
  obtain ⟨a1, a2, a3⟩ := lin u h1
  obtain ⟨b1, b2, b3⟩ := lin v h2
  ext
  · exact mul_left_cancel₀ hpos.ne' (a1.trans b1.symm)
  · exact mul_left_cancel₀ hpos.ne' (a2.trans b2.symm)
  · exact mul_left_cancel₀ hpos.ne' (a3.trans b3.symm)

end Picsar.Push
