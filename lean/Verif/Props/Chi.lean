import Verif.Lemmas.Vec3

/-
Property theorem C31 (src/multi_physics/QED/src/chi_functions.hpp).
-/
namespace Picsar.Props
open Picsar

/-- C31: the photon quantum parameter is never negative. -/
theorem C31_photon_nonneg (U : Units) (hU : U.Pos) (p e b : V3) (l : ℝ) (hl : 0 < l) :
    0 ≤ chiPhoton U p e b l := by
  unfold chiPhoton
  dsimp only
  split
  · exact le_refl _
  · have := lam_pos (U := U) hl
    have h1 := hU.c; have h2 := hU.emass; have h3 := hU.schwinger
    refine mul_nonneg (mul_nonneg (V3.norm_nonneg _) (V3.norm_nonneg _)) ?_
    positivity

/-- C31: the lepton quantum parameter is never negative. -/
theorem C31_lepton_nonneg (U : Units) (hU : U.Pos) (p e b : V3) (l : ℝ) (hl : 0 < l) :
    0 ≤ chiLepton U p e b l := by
  unfold chiLepton
  dsimp only
  split
  · exact le_refl _
  · have := lam_pos (U := U) hl
    have h3 := hU.schwinger
    refine mul_nonneg (mul_nonneg (Real.sqrt_nonneg _) (Real.sqrt_nonneg _)) ?_
    positivity

/-- C31: no momentum, no quantum parameter (photon). -/
theorem C31_photon_zero_momentum (U : Units) (e b : V3) (l : ℝ) : chiPhoton U V3.zero e b l = 0 := by
  simp [chiPhoton, V3.norm_eq_zero.mpr rfl]

/-- C31: zero fields give zero for photons and leptons. -/
theorem C31_zero_fields (U : Units) (p : V3) (l : ℝ) :
    chiPhoton U p V3.zero V3.zero l = 0 ∧ chiLepton U p V3.zero V3.zero l = 0 := by
  constructor
  · unfold chiPhoton
    dsimp only
    split
    · rfl
    · simp [V3.norm, V3.norm2, V3.add, V3.sub, V3.smul, V3.cross, V3.dot, V3.zero]
  · unfold chiLepton
    dsimp only
    split
    · rfl
    · simp [V3.norm2, V3.add, V3.smul, V3.cross, V3.dot, V3.zero]

/-- C31: both quantum parameters scale with the fields. -/
theorem C31_linear_in_fields (U : Units) (p e b : V3) (l k : ℝ) :
    chiPhoton U p (V3.smul k e) (V3.smul k b) l = |k| * chiPhoton U p e b l ∧
    chiLepton U p (V3.smul k e) (V3.smul k b) l = |k| * chiLepton U p e b l := by
  constructor
  · unfold chiPhoton
    dsimp only
    split
    · simp
    · have : ∀ n : V3, ((V3.smul k e).sub (V3.smul (n.dot (V3.smul k e)) n)).add
          ((V3.smul U.c n).cross (V3.smul k b))
          = V3.smul k ((e.sub (V3.smul (n.dot e) n)).add ((V3.smul U.c n).cross b)) := by
        intro n
        ext <;> simp only [V3.add, V3.sub, V3.smul, V3.cross, V3.dot] <;> ring
      rw [this, V3.norm_smul]
      ring
  · unfold chiLepton
    dsimp only
    split
    · simp
    · have h1 : ∀ n : V3, (V3.smul k e).add ((V3.smul U.c n).cross (V3.smul k b))
          = V3.smul k (e.add ((V3.smul U.c n).cross b)) := by
        intro n
        ext <;> simp only [V3.add, V3.smul, V3.cross] <;> ring
      have h2 : ∀ n : V3, n.dot (V3.smul k e) = k * n.dot e := by
        intro n; simp only [V3.dot, V3.smul]; ring
      rw [h1, h2, V3.norm2_smul]
      have h3 : ∀ a c : ℝ, k * a * (k * a) - k * k * c = k * k * (a * a - c) := by intros; ring
      rw [h3, abs_mul, Real.sqrt_mul (abs_nonneg _), abs_mul_self, Real.sqrt_mul_self_eq_abs]
      ring

/-- C31: the photon quantum parameter scales with the photon momentum. -/
theorem C31_photon_linear_in_momentum (U : Units) (p e b : V3) (l k : ℝ) (hk : 0 ≤ k) :
    chiPhoton U (V3.smul k p) e b l = k * chiPhoton U p e b l := by
  rcases hk.eq_or_lt with rfl | hk
  · have : V3.smul 0 p = V3.zero := by ext <;> simp [V3.smul, V3.zero]
    rw [this, C31_photon_zero_momentum]; ring
  · unfold chiPhoton
    dsimp only
    by_cases h : p.norm = 0
    · have : (V3.smul k p).norm = 0 := by rw [V3.norm_smul, h, mul_zero]
      simp [h, this]
    · have : (V3.smul k p).norm ≠ 0 := by
        rw [V3.norm_smul]; exact mul_ne_zero (abs_ne_zero.mpr hk.ne') h
      rw [if_neg h, if_neg this, V3.unit_smul hk, V3.norm_smul k p, abs_of_pos hk]
      ring

/-- C31: a photon that moves along a plane wave with `B = (n × E)/c` has zero quantum parameter. -/
theorem C31_photon_plane_wave (U : Units) (hU : U.Pos) (n e : V3) (a l : ℝ) (hn : n.norm2 = 1)
    (ha : 0 < a) : chiPhoton U (V3.smul a n) e ((n.cross e).sdiv U.c) l = 0 := by
  have hn' : n.norm = 1 := by unfold V3.norm; rw [hn, Real.sqrt_one]
  have hu : (V3.smul a n).sdiv (V3.smul a n).norm = n := by
    rw [V3.unit_smul ha, hn']; ext <;> simp [V3.sdiv]
  unfold chiPhoton
  dsimp only
  rw [hu]
  have hc := hU.c.ne'
  have : (e.sub (V3.smul (n.dot e) n)).add ((V3.smul U.c n).cross ((n.cross e).sdiv U.c)) = V3.zero := by
    have hcc := V3.cross_cross n e
    have hh : (V3.smul U.c n).cross ((n.cross e).sdiv U.c) = n.cross (n.cross e) := by
      ext <;> simp only [V3.smul, V3.cross, V3.sdiv] <;> field_simp
    rw [hh, hcc, hn]
    ext <;> simp only [V3.add, V3.sub, V3.smul, V3.zero] <;> ring
  rw [this, V3.norm_eq_zero.mpr rfl]
  simp

/-- C31: for leptons the quantity under the root is the Lorentz-invariant combination with the right sign, i.e. the
absolute value in the code never acts. -/
theorem C31_lepton_formula (U : Units) (hU : U.Pos) (p e b : V3) (l : ℝ) (hp : p ≠ V3.zero) :
    ∃ (γ : ℝ) (v : V3), γ = Real.sqrt (1 + p.norm2 / (U.emass * U.c) ^ 2) ∧
      V3.smul (γ * U.emass) v = p ∧
      chiLepton U p e b l = γ / (U.schwinger * U.lam l) *
        Real.sqrt ((e.add (v.cross b)).norm2 - (v.dot e / U.c) ^ 2) := by
  have hmc : 0 < U.emass * U.c := mul_pos hU.emass hU.c
  have hN : p.norm2 ≠ 0 := fun h => hp (V3.norm2_eq_zero.mp h)
  have hNpos : 0 < p.norm2 := lt_of_le_of_ne p.norm2_nonneg (Ne.symm hN)
  set g2 : ℝ := 1 + p.norm2 / (U.emass * U.c) ^ 2 with hg2
  have hg2' : 1 < g2 := by
    have : 0 < p.norm2 / (U.emass * U.c) ^ 2 := by positivity
    linarith
  set g := Real.sqrt g2 with hg
  have hgg : g * g = g2 := Real.mul_self_sqrt (by linarith)
  have hgpos : 0 < g := Real.sqrt_pos.mpr (by linarith)
  have hns : Real.sqrt p.norm2 * Real.sqrt p.norm2 = p.norm2 := Real.mul_self_sqrt p.norm2_nonneg
  set s := Real.sqrt p.norm2 with hs
  have hspos : 0 < s := Real.sqrt_pos.mpr hNpos
  have hgam : 1 + (s / (U.emass * U.c)) * (s / (U.emass * U.c)) = g2 := by
    rw [hg2, ← hns]; field_simp
  have hbeta : Real.sqrt (1 - 1 / g2) = s / (g * (U.emass * U.c)) := by
    rw [show 1 - 1 / g2 = (s / (g * (U.emass * U.c))) * (s / (g * (U.emass * U.c))) from ?_]
    · rw [Real.sqrt_mul_self (by positivity)]
    · have e1 : s / (g * (U.emass * U.c)) * (s / (g * (U.emass * U.c)))
          = p.norm2 / (U.emass * U.c) ^ 2 / g2 := by
        rw [← hgg, ← hns]; field_simp
      have e2 : p.norm2 / (U.emass * U.c) ^ 2 = g2 - 1 := by rw [hg2]; ring
      rw [e1, e2]; field_simp
  refine ⟨g, V3.smul (1 / (g * U.emass)) p, hg, ?_, ?_⟩
  · have := hU.emass
    ext <;> simp only [V3.smul] <;> field_simp
  · unfold chiLepton
    dsimp only
    rw [if_neg hN, ← hs, hgam, hbeta, ← hg]
    have hm := hU.emass; have hc := hU.c
    have hbv : V3.smul (s / (g * (U.emass * U.c))) (p.sdiv s)
        = V3.smul (1 / U.c) (V3.smul (1 / (g * U.emass)) p) := by
      ext <;> simp only [V3.smul, V3.sdiv] <;> field_simp
    rw [hbv]
    set v := V3.smul (1 / (g * U.emass)) p with hv
    have hcv : V3.smul U.c (V3.smul (1 / U.c) v) = v := by
      ext <;> simp only [V3.smul] <;> field_simp
    have hvd : (V3.smul (1 / U.c) v).dot e = v.dot e / U.c := by
      simp only [V3.dot, V3.smul]; ring
    rw [hcv, hvd, abs_sub_comm, abs_of_nonneg, ← sq]
    · ring
    · -- Cauchy–Schwarz: `v·E = v·(E + v×B)` and `|v| < c`
      have h1 : v.dot e = v.dot (e.add (v.cross b)) := by
        simp only [V3.dot, V3.add, V3.cross]; ring
      have h2 := V3.dot_sq_le v (e.add (v.cross b))
      have h3 : v.norm2 ≤ U.c * U.c := by
        rw [hv, V3.norm2_smul]
        have : p.norm2 = (g2 - 1) * (U.emass * U.c) ^ 2 := by
          rw [hg2]; field_simp; ring
        rw [this, ← hgg]
        have e1 : 1 / (g * U.emass) * (1 / (g * U.emass)) * ((g * g - 1) * (U.emass * U.c) ^ 2)
            = (1 - 1 / (g * g)) * (U.c * U.c) := by field_simp
        rw [e1]
        have : 0 ≤ 1 / (g * g) := by positivity
        nlinarith [mul_pos hc hc]
      have hn := V3.norm2_nonneg (e.add (v.cross b))
      have e2 : v.dot e / U.c * (v.dot e / U.c) = (v.dot e * v.dot e) / (U.c * U.c) := by
        field_simp
      rw [e2, sub_nonneg, div_le_iff₀ (mul_pos hc hc)]
      rw [h1]
      calc _ ≤ _ := h2
        _ ≤ _ := by nlinarith

/-- C31: the textbook expression, component by component: `chi = sqrt((p0 E + c p x B)^2 - (p.E)^2) / (m c Es lambda)` with `p0 = |p|` for a photon
(`lambda` is 1 in SI units). -/
theorem C31_photon_components (U : Units) (px py pz ex ey ez bx by' bz l : ℝ) (hp : px ≠ 0 ∨ py ≠ 0 ∨ pz ≠ 0) :
    chiPhoton U ⟨px, py, pz⟩ ⟨ex, ey, ez⟩ ⟨bx, by', bz⟩ l =
      Real.sqrt ((Real.sqrt (px ^ 2 + py ^ 2 + pz ^ 2) * ex + U.c * (py * bz - pz * by')) ^ 2 +
        (Real.sqrt (px ^ 2 + py ^ 2 + pz ^ 2) * ey + U.c * (pz * bx - px * bz)) ^ 2 +
        (Real.sqrt (px ^ 2 + py ^ 2 + pz ^ 2) * ez + U.c * (px * by' - py * bx)) ^ 2 - (px * ex + py * ey + pz * ez) ^ 2) /
      (U.emass * U.c * U.schwinger * if U.si then 1 else l) := by
  have hs : 0 < px ^ 2 + py ^ 2 + pz ^ 2 := by
    rcases hp with h | h | h
    · have := pow_pos (abs_pos.mpr h) 2; rw [sq_abs] at this; nlinarith [sq_nonneg py, sq_nonneg pz]
    · have := pow_pos (abs_pos.mpr h) 2; rw [sq_abs] at this; nlinarith [sq_nonneg px, sq_nonneg pz]
    · have := pow_pos (abs_pos.mpr h) 2; rw [sq_abs] at this; nlinarith [sq_nonneg px, sq_nonneg py]
  have hn : (⟨px, py, pz⟩ : V3).norm = Real.sqrt (px ^ 2 + py ^ 2 + pz ^ 2) := by
    simp only [V3.norm, V3.norm2]; congr 1; ring
  have hP : 0 < Real.sqrt (px ^ 2 + py ^ 2 + pz ^ 2) := Real.sqrt_pos.mpr hs
  have hPP : Real.sqrt (px ^ 2 + py ^ 2 + pz ^ 2) ^ 2 = px ^ 2 + py ^ 2 + pz ^ 2 := Real.sq_sqrt hs.le
  unfold chiPhoton
  dsimp only
  rw [hn, if_neg hP.ne']
  generalize Real.sqrt (px ^ 2 + py ^ 2 + pz ^ 2) = P at hP hPP
  have key : ∀ v : V3, v.norm * P = Real.sqrt ((v.x * P) ^ 2 + (v.y * P) ^ 2 + (v.z * P) ^ 2) := by
    intro v
    have : (v.x * P) ^ 2 + (v.y * P) ^ 2 + (v.z * P) ^ 2 = v.norm2 * P ^ 2 := by simp only [V3.norm2]; ring
    rw [this, Real.sqrt_mul (V3.norm2_nonneg v), Real.sqrt_sq hP.le]
    rfl
  rw [key]
  have e : ∀ a b c d : ℝ, a = b → c = d → a * (1 / c) = b / d := by rintro a _ c _ rfl rfl; ring
  refine e _ _ _ _ (congrArg Real.sqrt ?_) rfl
  simp only [V3.add, V3.sub, V3.smul, V3.sdiv, V3.cross, V3.dot]
  have ne := hP.ne'
  have c1 : (ex - px / P * (px / P * ex + py / P * ey + pz / P * ez) + (py / P * U.c * bz - pz / P * U.c * by')) * P =
      P * ex + U.c * (py * bz - pz * by') - px * (px * ex + py * ey + pz * ez) / P := by field_simp; ring
  have c2 : (ey - py / P * (px / P * ex + py / P * ey + pz / P * ez) + (pz / P * U.c * bx - px / P * U.c * bz)) * P =
      P * ey + U.c * (pz * bx - px * bz) - py * (px * ex + py * ey + pz * ez) / P := by field_simp; ring
  have c3 : (ez - pz / P * (px / P * ex + py / P * ey + pz / P * ez) + (px / P * U.c * by' - py / P * U.c * bx)) * P =
      P * ez + U.c * (px * by' - py * bx) - pz * (px * ex + py * ey + pz * ez) / P := by field_simp; ring
  rw [c1, c2, c3]
  field_simp
  nlinarith [hPP]

/-- C31: the same expression for leptons, `p0 = sqrt(|p|^2 + m^2 c^2)`. -/
theorem C31_lepton_components (U : Units) (hU : U.Pos) (px py pz ex ey ez bx by' bz l : ℝ) (hp : px ≠ 0 ∨ py ≠ 0 ∨ pz ≠ 0) :
    chiLepton U ⟨px, py, pz⟩ ⟨ex, ey, ez⟩ ⟨bx, by', bz⟩ l =
      Real.sqrt ((Real.sqrt (px ^ 2 + py ^ 2 + pz ^ 2 + (U.emass * U.c) ^ 2) * ex + U.c * (py * bz - pz * by')) ^ 2 +
        (Real.sqrt (px ^ 2 + py ^ 2 + pz ^ 2 + (U.emass * U.c) ^ 2) * ey + U.c * (pz * bx - px * bz)) ^ 2 +
        (Real.sqrt (px ^ 2 + py ^ 2 + pz ^ 2 + (U.emass * U.c) ^ 2) * ez + U.c * (px * by' - py * bx)) ^ 2 - (px * ex + py * ey + pz * ez) ^ 2) /
      (U.emass * U.c * U.schwinger * if U.si then 1 else l) := by
  have hm := hU.emass
  have hc := hU.c
  have hmc : 0 < U.emass * U.c := mul_pos hm hc
  have hp0 : (⟨px, py, pz⟩ : V3) ≠ V3.zero := by
    intro h
    have h1 := congrArg V3.x h
    have h2 := congrArg V3.y h
    have h3 := congrArg V3.z h
    simp only [V3.zero] at h1 h2 h3
    rcases hp with h | h | h
    exacts [h h1, h h2, h h3]
  obtain ⟨γ, v, hγ, hv, hx⟩ := C31_lepton_formula U hU ⟨px, py, pz⟩ ⟨ex, ey, ez⟩ ⟨bx, by', bz⟩ l hp0
  have hpos : 0 < px ^ 2 + py ^ 2 + pz ^ 2 + (U.emass * U.c) ^ 2 := by positivity
  have hγ' : γ = Real.sqrt (px ^ 2 + py ^ 2 + pz ^ 2 + (U.emass * U.c) ^ 2) / (U.emass * U.c) := by
    rw [hγ]
    have : 1 + (⟨px, py, pz⟩ : V3).norm2 / (U.emass * U.c) ^ 2 = (px ^ 2 + py ^ 2 + pz ^ 2 + (U.emass * U.c) ^ 2) / (U.emass * U.c) ^ 2 := by
      simp only [V3.norm2]; field_simp; ring
    rw [this, Real.sqrt_div hpos.le, Real.sqrt_sq hmc.le]
  have hP : 0 < Real.sqrt (px ^ 2 + py ^ 2 + pz ^ 2 + (U.emass * U.c) ^ 2) := Real.sqrt_pos.mpr hpos
  rw [hx]
  generalize Real.sqrt (px ^ 2 + py ^ 2 + pz ^ 2 + (U.emass * U.c) ^ 2) = P at hP hγ'
  have hγ0 : 0 < γ := by rw [hγ']; positivity
  obtain ⟨vx, vy, vz⟩ := v
  simp only [V3.smul, V3.mk.injEq] at hv
  obtain ⟨v1, v2, v3⟩ := hv
  have q : ∀ a c w : ℝ, γ * Real.sqrt w * (U.emass * U.c) = a → γ / (U.schwinger * c) * Real.sqrt w = a / (U.emass * U.c * U.schwinger * c) := by
    intro a c w h
    rw [← h]
    by_cases hz : U.schwinger * c = 0
    · rw [hz, mul_assoc (U.emass * U.c), hz]; simp
    · have h1 : U.schwinger ≠ 0 := left_ne_zero_of_mul hz
      have h2 : c ≠ 0 := right_ne_zero_of_mul hz
      field_simp
  refine q _ _ _ ?_
  have : γ * Real.sqrt ((V3.add ⟨ex, ey, ez⟩ (V3.cross ⟨vx, vy, vz⟩ ⟨bx, by', bz⟩)).norm2 - (V3.dot ⟨vx, vy, vz⟩ ⟨ex, ey, ez⟩ / U.c) ^ 2) * (U.emass * U.c) =
      Real.sqrt ((γ * (U.emass * U.c)) ^ 2 * ((V3.add ⟨ex, ey, ez⟩ (V3.cross ⟨vx, vy, vz⟩ ⟨bx, by', bz⟩)).norm2 -
        (V3.dot ⟨vx, vy, vz⟩ ⟨ex, ey, ez⟩ / U.c) ^ 2)) := by
    rw [Real.sqrt_mul (by positivity), Real.sqrt_sq (by positivity)]; ring
  rw [this]
  congr 1
  have hPg : P = γ * (U.emass * U.c) := by rw [hγ']; field_simp
  rw [hPg, ← v1, ← v2, ← v3]
  simp only [V3.add, V3.cross, V3.dot, V3.norm2]
  field_simp

/-- The hypotheses are met by both unit systems and by a concrete photon. -/
example : siUnits.Pos ∧ normUnits.Pos ∧ (0 : ℝ) < 1 ∧ (⟨1, 0, 0⟩ : V3).norm2 = 1 ∧
    (⟨1, 2, 3⟩ : V3) ≠ V3.zero := by
  refine ⟨siUnits_pos, normUnits_pos, one_pos, by norm_num [V3.norm2], ?_⟩
  intro h
  have := congrArg V3.x h
  norm_num [V3.zero] at this

/-- The photon quantum parameter is not identically zero: a photon crossing an electric field. -/
example : chiPhoton normUnits ⟨1, 0, 0⟩ ⟨0, 1, 0⟩ V3.zero 1 = 1 / normUnits.schwinger := by
  have h1 : (⟨1, 0, 0⟩ : V3).norm = 1 := by simp [V3.norm, V3.norm2]
  unfold chiPhoton
  rw [h1]
  simp [V3.sdiv, V3.dot, V3.sub, V3.smul, V3.add, V3.cross, V3.zero, V3.norm, V3.norm2, Units.lam,
    normUnits]

end Picsar.Props
