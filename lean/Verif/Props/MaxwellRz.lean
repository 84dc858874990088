import Verif.Lemmas.Maxwell
import Verif.Spec.MaxwellGeo
import Mathlib.Tactic.Ring
import Mathlib.Tactic.FieldSimp
import Mathlib.Tactic.LinearCombination
import Mathlib.Tactic.NormNum

/-
C44, C45 in 2D and in cylindrical (r, z) geometry.
-/
namespace Picsar.Props
open Picsar Picsar.Grid Picsar.Maxwell Picsar.Spec

/-- **C44** in 2D. -/
theorem C44_yee_2d (dx dz dt : ℝ) (r : Ranges) (o : Orders) (ho : o.Of r) (σ : Mem) (hm : Margins 0 σ r) :
    ∃ τ, bvec2 (dt / dx) (dt / dz) o σ = .ok τ ∧
      (∀ c, c ≠ .bx → c ≠ .by' → c ≠ .bz → τ c = σ c) ∧
      ∀ j l, InBox r.xlo r.xhi ⟨j, 0, l⟩ → InBox r.xlo r.xhi ⟨j + 1, 0, l⟩ → InBox r.zlo r.zhi ⟨j, 0, l⟩ →
        InBox r.zlo r.zhi ⟨j, 0, l + 1⟩ → divB2 dx dz τ j l = divB2 dx dz σ j l := by
  obtain ⟨mx, my, mz⟩ := hm
  obtain ⟨τ, h1, h2⟩ := three_ok (σ := σ) ho (cx := .bx) (cy := .by') (cz := .bz)
    (rx := .rd .bx 0 0 0 + cst (dt / dz) * (.rd .ey 0 0 1 - .rd .ey 0 0 0))
    (ry := .rd .by' 0 0 0 + cst (dt / dx) * (.rd .ez 1 0 0 - .rd .ez 0 0 0) - cst (dt / dz) * (.rd .ex 0 0 1 - .rd .ex 0 0 0))
    (rz := .rd .bz 0 0 0 - cst (dt / dx) * (.rd .ey 1 0 0 - .rd .ey 0 0 0))
    (by decide) (by decide) (by decide) (by simp) (by simp) (by simp) (by simp) (by simp)
    (fun i hi => by
      refine ⟨?_, margin_in (by norm_num) mx hi _⟩
      simp only [add_safe, sub_safe, mul_safe, cst_safe, rd_safe, true_and]
      refine ⟨?_, ?_, ?_⟩ <;> apply margin_sh mx hi <;> norm_num)
    (fun i hi => by
      refine ⟨?_, margin_in (by norm_num) my hi _⟩
      simp only [add_safe, sub_safe, mul_safe, cst_safe, rd_safe, true_and]
      refine ⟨⟨?_, ?_, ?_⟩, ?_, ?_⟩ <;> apply margin_sh my hi <;> norm_num)
    (fun i hi => by
      refine ⟨?_, margin_in (by norm_num) mz hi _⟩
      simp only [add_safe, sub_safe, mul_safe, cst_safe, rd_safe, true_and]
      refine ⟨?_, ?_, ?_⟩ <;> apply margin_sh mz hi <;> norm_num)
  refine ⟨τ, h1, h2.other, ?_⟩
  intro j l a1 a2 a3 a4
  unfold divB2 at'
  rw [h2.x, h2.x, h2.z, h2.z, if_pos a1, if_pos a2, if_pos a3, if_pos a4]
  simp only [add_den, sub_den, mul_den, cst_den, rd_den, I3.sh, add_zero]
  ring

/-- **C45** in 2D. -/
theorem C45_yee_2d (dx dz dt c mu0 eps0 : ℝ) (hdt : dt ≠ 0) (hc : eps0 * mu0 * c ^ 2 = 1) (r : Ranges) (o : Orders)
    (ho : o.Of r) (σ : Mem) (hm : Margins 0 σ r) :
    ∃ τ, evec2 (mu0 * c ^ 2 * dt) (c ^ 2 * dt / dx) (c ^ 2 * dt / dz) o σ = .ok τ ∧
      (∀ c, c ≠ .ex → c ≠ .ey → c ≠ .ez → τ c = σ c) ∧
      ∀ (rho0 rho1 : ℝ) (j l : ℤ), InBox r.xlo r.xhi ⟨j, 0, l⟩ → InBox r.xlo r.xhi ⟨j - 1, 0, l⟩ →
        InBox r.zlo r.zhi ⟨j, 0, l⟩ → InBox r.zlo r.zhi ⟨j, 0, l - 1⟩ → (rho1 - rho0) / dt + divJ2 dx dz σ j l = 0 →
        divE2 dx dz τ j l - rho1 / eps0 = divE2 dx dz σ j l - rho0 / eps0 := by
  obtain ⟨mx, my, mz⟩ := hm
  obtain ⟨τ, h1, h2⟩ := three_ok (σ := σ) ho (cx := .ex) (cy := .ey) (cz := .ez)
    (rx := .rd .ex 0 0 0 - cst (c ^ 2 * dt / dz) * (.rd .by' 0 0 0 - .rd .by' 0 0 (-1)) - cst (mu0 * c ^ 2 * dt) * .rd .jx 0 0 0)
    (ry := .rd .ey 0 0 0 - cst (c ^ 2 * dt / dx) * (.rd .bz 0 0 0 - .rd .bz (-1) 0 0)
      + cst (c ^ 2 * dt / dz) * (.rd .bx 0 0 0 - .rd .bx 0 0 (-1)) - cst (mu0 * c ^ 2 * dt) * .rd .jy 0 0 0)
    (rz := .rd .ez 0 0 0 + cst (c ^ 2 * dt / dx) * (.rd .by' 0 0 0 - .rd .by' (-1) 0 0) - cst (mu0 * c ^ 2 * dt) * .rd .jz 0 0 0)
    (by decide) (by decide) (by decide) (by simp) (by simp) (by simp) (by simp) (by simp)
    (fun i hi => by
      refine ⟨?_, margin_in (by norm_num) mx hi _⟩
      simp only [add_safe, sub_safe, mul_safe, cst_safe, rd_safe, true_and]
      refine ⟨⟨?_, ?_, ?_⟩, ?_⟩ <;> apply margin_sh mx hi <;> norm_num)
    (fun i hi => by
      refine ⟨?_, margin_in (by norm_num) my hi _⟩
      simp only [add_safe, sub_safe, mul_safe, cst_safe, rd_safe, true_and]
      refine ⟨⟨⟨?_, ?_, ?_⟩, ?_, ?_⟩, ?_⟩ <;> apply margin_sh my hi <;> norm_num)
    (fun i hi => by
      refine ⟨?_, margin_in (by norm_num) mz hi _⟩
      simp only [add_safe, sub_safe, mul_safe, cst_safe, rd_safe, true_and]
      refine ⟨⟨?_, ?_, ?_⟩, ?_⟩ <;> apply margin_sh mz hi <;> norm_num)
  refine ⟨τ, h1, h2.other, ?_⟩
  intro rho0 rho1 j l a1 a2 a3 a4 hcont
  have he : eps0 ≠ 0 := by rintro rfl; simp at hc
  have hJ : (rho1 - rho0) / eps0 = - (mu0 * c ^ 2 * dt) * divJ2 dx dz σ j l := by
    have : rho1 - rho0 = - dt * divJ2 dx dz σ j l := by
      field_simp at hcont
      linarith
    rw [this, div_eq_iff he]
    linear_combination (dt * divJ2 dx dz σ j l) * hc
  have key : divE2 dx dz τ j l = divE2 dx dz σ j l - (mu0 * c ^ 2 * dt) * divJ2 dx dz σ j l := by
    unfold divE2 divJ2 at'
    rw [h2.x, h2.x, h2.z, h2.z, if_pos a1, if_pos a2, if_pos a3, if_pos a4]
    simp only [add_den, sub_den, mul_den, cst_den, rd_den, I3.sh, add_zero, ← sub_eq_add_neg]
    ring
  rw [key]
  rw [sub_div] at hJ
  linarith

/-- **C44** in (r, z) geometry: the cylindrical divergence of B is kept in every updated cell whose centre is not on the axis. -/
theorem C44_yee_rz (dr dz dt rmin : ℝ) (hdr : dr ≠ 0) (r : Ranges) (o : Orders) (ho : o.Of r) (σ : Mem) (hm : Margins 0 σ r) :
    ∃ τ, bvecRz (dt / dr) (dt / dz) rmin dr o σ = .ok τ ∧
      (∀ c, c ≠ .bx → c ≠ .by' → c ≠ .bz → τ c = σ c) ∧
      ∀ j l : ℤ, radius rmin dr (j + 1 / 2) ≠ 0 → InBox r.xlo r.xhi ⟨j, 0, l⟩ → InBox r.xlo r.xhi ⟨j + 1, 0, l⟩ →
        InBox r.zlo r.zhi ⟨j, 0, l⟩ → InBox r.zlo r.zhi ⟨j, 0, l + 1⟩ → divBrz rmin dr dz τ j l = divBrz rmin dr dz σ j l := by
  obtain ⟨mx, my, mz⟩ := hm
  obtain ⟨τ, h1, h2⟩ := three_ok (σ := σ) ho (cx := .bx) (cy := .by') (cz := .bz)
    (rx := .rd .bx 0 0 0 + cst (dt / dz) * (.rd .ey 0 0 1 - .rd .ey 0 0 0))
    (ry := .rd .by' 0 0 0 + cst (dt / dr) * (.rd .ez 1 0 0 - .rd .ez 0 0 0) - cst (dt / dz) * (.rd .ex 0 0 1 - .rd .ex 0 0 0))
    (rz := .rd .bz 0 0 0 - cst (dt / dr) * ((.k fun i => 1 + 0.5 / (rmin / dr + i.j + 0.5)) * .rd .ey 1 0 0
      - (.k fun i => 1 - 0.5 / (rmin / dr + i.j + 0.5)) * .rd .ey 0 0 0))
    (by decide) (by decide) (by decide) (by simp) (by simp) (by simp) (by simp) (by simp)
    (fun i hi => by
      refine ⟨?_, margin_in (by norm_num) mx hi _⟩
      simp only [add_safe, sub_safe, mul_safe, cst_safe, rd_safe, true_and]
      refine ⟨?_, ?_, ?_⟩ <;> apply margin_sh mx hi <;> norm_num)
    (fun i hi => by
      refine ⟨?_, margin_in (by norm_num) my hi _⟩
      simp only [add_safe, sub_safe, mul_safe, cst_safe, rd_safe, true_and]
      refine ⟨⟨?_, ?_, ?_⟩, ?_, ?_⟩ <;> apply margin_sh my hi <;> norm_num)
    (fun i hi => by
      refine ⟨?_, margin_in (by norm_num) mz hi _⟩
      simp only [add_safe, sub_safe, mul_safe, cst_safe, k_safe, rd_safe, true_and]
      refine ⟨?_, ?_, ?_⟩ <;> apply margin_sh mz hi <;> norm_num)
  refine ⟨τ, h1, h2.other, ?_⟩
  intro j l hr a1 a2 a3 a4
  unfold divBrz at'
  rw [h2.x, h2.x, h2.z, h2.z, if_pos a1, if_pos a2, if_pos a3, if_pos a4]
  simp only [add_den, sub_den, mul_den, cst_den, k_den, rd_den, I3.sh, add_zero]
  unfold radius at *
  obtain ⟨ρ, hρ⟩ : ∃ ρ, ρ = rmin / dr + j + 0.5 := ⟨_, rfl⟩
  have hrm : rmin = (ρ - j - 1 / 2) * dr := by
    rw [hρ, sub_mul, sub_mul, add_mul, add_mul, div_mul_cancel₀ _ hdr]
    ring
  rw [← hρ]
  clear hρ
  rw [hrm] at hr ⊢
  have hρ0 : ρ ≠ 0 := by
    rintro rfl
    apply hr
    ring
  have e0 : (ρ - j - 1 / 2) * dr + (j + 1 / 2) * dr = ρ * dr := by ring
  have e1 : (ρ - j - 1 / 2) * dr + (j + 1) * dr = (ρ + 1 / 2) * dr := by ring
  have e2 : (ρ - j - 1 / 2) * dr + j * dr = (ρ - 1 / 2) * dr := by ring
  rw [e0, e1, e2]
  field_simp
  ring

/-- **C45** in (r, z) geometry, off the axis and on the axis. -/
theorem C45_yee_rz (dr dz dt rmin c mu0 eps0 : ℝ) (hdr : dr ≠ 0) (hdz : dz ≠ 0) (hdt : dt ≠ 0) (hc : eps0 * mu0 * c ^ 2 = 1)
    (r : Ranges) (o : Orders) (ho : o.Of r) (σ : Mem) (hm : Margins 0 σ r) :
    ∃ τ, evecRz (mu0 * c ^ 2 * dt) (c ^ 2 * dt / dr) (c ^ 2 * dt / dz) rmin dr o σ = .ok τ ∧
      (∀ c, c ≠ .ex → c ≠ .ey → c ≠ .ez → τ c = σ c) ∧
      (∀ (rho0 rho1 : ℝ) (j l : ℤ), radius rmin dr j ≠ 0 → InBox r.xlo r.xhi ⟨j, 0, l⟩ → InBox r.xlo r.xhi ⟨j - 1, 0, l⟩ →
        InBox r.zlo r.zhi ⟨j, 0, l⟩ → InBox r.zlo r.zhi ⟨j, 0, l - 1⟩ →
        (rho1 - rho0) / dt + divNodeRz .jx .jz rmin dr dz σ j l = 0 →
        divNodeRz .ex .ez rmin dr dz τ j l - rho1 / eps0 = divNodeRz .ex .ez rmin dr dz σ j l - rho0 / eps0) ∧
      (∀ (rho0 rho1 : ℝ) (l : ℤ), rmin = 0 → InBox r.xlo r.xhi ⟨0, 0, l⟩ → InBox r.zlo r.zhi ⟨0, 0, l⟩ →
        InBox r.zlo r.zhi ⟨0, 0, l - 1⟩ → (rho1 - rho0) / dt + divAxisRz .jx .jz dr dz σ l = 0 →
        divAxisRz .ex .ez dr dz τ l - rho1 / eps0 = divAxisRz .ex .ez dr dz σ l - rho0 / eps0) := by
  obtain ⟨mx, my, mz⟩ := hm
  obtain ⟨τ, h1, h2⟩ := three_ok (σ := σ) ho (cx := .ex) (cy := .ey) (cz := .ez)
    (rx := .rd .ex 0 0 0 - cst (c ^ 2 * dt / dz) * (.rd .by' 0 0 0 - .rd .by' 0 0 (-1)) - cst (mu0 * c ^ 2 * dt) * .rd .jx 0 0 0)
    (ry := .cond (offAxis rmin)
      (.rd .ey 0 0 0 - cst (c ^ 2 * dt / dr) * (.rd .bz 0 0 0 - .rd .bz (-1) 0 0)
        + cst (c ^ 2 * dt / dz) * (.rd .bx 0 0 0 - .rd .bx 0 0 (-1)) - cst (mu0 * c ^ 2 * dt) * .rd .jy 0 0 0)
      (.rd .ey 0 0 0))
    (rz := .cond (offAxis rmin)
      (.rd .ez 0 0 0 + cst (c ^ 2 * dt / dr) * ((.k fun i => 1 + 0.5 / (rmin / dr + i.j)) * .rd .by' 0 0 0
        - (.k fun i => 1 - 0.5 / (rmin / dr + i.j)) * .rd .by' (-1) 0 0) - cst (mu0 * c ^ 2 * dt) * .rd .jz 0 0 0)
      (.rd .ez 0 0 0 + cst 4 * cst (c ^ 2 * dt / dr) * .rd .by' 0 0 0 - cst (mu0 * c ^ 2 * dt) * .rd .jz 0 0 0))
    (by decide) (by decide) (by decide) (by simp) (by simp) (by simp) (by simp) (by simp)
    (fun i hi => by
      refine ⟨?_, margin_in (by norm_num) mx hi _⟩
      simp only [add_safe, sub_safe, mul_safe, cst_safe, rd_safe, true_and]
      refine ⟨⟨?_, ?_, ?_⟩, ?_⟩ <;> apply margin_sh mx hi <;> norm_num)
    (fun i hi => by
      refine ⟨?_, margin_in (by norm_num) my hi _⟩
      simp only [cond_safe, add_safe, sub_safe, mul_safe, cst_safe, rd_safe, true_and]
      split_ifs
      · refine ⟨⟨⟨?_, ?_, ?_⟩, ?_, ?_⟩, ?_⟩ <;> apply margin_sh my hi <;> norm_num
      · apply margin_sh my hi <;> norm_num)
    (fun i hi => by
      refine ⟨?_, margin_in (by norm_num) mz hi _⟩
      simp only [cond_safe, add_safe, sub_safe, mul_safe, cst_safe, k_safe, rd_safe, true_and]
      split_ifs
      · refine ⟨⟨?_, ?_, ?_⟩, ?_⟩ <;> apply margin_sh mz hi <;> norm_num
      · refine ⟨⟨?_, ?_⟩, ?_⟩ <;> apply margin_sh mz hi <;> norm_num)
  have he : eps0 ≠ 0 := by rintro rfl; simp at hc
  have hJ : ∀ (rho0 rho1 d : ℝ), (rho1 - rho0) / dt + d = 0 → (rho1 - rho0) / eps0 = - (mu0 * c ^ 2 * dt) * d := by
    intro rho0 rho1 d hcont
    have : rho1 - rho0 = - dt * d := by
      field_simp at hcont
      linarith
    rw [this, div_eq_iff he]
    linear_combination (dt * d) * hc
  refine ⟨τ, h1, h2.other, ?_, ?_⟩
  · intro rho0 rho1 j l hr a1 a2 a3 a4 hcont
    have hoff : ∀ l' : ℤ, offAxis rmin ⟨j, 0, l'⟩ = true := by
      intro l'
      unfold offAxis
      simp only [decide_eq_true_eq]
      by_contra hcon
      push Not at hcon
      apply hr
      unfold radius
      rw [hcon.1, hcon.2]
      simp
    have key : divNodeRz .ex .ez rmin dr dz τ j l = divNodeRz .ex .ez rmin dr dz σ j l
        - (mu0 * c ^ 2 * dt) * divNodeRz .jx .jz rmin dr dz σ j l := by
      unfold divNodeRz at'
      rw [h2.x, h2.x, h2.z, h2.z, if_pos a1, if_pos a2, if_pos a3, if_pos a4]
      simp only [cond_den, hoff, if_true, add_den, sub_den, mul_den, cst_den, k_den, rd_den, I3.sh, add_zero, ← sub_eq_add_neg]
      unfold radius at *
      obtain ⟨ρ, hρ⟩ : ∃ ρ, ρ = rmin / dr + j := ⟨_, rfl⟩
      have hrm : rmin = (ρ - j) * dr := by
        rw [hρ, sub_mul, add_mul, div_mul_cancel₀ _ hdr]
        ring
      rw [← hρ]
      clear hρ
      rw [hrm] at hr ⊢
      have hρ0 : ρ ≠ 0 := by
        rintro rfl
        apply hr
        ring
      have e0 : (ρ - j) * dr + j * dr = ρ * dr := by ring
      have e1 : (ρ - j) * dr + (j + 1 / 2) * dr = (ρ + 1 / 2) * dr := by ring
      have e2 : (ρ - j) * dr + (j - 1 / 2) * dr = (ρ - 1 / 2) * dr := by ring
      rw [e0, e1, e2]
      field_simp
      ring
    rw [key]
    have := hJ _ _ _ hcont
    rw [sub_div] at this
    linarith
  · intro rho0 rho1 l h0 a1 a3 a4 hcont
    have hon : ∀ l' : ℤ, offAxis rmin ⟨0, 0, l'⟩ = false := by
      intro l'
      unfold offAxis
      simp [h0]
    have key : divAxisRz .ex .ez dr dz τ l = divAxisRz .ex .ez dr dz σ l
        - (mu0 * c ^ 2 * dt) * divAxisRz .jx .jz dr dz σ l := by
      unfold divAxisRz at'
      rw [h2.x, h2.z, h2.z, if_pos a1, if_pos a3, if_pos a4]
      simp only [cond_den, hon, add_den, sub_den, mul_den, cst_den, rd_den, I3.sh, add_zero, zero_add,
        ← sub_eq_add_neg, Bool.false_eq_true, if_false]
      field_simp
      ring
    rw [key]
    have := hJ _ _ _ hcont
    rw [sub_div] at this
    linarith

/-- Concrete case: a 4 × 4 grid with 2 guard cells; arrays are flat in the second direction. -/
example : Margins 0 (fun _ => ⟨⟨-2, 0, -2⟩, ⟨6, 0, 6⟩, fun i => i.j * i.l⟩) (uniform ⟨0, 0, 0⟩ ⟨4, 0, 4⟩) ∧
    InBox (uniform ⟨0, 0, 0⟩ ⟨4, 0, 4⟩).xlo (uniform ⟨0, 0, 0⟩ ⟨4, 0, 4⟩).xhi ⟨1, 0, 1⟩ ∧
    radius 0 (1 / 10) (1 + 1 / 2) ≠ 0 := by
  refine ⟨⟨fun c => ?_, fun c => ?_, fun c => ?_⟩, ?_, ?_⟩
  · simp [uniform]
  · simp [uniform]
  · simp [uniform]
  · unfold uniform InBox; decide
  · unfold radius; norm_num

end Picsar.Props
