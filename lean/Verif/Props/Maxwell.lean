import Verif.Lemmas.Maxwell
import Mathlib.Tactic.Ring
import Mathlib.Tactic.FieldSimp
import Mathlib.Tactic.LinearCombination
import Mathlib.Tactic.NormNum

/-
C44, C45: the finite-difference Maxwell solvers keep the divergence constraints.
-/
namespace Picsar.Props
open Picsar Picsar.Grid Picsar.Maxwell Picsar.Spec

/-- Specification of one 3D Yee magnetic push. -/
theorem bvec3_ok {dtsdx dtsdy dtsdz : ℝ} {r : Ranges} {o : Orders} (ho : o.Of r) {σ : Mem} (hm : Margins 1 σ r) :
    ∃ τ, bvec3 dtsdx dtsdy dtsdz o σ = .ok τ ∧
      ThreeRes .bx .by' .bz (bx3 dtsdy dtsdz) (by3 dtsdx dtsdz) (bz3 dtsdx dtsdy) r σ τ := by
  obtain ⟨mx, my, mz⟩ := hm
  apply three_ok ho (by decide) (by decide) (by decide)
  · simp [bx3]
  · simp [by3]
  · simp [bz3]
  · simp [by3]
  · simp [bz3]
  · intro i hi
    refine ⟨?_, margin_in (by norm_num) mx hi _⟩
    simp only [bx3, add_safe, sub_safe, mul_safe, cst_safe, rd_safe, true_and]
    refine ⟨⟨?_, ?_, ?_⟩, ?_, ?_⟩ <;> apply margin_sh mx hi <;> norm_num
  · intro i hi
    refine ⟨?_, margin_in (by norm_num) my hi _⟩
    simp only [by3, add_safe, sub_safe, mul_safe, cst_safe, rd_safe, true_and]
    refine ⟨⟨?_, ?_, ?_⟩, ?_, ?_⟩ <;> apply margin_sh my hi <;> norm_num
  · intro i hi
    refine ⟨?_, margin_in (by norm_num) mz hi _⟩
    simp only [bz3, add_safe, sub_safe, mul_safe, cst_safe, rd_safe, true_and]
    refine ⟨⟨?_, ?_, ?_⟩, ?_, ?_⟩ <;> apply margin_sh mz hi <;> norm_num

theorem evec3_ok {mudt dtsdx dtsdy dtsdz : ℝ} {r : Ranges} {o : Orders} (ho : o.Of r) {σ : Mem} (hm : Margins 1 σ r) :
    ∃ τ, evec3 mudt dtsdx dtsdy dtsdz o σ = .ok τ ∧
      ThreeRes .ex .ey .ez (ex3 mudt dtsdy dtsdz) (ey3 mudt dtsdx dtsdz) (ez3 mudt dtsdx dtsdy) r σ τ := by
  obtain ⟨mx, my, mz⟩ := hm
  apply three_ok ho (by decide) (by decide) (by decide)
  · simp [ex3]
  · simp [ey3]
  · simp [ez3]
  · simp [ey3]
  · simp [ez3]
  · intro i hi
    refine ⟨?_, margin_in (by norm_num) mx hi _⟩
    simp only [ex3, add_safe, sub_safe, mul_safe, cst_safe, rd_safe, true_and]
    refine ⟨⟨⟨?_, ?_, ?_⟩, ?_, ?_⟩, ?_⟩ <;> apply margin_sh mx hi <;> norm_num
  · intro i hi
    refine ⟨?_, margin_in (by norm_num) my hi _⟩
    simp only [ey3, add_safe, sub_safe, mul_safe, cst_safe, rd_safe, true_and]
    refine ⟨⟨⟨?_, ?_, ?_⟩, ?_, ?_⟩, ?_⟩ <;> apply margin_sh my hi <;> norm_num
  · intro i hi
    refine ⟨?_, margin_in (by norm_num) mz hi _⟩
    simp only [ez3, add_safe, sub_safe, mul_safe, cst_safe, rd_safe, true_and]
    refine ⟨⟨⟨?_, ?_, ?_⟩, ?_, ?_⟩, ?_⟩ <;> apply margin_sh mz hi <;> norm_num

/-! ### C44 -/

/-- **C44** One 3D Yee magnetic push: for every execution order of its parallel loops it stays inside the arrays, changes
nothing but B, and keeps the discrete divergence of B in every cell whose faces it updates. -/
theorem C44_yee_3d (dx dy dz dt : ℝ) (r : Ranges) (o : Orders) (ho : o.Of r) (σ : Mem) (hm : Margins 1 σ r) :
    ∃ τ, bvec3 (dt / dx) (dt / dy) (dt / dz) o σ = .ok τ ∧
      (∀ c, c ≠ .bx → c ≠ .by' → c ≠ .bz → τ c = σ c) ∧
      ∀ j k l, CellUpdated r j k l → divB dx dy dz τ j k l = divB dx dy dz σ j k l := by
  obtain ⟨τ, h1, h2⟩ := bvec3_ok ho hm
  refine ⟨τ, h1, h2.other, ?_⟩
  rintro j k l ⟨a1, a2, a3, a4, a5, a6⟩
  unfold divB at'
  rw [h2.x, h2.x, h2.y, h2.y, h2.z, h2.z, if_pos a1, if_pos a2, if_pos a3, if_pos a4, if_pos a5, if_pos a6]
  simp only [bx3, by3, bz3, add_den, sub_den, mul_den, cst_den, rd_den, I3.sh, add_zero]
  ring

/-- **C44** Any history of magnetic pushes, electric pushes and arbitrary other changes of E and of the currents: no fault, and
the divergence of B never changes in the updated cells. -/
theorem C44_history (dx dy dz : ℝ) (r : Ranges) (ss : List FieldStep) (hs : ∀ s ∈ ss, s.Legal r) (σ : Mem)
    (hm : Margins 1 σ r) :
    ∃ τ, runSteps dx dy dz ss σ = .ok τ ∧
      ∀ j k l, CellUpdated r j k l → divB dx dy dz τ j k l = divB dx dy dz σ j k l := by
  have marg : ∀ τ : Mem, (∀ c, (τ c).lo = (σ c).lo ∧ (τ c).hi = (σ c).hi) → Margins 1 τ r := by
    intro τ hb
    unfold Margins Margin at *
    simpa only [fun c => (hb c).1, fun c => (hb c).2] using hm
  suffices H : ∀ (ss : List FieldStep), (∀ s ∈ ss, s.Legal r) → ∀ τ : Mem,
      (∀ c, (τ c).lo = (σ c).lo ∧ (τ c).hi = (σ c).hi) →
      ∃ τ', runSteps dx dy dz ss τ = .ok τ' ∧
        ∀ j k l, CellUpdated r j k l → divB dx dy dz τ' j k l = divB dx dy dz τ j k l from
    H ss hs σ fun c => ⟨rfl, rfl⟩
  intro ss
  induction ss with
  | nil => intro _ τ _; exact ⟨τ, rfl, fun _ _ _ _ => rfl⟩
  | cons s ss ih =>
    intro hs τ hb
    have hl := hs s (by simp)
    have step : ∃ τ1, s.run dx dy dz τ = .ok τ1 ∧ (∀ c, (τ1 c).lo = (σ c).lo ∧ (τ1 c).hi = (σ c).hi) ∧
        ∀ j k l, CellUpdated r j k l → divB dx dy dz τ1 j k l = divB dx dy dz τ j k l := by
      cases s with
      | pushB dt o =>
        obtain ⟨τ1, h1, h2⟩ := bvec3_ok (dtsdx := dt / dx) (dtsdy := dt / dy) (dtsdz := dt / dz) hl (marg τ hb)
        obtain ⟨τ1', h1', _, h3⟩ := C44_yee_3d dx dy dz dt r o hl τ (marg τ hb)
        have : τ1' = τ1 := Except.ok.inj (h1'.symm.trans h1)
        subst this
        exact ⟨τ1', h1, fun c => ⟨(h2.bounds c).1.trans (hb c).1, (h2.bounds c).2.trans (hb c).2⟩, h3⟩
      | pushE mudt c2 dt o =>
        obtain ⟨τ1, h1, h2⟩ := evec3_ok (mudt := mudt) (dtsdx := c2 * dt / dx) (dtsdy := c2 * dt / dy)
          (dtsdz := c2 * dt / dz) hl (marg τ hb)
        refine ⟨τ1, h1, fun c => ⟨(h2.bounds c).1.trans (hb c).1, (h2.bounds c).2.trans (hb c).2⟩, ?_⟩
        intro j k l _
        unfold divB at'
        rw [h2.other .bx (by decide) (by decide) (by decide), h2.other .by' (by decide) (by decide) (by decide),
          h2.other .bz (by decide) (by decide) (by decide)]
      | other new =>
        obtain ⟨n1, n2, n3⟩ := hl
        refine ⟨_, rfl, ?_, ?_⟩
        · intro c
          unfold withVals
          cases new c <;> exact hb c
        · intro j k l _
          unfold divB at' withVals
          rw [n1, n2, n3]
    obtain ⟨τ1, s1, s2, s3⟩ := step
    obtain ⟨τ', t1, t2⟩ := ih (fun s hs' => hs s (by simp [hs'])) τ1 s2
    refine ⟨τ', ?_, fun j k l h => (t2 j k l h).trans (s3 j k l h)⟩
    simp only [runSteps, s1, except_bind_ok]
    exact t1

/-- Concrete case: a grid of 4³ cells with 2 guard cells. -/
def demoMem : Mem := fun _ => ⟨⟨-2, -2, -2⟩, ⟨6, 6, 6⟩, fun i => i.j * i.k * i.l⟩

/-- The ranges of the solver manager with `nxs = 0`. -/
def demoRange : Ranges := uniform ⟨0, 0, 0⟩ ⟨4, 4, 4⟩

example : Margins 1 demoMem demoRange ∧ CellUpdated demoRange 1 2 3 ∧
    (⟨box ⟨0, 0, 0⟩ ⟨4, 4, 4⟩, box ⟨0, 0, 0⟩ ⟨4, 4, 4⟩, (box ⟨0, 0, 0⟩ ⟨4, 4, 4⟩).reverse⟩ : Orders).Of demoRange := by
  refine ⟨⟨fun c => ?_, fun c => ?_, fun c => ?_⟩, ?_, List.Perm.refl _, List.Perm.refl _, List.reverse_perm _⟩
  · simp [demoMem, demoRange, uniform]
  · simp [demoMem, demoRange, uniform]
  · simp [demoMem, demoRange, uniform]
  · unfold CellUpdated demoRange uniform InBox
    decide

/-! ### C45 -/

/-- **C45** One 3D Yee electric push with the coefficients of the solver manager (`mudt = c² mu0 dt`, `dtsdx = c² dt/dx`): if
the deposited current satisfies the discrete continuity equation for the charge densities before and after, then
`div E - rho/eps0` is unchanged at every node whose edges are updated. -/
theorem C45_yee_3d (dx dy dz dt c mu0 eps0 : ℝ) (hdt : dt ≠ 0) (hc : eps0 * mu0 * c ^ 2 = 1) (r : Ranges) (o : Orders)
    (ho : o.Of r) (σ : Mem) (hm : Margins 1 σ r) :
    ∃ τ, evec3 (c ^ 2 * mu0 * dt) (c ^ 2 * dt / dx) (c ^ 2 * dt / dy) (c ^ 2 * dt / dz) o σ = .ok τ ∧
      (∀ c, c ≠ .ex → c ≠ .ey → c ≠ .ez → τ c = σ c) ∧
      ∀ (rho0 rho1 : ℝ) (j k l : ℤ), NodeUpdated r j k l → (rho1 - rho0) / dt + divJ dx dy dz σ j k l = 0 →
        divE dx dy dz τ j k l - rho1 / eps0 = divE dx dy dz σ j k l - rho0 / eps0 := by
  obtain ⟨τ, h1, h2⟩ := evec3_ok (mudt := c ^ 2 * mu0 * dt) (dtsdx := c ^ 2 * dt / dx) (dtsdy := c ^ 2 * dt / dy)
    (dtsdz := c ^ 2 * dt / dz) ho hm
  refine ⟨τ, h1, h2.other, ?_⟩
  rintro rho0 rho1 j k l ⟨a1, a2, a3, a4, a5, a6⟩ hcont
  have he : eps0 ≠ 0 := by rintro rfl; simp at hc
  have hJ : (rho1 - rho0) / eps0 = - (c ^ 2 * mu0 * dt) * divJ dx dy dz σ j k l := by
    have : rho1 - rho0 = - dt * divJ dx dy dz σ j k l := by
      field_simp at hcont
      linarith
    rw [this, div_eq_iff he]
    linear_combination (dt * divJ dx dy dz σ j k l) * hc
  have key : divE dx dy dz τ j k l = divE dx dy dz σ j k l - (c ^ 2 * mu0 * dt) * divJ dx dy dz σ j k l := by
    unfold divE divJ at'
    rw [h2.x, h2.x, h2.y, h2.y, h2.z, h2.z, if_pos a1, if_pos a2, if_pos a3, if_pos a4, if_pos a5, if_pos a6]
    simp only [ex3, ey3, ez3, add_den, sub_den, mul_den, cst_den, rd_den, I3.sh, add_zero, ← sub_eq_add_neg]
    ring
  rw [key]
  rw [sub_div] at hJ
  linarith

example : ∃ (c mu0 eps0 : ℝ), eps0 * mu0 * c ^ 2 = 1 ∧ NodeUpdated demoRange 2 2 2 := by
  refine ⟨2, 1 / 2, 1 / 2, by norm_num, ?_⟩
  unfold NodeUpdated demoRange uniform InBox
  decide

end Picsar.Props
