import Verif.Spec.DivDiag
import Verif.Lemmas.Energy
import Verif.Lemmas.Maxwell

/-
Lemmas about the divergence diagnostics.
-/
namespace Picsar.DivDiag
open Picsar Picsar.Grid Picsar.Energy Picsar.Spec

theorem calcFieldDiv_ok {cx cy cz : Comp} (h1 : cx ≠ .f) (h2 : cy ≠ .f) (h3 : cz ≠ .f) {dx dy dz : ℝ} (hx : dx ≠ 0) (hy : dy ≠ 0) (hz : dz ≠ 0)
    {n g : I3} (hg : 1 ≤ g.j ∧ 1 ≤ g.k ∧ 1 ≤ g.l) {σ : Mem} (hd : Declared σ n g) {order : List I3} (ho : order.Perm (divRange n)) :
    calcFieldDiv cx cy cz dx dy dz order σ = .ok (after σ .f (divEx cx cy cz (1 / dx) (1 / dy) (1 / dz)) ⟨0, 0, 0⟩ n) := by
  unfold calcFieldDiv
  rw [if_neg (by simp [hx, hy, hz])]
  refine loop_box ?_ ho fun i hi => ?_
  · simp [divEx, h1, h2, h3]
  · unfold InBox at hi
    simp only [] at hi
    have hin : ∀ c a b d, -1 ≤ a → a ≤ 0 → -1 ≤ b → b ≤ 0 → -1 ≤ d → d ≤ 0 → InBox (σ c).lo (σ c).hi (i.sh a b d) := by
      intro c a b d a1 a2 b1 b2 d1 d2
      rw [(hd c).1, (hd c).2]
      unfold InBox I3.sh
      simp only []
      omega
    refine ⟨?_, ?_⟩
    · simp only [divEx, add_safe, sub_safe, mul_safe, cst_safe, rd_safe, true_and]
      refine ⟨⟨⟨?_, ?_⟩, ?_, ?_⟩, ?_, ?_⟩ <;> apply hin <;> norm_num
    · rw [(hd .f).1, (hd .f).2]
      unfold InBox
      simp only []
      omega

theorem div_values (dx dy dz : ℝ) (hx : dx ≠ 0) (hy : dy ≠ 0) (hz : dz ≠ 0) (n g : I3) (hg : 1 ≤ g.j ∧ 1 ≤ g.k ∧ 1 ≤ g.l) (σ : Mem)
    (hd : Declared σ n g) (order : List I3) (ho : order.Perm (divRange n)) :
    (∃ τ, calcFieldDiv .ex .ey .ez dx dy dz order σ = .ok τ ∧ (∀ c, c ≠ .f → τ c = σ c) ∧
      ∀ i, (τ .f).val i = if InBox ⟨0, 0, 0⟩ n i then divE dx dy dz σ i.j i.k i.l else (σ .f).val i) ∧
    ∃ τ, calcFieldDiv .jx .jy .jz dx dy dz order σ = .ok τ ∧ (∀ c, c ≠ .f → τ c = σ c) ∧
      ∀ i, (τ .f).val i = if InBox ⟨0, 0, 0⟩ n i then divJ dx dy dz σ i.j i.k i.l else (σ .f).val i := by
  refine ⟨⟨_, calcFieldDiv_ok (by decide) (by decide) (by decide) hx hy hz hg hd ho, fun c hc => after_of_ne _ _ _ _ hc, fun i => ?_⟩,
    _, calcFieldDiv_ok (by decide) (by decide) (by decide) hx hy hz hg hd ho, fun c hc => after_of_ne _ _ _ _ hc, fun i => ?_⟩
  all_goals
    rw [after_val]
    congr 1
    simp only [divEx, add_den, sub_den, mul_den, cst_den, rd_den, I3.sh, divE, divJ, at', add_zero]
    rw [← sub_eq_add_neg, ← sub_eq_add_neg, ← sub_eq_add_neg]
    ring

theorem locNorm_ok {eps0 : ℝ} {dive rho : Arr} {n : I3} (h1 : ∀ i, InBox ⟨1, 1, 1⟩ n i → InBox dive.lo dive.hi i)
    (h2 : ∀ i, InBox ⟨1, 1, 1⟩ n i → InBox rho.lo rho.hi i) :
    locNormDivErho eps0 dive rho n = .ok (boxSum ⟨1, 1, 1⟩ n fun i => (dive.val i * eps0 - rho.val i) ^ 2) := by
  unfold locNormDivErho
  rw [foldlM_pure (h := fun i => (dive.val i * eps0 - rho.val i) ^ 2), zero_add, box_sum]
  intro i hi s
  have hi := mem_box.mp hi
  have e1 : dive.get i = .ok (dive.val i) := if_pos (h1 i hi)
  have e2 : rho.get i = .ok (rho.val i) := if_pos (h2 i hi)
  rw [e1, e2]
  rfl

theorem gauss_local {eps0 dx dy dz : ℝ} (hx : dx ≠ 0) (hy : dy ≠ 0) (hz : dz ≠ 0) {p : Proc} {g : I3} (hg : 1 ≤ g.j ∧ 1 ≤ g.k ∧ 1 ≤ g.l)
    (hd : Declared p.σ p.n g) (hr : p.rho.lo = ⟨-g.j, -g.k, -g.l⟩ ∧ p.rho.hi = ⟨p.n.j + g.j, p.n.k + g.k, p.n.l + g.l⟩)
    (ho : p.order.Perm (divRange p.n)) :
    p.gauss eps0 dx dy dz = .ok (boxSum ⟨1, 1, 1⟩ p.n fun i => (divE dx dy dz p.σ i.j i.k i.l * eps0 - p.rho.val i) ^ 2) := by
  obtain ⟨⟨τ, e, -, h⟩, -⟩ := div_values dx dy dz hx hy hz p.n g hg p.σ hd p.order ho
  have hb : (τ .f).lo = (p.σ .f).lo ∧ (τ .f).hi = (p.σ .f).hi := by
    have e' := calcFieldDiv_ok (cx := .ex) (cy := .ey) (cz := .ez) (by decide) (by decide) (by decide) hx hy hz hg hd ho
    rw [e] at e'
    rw [Except.ok.inj e']
    exact after_bounds _ _ _ _ _ _
  unfold Proc.gauss
  rw [e, except_bind_ok, locNorm_ok]
  · congr 1
    apply boxSum_congr
    intro i hi
    have hi0 : InBox ⟨0, 0, 0⟩ p.n i := by unfold InBox at *; simp only [] at *; omega
    rw [h i, if_pos hi0]
  · intro i hi
    rw [hb.1, hb.2, (hd .f).1, (hd .f).2]
    unfold InBox at *
    simp only [] at *
    omega
  · intro i hi
    rw [hr.1, hr.2]
    unfold InBox at *
    simp only [] at *
    omega

theorem gauss_proc {eps0 dx dy dz : ℝ} (hx : dx ≠ 0) (hy : dy ≠ 0) (hz : dz ≠ 0) {p : Proc} {g : I3} (hg : 1 ≤ g.j ∧ 1 ≤ g.k ∧ 1 ≤ g.l)
    (hd : Declared p.σ p.n g) (hr : p.rho.lo = ⟨-g.j, -g.k, -g.l⟩ ∧ p.rho.hi = ⟨p.n.j + g.j, p.n.k + g.k, p.n.l + g.l⟩)
    (ho : p.order.Perm (divRange p.n)) {lo : I3} {F : Comp → I3 → ℝ} {R : I3 → ℝ} (hF : HoldsGlobal p lo F R) :
    p.gauss eps0 dx dy dz = .ok (boxSum ⟨lo.j + 1, lo.k + 1, lo.l + 1⟩ ⟨lo.j + p.n.j, lo.k + p.n.k, lo.l + p.n.l⟩ fun i =>
      (eps0 * divG dx dy dz F i - R i) ^ 2) := by
  rw [gauss_local hx hy hz hg hd hr ho]
  congr 1
  have s := boxSum_shift ⟨1, 1, 1⟩ p.n lo fun i => (eps0 * divG dx dy dz F i - R i) ^ 2
  rw [← s]
  apply boxSum_congr
  intro i hi
  have hp : ∀ a b d, 0 ≤ a → a ≤ 1 → 0 ≤ b → b ≤ 1 → 0 ≤ d → d ≤ 1 → InBox ⟨0, 0, 0⟩ p.n ⟨i.j - a, i.k - b, i.l - d⟩ := by
    intro a b d a1 a2 b1 b2 d1 d2
    unfold InBox at *
    simp only [] at *
    omega
  have q0 : (⟨i.j, i.k, i.l⟩ : I3) = i := rfl
  have hi0 := hp 0 0 0 le_rfl (by norm_num) le_rfl (by norm_num) le_rfl (by norm_num)
  have q1 := hp 1 0 0 (by norm_num) le_rfl le_rfl (by norm_num) le_rfl (by norm_num)
  have q2 := hp 0 1 0 le_rfl (by norm_num) (by norm_num) le_rfl le_rfl (by norm_num)
  have q3 := hp 0 0 1 le_rfl (by norm_num) le_rfl (by norm_num) (by norm_num) le_rfl
  simp only [sub_zero] at hi0 q1 q2 q3
  rw [q0] at hi0
  rw [(hF i hi0).2]
  unfold divE at' divG
  rw [(hF _ q1).1, (hF _ q2).1, (hF _ q3).1, q0, (hF _ hi0).1, (hF _ hi0).1, (hF _ hi0).1]
  simp only [add_sub_assoc]
  ring

end Picsar.DivDiag
