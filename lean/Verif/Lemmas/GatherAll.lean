import Verif.Lemmas.GatherDefault

namespace Picsar.Gather
open Picsar Picsar.Grid Picsar.Deposition Picsar.Spec

/-! ### The weighted sum as a sum over the whole array -/

/-- In 3D the weighted sum is the sum, over all the points of the array, of the value times the product of the shape factors. -/
theorem gsum_spline {o : Opts} (ho : Orders o) (h3 : o.d2 = false) {N g : I3} {p : Pos} (a : I3 → ℝ) (q : Comp)
    (hx : 0 ≤ p.x ∧ p.x < N.j ∧ guardsFor o.nx ≤ g.j) (hy : 0 ≤ p.y ∧ p.y < N.k ∧ guardsFor o.ny ≤ g.k)
    (hz : 0 ≤ p.z ∧ p.z < N.l ∧ guardsFor o.nz ≤ g.l) :
    gsum o a q p = ∑ l ∈ Finset.Icc (-g.l) (N.l + g.l), ∑ k ∈ Finset.Icc (-g.k) (N.k + g.k), ∑ j ∈ Finset.Icc (-g.j) (N.j + g.j),
      spline (orderAlong o.nx o.lower q 0) (p.x - samplePos o.nodal q 0 j) *
        spline (orderAlong o.ny o.lower q 1) (p.y - samplePos o.nodal q 1 k) *
        spline (orderAlong o.nz o.lower q 2) (p.z - samplePos o.nodal q 2 l) * a ⟨j, k, l⟩ := by
  obtain ⟨e1, e2, e3⟩ := off_stag o q
  have hoy : Order o.ny := ho.y.resolve_left (by simp [h3])
  have sx := axis_spline (c := o.cx) ho.x (stag q).1 p.x (axis_in (c := o.cx) ho.x _ hx.1 hx.2.1 hx.2.2)
  have sy := axis_spline (c := o.cy) hoy (stag q).2.1 p.y (axis_in (c := o.cy) hoy _ hy.1 hy.2.1 hy.2.2)
  have sz := axis_spline (c := o.cz) ho.z (stag q).2.2 p.z (axis_in (c := o.cz) ho.z _ hz.1 hz.2.1 hz.2.2)
  have ox : orderAlong o.nx o.lower q 0 = if o.cx.lower = true ∧ (stag q).1 = true then o.cx.n - 1 else o.cx.n := by
    unfold orderAlong Opts.cx; cases q <;> rfl
  have oy : orderAlong o.ny o.lower q 1 = if o.cy.lower = true ∧ (stag q).2.1 = true then o.cy.n - 1 else o.cy.n := by
    unfold orderAlong Opts.cy; cases q <;> rfl
  have oz : orderAlong o.nz o.lower q 2 = if o.cz.lower = true ∧ (stag q).2.2 = true then o.cz.n - 1 else o.cz.n := by
    unfold orderAlong Opts.cz; cases q <;> rfl
  simp only [e1, e2, e3, ox, oy, oz]
  have R : ∀ (l k : ℤ), ∑ j ∈ Finset.Icc (-g.j) (N.j + g.j),
      spline (if o.cx.lower = true ∧ (stag q).1 = true then o.cx.n - 1 else o.cx.n) (p.x - (j + off o.cx (stag q).1)) *
        spline (if o.cy.lower = true ∧ (stag q).2.1 = true then o.cy.n - 1 else o.cy.n) (p.y - (k + off o.cy (stag q).2.1)) *
        spline (if o.cz.lower = true ∧ (stag q).2.2 = true then o.cz.n - 1 else o.cz.n) (p.z - (l + off o.cz (stag q).2.2)) * a ⟨j, k, l⟩ =
      spline (if o.cz.lower = true ∧ (stag q).2.2 = true then o.cz.n - 1 else o.cz.n) (p.z - (l + off o.cz (stag q).2.2)) *
      (spline (if o.cy.lower = true ∧ (stag q).2.1 = true then o.cy.n - 1 else o.cy.n) (p.y - (k + off o.cy (stag q).2.1)) *
        ((axisWts o.cx (stag q).1 p.x).map fun w => w.2 * a ⟨base o.cx (stag q).1 p.x + w.1, k, l⟩).sum) := by
    intro l k
    rw [← sx fun j => a ⟨j, k, l⟩, Finset.mul_sum, Finset.mul_sum]
    refine Finset.sum_congr rfl fun j _ => ?_
    ring
  simp only [R]
  simp only [← Finset.mul_sum]
  rw [sz fun l => ∑ k ∈ Finset.Icc (-g.k) (N.k + g.k),
    spline (if o.cy.lower = true ∧ (stag q).2.1 = true then o.cy.n - 1 else o.cy.n) (p.y - (k + off o.cy (stag q).2.1)) *
        ((axisWts o.cx (stag q).1 p.x).map fun w => w.2 * a ⟨base o.cx (stag q).1 p.x + w.1, k, l⟩).sum]
  unfold gsum terms
  rw [sum_map_flatMap]
  congr 1
  refine List.map_congr_left fun wz _ => ?_
  rw [sy fun k => ((axisWts o.cx (stag q).1 p.x).map fun w => w.2 * a ⟨base o.cx (stag q).1 p.x + w.1, k, base o.cz (stag q).2.2 p.z + wz.1⟩).sum]
  rw [sum_map_flatMap, ← List.sum_map_mul_left]
  unfold yWts yBase
  rw [h3]
  simp only [Bool.false_eq_true, if_false]
  congr 1
  refine List.map_congr_left fun wy _ => ?_
  rw [List.map_map, ← List.sum_map_mul_left, ← List.sum_map_mul_left]
  congr 1
  refine List.map_congr_left fun wx _ => ?_
  simp only [Function.comp]
  ring

/-! ### All the algorithms -/

theorem gather_ok {o : Opts} {σ : Mem} {p : Pos} (hf : Fits o σ p) (algo : ℤ) (h : o.d2 = false ∨ o.lower = true ∨ algo = 1 ∨ algo = 2 ∨
    ¬ (o.nx = o.ny ∧ o.ny = o.nz)) (a0 : ℝ) (out : Comp → ℝ) : gather algo o σ p a0 out = .ok (gathered o σ p out) := by
  unfold gather
  by_cases h1 : algo = 1 ∨ algo = 2
  · rw [if_pos h1, gatherPart_ok hf]
  · rw [if_neg h1]
    by_cases h2 : o.nx = o.ny ∧ o.ny = o.nz ∧ (o.nx = 1 ∨ o.nx = 2 ∨ o.nx = 3)
    · rw [if_pos h2]
      have hs : Same o o.nx := ⟨rfl, h2.1.symm, (h2.1.trans h2.2.1).symm⟩
      refine run_stencil_all hs h2.2.2 hf ?_ a0 out
      rcases h with h | h | h | h | h
      · rw [h]
        rcases h2.2.2 with e | e | e <;> rw [e]
        · exact stencil_3d_1 _
        · exact stencil_3d_2 _
        · exact stencil_3d_3 _
      · rw [h]
        by_cases hd : o.d2 = true
        · rw [hd]
          rcases h2.2.2 with e | e | e <;> rw [e]
          · exact stencil_2d_1
          · exact stencil_2d_2
          · exact stencil_2d_3
        · rw [show o.d2 = false by simpa using hd]
          rcases h2.2.2 with e | e | e <;> rw [e]
          · exact stencil_3d_1 _
          · exact stencil_3d_2 _
          · exact stencil_3d_3 _
      · exact absurd (Or.inl h) h1
      · exact absurd (Or.inr h) h1
      · exact absurd ⟨h2.1, h2.2.1⟩ h
    · rw [if_neg h2, gatherPart_ok hf]

theorem gatherAll_ok {o : Opts} {σ : Mem} (algo : ℤ) (a0 : ℝ) {f : Pos → Comp → ℝ} : ∀ ps : List Pos,
    (∀ p ∈ ps, gather algo o σ p a0 (fun _ => 0) = .ok (f p)) → gatherAll algo o σ a0 ps = .ok (ps.map f) := by
  intro ps
  induction ps with
  | nil => intro _; rfl
  | cons p ps ih =>
    intro h
    unfold gatherAll
    rw [h p (by simp), ih fun x hx => h x (by simp [hx])]
    rfl

/-! ### The blocked loop -/

theorem blocked_eq (np lvect : ℕ) (hl : 0 < lvect) : ∀ fuel ip, np + 1 - ip < fuel →
    blocked np lvect fuel ip = (List.range (np + 1 - ip)).map fun (i : ℕ) => ip + i := by
  intro fuel
  induction fuel with
  | zero => intro ip h; omega
  | succ fuel ih =>
    intro ip h
    unfold blocked
    by_cases hip : ip ≤ np
    · rw [if_pos hip, ih (ip + lvect) (by omega)]
      have e : np + 1 - ip = (min (ip + lvect - 1) np + 1 - ip) + (np + 1 - (ip + lvect)) := by omega
      rw [e, List.range_add, List.map_append, List.map_map]
      congr 1
      by_cases hc : np + 1 - (ip + lvect) = 0
      · rw [hc]; simp
      · refine List.map_congr_left fun i _ => ?_
        simp only [Function.comp]
        omega
    · rw [if_neg hip, show np + 1 - ip = 0 by omega]; rfl

end Picsar.Gather
