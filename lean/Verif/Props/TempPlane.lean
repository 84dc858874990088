import Verif.Spec.TempPlane
import Verif.Model.DivDiag
import Verif.Lemmas.TempEnergy
import Verif.Lemmas.DivDiag
/-
C181: the norms in the temporal diagnostics of a plane.
-/
namespace Picsar.Props
open Picsar Picsar.Grid Picsar.Energy Picsar.DivDiag

/-- C181, what is summed: the squares on plane 1 of the array. What is missing: the charge density is deposited on plane 0 in two dimensions, and the norm of
that plane is not what is summed; see `C181_norm_refuted`. -/
theorem C181_norm_partial (nx nz nxg nzg : ℤ) (hx : 0 ≤ nxg) (hz : 0 ≤ nzg) (F : I3 → ℝ) :
    locNorm2 (field2 nx nz nxg nzg F) ⟨nx, 1, nz⟩ = .ok (planeSquares nx nz 1 F) := by
  unfold locNorm2
  rw [foldlM_pure (h := fun i => F i ^ 2)]
  · rw [box_sum, zero_add]
    unfold boxSum planeSquares
    simp
  · intro i hi s
    rw [mem_box] at hi
    unfold InBox at hi
    dsimp only at hi
    have : (field2 nx nz nxg nzg F).get i = .ok (F i) := by
      unfold Arr.get
      rw [if_pos]
      · rfl
      · unfold InBox field2
        dsimp only
        omega
    rw [this]
    rfl

/-- C181, several processes: the value written is the square root of the sum over all processes. -/
theorem C181_total_partial (ps : List ((ℤ × ℤ) × (ℤ × ℤ) × (I3 → ℝ))) (hg : ∀ p ∈ ps, 0 ≤ p.2.1.1 ∧ 0 ≤ p.2.1.2) :
    arrayNorm (ps.map fun p => (field2 p.1.1 p.1.2 p.2.1.1 p.2.1.2 p.2.2, (⟨p.1.1, 1, p.1.2⟩ : I3))) =
      .ok (√ ((ps.map fun p => planeSquares p.1.1 p.1.2 1 p.2.2).sum)) := by
  unfold arrayNorm
  rw [List.map_map, allreduce_ok (h := fun p => planeSquares p.1.1 p.1.2 1 p.2.2)]
  · rfl
  · intro p hp
    exact C181_norm_partial p.1.1 p.1.2 p.2.1.1 p.2.1.2 (hg p hp).1 (hg p hp).2 p.2.2

/-- C181 is violated in every 2-D simulation: whatever the quantity is on the plane `y = 0`, there is an array with these values for which the norm is zero, and
one for which it is not. -/
theorem C181_norm_refuted (nx nz nxg nzg : ℤ) (hx : 0 ≤ nxg) (hz : 0 ≤ nzg) (hnx : 1 ≤ nx) (hnz : 1 ≤ nz) (ρ : ℤ → ℤ → ℝ) :
    (∃ F : I3 → ℝ, (∀ j l, F ⟨j, 0, l⟩ = ρ j l) ∧ locNorm2 (field2 nx nz nxg nzg F) ⟨nx, 1, nz⟩ = .ok 0) ∧
    ∃ (F : I3 → ℝ) (v : ℝ), (∀ j l, F ⟨j, 0, l⟩ = ρ j l) ∧ locNorm2 (field2 nx nz nxg nzg F) ⟨nx, 1, nz⟩ = .ok v ∧ 0 < v := by
  refine ⟨⟨fun i => if i.k = 0 then ρ i.j i.l else 0, fun _ _ => by simp, ?_⟩, fun i => if i.k = 0 then ρ i.j i.l else 1, _, fun _ _ => by simp,
    C181_norm_partial nx nz nxg nzg hx hz _, ?_⟩
  · rw [C181_norm_partial nx nz nxg nzg hx hz]
    simp [planeSquares]
  · unfold planeSquares
    refine Finset.sum_pos' (fun l _ => Finset.sum_nonneg fun j _ => sq_nonneg _) ⟨1, Finset.mem_Icc.mpr ⟨le_rfl, hnz⟩, ?_⟩
    refine Finset.sum_pos' (fun j _ => sq_nonneg _) ⟨1, Finset.mem_Icc.mpr ⟨le_rfl, hnx⟩, ?_⟩
    norm_num

/-- A charge of 7 everywhere on a plane of 4 by 6 cells: the norm can be 0. -/
example : ∃ F : I3 → ℝ, (∀ j l, F ⟨j, 0, l⟩ = 7) ∧ locNorm2 (field2 4 6 2 2 F) ⟨4, 1, 6⟩ = .ok 0 :=
  (C181_norm_refuted 4 6 2 2 (by norm_num) (by norm_num) (by norm_num) (by norm_num) fun _ _ => 7).1

/-- A single value of 3 on plane 1. -/
example : locNorm2 (field2 2 1 1 1 fun i => if i = ⟨2, 1, 1⟩ then 3 else 0) ⟨2, 1, 1⟩ = .ok 9 := by
  have h := C181_norm_partial 2 1 1 1 (by norm_num) (by norm_num) fun i => if i = ⟨2, 1, 1⟩ then 3 else 0
  have e : planeSquares 2 1 1 (fun i => if i = (⟨2, 1, 1⟩ : I3) then 3 else 0) = 9 := by
    unfold planeSquares
    rw [show Finset.Icc (1 : ℤ) 1 = {1} by decide, show Finset.Icc (1 : ℤ) 2 = {1, 2} by decide]
    norm_num
  rw [e] at h
  exact h

end Picsar.Props
