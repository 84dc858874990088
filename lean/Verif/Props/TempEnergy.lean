import Verif.Lemmas.TempEnergy
import Verif.Props.Energy
/-
C179, C180: the energies of the temporal diagnostics.
-/
namespace Picsar.Props
open Picsar Picsar.Grid Picsar.Energy

/-- C179, species of electrons (`m = emass`). The local value is the sum of `weight·m·c²·(γ-1)` over all tiles and particles. What is missing:
species of another mass, see `C179_scaled_partial` and `C179_mass_refuted`. -/
theorem C179_kinetic_partial (m c : ℝ) (hc : 0 < c) (nt : I3) (P : I3 → List ((ℝ × ℝ × ℝ) × ℝ)) :
    kinDiag m c nt (stored c P) = .ok (kineticTotal m c nt P) := by
  unfold kinDiag
  rw [locKin_ok hc, kinetic_factor]
  rfl

/-- C179, any mass `m`: the value is the kinetic energy times `emass/m`. -/
theorem C179_scaled_partial (emass m c : ℝ) (hm : m ≠ 0) (hc : 0 < c) (nt : I3) (P : I3 → List ((ℝ × ℝ × ℝ) × ℝ)) :
    kinDiag emass c nt (stored c P) = .ok (emass / m * kineticTotal m c nt P) := by
  rw [C179_kinetic_partial emass c hc]
  congr 1
  rw [kinetic_factor, kinetic_factor]
  field_simp

/-- C179 is violated by every species that is not of electrons and has kinetic energy: the value is different from its kinetic energy. -/
theorem C179_mass_refuted (emass m c : ℝ) (hm : m ≠ 0) (hne : m ≠ emass) (hc : 0 < c) (nt : I3) (P : I3 → List ((ℝ × ℝ × ℝ) × ℝ))
    (hk : kineticTotal m c nt P ≠ 0) : ∃ v, kinDiag emass c nt (stored c P) = .ok v ∧ v ≠ kineticTotal m c nt P := by
  refine ⟨_, C179_scaled_partial emass m c hm hc nt P, fun h => hne ?_⟩
  have : (emass / m - 1) * kineticTotal m c nt P = 0 := by rw [sub_mul, h, one_mul, sub_self]
  rcases mul_eq_zero.mp this with h1 | h1
  · rw [sub_eq_zero, div_eq_one_iff_eq hm] at h1
    exact h1.symm
  · exact absurd h1 hk

/-- One particle of weight 2 with γ = √2, 1836 times as heavy as an electron: the hypotheses of `C179_mass_refuted` hold. -/
example : ∃ v, kinDiag 1 1 ⟨1, 1, 1⟩ (stored 1 fun _ => [((1, 0, 0), 2)]) = .ok v ∧ v ≠ kineticTotal 1836 1 ⟨1, 1, 1⟩ fun _ => [((1, 0, 0), 2)] := by
  refine C179_mass_refuted 1 1836 1 (by norm_num) (by norm_num) one_pos _ _ ?_
  have h := gamma_ge one_pos 1 0 0
  have h1 : gamma 1 1 0 0 ≠ 1 := fun e => by have := (h.2.mp e).1; norm_num at this
  unfold kineticTotal boxSum kinetic
  simp only [Finset.Icc_self, Finset.sum_singleton, List.map_cons, List.map_nil, List.sum_cons, List.sum_nil, add_zero]
  have : gamma 1 1 0 0 - 1 ≠ 0 := sub_ne_zero.mpr h1
  positivity

/-- Seventeen particles (two blocks) on two tiles. -/
example : kinDiag 1 1 ⟨2, 1, 1⟩ (stored 1 fun _ => List.replicate 17 ((1, 0, 0), 2)) = .ok (kineticTotal 1 1 ⟨2, 1, 1⟩ fun _ => List.replicate 17 ((1, 0, 0), 2)) :=
  C179_kinetic_partial 1 1 one_pos _ _

/-- C180, arrays with a single plane in y (as the dummy argument has): the local value is the energy of this plane. What is missing: the arrays of the
2-D simulations themselves, which have two planes; see `C180_storage_partial` and `C180_plane_refuted`. -/
theorem C180_one_plane_partial (c0 dx dz : ℝ) (nx nz nxg nzg y : ℤ) (hx : 0 ≤ nxg) (hz : 0 ≤ nzg) (F : I3 → ℝ) :
    fieldDiag2 c0 dx dz ⟨⟨-nxg, y, -nzg⟩, ⟨nx + nxg, y, nz + nzg⟩, F⟩ nx nz nxg nzg = .ok (planeEnergy c0 dx dz nx nz y F) := by
  refine fieldDiag2_ok c0 dx dz (fun j l => ⟨j, y, l⟩) fun j l h1 h2 h3 h4 => ⟨?_, ?_⟩
  · rw [assoc_eq (h := 1) (by dsimp only; ring) (by dsimp only; ring) hx ⟨h1, h2⟩]
    dsimp only
    rw [Int.emod_one, Int.ediv_one, add_zero]
    congr 1 <;> ring
  · unfold InBox
    dsimp only
    omega

/-- C180, what is summed for the arrays as they are allocated in two dimensions: nothing faults, but line `l` of the dummy argument is a line of plane
0 or 1 alternately, at half the height. -/
theorem C180_storage_partial (c0 dx dz : ℝ) (nx nz nxg nzg : ℤ) (hx : 0 ≤ nxg) (hz : 0 ≤ nzg) (F : I3 → ℝ) :
    fieldDiag2 c0 dx dz (field2 nx nz nxg nzg F) nx nz nxg nzg =
      .ok (c0 / 2 * dx * dz * ∑ l ∈ Finset.Icc 1 nz, ∑ j ∈ Finset.Icc 1 nx, F ⟨j, (l + nzg) % 2, (l + nzg) / 2 - nzg⟩ ^ 2) := by
  refine fieldDiag2_ok c0 dx dz (a := field2 nx nz nxg nzg F) (fun j l => ⟨j, (l + nzg) % 2, (l + nzg) / 2 - nzg⟩) fun j l h1 h2 h3 h4 => ⟨?_, ?_⟩
  · rw [assoc_eq (h := 2) (by unfold field2; dsimp only; ring) (by unfold field2; dsimp only; ring) hx ⟨h1, h2⟩]
    unfold field2
    dsimp only
    congr 1 <;> ring
  · unfold InBox field2
    dsimp only
    omega

/-- C180 is violated in every 2-D simulation with two or more cells along z: there are fields with energy in the plane `y = 0` that the solver advances, for
which the diagnostic gives zero; and fields without energy there for which it does not. -/
theorem C180_plane_refuted (c0 dx dz : ℝ) (h0 : 0 < c0) (hdx : 0 < dx) (hdz : 0 < dz) (nx nz nxg nzg : ℤ) (hx : 0 ≤ nxg) (hz : 0 ≤ nzg) (hnx : 1 ≤ nx)
    (hnz : 2 ≤ nz) :
    (∃ F, 0 < planeEnergy c0 dx dz nx nz 0 F ∧ fieldDiag2 c0 dx dz (field2 nx nz nxg nzg F) nx nz nxg nzg = .ok 0) ∧
    ∃ F v, planeEnergy c0 dx dz nx nz 0 F = 0 ∧ fieldDiag2 c0 dx dz (field2 nx nz nxg nzg F) nx nz nxg nzg = .ok v ∧ 0 < v := by
  have hc : 0 < c0 / 2 * dx * dz := by positivity
  refine ⟨⟨fun i => if i.k = 0 ∧ i.l = nz then 1 else 0, ?_, ?_⟩, fun i => if i.k = 0 then 0 else 1, _, ?_, C180_storage_partial c0 dx dz nx nz nxg nzg hx hz _, ?_⟩
  · unfold planeEnergy
    refine mul_pos hc (Finset.sum_pos' (fun l _ => Finset.sum_nonneg fun j _ => sq_nonneg _) ⟨nz, Finset.mem_Icc.mpr ⟨by omega, le_rfl⟩, ?_⟩)
    refine Finset.sum_pos' (fun j _ => sq_nonneg _) ⟨1, Finset.mem_Icc.mpr ⟨le_rfl, hnx⟩, ?_⟩
    simp
  · rw [C180_storage_partial c0 dx dz nx nz nxg nzg hx hz]
    congr 1
    rw [Finset.sum_eq_zero, mul_zero]
    intro l hl
    refine Finset.sum_eq_zero fun j _ => ?_
    rw [Finset.mem_Icc] at hl
    rw [if_neg (by dsimp only; omega)]
    norm_num
  · unfold planeEnergy
    simp
  · refine mul_pos hc ?_
    have : ∃ l : ℤ, (1 ≤ l ∧ l ≤ nz) ∧ (l + nzg) % 2 = 1 := by
      rcases Int.emod_two_eq_zero_or_one nzg with h | h
      · exact ⟨1, by omega, by omega⟩
      · exact ⟨2, by omega, by omega⟩
    obtain ⟨l0, hl0, ho⟩ := this
    refine Finset.sum_pos' (fun l _ => Finset.sum_nonneg fun j _ => sq_nonneg _) ⟨l0, Finset.mem_Icc.mpr hl0, ?_⟩
    refine Finset.sum_pos' (fun j _ => sq_nonneg _) ⟨1, Finset.mem_Icc.mpr ⟨le_rfl, hnx⟩, ?_⟩
    dsimp only
    rw [ho]
    norm_num

/-- A plane of 4 by 6 cells with 2 guard cells. -/
example : ∃ F, 0 < planeEnergy 1 1 1 4 6 0 F ∧ fieldDiag2 1 1 1 (field2 4 6 2 2 F) 4 6 2 2 = .ok 0 :=
  (C180_plane_refuted 1 1 1 one_pos one_pos one_pos 4 6 2 2 (by norm_num) (by norm_num) (by norm_num) (by norm_num)).1

/-- A single plane with a single value of 3 at node (2, 0, 1). -/
example : fieldDiag2 2 1 1 ⟨⟨-1, 0, -1⟩, ⟨4, 0, 3⟩, fun i => if i = ⟨2, 0, 1⟩ then 3 else 0⟩ 3 2 1 1 = .ok 9 := by
  have h := C180_one_plane_partial 2 1 1 3 2 1 1 0 (by norm_num) (by norm_num) fun i => if i = ⟨2, 0, 1⟩ then 3 else 0
  have e : planeEnergy 2 1 1 3 2 0 (fun i => if i = (⟨2, 0, 1⟩ : I3) then 3 else 0) = 9 := by
    unfold planeEnergy
    rw [show Finset.Icc (1 : ℤ) 2 = {1, 2} by decide, show Finset.Icc (1 : ℤ) 3 = {1, 2, 3} by decide]
    norm_num
  rw [e] at h
  exact h

end Picsar.Props
