import Verif.Spec.TempEnergy
import Verif.Lemmas.Energy
import Verif.Lemmas.ChargeVec
namespace Picsar.Energy
open Picsar Picsar.Grid

theorem addKin_ok {c : ℝ} (hc : 0 < c) (s : ℝ) (q : (ℝ × ℝ × ℝ) × ℝ) :
    addKin s (gaminv c q.1, q.2) = .ok (s + q.2 * (gamma c q.1.1 q.1.2.1 q.1.2.2 - 1)) := by
  unfold addKin
  rw [if_neg (kin_gaminv hc 0 0 q.1).2]
  congr 2
  unfold gaminv
  rw [one_div_one_div]
  ring

theorem locKin_ok {c : ℝ} (hc : 0 < c) (nt : I3) (P : I3 → List ((ℝ × ℝ × ℝ) × ℝ)) :
    locKin nt (stored c P) = .ok (boxSum ⟨1, 1, 1⟩ nt fun u => ((P u).map fun q => q.2 * (gamma c q.1.1 q.1.2.1 q.1.2.2 - 1)).sum) := by
  unfold locKin
  rw [foldlM_pure (h := fun u => ((P u).map fun q => q.2 * (gamma c q.1.1 q.1.2.1 q.1.2.2 - 1)).sum)]
  · rw [box_sum, zero_add]
  · intro u _ s
    rw [foldlM_pure (h := fun b => ((ChargeVec.block 16 (stored c P u) b).map fun p => (1 / p.1 - 1) * p.2).sum)]
    · rw [ChargeVec.sum_blocks (by norm_num)]
      unfold stored
      rw [List.map_map]
      congr 3
      refine List.map_congr_left fun q _ => ?_
      simp only [Function.comp]
      unfold gaminv
      rw [one_div_one_div]
      ring
    · intro b _ s
      rw [foldlM_pure (h := fun p : ℝ × ℝ => (1 / p.1 - 1) * p.2)]
      intro p hp s
      have hp' : p ∈ stored c P u := List.mem_of_mem_drop (List.mem_of_mem_take hp)
      obtain ⟨q, _, rfl⟩ := List.mem_map.mp hp'
      unfold addKin
      rw [if_neg (kin_gaminv hc 0 0 q.1).2]

theorem kinetic_factor (m c : ℝ) (nt : I3) (P : I3 → List ((ℝ × ℝ × ℝ) × ℝ)) :
    kineticTotal m c nt P = (boxSum ⟨1, 1, 1⟩ nt fun u => ((P u).map fun q => q.2 * (gamma c q.1.1 q.1.2.1 q.1.2.2 - 1)).sum) * m * c ^ 2 := by
  unfold kineticTotal boxSum
  simp only [Finset.sum_mul]
  refine Finset.sum_congr rfl fun l _ => Finset.sum_congr rfl fun k _ => Finset.sum_congr rfl fun j _ => ?_
  rw [mul_assoc, ← List.sum_map_mul_right]
  congr 1
  refine List.map_congr_left fun q _ => ?_
  unfold kinetic
  ring

/-- The place of an element of the dummy argument, for an actual argument with `h` planes. -/
theorem assoc_eq {nx nxg nzg : ℤ} {a : Arr} {h : ℤ} (hw : a.hi.j - a.lo.j + 1 = nx + 2 * nxg + 1) (hh : a.hi.k - a.lo.k + 1 = h) (hg : 0 ≤ nxg) {j l : ℤ}
    (hj : 1 ≤ j ∧ j ≤ nx) : assoc a nx nxg nzg j l = ⟨a.lo.j + (j + nxg), a.lo.k + (l + nzg) % h, a.lo.l + (l + nzg) / h⟩ := by
  unfold assoc
  dsimp only
  rw [hw, hh]
  have h0 : 0 ≤ j + nxg := by omega
  have h1 : j + nxg < nx + 2 * nxg + 1 := by omega
  have hp : (nx + 2 * nxg + 1) ≠ 0 := by omega
  have hd : ((j + nxg) + (nx + 2 * nxg + 1) * (l + nzg)) / (nx + 2 * nxg + 1) = l + nzg := by
    rw [Int.add_mul_ediv_left _ _ hp, Int.ediv_eq_zero_of_lt h0 h1, zero_add]
  rw [Int.add_mul_emod_self_left, Int.emod_eq_of_lt h0 h1, ← Int.ediv_ediv_of_nonneg (show 0 ≤ nx + 2 * nxg + 1 by omega), hd]

theorem fieldDiag2_ok (c0 dx dz : ℝ) {a : Arr} {nx nz nxg nzg : ℤ} (p : ℤ → ℤ → I3)
    (hp : ∀ j l, 1 ≤ j → j ≤ nx → 1 ≤ l → l ≤ nz → assoc a nx nxg nzg j l = p j l ∧ InBox a.lo a.hi (p j l)) :
    fieldDiag2 c0 dx dz a nx nz nxg nzg = .ok (c0 / 2 * dx * dz * ∑ l ∈ Finset.Icc 1 nz, ∑ j ∈ Finset.Icc 1 nx, a.val (p j l) ^ 2) := by
  unfold fieldDiag2
  rw [foldlM_pure (h := fun i => a.val (p i.j i.l) ^ 2 / 2)]
  · have e1 : boxSum ⟨1, 1, 1⟩ ⟨nx, 1, nz⟩ (fun i => a.val (p i.j i.l) ^ 2 / 2) =
        1 / 2 * ∑ l ∈ Finset.Icc 1 nz, ∑ j ∈ Finset.Icc 1 nx, a.val (p j l) ^ 2 := by
      unfold boxSum
      rw [Finset.mul_sum]
      refine Finset.sum_congr rfl fun l _ => ?_
      rw [Finset.mul_sum]
      simp only [Finset.Icc_self, Finset.sum_singleton]
      refine Finset.sum_congr rfl fun j _ => ?_
      ring
    rw [box_sum, zero_add, e1]
    simp only [except_bind_ok]
    congr 1
    ring
  · intro i hi s
    have hb := mem_box.mp hi
    unfold InBox at hb
    dsimp only at hb
    obtain ⟨e, hin⟩ := hp i.j i.l hb.1 hb.2.1 hb.2.2.2.2.1 hb.2.2.2.2.2
    rw [e]
    unfold Arr.get
    rw [if_pos hin]
    simp only [except_bind_ok]
    congr 2
    ring

end Picsar.Energy
