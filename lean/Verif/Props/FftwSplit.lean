import Verif.Spec.FftwSplit
import Verif.Lemmas.FftwSplit
/-
C182: the split along z follows the slabs of the distributed Fourier transform.
-/
namespace Picsar.Props
open Picsar Picsar.Grid Picsar.Topology

/-- C182 for the ordered and the Cartesian topology: whatever the slabs, the program accepts them, and the planes of each process on the grid are its slab. What
is missing: the random topology; see `C182_random_refuted`. -/
theorem C182_slab_partial (n N : ℤ) (hn : 1 ≤ n) (hN : 0 ≤ N) (nz z0 : ℤ → ℤ) (S : Slabs n N nz z0) (r : ℤ) (hr : 0 ≤ r ∧ r < n) :
    adjust n N nz r (coords1 ⟨1, 1, n⟩ r).l = .ok (some (z0 r, z0 r + nz r - 1)) ∧
    adjust n N nz r (coordsCart ⟨1, 1, n⟩ r).l = .ok (some (z0 r, z0 r + nz r - 1)) := by
  have hP : PGrid.Ok ⟨1, 1, n⟩ := ⟨le_rfl, le_rfl, hn⟩
  have e : (coordsCart ⟨1, 1, n⟩ r).l = r := by simp [coordsCart]
  rw [coords1_eq hP (by unfold PGrid.Rank PGrid.nproc; dsimp only; omega), e, adjust_eq S hn hN r r hr, if_pos rfl, (S.2.2 r hr.1 hr.2).2]
  exact ⟨rfl, rfl⟩

/-- C182: these slabs hold every plane of the grid exactly once. -/
theorem C182_cover (n N : ℤ) (hn : 1 ≤ n) (nz z0 : ℤ → ℤ) (S : Slabs n N nz z0) (c : ℤ) (hc : 0 ≤ c ∧ c < N) :
    ∃! r, (0 ≤ r ∧ r < n) ∧ z0 r ≤ c ∧ c ≤ z0 r + nz r - 1 := by
  obtain ⟨r, hr, h1, h2⟩ := slabs_exists S hc.1 n.toNat (by omega) (by rw [Int.toNat_of_nonneg (by omega), S.2.1]; exact hc.2)
  rw [Int.toNat_of_nonneg (by omega)] at hr
  refine ⟨r, ⟨hr, h1, by rw [(S.2.2 r hr.1 hr.2).2] at h2; exact h2⟩, fun q ⟨hq, q1, q2⟩ => ?_⟩
  rw [← (S.2.2 q hq.1 hq.2).2] at q2
  rcases lt_trichotomy q r with h | h | h
  · have := slabs_mono S (a := q + 1) (by omega) (r - (q + 1)).toNat (by omega)
    rw [Int.toNat_of_nonneg (by omega), add_sub_cancel] at this
    omega
  · exact h
  · have := slabs_mono S (a := r + 1) (by omega) (q - (r + 1)).toNat (by omega)
    rw [Int.toNat_of_nonneg (by omega), add_sub_cancel] at this
    omega

/-- C182, any assignment of the coordinates: the program stops where the process with the rank of the coordinate has a slab of a different size, otherwise the
planes on the grid are the slab of that process. -/
theorem C182_any_partial (n N : ℤ) (hn : 1 ≤ n) (hN : 0 ≤ N) (nz z0 : ℤ → ℤ) (S : Slabs n N nz z0) (r z : ℤ) (hz : 0 ≤ z ∧ z < n) :
    adjust n N nz r z = .ok (if nz r = nz z then some (z0 z, z0 z + nz z - 1) else none) := by
  rw [adjust_eq S hn hN r z hz, (S.2.2 z hz.1 hz.2).2]

/-- C182 is violated with the random topology. On two processes it always exchanges them: with slabs of the same size the process of rank 0 has the upper half
of the grid, but the lower half in the Fourier transform; with different sizes the program stops. -/
theorem C182_random_refuted (u : ℕ → ℝ) (hu : ∀ n, 0 ≤ u n ∧ u n < 1) (t0 : Topo) (a b : ℤ) (ha : 1 ≤ a) (hb : 1 ≤ b) :
    ∃ t c, topo ⟨1, 1, 2⟩ u t0 = .ok t ∧ coords2 ⟨1, 1, 2⟩ t 0 (cells ⟨1, 1, 2⟩) none = some c ∧
      Slabs 2 (a + b) (fun r => if r = 0 then a else b) (fun r => if r = 0 then 0 else if r = 1 then a else a + b) ∧
      adjust 2 (a + b) (fun r => if r = 0 then a else b) 0 c.l = .ok (if a = b then some (a, 2 * a - 1) else none) := by
  have d1 : ∀ k, drawn (u k) 1 = 0 := fun k => by simp [drawn]
  have d2 : ∀ k, drawn (u k) 2 = 0 := fun k => by
    unfold drawn
    rw [Int.floor_eq_zero_iff]
    have := hu k
    constructor <;> push_cast <;> linarith [this.1, this.2]
  have S : Slabs 2 (a + b) (fun r => if r = 0 then a else b) (fun r => if r = 0 then 0 else if r = 1 then a else a + b) := by
    refine ⟨rfl, rfl, fun r h1 h2 => ?_⟩
    have : r = 0 ∨ r = 1 := by omega
    rcases this with rfl | rfl
    · simp; omega
    · norm_num; omega
  have hc : cells ⟨1, 1, 2⟩ = [⟨0, 0, 0⟩, ⟨0, 0, 1⟩] := by decide
  have ht : ∃ t, topo ⟨1, 1, 2⟩ u t0 = .ok t ∧ t ⟨0, 0, 1⟩ = 0 := by
    refine ⟨Function.update (Function.update (Function.update (Function.update (Function.update (Function.update t0 ⟨0, 0, 0⟩ 0) ⟨0, 0, 1⟩ 1) ⟨0, 0, 0⟩ 0)
      ⟨0, 0, 0⟩ 0) ⟨0, 0, 1⟩ 0) ⟨0, 0, 0⟩ 1, ?_, by simp⟩
    have i0 : InTopo ⟨1, 1, 2⟩ ⟨0, 0, 0⟩ := by decide
    have i1 : InTopo ⟨1, 1, 2⟩ ⟨0, 0, 1⟩ := by decide
    unfold topo
    rw [hc]
    simp [topoInit, topoShuffle, topoSet, topoGet, d1, d2, i0, i1, except_bind_ok]
    funext i
    by_cases h0 : i = ⟨0, 0, 0⟩ <;> by_cases h1 : i = ⟨0, 0, 1⟩ <;> simp [h0, h1]
  obtain ⟨t, e, t2⟩ := ht
  refine ⟨t, ⟨0, 0, 1⟩, e, ?_, S, ?_⟩
  · rw [hc]
    simp [coords2, t2]
  · rw [C182_any_partial 2 (a + b) (by omega) (by omega) _ _ S 0 1 (by omega)]
    by_cases h : a = b
    · subst h
      simp; ring
    · simp [h]

/-- Three slabs of 4, 4 and 2 planes. -/
theorem exSlabs : Slabs 3 10 (fun r => if r = 2 then 2 else 4) (fun r => if r = 3 then 10 else 4 * r) := by
  refine ⟨rfl, rfl, fun r h1 h2 => ?_⟩
  have : r = 0 ∨ r = 1 ∨ r = 2 := by omega
  rcases this with rfl | rfl | rfl <;> norm_num

example : adjust 3 10 (fun r => if r = 2 then 2 else 4) 2 (coords1 ⟨1, 1, 3⟩ 2).l = .ok (some (8, 9)) :=
  (C182_slab_partial 3 10 (by norm_num) (by norm_num) _ _ exSlabs 2 (by norm_num)).1

example : ∃! r : ℤ, (0 ≤ r ∧ r < 3) ∧ (if r = 3 then 10 else 4 * r) ≤ 8 ∧ 8 ≤ (if r = 3 then 10 else 4 * r) + (if r = 2 then 2 else 4) - 1 :=
  C182_cover 3 10 (by norm_num) _ _ exSlabs 8 (by norm_num)

end Picsar.Props
