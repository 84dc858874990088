import Verif.Lemmas.Datatypes

/-
C51: the memory transferred by an exchange, after any history of exchanges.
-/
namespace Picsar.Props
open Picsar Picsar.Grid Picsar.Exchange Picsar.Datatypes

/-- C51, proved part: as long as the first array ever exchanged had the same extents and guard widths, every transfer concerns exactly
the elements of the slab, in memory order. Missing: arrays with other extents, where it is false. -/
theorem C51_transfer_partial (hist : List Fld) (F : Fld) (h : ∀ G, hist.head? = some G → G = F) (a : Ax) (s : ℤ) :
    transferred (after hist) F a s = (F.slab a s).map F.addr := by
  cases hist with
  | nil => exact fresh_ok F a s
  | cons G hist =>
    have e : G = F := h G rfl
    subst e
    unfold transferred
    rw [used_cons]
    exact fresh_ok G a s

/-- The slabs of the exchange model are those slabs. -/
theorem slab_agrees (D : Dom) (c : I3) (a : Ax) (s : ℤ) : Fld.slab ⟨fun a => D.n a (at_ c a), D.g⟩ a s = slab D c a s := rfl

/-- C51, refuted: when the fields have one guard cell more than the currents (compensated smoothing) and the currents were exchanged
first, every exchange of a field along any direction, at any plane, transfers fewer elements than the slab has. -/
theorem C51_short_transfer_refuted (J E : Fld) (hn : ∀ a, 0 ≤ J.n a) (hg : ∀ a, 0 ≤ J.g a) (hE : E.n = J.n)
    (hgE : ∀ a, E.g a = J.g a + 1) (hist : List Fld) (a : Ax) (s : ℤ) :
    (transferred (after (J :: hist)) E a s).length < (E.slab a s).length := by
  unfold transferred
  rw [used_cons, List.length_map, create3d_disp, List.length_map, length_box]
  unfold Fld.slab
  rw [length_box]
  have key : ∀ x y z x' y' z' : ℤ, 0 < x → 0 < y → 0 < z → x < x' → y < y' → z < z' →
      z.toNat * (y.toNat * x.toNat) < z'.toNat * (y'.toNat * x'.toNat) := by
    intro x y z x' y' z' h1 h2 h3 h4 h5 h6
    apply Nat.mul_lt_mul'' (by omega)
    apply Nat.mul_lt_mul'' (by omega) (by omega)
  have hx := hn .x; have hy := hn .y; have hz := hn .z
  have gx := hg .x; have gy := hg .y; have gz := hg .z
  have ex := hgE .x; have ey := hgE .y; have ez := hgE .z
  unfold Fld.sub Fld.sizes
  rw [hE]
  cases a <;> simp only [upd] <;> simp only [reduceCtorEq, if_true, if_false] <;> apply key <;> omega

/-- C51, refuted, the other order: when a field was exchanged first, the receive into the upper guard region of a current along z
reaches beyond the end of the array. -/
theorem C51_overrun_refuted (E J : Fld) (hn : ∀ a, 0 ≤ J.n a) (hg : ∀ a, 0 ≤ J.g a) (hE : E.n = J.n)
    (hgE : ∀ a, E.g a = J.g a + 1) (hist : List Fld) :
    ∃ p ∈ transferred (after (E :: hist)) J .z (J.n .z), J.total ≤ p := by
  unfold transferred
  rw [used_cons, create3d_disp]
  refine ⟨J.addr (J.corner .z (J.n .z)) + ((E.sub .z .x - 1) + E.sizes .x * (E.sub .z .y - 1) + E.sizes .x * E.sizes .y * (E.sub .z .z - 1)),
    ?_, ?_⟩
  · rw [List.map_map, List.mem_map]
    refine ⟨⟨E.sub .z .x - 1, E.sub .z .y - 1, E.sub .z .z - 1⟩, ?_, rfl⟩
    rw [mem_box]
    have hx := hn .x; have hy := hn .y; have hz := hn .z
    have gx := hg .x; have gy := hg .y; have gz := hg .z
    have ex := hgE .x; have ey := hgE .y; have ez := hgE .z
    unfold InBox Fld.sub Fld.sizes
    rw [hE]
    simp only [reduceCtorEq, if_true, if_false]
    omega
  · have hx := hn .x; have hy := hn .y; have hz := hn .z
    have gx := hg .x; have gy := hg .y; have gz := hg .z
    have ex := hgE .x; have ey := hgE .y; have ez := hgE .z
    unfold Fld.total Fld.addr Fld.corner Fld.sub
    simp only [upd, reduceCtorEq, if_true, if_false]
    have sx : E.sizes .x = J.sizes .x + 2 := by unfold Fld.sizes; rw [hE]; omega
    have sy : E.sizes .y = J.sizes .y + 2 := by unfold Fld.sizes; rw [hE]; omega
    have px : 0 < J.sizes .x := by unfold Fld.sizes; omega
    have py : 0 < J.sizes .y := by unfold Fld.sizes; omega
    have szz : J.sizes .z = J.n .z + 1 + 2 * J.g .z := rfl
    rw [sx, sy, szz, ez]
    generalize J.sizes .x = A at *
    generalize J.sizes .y = B at *
    generalize J.g .z = g at *
    have : A * B * (g + 1) ≤ (A + 2) * (B + 2) * (g + 1) := by
      apply mul_le_mul_of_nonneg_right _ (by omega)
      nlinarith
    have h2 : 0 < (A + 2) * (B + 2) := by positivity
    nlinarith

-- 8x8x8 cells, 2 guard cells for the currents and 3 for the fields
example : (∀ a : Ax, (0 : ℤ) ≤ (Fld.mk (fun _ => 8) (fun _ => 2)).n a) ∧
    (∀ a : Ax, (Fld.mk (fun _ => 8) (fun _ => 3)).g a = (Fld.mk (fun _ => 8) (fun _ => 2)).g a + 1) :=
  ⟨fun _ => by show (0 : ℤ) ≤ 8; omega, fun _ => rfl⟩
example : (Fld.mk (fun _ => 2) (fun _ => 1)).slab .x 2 ≠ [] := by decide

end Picsar.Props
