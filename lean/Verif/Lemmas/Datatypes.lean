import Verif.Spec.Datatypes
import Verif.Lemmas.FieldExchange

namespace Picsar.Datatypes
open Picsar Picsar.Grid Picsar.Exchange

theorem typeVector_box (nl : Ax → ℤ) (G : ℤ) (H : ℤ) : typeContiguous (nl .z) ⟨typeVector (nl .y) (nl .x) G, H⟩ =
    (box ⟨0, 0, 0⟩ ⟨nl .x - 1, nl .y - 1, nl .z - 1⟩).map fun t => t.l * H + (t.k * G + t.j) := by
  unfold typeContiguous typeVector box
  simp only [List.map_flatMap, List.map_map]
  rfl

theorem create3d_disp (nl ng : Ax → ℤ) : (create3d nl ng).disp =
    (box ⟨0, 0, 0⟩ ⟨nl .x - 1, nl .y - 1, nl .z - 1⟩).map fun t => t.j + ng .x * t.k + ng .x * ng .y * t.l := by
  have h : (create3d nl ng).disp = (typeContiguous (nl .z) ⟨(typeVector (nl .y) (nl .x) (ng .x)).map (((1 : ℤ) - 1 + ng .x * (1 - 1)) + ·),
      ng .x * ng .y⟩).map (ng .x * ng .y * (1 - 1) + ·) := rfl
  rw [h, show (fun x : ℤ => (1 : ℤ) - 1 + ng .x * (1 - 1) + x) = id by funext x; simp, List.map_id, typeVector_box, List.map_map]
  apply List.map_congr_left
  intro t _
  show ng .x * ng .y * (1 - 1) + (t.l * (ng .x * ng .y) + (t.k * ng .x + t.j)) = _
  ring

theorem box_from (lo : I3) (d : I3) : box lo ⟨lo.j + d.j, lo.k + d.k, lo.l + d.l⟩ =
    (box ⟨0, 0, 0⟩ d).map fun t => ⟨lo.j + t.j, lo.k + t.k, lo.l + t.l⟩ := by
  have h1 := box_shift ⟨0, 0, 0⟩ d .x lo.j
  have h2 := box_shift (tr .x lo.j ⟨0, 0, 0⟩) (tr .x lo.j d) .y lo.k
  have h3 := box_shift (tr .y lo.k (tr .x lo.j ⟨0, 0, 0⟩)) (tr .y lo.k (tr .x lo.j d)) .z lo.l
  rw [h2, h1, List.map_map, List.map_map] at h3
  have e1 : tr .z lo.l (tr .y lo.k (tr .x lo.j ⟨0, 0, 0⟩)) = lo := by
    unfold tr upd at_; simp
  have e2 : tr .z lo.l (tr .y lo.k (tr .x lo.j d)) = ⟨lo.j + d.j, lo.k + d.k, lo.l + d.l⟩ := by
    unfold tr upd at_
    simp only [add_comm]
  rw [e1, e2] at h3
  rw [h3]
  apply List.map_congr_left
  intro t _
  show tr .z lo.l (tr .y lo.k (tr .x lo.j t)) = _
  unfold tr upd at_
  simp only [add_comm]

/-- A type built for the array itself transfers the slab. -/
theorem fresh_ok (F : Fld) (a : Ax) (s : ℤ) :
    (create3d (F.sub a) F.sizes).disp.map (F.addr (F.corner a s) + ·) = (F.slab a s).map F.addr := by
  rw [create3d_disp, List.map_map]
  have hb : F.slab a s = box (F.corner a s) ⟨(F.corner a s).j + (F.sub a .x - 1), (F.corner a s).k + (F.sub a .y - 1),
      (F.corner a s).l + (F.sub a .z - 1)⟩ := by
    unfold Fld.slab Fld.corner Fld.sub Fld.sizes
    congr 1
    cases a <;> simp [upd] <;> constructor <;> ring
  rw [hb, box_from (F.corner a s) ⟨F.sub a .x - 1, F.sub a .y - 1, F.sub a .z - 1⟩, List.map_map]
  apply List.map_congr_left
  intro t _
  show F.addr (F.corner a s) + _ = F.addr _
  unfold Fld.addr
  ring

theorem after_cons (G : Fld) (hist : List Fld) (a : Ax) : after (G :: hist) a = some (create3d (G.sub a) G.sizes) := by
  unfold after
  show List.foldl call (call (fun _ => none) G) hist a = _
  have : ∀ (l : List Fld) (C : Cache) (t : DType), C a = some t → List.foldl call C l a = some t := by
    intro l
    induction l with
    | nil => intro C t h; exact h
    | cons F l ih =>
      intro C t h
      apply ih
      unfold call used
      rw [h]
      rfl
  exact this hist _ _ rfl

theorem used_cons (G : Fld) (hist : List Fld) (F : Fld) (a : Ax) : used (after (G :: hist)) F a = create3d (G.sub a) G.sizes := by
  unfold used
  rw [after_cons]
  rfl

theorem length_irange (a b : ℤ) : (irange a b).length = (b - a + 1).toNat := by
  unfold irange
  simp

theorem length_box (lo hi : I3) : (box lo hi).length =
    (hi.l - lo.l + 1).toNat * ((hi.k - lo.k + 1).toNat * (hi.j - lo.j + 1).toNat) := by
  unfold box
  simp [List.length_flatMap, length_irange]

end Picsar.Datatypes
