import Verif.Spec.Remap2d
import Verif.Lemmas.Remap
namespace Picsar.Remap
open Picsar Picsar.Grid Picsar.Mpi Picsar.Exchange

/-- The limits of a plane of thickness one. -/
def lim3 (L : Lim2) : Lim := ⟨⟨L.x1, 0, L.z1⟩, ⟨L.x2, 0, L.z2⟩⟩

theorem inter3_lim3 (A B : Lim2) : inter3 (lim3 A) (lim3 B) = ((inter2 A B).1, lim3 (inter2 A B).2) := by
  have h0 : inter1 0 0 0 0 = (true, 0, 0) := by decide
  unfold inter3 inter2 lim3
  simp only [h0, Bool.and_true]

theorem sub_lim3 (C T : Lim2) : sub (lim3 C) (lim3 T).lo = sub2 C T := by
  unfold sub sub2 sub3 lim3
  simp

theorem remap2_eq (n nf : ℕ) (L1 L2 : Fin n → Lim2) : remap2 n nf L1 L2 = remap n nf (fun r => lim3 (L1 r)) (fun r => lim3 (L2 r)) := by
  unfold remap2 remap
  simp only [inter3_lim3, sub_lim3]

theorem lim3_ok {L : Lim2} (h : L.Ok) : (lim3 L).Ok := ⟨h.1, le_rfl, h.2⟩

theorem lim3_has {L : Lim2} {x z : ℤ} : (lim3 L).Has ⟨x, 0, z⟩ ↔ L.Has x z := by
  unfold Lim.Has Lim2.Has lim3 InBox
  simp

theorem lim3_has_plane {L : Lim2} {p : I3} (h : (lim3 L).Has p) : ∃ x z, p = ⟨x, 0, z⟩ ∧ L.Has x z := by
  have hk : p.k = 0 := by
    unfold Lim.Has lim3 InBox at h
    dsimp only at h
    omega
  refine ⟨p.j, p.l, ?_, ?_⟩
  · cases p
    simp_all
  · refine lim3_has.mp ?_
    cases p
    simp_all

theorem lim3_loc (L : Lim2) (x z : ℤ) : (lim3 L).loc ⟨x, 0, z⟩ = L.loc x z := by
  unfold Lim.loc Lim2.loc lim3 sub3
  simp

end Picsar.Remap
