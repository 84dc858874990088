import Verif.Spec.TileOmp2
import Verif.Lemmas.TileOmp
import Verif.Lemmas.Tile2d
namespace Picsar.Tiling
open Picsar Picsar.Grid Picsar.Tile2d

variable {n : ℕ}

theorem colours2_perm (nt : I3) (h1 : nt.k = 1) : ((colours2.map (colourTiles nt)).flatten).Perm (box ⟨1, 1, 1⟩ nt) := by
  refine (List.perm_ext_iff_of_nodup ?_ (nodup_box _ _)).mpr fun u => ?_
  · rw [List.nodup_flatten]
    refine ⟨fun l hl => ?_, ?_⟩
    · obtain ⟨c, -, rfl⟩ := List.mem_map.mp hl
      exact nodup_colourTiles nt c
    · rw [List.pairwise_map]
      have hn : colours2.Nodup := nodup_box _ _
      refine (hn.imp_of_mem fun {a b} ha hb hne => ?_)
      intro u hu hv
      obtain ⟨-, a1, a2, a3⟩ := mem_colourTiles.mp hu
      obtain ⟨-, b1, b2, b3⟩ := mem_colourTiles.mp hv
      have ha' := mem_box.mp ha
      have hb' := mem_box.mp hb
      unfold InBox at ha' hb'
      dsimp only at ha' hb'
      refine hne ?_
      have e1 : a.j = b.j := by omega
      have e2 : a.k = b.k := by omega
      have e3 : a.l = b.l := by omega
      cases a
      cases b
      simp_all
  · rw [List.mem_flatten, mem_box]
    constructor
    · rintro ⟨l, hl, hu⟩
      obtain ⟨c, hc, rfl⟩ := List.mem_map.mp hl
      have hc' := mem_box.mp hc
      have := (mem_colourTiles.mp hu).1
      unfold InBox at this hc' ⊢
      dsimp only at hc' ⊢
      omega
    · intro hu
      refine ⟨_, List.mem_map.mpr ⟨⟨(u.j - 1) % 3 + 1, 1, (u.l - 1) % 3 + 1⟩, ?_, rfl⟩, ?_⟩
      · refine mem_box.mpr ?_
        unfold InBox
        dsimp only
        omega
      · rw [mem_colourTiles]
        unfold InBox at hu ⊢
        dsimp only at hu ⊢
        omega

theorem colours2_box {c : I3} (h : c ∈ colours2) : InBox ⟨1, 1, 1⟩ ⟨3, 3, 3⟩ c := by
  have := mem_box.mp h
  unfold InBox at this ⊢
  dsimp only at this ⊢
  omega

theorem rmMove2_eq {t : Tile n} {l : List (Part n)} (h : Holds t l) (hp : ∀ p ∈ l, InPlane p) {i : ℕ} (hi : i < l.length) :
    rmMove2 (i + 1) t = rmMove (i + 1) t := by
  have hc := h.count
  have hf := h.fits
  have ha : t.alloc = true := by
    by_contra hne
    rw [h.empty (by simpa using hne)] at hi
    simp at hi
  have hs := h.size ha
  unfold rmMove2 rmMove
  by_cases hg : (i : ℤ) + 1 = t.np
  · rw [if_pos hg, if_pos hg]
  have hk : ∀ a ∈ kept n, (do
      let v ← (t.arr a).get t.np
      (t.arr a).set (i + 1) v) = .ok ⟨t.npmax, Function.update (t.arr a).val (i + 1) (some (l[l.length - 1].val a))⟩ := by
    intro a hak
    have hv := h.vals a hak (l.length - 1) (by omega)
    rw [show ((l.length - 1 : ℕ) : ℤ) + 1 = t.np by omega] at hv
    rw [FArr.get_ok ⟨by omega, by rw [hs a]; omega⟩ hv]
    simp only [except_bind_ok]
    rw [FArr.set_ok _ ⟨by omega, by rw [hs a]; omega⟩, hs a]
  rw [if_neg hg, if_neg hg, onArrays_ok kept_nodup hk, onArrays_ok kept2_nodup fun a ha2 => hk a ((kept_iff a).mpr (.inr ha2))]
  simp only [except_bind_ok]
  congr 2
  funext a
  by_cases h2 : a ∈ kept2 n
  · rw [if_pos h2, if_pos ((kept_iff a).mpr (.inr h2))]
  · by_cases h3 : a ∈ kept n
    · rcases (kept_iff a).mp h3 with rfl | h4
      · rw [if_neg h2, if_pos h3]
        have e1 := h.vals _ h3 i hi
        have y1 : l[i].val .y = 0 := hp _ (List.getElem_mem hi)
        have y2 : l[l.length - 1].val .y = 0 := hp _ (List.getElem_mem _)
        rw [y1] at e1
        rw [y2, ← e1, Function.update_eq_self]
        have := hs .y
        cases hb : t.arr .y with
        | mk m v => rw [hb] at this; simp only at this; rw [this]
      · exact absurd h4 h2
    · rw [if_neg h2, if_neg h3]

theorem planar_eq {p : Part n} (h : InPlane p) : planar p = p := by
  unfold planar
  unfold InPlane at h
  cases p
  simp_all

end Picsar.Tiling
