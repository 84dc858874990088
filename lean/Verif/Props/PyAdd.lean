import Verif.Model.PyAdd
import Verif.Props.Tiling
/-
C184: particles added through the interface.
-/
namespace Picsar.Props
open Picsar Picsar.Grid Picsar.Tiling

open Classical in
/-- C184, positions in the subdomain: no fault, and every tile holds what it held before, then the given particles that lie in it, in the order given; the count of
the species grows by their number. What is missing: other positions; see `C184_outside_refuted`. -/
theorem C184_add_partial (n : ℕ) (g : Geo) : ∀ (ps : List (Part n)) (S : Species n) (L : I3 → List (Part n)), Fits g S.nt → HoldsAll S L → (∀ p ∈ ps, InSub g p) →
    ∃ S', pyAdd g ps S = .ok S' ∧ S'.nt = S.nt ∧ S'.npart = S.npart + ps.length ∧ HoldsAll S' fun u => L u ++ ps.filter fun p => decide (InTile3 g u p)
  | [], S, L, _, h, _ => ⟨S, rfl, rfl, by simp, by simpa using h⟩
  | p :: ps, S, L, hg, h, hp => by
    have hs := hp p List.mem_cons_self
    have hu : InBox ⟨1, 1, 1⟩ S.nt (g.idx p) := sub_idx hg hs
    obtain ⟨S1, e1, h1, n1, np1⟩ := atTile_ok h hu (addTile_ok (h _ hu) p)
    obtain ⟨S2, e2, n2, np2, h2⟩ := C184_add_partial n g ps ⟨S1.nt, S1.tiles, S1.npart + 1⟩ _ (by rw [← n1] at hg; exact hg) h1
      fun q hq => hp q (List.mem_cons_of_mem _ hq)
    refine ⟨S2, ?_, n2.trans n1, ?_, fun u hu2 => ?_⟩
    · unfold pyAdd addSpecies addAt
      rw [List.foldlM_cons, e1]
      exact e2
    · rw [np2]
      dsimp only
      rw [np1, List.length_cons]
      push_cast
      ring
    · have h3 := h2 u hu2
      have hu' : InBox ⟨1, 1, 1⟩ S.nt u := by rw [n2, show (⟨S1.nt, S1.tiles, S1.npart + 1⟩ : Species n).nt = S1.nt from rfl, n1] at hu2; exact hu2
      have key : InTile3 g u p ↔ u = g.idx p := by
        obtain ⟨⟨_, _, gx⟩, ⟨_, _, gy⟩, ⟨_, _, gz⟩, gn⟩ := hg
        rw [gn] at hu'
        unfold InBox at hu'
        dsimp only at hu'
        have ix := inTile_iff gx hs.1 (i := u.j) (by omega)
        have iy := inTile_iff gy hs.2.1 (i := u.k) (by omega)
        have iz := inTile_iff gz hs.2.2 (i := u.l) (by omega)
        constructor
        · rintro ⟨a, b, c⟩
          have a' := ix.mp a
          have b' := iy.mp b
          have c' := iz.mp c
          unfold Geo.idx
          rw [← a', ← b', ← c']
        · intro e
          exact ⟨ix.mpr (by rw [e]; rfl), iy.mpr (by rw [e]; rfl), iz.mpr (by rw [e]; rfl)⟩
      dsimp only at h3 ⊢
      by_cases hk : u = g.idx p
      · rw [List.filter_cons_of_pos (by simpa using key.mpr hk)]
        subst hk
        rw [Function.update_self] at h3
        simpa using h3
      · rw [Function.update_of_ne hk] at h3
        rw [List.filter_cons_of_neg (by simpa using fun h => hk (key.mp h))]
        exact h3

/-- C184 fails for positions outside of the subdomain: more than half a cell below it the tile array is accessed outside its bounds; above it the particle is stored
in a tile, although it lies in none. -/
theorem C184_outside_refuted (n : ℕ) (g : Geo) (S : Species n) (L : I3 → List (Part n)) (hg : Fits g S.nt) (h : HoldsAll S L) (p : Part n) :
    (p.x < g.x.xmin - g.x.dx / 2 → pyAdd g [p] S = .error .outOfBounds) ∧
    (g.x.xmax ≤ p.x → (g.y.xmin ≤ p.y ∧ p.y < g.y.xmax) → (g.z.xmin ≤ p.z ∧ p.z < g.z.xmax) →
      (∃ S' u, pyAdd g [p] S = .ok S' ∧ InBox ⟨1, 1, 1⟩ S.nt u ∧ Holds (S'.tiles u) (L u ++ [p])) ∧ ∀ u, InBox ⟨1, 1, 1⟩ S.nt u → ¬ InTile3 g u p) := by
  obtain ⟨⟨a, b, gx⟩, ⟨_, _, gy⟩, ⟨_, _, gz⟩, gn⟩ := hg
  have hdx := gx.dx
  obtain ⟨f1, f2⟩ := first_n gx
  have hc := split_cases gx.tiles gx.grid gx.split
  constructor
  · intro hx
    have hneg : g.x.idx p.x ≤ 0 := by
      have hn : 1 ≤ (g.x.ext 1).nGrid := by
        have := gx.grid
        rcases hc with ⟨c, _⟩ | ⟨c, _, d, _⟩
        · rw [f1 c]; exact this
        · rw [f2 c]; omega
      have hf : ⌊(p.x - g.x.xmin + g.x.dx / 2) / ((g.x.ext 1).nGrid * g.x.dx)⌋ < 0 := by
        rw [Int.floor_lt]
        push_cast
        refine div_neg_of_neg_of_pos (by linarith) (mul_pos ?_ hdx)
        exact_mod_cast (by omega : (0 : ℤ) < (g.x.ext 1).nGrid)
      unfold Geo1.idx tileIdx
      omega
    unfold pyAdd addSpecies addAt atTile
    rw [List.foldlM_cons, if_neg (fun hb => by have := hb.1; unfold Geo.idx at this; dsimp only at this; omega)]
    rfl
  · intro hx hy hz
    have hmm : g.x.xmin ≤ g.x.xmax := by
      rw [gx.xmax]
      have : (0 : ℝ) ≤ ((b - 1 : ℤ) : ℝ) := by have := gx.grid; exact_mod_cast (by omega : (0 : ℤ) ≤ b - 1)
      nlinarith
    have x1 := idx_range gx (hmm.trans hx)
    have y1 := idx_range gy hy.1
    have z1 := idx_range gz hz.1
    have hu : InBox ⟨1, 1, 1⟩ S.nt (g.idx p) := by rw [gn]; exact ⟨x1.1, x1.2, y1.1, y1.2, z1.1, z1.2⟩
    constructor
    · obtain ⟨S1, e1, h1, n1, np1⟩ := atTile_ok h hu (addTile_ok (h _ hu) p)
      refine ⟨⟨S1.nt, S1.tiles, S1.npart + 1⟩, g.idx p, ?_, hu, ?_⟩
      · unfold pyAdd addSpecies addAt
        rw [List.foldlM_cons, e1]
        rfl
      · have := h1 _ (by rw [n1]; exact hu)
        rw [Function.update_self] at this
        exact this
    · rintro u hb ⟨⟨_, hlt⟩, _⟩
      rw [gn] at hb
      have hj : 1 ≤ u.j ∧ u.j ≤ g.x.s.nt := ⟨hb.1, hb.2.1⟩
      have hhi : (g.x.ext u.j).hi ≤ g.x.xmax := by
        unfold Geo1.ext tileExt
        by_cases e : u.j = g.x.s.nt
        · rw [if_pos e]
        · rw [if_neg e]
          rcases hc with ⟨c, _⟩ | ⟨c, _, d, d2, d3⟩
          · omega
          · have k : u.j * g.x.s.n0 ≤ b - 4 := by nlinarith [hj.2, show u.j ≤ g.x.s.nt - 1 by omega]
            have kr : ((u.j : ℝ) * g.x.s.n0) ≤ b - 4 := by exact_mod_cast k
            have kd := mul_le_mul_of_nonneg_right kr hdx.le
            split
            · rename_i e1
              rw [e1] at kd
              rw [gx.xmax]
              push_cast at kd ⊢
              linarith
            · rw [gx.xmax]
              push_cast
              linarith
      linarith

/-- A call with three particles, two of them of tile (2,2,2), on empty tiles; a particle at x = 25 of a subdomain that ends at 21 is stored, one at x = -1 faults. -/
example : ∃ S S' S'' : Species 1, pyAdd exGeo3 [exPart 10, exPart 3, exPart 11] S = .ok S' ∧ S'.npart = 3 ∧ Holds (S'.tiles ⟨2, 2, 2⟩) [exPart 10, exPart 11] ∧
    pyAdd exGeo3 [⟨25, 10, 10, 0, 0, 0, 1, fun _ => 1⟩] S = .ok S'' ∧ pyAdd exGeo3 [exPart (-1)] S = .error .outOfBounds := by
  have h0 : Holds (newTile (n := 1) 1) [] := ⟨rfl, by simp [newTile, allocArrays], fun _ _ => rfl, fun _ => rfl, fun _ _ i hi => absurd hi (Nat.not_lt_zero i)⟩
  have hS : HoldsAll (⟨⟨3, 3, 3⟩, fun _ => newTile 1, 0⟩ : Species 1) (fun _ => []) := fun u _ => h0
  obtain ⟨S', e, hn, hc, hh⟩ := C184_add_partial 1 exGeo3 [exPart 10, exPart 3, exPart 11] _ _ exFits hS (by
    intro p hp
    simp only [List.mem_cons, List.not_mem_nil, or_false] at hp
    rcases hp with rfl | rfl | rfl <;> (unfold InSub; norm_num [exGeo3, exGeo, exPart]))
  obtain ⟨⟨S'', _, e2, -⟩, -⟩ := (C184_outside_refuted 1 exGeo3 _ _ exFits hS ⟨25, 10, 10, 0, 0, 0, 1, fun _ => 1⟩).2 (by norm_num [exGeo3, exGeo])
    (by norm_num [exGeo3, exGeo]) (by norm_num [exGeo3, exGeo])
  refine ⟨_, S', S'', e, by simpa using hc, ?_, e2, (C184_outside_refuted 1 exGeo3 _ _ exFits hS (exPart (-1))).1 (by norm_num [exGeo3, exGeo, exPart])⟩
  have h2 := hh ⟨2, 2, 2⟩ (by rw [hn]; decide)
  have e1 : (exGeo.ext 2).lo = 6.5 := by
    unfold Geo1.ext tileExt; rw [if_neg (by simp [exGeo]), if_neg (by norm_num)]; norm_num [exGeo]
  have e2 : (exGeo.ext 2).hi = 13.5 := by
    unfold Geo1.ext tileExt; rw [if_neg (by simp [exGeo]), if_neg (by norm_num)]; norm_num [exGeo]
  have key : ∀ v : ℝ, InTile3 exGeo3 ⟨2, 2, 2⟩ (exPart v) ↔ 6.5 ≤ v ∧ v < 13.5 := by
    intro v
    unfold InTile3 exGeo3 exPart
    dsimp only
    rw [e1, e2]
    tauto
  dsimp only at h2
  rw [List.filter_cons_of_pos (by simp only [decide_eq_true_eq]; rw [key]; norm_num), List.filter_cons_of_neg (by simp only [decide_eq_true_eq]; rw [key]; norm_num),
    List.filter_cons_of_pos (by simp only [decide_eq_true_eq]; rw [key]; norm_num)] at h2
  exact h2

end Picsar.Props
