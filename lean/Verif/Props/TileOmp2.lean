import Verif.Lemmas.TileOmp2
import Verif.Props.TileOmp
/-
C177: the OpenMP exchange of particles between tiles in two dimensions.
-/
namespace Picsar.Props
open Picsar Picsar.Grid Picsar.Tiling Picsar.Tile2d
open Classical

theorem adjF2_of {n : ℕ} {g : Geo} {nt : I3} {L : I3 → List (Part n)} (hg : Fits g nt) (ha : Adjacent2 g nt L) :
    AdjF nt g.inTile2 g.inDom2 g.idx2 Near L := by
  intro u hu p hp hd _
  have hs := sorts2 (n := n) hg
  have hd' : InDom2 g p := by
    unfold Geo.inDom2 at hd
    rw [inDom_iff, inDom_iff] at hd
    exact hd
  have hh := hs.home p hd
  exact ha u hu p hp hd' _ (hs.box p hd) ⟨hh.1, hh.2⟩

/-- C177, conflicts. One tile in y. If particles are at most one tile away from where they are stored: at every moment of every run of the threaded
exchange of the plane, the next steps of two threads access different tiles, no next step faults, and every thread finishes. -/
theorem C177_no_conflict (n : ℕ) (g : Geo) (S : Species n) (hg : Fits g S.nt) (L : I3 → List (Part n)) (h : HoldsAll S L)
    (ha : Adjacent2 g S.nt L) : ∃ N, ∀ ws k c, OmpAt g.inTile2 g.inDom2 g.idx2 colours2 S ws k c → k ≤ N ∧
      ∀ u ∈ ws, c.pc u ≠ .done → (∃ c', c.step g.inTile2 g.inDom2 g.idx2 u = .ok c') ∧
        ∀ v ∈ ws, c.pc v ≠ .done → u ≠ v → (c.pc u).access g.idx2 u ≠ (c.pc v).access g.idx2 v := by
  obtain ⟨-, N, -, -, -, h⟩ := omp_ok (sorts2 hg) colours2 (fun c hc => colours2_box hc) S L rfl h (adjF2_of hg ha)
  exact ⟨N, h⟩

/-- C177, result. There is a complete run; every complete run gives each tile the same particles as the sequential exchange of the plane: every
particle of the domain is in the tile in which it lies, none is lost or duplicated. -/
theorem C177_same_as_sequential (n : ℕ) (g : Geo) (S : Species n) (hg : Fits g S.nt) (hy : S.nt.k = 1) (L : I3 → List (Part n)) (h : HoldsAll S L)
    (ha : Adjacent2 g S.nt L) : ∃ Sq Lq, bcsTiles2 g S = .ok Sq ∧ HoldsAll Sq Lq ∧ (∃ S', OmpRun g.inTile2 g.inDom2 g.idx2 colours2 S S') ∧
      ∀ S', OmpRun g.inTile2 g.inDom2 g.idx2 colours2 S S' → S'.nt = S.nt ∧ S'.npart = S.npart ∧ ∃ L', HoldsAll S' L' ∧
        (∀ T, InBox ⟨1, 1, 1⟩ S.nt T → (L' T).Perm (Lq T)) ∧ total S.nt L' = total S.nt L ∧
        ∀ T, InBox ⟨1, 1, 1⟩ S.nt T → ∀ p ∈ L' T, InDom2 g p → InTile2 g T p := by
  have hs := sorts2 (n := n) hg
  obtain ⟨Sq, Lq, eq, nq, npq, hq, mq⟩ := moveTiles_ok hs h
  obtain ⟨S', N, e, run, uniq, -⟩ := omp_ok hs colours2 (fun c hc => colours2_box hc) S L rfl h (adjF2_of hg ha)
  have hp := colours2_perm S.nt hy
  obtain ⟨S2, L2, e2, n2, np2, h2, m2⟩ := moves_ok hs (L := L) ((colours2.map (colourTiles S.nt)).flatten) []
    (by rw [List.nil_append]; exact hp.nodup_iff.mpr (nodup_box _ _))
    (fun u hu => mem_box.mp (hp.mem_iff.mp hu)) S L rfl h (by simp)
  rw [e] at e2
  injection e2 with e2
  subst e2
  have hperm : ∀ T, InBox ⟨1, 1, 1⟩ S.nt T → (L2 T).Perm (Lq T) := fun T hT => by
    rw [← Multiset.coe_eq_coe, m2 T, mq T hT, List.nil_append, if_pos (hp.mem_iff.mpr (mem_box.mpr hT)), zero_add]
    exact (hp.map _).sum_eq
  obtain ⟨S3, L3, e3, a3, -, h3, t3, f3, -⟩ := C62_tile_exchange_2d n g S hg L h
  rw [show bcsTiles2 g S = .ok Sq from eq] at e3
  injection e3 with e3
  subst e3
  have hl : ∀ T, InBox ⟨1, 1, 1⟩ S.nt T → L3 T = Lq T := fun T hT => by
    have q1 := h3 T (by rw [a3]; exact hT)
    have q2 := hq T (by rw [a3]; exact hT)
    refine List.ext_getElem (by have := q1.count; have := q2.count; omega) fun i h1 h2 => ?_
    have r1 := readPart_ok q1 h1
    have r2 := readPart_ok q2 h2
    rw [r1] at r2
    injection r2
  refine ⟨Sq, Lq, eq, hq, ⟨_, run⟩, fun S1 hr => ?_⟩
  rw [uniq S1 hr]
  refine ⟨n2, np2, L2, h2, hperm, ?_, fun T hT p hp hd => f3 T hT p (by rw [hl T hT]; exact (hperm T hT).mem_iff.mp hp) hd⟩
  rw [← t3]
  unfold total
  congr 1
  refine List.map_congr_left fun T hT => ?_
  rw [Multiset.coe_eq_coe, hl T (mem_box.mp hT)]
  exact hperm T (mem_box.mp hT)

/-- C177, storage. For particles in the plane, the removal and the addition of two dimensions do the same to a tile as those of three dimensions. -/
theorem C177_storage (n : ℕ) (t : Tile n) (l : List (Part n)) (h : Holds t l) (hp : ∀ p ∈ l, InPlane p) :
    (∀ i : ℤ, 1 ≤ i → i ≤ t.np → rmTile2 i t = rmTile i t) ∧ ∀ p : Part n, InPlane p → addTile2 p t = addTile p t := by
  refine ⟨fun i h1 h2 => ?_, fun p hpl => ?_⟩
  · obtain ⟨k, rfl⟩ : ∃ k : ℕ, i = k + 1 := ⟨(i - 1).toNat, by omega⟩
    unfold rmTile2 rmTile
    rw [rmMove2_eq h hp (by have := h.count; omega)]
  · unfold addTile2
    rw [planar_eq hpl]

/-- Three tiles in x and z, one in y, as in a 2-D simulation. -/
noncomputable def exGeoPlane : Geo := ⟨exGeo, ⟨⟨1, 1, 1⟩, 0, 0, 1, 0, 0⟩, exGeo⟩
theorem exPlaneFits : Fits exGeoPlane ⟨3, 1, 3⟩ := ⟨⟨3, 22, exGeo_ok⟩,
  ⟨1, 1, ⟨by norm_num, by norm_num, rfl, by norm_num [exGeoPlane], by norm_num [exGeoPlane], by norm_num [exGeoPlane], by norm_num [exGeoPlane]⟩⟩,
  ⟨3, 22, exGeo_ok⟩, rfl⟩

/-- A particle of the plane at x = z = 10. -/
noncomputable def exPlanePart : Part 1 := ⟨10, 0, 10, 1, 2, 3, 1 / 2, fun _ => 5⟩

/-- The particle is stored in tile (1,1,1), one tile away from its own: the hypotheses of the theorems hold, and some run ends with the particle in
tile (2,1,2). -/
example : InPlane exPlanePart ∧ ∃ (S S' : Species 1) (L' : I3 → List (Part 1)), HoldsAll S (Function.update (fun _ => []) ⟨1, 1, 1⟩ [exPlanePart]) ∧ S.nt.k = 1 ∧
    OmpRun exGeoPlane.inTile2 exGeoPlane.inDom2 exGeoPlane.idx2 colours2 S S' ∧ HoldsAll S' L' ∧ exPlanePart ∈ L' ⟨2, 1, 2⟩ := by
  have h0 : Holds (newTile (n := 1) 1) [] := ⟨rfl, by simp [newTile, allocArrays], fun _ _ => rfl, fun _ => rfl, fun _ _ i hi => absurd hi (Nat.not_lt_zero i)⟩
  obtain ⟨t1, -, h1⟩ := (C59_operations 1 _ _ h0).1 exPlanePart
  have hS : HoldsAll (⟨⟨3, 1, 3⟩, Function.update (fun _ => newTile 1) ⟨1, 1, 1⟩ t1, 1⟩ : Species 1)
      (Function.update (fun _ => []) ⟨1, 1, 1⟩ [exPlanePart]) := by
    intro u _
    dsimp only
    by_cases hu : u = ⟨1, 1, 1⟩
    · subst hu
      rw [Function.update_self, Function.update_self]
      exact h1
    · rw [Function.update_of_ne hu, Function.update_of_ne hu]
      exact h0
  have e1 : (exGeo.ext 2).lo = 6.5 := by
    unfold Geo1.ext tileExt; rw [if_neg (by simp [exGeo]), if_neg (by norm_num)]; norm_num [exGeo]
  have e2 : (exGeo.ext 2).hi = 13.5 := by
    unfold Geo1.ext tileExt; rw [if_neg (by simp [exGeo]), if_neg (by norm_num)]; norm_num [exGeo]
  have hx : exGeo.xmin ≤ 10 ∧ (10 : ℝ) < exGeo.xmax := by norm_num [exGeo]
  have i2 := ((C58_positions exGeo 3 22 exGeo_ok 10 hx).2 2 (by norm_num) (by simp [exGeo])).mp (by rw [e1, e2]; norm_num)
  have key : ∀ i : ℤ, 1 ≤ i → i ≤ 3 → (exGeo.ext i).lo ≤ 10 ∧ (10 : ℝ) < (exGeo.ext i).hi → i = 2 := fun i a b c => by
    rw [((C58_positions exGeo 3 22 exGeo_ok 10 hx).2 i a b).mp c, ← i2]
  have key3 : ∀ T : I3, InBox ⟨1, 1, 1⟩ ⟨3, 1, 3⟩ T → InTile2 exGeoPlane T exPlanePart → T = ⟨2, 1, 2⟩ := by
    intro T hb hin
    unfold InBox at hb
    dsimp only at hb
    have k1 := key T.j hb.1 hb.2.1 hin.1
    have k2 : T.k = 1 := by omega
    have k3 := key T.l hb.2.2.2.2.1 hb.2.2.2.2.2 hin.2
    cases T
    simp_all
  have ha : Adjacent2 exGeoPlane ⟨3, 1, 3⟩ (Function.update (fun _ => []) (⟨1, 1, 1⟩ : I3) [exPlanePart]) := by
    intro u hu p hp _ T hT hin
    by_cases hu1 : u = ⟨1, 1, 1⟩
    · subst hu1
      rw [Function.update_self] at hp
      have : p = exPlanePart := by simpa using hp
      subst this
      rw [key3 T hT hin]
      exact ⟨by norm_num, by norm_num, by norm_num⟩
    · rw [Function.update_of_ne hu1] at hp
      simp at hp
  obtain ⟨Sq, Lq, eq, hq, ⟨S', run⟩, all⟩ := C177_same_as_sequential 1 exGeoPlane _ exPlaneFits rfl _ hS ha
  obtain ⟨-, -, L', h', -, ht, hin⟩ := all S' run
  refine ⟨rfl, _, S', L', hS, rfl, run, h', ?_⟩
  have hmem : exPlanePart ∈ total ⟨3, 1, 3⟩ L' := by
    rw [ht]
    unfold total
    rw [mem_listSum]
    refine ⟨_, List.mem_map.mpr ⟨⟨1, 1, 1⟩, mem_box.mpr (by dsimp only; decide), rfl⟩, ?_⟩
    rw [Function.update_self]
    simp
  unfold total at hmem
  rw [mem_listSum] at hmem
  obtain ⟨s, hs, hp⟩ := hmem
  obtain ⟨T, hT, rfl⟩ := List.mem_map.mp hs
  have hTe := key3 T (mem_box.mp hT) (hin T (mem_box.mp hT) exPlanePart hp (by unfold InDom2; norm_num [exGeoPlane, exGeo, exPlanePart]))
  subst hTe
  exact hp

/-- Two particles of the plane in a tile: the hypotheses of `C177_storage` hold, and there is a removal that is not of the last particle. -/
example : ∃ (t : Tile 1) (t' : Tile 1), Holds t [exPlanePart, exPlanePart] ∧ rmTile2 1 t = .ok t' ∧ rmTile 1 t = .ok t' := by
  have h0 : Holds (newTile (n := 1) 1) [] := ⟨rfl, by simp [newTile, allocArrays], fun _ _ => rfl, fun _ => rfl, fun _ _ i hi => absurd hi (Nat.not_lt_zero i)⟩
  obtain ⟨t1, -, h1⟩ := (C59_operations 1 _ _ h0).1 exPlanePart
  obtain ⟨t2, -, h2⟩ := (C59_operations 1 _ _ h1).1 exPlanePart
  have h2' : Holds t2 [exPlanePart, exPlanePart] := h2
  obtain ⟨t', e, -⟩ := rmTile2_ok h2' (i := 0) (by simp)
  refine ⟨t2, t', h2', e, ?_⟩
  rw [← (C177_storage 1 t2 _ h2' (by intro p hp; simp at hp; rw [hp]; rfl)).1 1 (by norm_num) (by rw [h2'.count]; simp)]
  exact e

end Picsar.Props
