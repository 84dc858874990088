import Verif.Lemmas.TileOmp
import Verif.Props.Tiling
/-
C63: the OpenMP exchange of particles between tiles.
-/
namespace Picsar.Props
open Picsar Picsar.Grid Picsar.Tiling
open Classical

/-- Every configuration met in the run of a sequence of loops. -/
theorem omp_ok {n : ℕ} {nt : I3} {inTile : I3 → Part n → Prop} {inDom : Part n → Prop} {idx : Part n → I3} (hs : Sorts nt inTile inDom idx) :
    ∀ (cs : List I3), (∀ c ∈ cs, InBox ⟨1, 1, 1⟩ ⟨3, 3, 3⟩ c) → ∀ (S : Species n) (L : I3 → List (Part n)), S.nt = nt → HoldsAll S L →
    AdjF nt inTile inDom idx Near L →
    ∃ S' N, ((cs.map (colourTiles nt)).flatten).foldlM (fun S u => moveTile inTile inDom idx u S) S = .ok S' ∧
      OmpRun inTile inDom idx cs S S' ∧ (∀ S1, OmpRun inTile inDom idx cs S S1 → S1 = S') ∧
      ∀ ws k c, OmpAt inTile inDom idx cs S ws k c → k ≤ N ∧ ∀ u ∈ ws, c.pc u ≠ .done → (∃ c', c.step inTile inDom idx u = .ok c') ∧
        ∀ v ∈ ws, c.pc v ≠ .done → u ≠ v → (c.pc u).access idx u ≠ (c.pc v).access idx v := by
  intro cs
  induction cs with
  | nil =>
    intro _ S L _ _ _
    refine ⟨S, 0, rfl, .nil, fun S1 h => ?_, fun ws k c h => ?_⟩
    · cases h; rfl
    · cases h
  | cons col cs ih =>
    intro hcs S L hnt h ha
    have hcol := hcs col List.mem_cons_self
    have hb : ∀ u ∈ colourTiles nt col, InBox ⟨1, 1, 1⟩ nt u ∧ Near u u := by
      intro u hu
      have := (mem_colourTiles.mp hu).1
      refine ⟨?_, by simp [Near]⟩
      unfold InBox at this hcol ⊢
      dsimp only at hcol ⊢
      omega
    have hdis : ∀ u ∈ colourTiles nt col, ∀ v ∈ colourTiles nt col, u ≠ v → ∀ T, Near u T → ¬ Near v T :=
      fun u hu v hv hne T h1 => colour_disjoint hu hv hne h1
    obtain ⟨S1, N1, e1, ⟨j, c, st, dn⟩, all⟩ := phase_ok hs (F := Near) (nodup_colourTiles nt col) hb hdis hnt h ha
    obtain ⟨S1', L1, e1', n1, h1, a1⟩ := adj_moves hs (F := Near) (colourTiles nt col) (fun u hu => (hb u hu).1) S L hnt h ha
    rw [e1] at e1'
    injection e1' with e1'
    subst e1'
    obtain ⟨S', N, e, run, uniq, at_⟩ := ih (fun c hc => hcs c (List.mem_cons_of_mem _ hc)) S1 L1 n1 h1 a1
    refine ⟨S', max N1 N, ?_, ?_, fun S2 hr => ?_, fun ws k c2 hat => ?_⟩
    · rw [List.map_cons, List.flatten_cons, List.foldlM_append, e1]
      exact e
    · refine .cons (k := j) (c := c) (by rw [hnt]; exact st) (by rw [hnt]; exact dn) ?_
      rw [(all j c st).2.2 dn]
      exact run
    · cases hr with
      | cons st2 dn2 r2 =>
        rw [hnt] at st2 dn2
        rw [(all _ _ st2).2.2 dn2] at r2
        exact uniq _ r2
    · cases hat with
      | here st2 =>
        rw [hnt] at st2 ⊢
        obtain ⟨b1, b2, -⟩ := all _ _ st2
        refine ⟨le_trans b1 (le_max_left _ _), fun u hu hd => ⟨(b2 u hu hd).2, fun v hv hdv hne he => ?_⟩⟩
        have x := (b2 u hu hd).1
        rw [he] at x
        exact hdis u hu v hv hne _ x (b2 v hv hdv).1
      | later st2 dn2 a2 =>
        rw [hnt] at st2 dn2
        rw [(all _ _ st2).2.2 dn2] at a2
        obtain ⟨b1, b2⟩ := at_ _ _ _ a2
        exact ⟨le_trans b1 (le_max_right _ _), b2⟩

theorem adjF_of {n : ℕ} {g : Geo} {nt : I3} {L : I3 → List (Part n)} (hg : Fits g nt) (ha : Adjacent g nt L) :
    AdjF nt g.inTile g.inDom g.idx Near L := by
  intro u hu p hp hd _
  have hs := sorts3 (n := n) hg
  have hd' : InDom3 g p := by
    unfold Geo.inDom at hd
    rw [inDom_iff, inDom_iff, inDom_iff] at hd
    exact hd
  have hh := hs.home p hd
  exact ha u hu p hp hd' _ (hs.box p hd) ⟨hh.1.1, hh.1.2, hh.2⟩

theorem mem_colours {c : I3} : c ∈ colours → InBox ⟨1, 1, 1⟩ ⟨3, 3, 3⟩ c := fun h => mem_box.mp h

/-- C63, conflicts. If particles are at most one tile away from where they are stored: at every moment of every run of the threaded exchange, the
next steps of two threads access different tiles, no next step faults, and every thread finishes (the number of steps of a loop is bounded). -/
theorem C63_no_conflict (n : ℕ) (g : Geo) (S : Species n) (hg : Fits g S.nt) (L : I3 → List (Part n)) (h : HoldsAll S L)
    (ha : Adjacent g S.nt L) : ∃ N, ∀ ws k c, OmpAt g.inTile g.inDom g.idx colours S ws k c → k ≤ N ∧
      ∀ u ∈ ws, c.pc u ≠ .done → (∃ c', c.step g.inTile g.inDom g.idx u = .ok c') ∧
        ∀ v ∈ ws, c.pc v ≠ .done → u ≠ v → (c.pc u).access g.idx u ≠ (c.pc v).access g.idx v := by
  obtain ⟨-, N, -, -, -, h⟩ := omp_ok (sorts3 hg) colours (fun c hc => mem_colours hc) S L rfl h (adjF_of hg ha)
  exact ⟨N, h⟩

/-- C63, result. There is a complete run; every complete run gives each tile the same particles as the sequential exchange, with all their
properties. -/
theorem C63_same_as_sequential (n : ℕ) (g : Geo) (S : Species n) (hg : Fits g S.nt) (L : I3 → List (Part n)) (h : HoldsAll S L)
    (ha : Adjacent g S.nt L) : ∃ Sq Lq, bcsTiles g S = .ok Sq ∧ HoldsAll Sq Lq ∧ (∃ S', OmpRun g.inTile g.inDom g.idx colours S S') ∧
      ∀ S', OmpRun g.inTile g.inDom g.idx colours S S' → S'.nt = S.nt ∧ S'.npart = S.npart ∧ ∃ L', HoldsAll S' L' ∧
        ∀ T, InBox ⟨1, 1, 1⟩ S.nt T → (L' T).Perm (Lq T) := by
  have hs := sorts3 (n := n) hg
  obtain ⟨Sq, Lq, eq, nq, npq, hq, mq⟩ := moveTiles_ok hs h
  obtain ⟨S', N, e, run, uniq, -⟩ := omp_ok hs colours (fun c hc => mem_colours hc) S L rfl h (adjF_of hg ha)
  have hp := colours_perm S.nt
  obtain ⟨S2, L2, e2, n2, np2, h2, m2⟩ := moves_ok hs (L := L) ((colours.map (colourTiles S.nt)).flatten) []
    (by rw [List.nil_append]; exact hp.nodup_iff.mpr (nodup_box _ _))
    (fun u hu => mem_box.mp (hp.mem_iff.mp hu)) S L rfl h (by simp)
  rw [e] at e2
  injection e2 with e2
  subst e2
  refine ⟨Sq, Lq, eq, hq, ⟨_, run⟩, fun S1 hr => ?_⟩
  rw [uniq S1 hr]
  refine ⟨n2, np2, L2, h2, fun T hT => ?_⟩
  rw [← Multiset.coe_eq_coe, m2 T, mq T hT, List.nil_append, if_pos (hp.mem_iff.mpr (mem_box.mpr hT)), zero_add]
  exact (hp.map _).sum_eq

/-- A particle at (10, 10, 10), stored in tile (1,1,1), one tile away from its own: the hypotheses hold and some run ends with the particle in tile
(2,2,2). -/
example : ∃ (S S' : Species 1) (L' : I3 → List (Part 1)), HoldsAll S (Function.update (fun _ => []) ⟨1, 1, 1⟩ [exPart 10]) ∧
    OmpRun exGeo3.inTile exGeo3.inDom exGeo3.idx colours S S' ∧ HoldsAll S' L' ∧ exPart 10 ∈ (L' ⟨1, 1, 1⟩ ++ L' ⟨2, 2, 2⟩) := by
  have h0 : Holds (newTile (n := 1) 1) [] := ⟨rfl, by simp [newTile, allocArrays], fun _ _ => rfl, fun _ => rfl, fun _ _ i hi => absurd hi (Nat.not_lt_zero i)⟩
  obtain ⟨t1, -, h1⟩ := (C59_operations 1 _ _ h0).1 (exPart 10)
  have hS : HoldsAll (⟨⟨3, 3, 3⟩, Function.update (fun _ => newTile 1) ⟨1, 1, 1⟩ t1, 1⟩ : Species 1)
      (Function.update (fun _ => []) ⟨1, 1, 1⟩ [exPart 10]) := by
    intro u _
    dsimp only
    by_cases hu : u = ⟨1, 1, 1⟩
    · subst hu
      rw [Function.update_self, Function.update_self]
      exact h1
    · rw [Function.update_of_ne hu, Function.update_of_ne hu]
      exact h0
  have e1 : (exGeo.ext 2).lo = 6.5 := by
    unfold Geo1.ext tileExt; rw [if_neg (by simp [exGeo]), if_neg (by norm_num)]; norm_num [exGeo]
  have e2 : (exGeo.ext 2).hi = 13.5 := by
    unfold Geo1.ext tileExt; rw [if_neg (by simp [exGeo]), if_neg (by norm_num)]; norm_num [exGeo]
  have hx : exGeo.xmin ≤ 10 ∧ (10 : ℝ) < exGeo.xmax := by norm_num [exGeo]
  have i2 := ((C58_positions exGeo 3 22 exGeo_ok 10 hx).2 2 (by norm_num) (by simp [exGeo])).mp (by rw [e1, e2]; norm_num)
  have key : ∀ i : ℤ, 1 ≤ i → i ≤ 3 → (exGeo.ext i).lo ≤ 10 ∧ (10 : ℝ) < (exGeo.ext i).hi → i = 2 := fun i a b c => by
    rw [((C58_positions exGeo 3 22 exGeo_ok 10 hx).2 i a b).mp c, ← i2]
  have key3 : ∀ T : I3, InBox ⟨1, 1, 1⟩ ⟨3, 3, 3⟩ T → InTile3 exGeo3 T (exPart 10) → T = ⟨2, 2, 2⟩ := by
    intro T hb hin
    unfold InBox at hb
    dsimp only at hb
    have k1 := key T.j hb.1 hb.2.1 hin.1
    have k2 := key T.k hb.2.2.1 hb.2.2.2.1 hin.2.1
    have k3 := key T.l hb.2.2.2.2.1 hb.2.2.2.2.2 hin.2.2
    cases T
    simp_all
  have ha : Adjacent exGeo3 ⟨3, 3, 3⟩ (Function.update (fun _ => []) (⟨1, 1, 1⟩ : I3) [exPart 10]) := by
    intro u hu p hp _ T hT hin
    by_cases hu1 : u = ⟨1, 1, 1⟩
    · subst hu1
      rw [Function.update_self] at hp
      have : p = exPart 10 := by simpa using hp
      subst this
      rw [key3 T hT hin]
      exact ⟨by norm_num, by norm_num, by norm_num⟩
    · rw [Function.update_of_ne hu1] at hp
      simp at hp
  obtain ⟨Sq, Lq, eq, hq, ⟨S', run⟩, all⟩ := C63_same_as_sequential 1 exGeo3 _ exFits _ hS ha
  obtain ⟨-, -, L', h', m⟩ := all S' run
  refine ⟨_, S', L', hS, run, h', List.mem_append_right _ ?_⟩
  obtain ⟨Sq', L2, eq', a, b, c, d, f1, -⟩ := C62_tile_exchange 1 exGeo3 _ exFits _ hS
  have hmem : exPart 10 ∈ total ⟨3, 3, 3⟩ L2 := by
    rw [d]
    unfold total
    rw [mem_listSum]
    refine ⟨_, List.mem_map.mpr ⟨⟨1, 1, 1⟩, mem_box.mpr (by dsimp only; decide), rfl⟩, ?_⟩
    rw [Function.update_self]
    simp
  unfold total at hmem
  rw [mem_listSum] at hmem
  obtain ⟨s, hs, hp⟩ := hmem
  obtain ⟨T, hT, rfl⟩ := List.mem_map.mp hs
  have hTe := key3 T (mem_box.mp hT) (f1 T (mem_box.mp hT) (exPart 10) hp (by unfold InDom3; norm_num [exGeo3, exGeo, exPart]))
  subst hTe
  -- both lists describe the same tile
  rw [eq] at eq'
  injection eq' with eq'
  subst eq'
  have hb2 : InBox ⟨1, 1, 1⟩ Sq.nt ⟨2, 2, 2⟩ := by rw [a]; dsimp only; decide
  have hl : L2 ⟨2, 2, 2⟩ = Lq ⟨2, 2, 2⟩ := by
    have q1 := c _ hb2
    have q2 := hq _ hb2
    have hlen : (L2 ⟨2, 2, 2⟩).length = (Lq ⟨2, 2, 2⟩).length := by
      have := q1.count; have := q2.count; omega
    refine List.ext_getElem hlen fun i h1 h2 => ?_
    have r1 := readPart_ok q1 h1
    have r2 := readPart_ok q2 h2
    rw [r1] at r2
    injection r2
  rw [(m _ (by dsimp only; decide)).mem_iff, ← hl]
  exact hp

end Picsar.Props
