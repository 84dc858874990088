import Verif.Lemmas.TileSplit

/-
C58: tile split; C59: tile storage; C60: masked removal; C61: group addition; C62: exchange between tiles.
-/
namespace Picsar.Props
open Picsar Picsar.Grid Picsar.Tiling

/-! ### C58 -/

/-- C58, grid points: one direction with `nGrid` grid points split on request into `nt0` tiles. The tiles are contiguous, start at the first
and end at the last grid point; none is empty, and with more than one tile each has at least four points. The stored coordinates are those of
the grid points. -/
theorem C58_nodes (nt0 nGrid : ℤ) (h1 : 1 ≤ nt0) (h2 : 1 ≤ nGrid) (xmin xmax dx : ℝ) : ∃ s, split1 nt0 nGrid = .ok s ∧ 1 ≤ s.nt ∧
    (s.nt = nt0 ∨ s.nt = 1) ∧ (tileExt s xmin xmax dx 1).nMin = 0 ∧ (tileExt s xmin xmax dx s.nt).nMax = nGrid - 1 ∧
    (∀ i, 1 ≤ i → i < s.nt → (tileExt s xmin xmax dx i).nMax + 1 = (tileExt s xmin xmax dx (i + 1)).nMin) ∧
    ∀ i, 1 ≤ i → i ≤ s.nt → 1 ≤ (tileExt s xmin xmax dx i).nGrid ∧ (2 ≤ s.nt → 4 ≤ (tileExt s xmin xmax dx i).nGrid) ∧
      (tileExt s xmin xmax dx i).nMax + 1 - (tileExt s xmin xmax dx i).nMin = (tileExt s xmin xmax dx i).nGrid ∧
      (tileExt s xmin xmax dx i).gridMin = xmin + (tileExt s xmin xmax dx i).nMin * dx ∧
      (tileExt s xmin xmax dx i).gridMax = xmin + (tileExt s xmin xmax dx i).nMax * dx := by
  obtain ⟨s, hs⟩ : ∃ s, split1 nt0 nGrid = .ok s := by
    unfold split1
    rw [if_neg (by omega)]
    exact ⟨_, rfl⟩
  refine ⟨s, hs, ?_⟩
  rcases split_cases h1 h2 hs with ⟨a, b⟩ | ⟨a, a', b, c, d⟩
  · refine ⟨by omega, Or.inr a, ?_, ?_, fun i _ _ => by omega, fun i i1 i2 => ?_⟩
    · unfold tileExt; rw [if_pos a.symm]; simp
    · unfold tileExt; rw [if_pos rfl]; dsimp only; rw [a, b]; ring
    · have hi : i = s.nt := by omega
      subst hi
      unfold tileExt
      rw [if_pos rfl]
      dsimp only
      rw [b]
      refine ⟨h2, by omega, by ring, by push_cast; ring, by push_cast; ring⟩
  · refine ⟨by omega, Or.inl a', ?_, ?_, fun i i1 i2 => ?_, fun i i1 i2 => ?_⟩
    · unfold tileExt; rw [if_neg (by omega), if_pos rfl]; simp
    · unfold tileExt; rw [if_pos rfl]; dsimp only; linarith
    · unfold tileExt
      rw [if_neg (by omega)]
      split_ifs <;> dsimp only <;> first | omega | ring_nf
    · unfold tileExt
      split_ifs with e1 e2
      · dsimp only
        refine ⟨by omega, by omega, by ring, by push_cast; ring, by push_cast; ring⟩
      · subst e2
        dsimp only
        refine ⟨by omega, by omega, by ring, by push_cast; ring, by push_cast; ring⟩
      · dsimp only
        refine ⟨by omega, by omega, by ring, by push_cast; ring, by push_cast; ring⟩

example : split1 3 22 = .ok ⟨3, 7, 8⟩ ∧ split1 6 22 = .ok ⟨1, 3, 22⟩ := ⟨rfl, rfl⟩

/-- C58, no tile requested: the split divides by zero. -/
theorem C58_zero_tiles (nGrid : ℤ) : split1 0 nGrid = .error .divByZero := by
  unfold split1; rw [if_pos rfl]

/-- C58, positions: every position of the subdomain lies in exactly one tile, and the index computed for it is inside the tile array and is
the index of that tile. -/
theorem C58_positions (g : Geo1) (nt0 nGrid : ℤ) (h : g.Ok nt0 nGrid) (x : ℝ) (hx : g.xmin ≤ x ∧ x < g.xmax) :
    (1 ≤ g.idx x ∧ g.idx x ≤ g.s.nt) ∧ ∀ i, 1 ≤ i → i ≤ g.s.nt → (((g.ext i).lo ≤ x ∧ x < (g.ext i).hi) ↔ i = g.idx x) :=
  ⟨idx_range h hx.1, fun _ i1 i2 => inTile_iff h hx ⟨i1, i2⟩⟩

/-- C58, contiguous limits: the upper limit of a tile is the lower limit of the next one. -/
theorem C58_limits (g : Geo1) (nt0 nGrid : ℤ) (h : g.Ok nt0 nGrid) : (g.ext 1).lo ≤ g.xmin ∧ (g.ext g.s.nt).hi = g.xmax ∧
    ∀ i, 1 ≤ i → i < g.s.nt → (g.ext i).hi = (g.ext (i + 1)).lo := by
  have hdx := h.dx
  unfold Geo1.ext tileExt
  refine ⟨?_, ?_, fun i i1 i2 => ?_⟩
  · split_ifs
    · dsimp only
      simp
      linarith
    · exact le_rfl
    · omega
  · rw [if_pos rfl]
  · rw [if_neg (by omega)]
    split_ifs <;> dsimp only <;> push_cast <;> first | omega | skip
    · have : (i : ℝ) = 1 := by exact_mod_cast ‹i = 1›
      rw [this]; ring
    · have : (i : ℝ) = 1 := by exact_mod_cast ‹i = 1›
      rw [this]; ring
    · ring
    · ring

/-- The direction used in the examples: 22 grid points, three tiles. -/
noncomputable def exGeo : Geo1 := ⟨⟨3, 7, 8⟩, 0, 21, 1, 0, 21⟩

theorem exGeo_ok : exGeo.Ok 3 22 :=
  ⟨by norm_num, by norm_num, rfl, by norm_num [exGeo], by norm_num [exGeo], by norm_num [exGeo], by norm_num [exGeo]⟩

/-- Position 10 is in tile 2, which extends from 6.5 to 13.5. -/
example : exGeo.idx 10 = 2 ∧ (exGeo.ext 2).lo = 6.5 ∧ (exGeo.ext 2).hi = 13.5 := by
  have e1 : (exGeo.ext 2).lo = 6.5 := by
    unfold Geo1.ext tileExt; rw [if_neg (by simp [exGeo]), if_neg (by norm_num)]; norm_num [exGeo]
  have e2 : (exGeo.ext 2).hi = 13.5 := by
    unfold Geo1.ext tileExt; rw [if_neg (by simp [exGeo]), if_neg (by norm_num)]; norm_num [exGeo]
  have hx : exGeo.xmin ≤ 10 ∧ (10 : ℝ) < exGeo.xmax := by norm_num [exGeo]
  refine ⟨?_, e1, e2⟩
  exact (((C58_positions exGeo 3 22 exGeo_ok 10 hx).2 2 (by norm_num) (by simp [exGeo])).mp (by rw [e1, e2]; norm_num)).symm

/-! ### C59 -/

/-- C59. For every history of additions and removals of existing positions, starting with a new tile of any capacity, nothing faults (no access
outside the arrays, no undefined element read), and at the end the tile holds a list of particles, all properties included, that together with the
removed ones is a rearrangement of the added ones. `Holds` includes that the count does not exceed the capacity. -/
theorem C59_history (n : ℕ) (npmax : ℤ) (hc : 0 ≤ npmax) (ops : List (Op n)) (hv : Valid 0 ops) :
    ∃ t l log, run ops (newTile npmax) [] = .ok (t, log) ∧ Holds t l ∧ (l ++ log).Perm (added ops) := by
  have h0 : Holds (newTile (n := n) npmax) [] := ⟨rfl, hc, fun _ _ => rfl, fun _ => rfl, fun _ _ i hi => absurd hi (Nat.not_lt_zero i)⟩
  obtain ⟨t, l, log, e, h, p⟩ := run_ok ops [] h0 hv
  exact ⟨t, l, log, e, h, by simpa using p⟩

/-- C59, single operations: an addition appends, a removal takes out the particle at that position and keeps all others. -/
theorem C59_operations (n : ℕ) (t : Tile n) (l : List (Part n)) (h : Holds t l) :
    (∀ p, ∃ t', addTile p t = .ok t' ∧ Holds t' (l ++ [p])) ∧
    ∀ (i : ℕ) (hi : i < l.length), readPart t (i + 1) = .ok l[i] ∧
      ∃ t' l', rmTile (i + 1) t = .ok t' ∧ Holds t' l' ∧ (l[i] :: l').Perm l := by
  refine ⟨fun p => ?_, fun i hi => ⟨readPart_ok h hi, ?_⟩⟩
  · obtain ⟨t', e, h', -⟩ := addTile_ok h p
    exact ⟨t', e, h'⟩
  · obtain ⟨t', e, h', -⟩ := rmTile_ok h hi
    refine ⟨t', _, e, h', ?_⟩
    obtain ⟨b', hb, e'⟩ := swapRm_split (l.take i) (l.drop (i + 1)) l[i]
    have hsplit : l.take i ++ l[i] :: l.drop (i + 1) = l := by
      rw [← List.drop_eq_getElem_cons hi, List.take_append_drop]
    rw [List.length_take_of_le hi.le, hsplit] at e'
    rw [e']
    have : (l[i] :: (l.take i ++ b')).Perm (l[i] :: (l.take i ++ l.drop (i + 1))) := (List.Perm.append_left _ hb).cons _
    refine this.trans ?_
    have h2 : (l.take i ++ l[i] :: l.drop (i + 1)).Perm (l[i] :: (l.take i ++ l.drop (i + 1))) := List.perm_middle
    rw [hsplit] at h2
    exact h2.symm

/-- A particle for the examples. -/
def exPart (v : ℝ) : Part 1 := ⟨v, v, v, v, v, v, v, fun _ => v⟩

/-- Six additions to a tile of capacity 1 (two enlargements), then five removals (shrinking): one particle is left. -/
example : ∃ t l log, run [.add (exPart 1), .add (exPart 2), .add (exPart 3), .add (exPart 4), .add (exPart 5), .add (exPart 6), .rm 1, .rm 1, .rm 2,
      .rm 3, .rm 1] (newTile 1) [] = .ok (t, log) ∧ Holds t l ∧ t.np = 1 ∧ (l ++ log).Perm [exPart 1, exPart 2, exPart 3, exPart 4, exPart 5, exPart 6] := by
  obtain ⟨t, l, log, e, h, p⟩ := C59_history 1 1 (by norm_num) [.add (exPart 1), .add (exPart 2), .add (exPart 3), .add (exPart 4), .add (exPart 5),
    .add (exPart 6), .rm 1, .rm 1, .rm 2, .rm 3, .rm 1] (by simp [Valid])
  refine ⟨t, l, log, e, h, ?_, p⟩
  have hl : log.length = 5 := by
    have key : ∀ (ops : List (Op 1)) (t t' : Tile 1) (g g' : List (Part 1)), run ops t g = .ok (t', g') →
        g'.length = g.length + (ops.filter fun o => match o with | .rm _ => true | _ => false).length := by
      intro ops
      induction ops with
      | nil => intro t t' g g' e; injection e with e; injection e with _ e; simp [e]
      | cons o ops ih =>
        intro t t' g g' e
        cases o with
        | add p =>
          unfold run at e
          cases ha : addTile p t with
          | error f => rw [ha] at e; cases e
          | ok t1 => rw [ha] at e; simpa using ih _ _ _ _ e
        | rm i =>
          unfold run at e
          cases ha : readPart t i with
          | error f => rw [ha] at e; cases e
          | ok q =>
            rw [ha] at e
            simp only [except_bind_ok] at e
            cases hb : rmTile i t with
            | error f => rw [hb] at e; cases e
            | ok t1 =>
              rw [hb] at e
              have := ih _ _ _ _ e
              simp at this ⊢
              omega
    simpa using key _ _ _ _ _ e
  have := p.length_eq
  have hc := h.count
  simp [added] at this
  omega

/-! ### C60 -/

/-- C60. Removing with a mask keeps exactly the particles whose mask entry is true, each once with all its properties. -/
theorem C60_masked_removal (n : ℕ) (t : Tile n) (l : List (Part n)) (h : Holds t l) (mask : FArr Bool) (m : List Bool) (hm : mask.Holds m)
    (hl : l.length ≤ m.length) : ∃ t' l', rmMask mask t = .ok t' ∧ Holds t' l' ∧ l'.Perm (masked l m) :=
  rmMask_ok hm h hl

/-- Three particles, the middle one removed. -/
example (t : Tile 1) (h : Holds t [exPart 1, exPart 2, exPart 3]) : ∃ t' l', rmMask (FArr.ofList [true, false, true]) t = .ok t' ∧ Holds t' l' ∧
    l'.Perm [exPart 1, exPart 3] := by
  obtain ⟨t', l', e, h', p⟩ := C60_masked_removal 1 t _ h _ _ (FArr.holds_ofList [true, false, true]) le_rfl
  exact ⟨t', l', e, h', by simpa [masked] using p⟩

/-- Such a tile exists. -/
example : ∃ t : Tile 1, Holds t [exPart 1, exPart 2, exPart 3] := by
  have h0 : Holds (newTile (n := 1) 1) [] := ⟨rfl, by simp [newTile, allocArrays], fun _ _ => rfl, fun _ => rfl, fun _ _ i hi => absurd hi (Nat.not_lt_zero i)⟩
  obtain ⟨t1, -, h1⟩ := (C59_operations 1 _ _ h0).1 (exPart 1)
  obtain ⟨t2, -, h2⟩ := (C59_operations 1 _ _ h1).1 (exPart 2)
  obtain ⟨t3, -, h3⟩ := (C59_operations 1 _ _ h2).1 (exPart 3)
  exact ⟨t3, h3⟩

/-! ### C61 -/

/-- C61 when the group fits into arrays enlarged once (twice the capacity plus one). Missing: larger groups (`C61_group_refuted`). -/
theorem C61_group_partial (n : ℕ) (t : Tile n) (l ps : List (Part n)) (h : Holds t l) (hn : (l.length : ℤ) + ps.length ≤ 2 * t.npmax + 1) :
    ∃ t', addGroup ps t = .ok t' ∧ Holds t' (l ++ ps) := addGroup_ok h ps hn

/-- C61 fails: whenever the group does not fit into arrays enlarged once, the routine writes beyond the end of the arrays. -/
theorem C61_group_refuted (n : ℕ) (t : Tile n) (l ps : List (Part n)) (h : Holds t l) (hn : 2 * t.npmax + 1 < (l.length : ℤ) + ps.length) :
    addGroup ps t = .error .outOfBounds := by
  obtain ⟨h1, a1⟩ := ensure_ok h
  have hmax : (ensure t).npmax = t.npmax := by unfold ensure; split_ifs <;> rfl
  have hc := h1.count
  have hf := h1.fits
  obtain ⟨t2, e2, h2, m2, a2⟩ := resize_ok h1 a1 (new := 2 * (ensure t).npmax + 1) (by omega)
  have key : ∀ (vs : List ℝ) (k : ℤ) (b : FArr ℝ), 1 ≤ k → k ≤ b.n + 1 → b.n < k + vs.length - 1 → setFrom k vs b = .error .outOfBounds := by
    intro vs
    induction vs with
    | nil => intro k b h1 h2 h3; simp at h3; omega
    | cons v vs ih =>
      intro k b h1 h2 h3
      simp only [List.length_cons] at h3
      push_cast at h3
      show (b.set k v >>= fun b => setFrom (k + 1) vs b) = _
      by_cases hk : k ≤ b.n
      · rw [FArr.set_ok _ ⟨h1, hk⟩]
        exact ih (k + 1) _ (by omega) (by show k + 1 ≤ b.n + 1; omega) (by show b.n < _; omega)
      · rw [FArr.set_oob _ (by omega)]
        rfl
  unfold addGroup
  dsimp only
  have hg : grow ((ensure t).np + ps.length) (ensure t) = .ok t2 := by
    unfold grow
    rw [if_pos (by omega), e2]
  rw [hg]
  simp only [except_bind_ok]
  have hs := h2.size a2 .x
  unfold onArrays
  show (([.x, .y, .z, .ux, .uy, .uz, .gam] ++ (List.finRange n).map .pid ++ fieldAttrs n : List (Attr n)).foldlM _ _) = _
  simp only [List.cons_append, List.foldlM_cons]
  rw [key _ _ _ (by omega) (by rw [hs]; omega) (by rw [hs, List.length_map]; omega)]
  rfl

/-- Both are met: four particles do not fit into a new tile of capacity 1, three do. -/
example : addGroup [exPart 1, exPart 2, exPart 3, exPart 4] (newTile 1) = .error .outOfBounds ∧
    ∃ t', addGroup [exPart 1, exPart 2, exPart 3] (newTile 1) = .ok t' ∧ Holds t' [exPart 1, exPart 2, exPart 3] := by
  have h0 : Holds (newTile (n := 1) 1) [] := ⟨rfl, by simp [newTile, allocArrays], fun _ _ => rfl, fun _ => rfl, fun _ _ i hi => absurd hi (Nat.not_lt_zero i)⟩
  exact ⟨C61_group_refuted 1 _ [] _ h0 (by simp [newTile, allocArrays]), C61_group_partial 1 _ [] _ h0 (by simp [newTile, allocArrays])⟩

/-! ### C62 -/

theorem listSum_filter {α β : Type} [DecidableEq β] (f : α → β) (M : Multiset α) : ∀ (ts : List β), ts.Nodup →
    (ts.map fun T => M.filter (fun p => f p = T)).sum = M.filter (fun p => f p ∈ ts) := by
  intro ts
  induction ts with
  | nil => intro _; simp
  | cons T ts ih =>
    intro hn
    rw [List.nodup_cons] at hn
    rw [List.map_cons, List.sum_cons, ih hn.2]
    have : ∀ p, (f p ∈ T :: ts) ↔ (f p = T ∨ f p ∈ ts) := fun p => by simp
    simp only [this]
    have h := Multiset.filter_add_filter (fun p => f p = T) (fun p => f p ∈ ts) M
    have hz : M.filter (fun p => f p = T ∧ f p ∈ ts) = 0 := by
      rw [Multiset.filter_eq_nil]
      rintro p - ⟨e, h'⟩
      exact hn.1 (e ▸ h')
    rw [hz, add_zero] at h
    exact h

theorem listSum_comm {α β γ : Type} (F : α → β → Multiset γ) (us : List α) : ∀ (ts : List β),
    (ts.map fun T => (us.map fun u => F u T).sum).sum = (us.map fun u => (ts.map fun T => F u T).sum).sum := by
  intro ts
  induction ts with
  | nil => simp
  | cons T ts ih =>
    simp only [List.map_cons, List.sum_cons]
    rw [ih, ← List.sum_map_add]

theorem sorts3 {n : ℕ} {g : Geo} {nt : I3} (h : Fits g nt) : Sorts (n := n) nt g.inTile g.inDom g.idx := by
  obtain ⟨⟨a, b, hx⟩, ⟨c, d, hy⟩, ⟨e, f, hz⟩, rfl⟩ := h
  refine ⟨fun p hp => ?_, fun p hp => ?_⟩
  · have x1 := idx_range hx (inDom_bounds hx hp.1).1
    have y1 := idx_range hy (inDom_bounds hy hp.2.1).1
    have z1 := idx_range hz (inDom_bounds hz hp.2.2).1
    exact ⟨x1.1, x1.2, y1.1, y1.2, z1.1, z1.2⟩
  · exact ⟨⟨idx_home hx (inDom_bounds hx hp.1), idx_home hy (inDom_bounds hy hp.2.1)⟩, idx_home hz (inDom_bounds hz hp.2.2)⟩

theorem sorts2 {n : ℕ} {g : Geo} {nt : I3} (h : Fits g nt) : Sorts (n := n) nt g.inTile2 g.inDom2 g.idx2 := by
  obtain ⟨⟨a, b, hx⟩, ⟨c, d, hy⟩, ⟨e, f, hz⟩, rfl⟩ := h
  refine ⟨fun p hp => ?_, fun p hp => ?_⟩
  · have x1 := idx_range hx (inDom_bounds hx hp.1).1
    have z1 := idx_range hz (inDom_bounds hz hp.2).1
    have hy1 : 1 ≤ g.y.s.nt := by
      rcases split_cases hy.tiles hy.grid hy.split with ⟨q, -⟩ | ⟨q, -⟩ <;> omega
    exact ⟨x1.1, x1.2, le_rfl, hy1, z1.1, z1.2⟩
  · exact ⟨idx_home hx (inDom_bounds hx hp.1), idx_home hz (inDom_bounds hz hp.2)⟩

theorem inDom_iff {g : Geo1} {x : ℝ} : g.inDom x ↔ g.pmin ≤ x ∧ x < g.pmax := by
  unfold Geo1.inDom
  push Not
  rfl

open Classical in
theorem exchange_spec {n : ℕ} {S : Species n} {inTile : I3 → Part n → Prop} {inDom : Part n → Prop} {idx : Part n → I3}
    (hs : Sorts S.nt inTile inDom idx) {L : I3 → List (Part n)} (h : HoldsAll S L) :
    ∃ S' L', moveTiles inTile inDom idx S = .ok S' ∧ S'.nt = S.nt ∧ S'.npart = S.npart ∧ HoldsAll S' L' ∧
      total S.nt L' = total S.nt L ∧
      (∀ T, InBox ⟨1, 1, 1⟩ S.nt T → ∀ p ∈ L' T, inDom p → inTile T p) ∧
      ∀ T, InBox ⟨1, 1, 1⟩ S.nt T → (L' T : Multiset (Part n)).filter (fun p => ¬ inDom p) = (L T : Multiset (Part n)).filter (fun p => ¬ inDom p) := by
  obtain ⟨S', L', e, nt', np', h', m⟩ := moveTiles_ok hs h
  have hdb : ∀ u, InBox ⟨1, 1, 1⟩ S.nt u → ∀ p, InBox ⟨1, 1, 1⟩ S.nt (dest inTile inDom idx u p) := by
    intro u hu p
    unfold dest
    by_cases h1 : inTile u p
    · rw [if_pos h1]; exact hu
    · rw [if_neg h1]
      by_cases h2 : inDom p
      · rw [if_neg (not_not.mpr h2)]; exact hs.box p h2
      · rw [if_pos h2]; exact hu
  refine ⟨S', L', e, nt', np', h', ?_, fun T hT p hp hd => ?_, fun T hT => ?_⟩
  · unfold total
    have e1 : ((box ⟨1, 1, 1⟩ S.nt).map fun u => (L' u : Multiset (Part n))) =
        (box ⟨1, 1, 1⟩ S.nt).map fun T => ((box ⟨1, 1, 1⟩ S.nt).map fun u =>
          (L u : Multiset (Part n)).filter (fun p => dest inTile inDom idx u p = T)).sum :=
      List.map_congr_left fun T hT => m T (mem_box.mp hT)
    rw [e1, listSum_comm]
    congr 1
    refine List.map_congr_left fun u hu => ?_
    rw [listSum_filter _ _ _ (nodup_box _ _), Multiset.filter_eq_self]
    exact fun p _ => mem_box.mpr (hdb u (mem_box.mp hu) p)
  · have hp' : p ∈ (L' T : Multiset (Part n)) := hp
    rw [m T hT, mem_listSum] at hp'
    obtain ⟨s, hs', hps⟩ := hp'
    obtain ⟨u, -, rfl⟩ := List.mem_map.mp hs'
    have ed := (Multiset.mem_filter.mp hps).2
    unfold dest at ed
    by_cases h1 : inTile u p
    · rw [if_pos h1] at ed
      exact ed ▸ h1
    · rw [if_neg h1, if_neg (not_not.mpr hd)] at ed
      exact ed ▸ hs.home p hd
  · rw [m T hT]
    have key : ∀ (us : List I3), us.Nodup → Multiset.filter (fun p => ¬ inDom p)
        (us.map fun u => (L u : Multiset (Part n)).filter (fun p => dest inTile inDom idx u p = T)).sum =
        if T ∈ us then (L T : Multiset (Part n)).filter (fun p => ¬ inDom p) else 0 := by
      intro us
      induction us with
      | nil => intro _; simp
      | cons u us ih =>
        intro hn
        rw [List.nodup_cons] at hn
        rw [List.map_cons, List.sum_cons, Multiset.filter_add, ih hn.2, Multiset.filter_filter]
        have hd : ∀ p, (¬ inDom p ∧ dest inTile inDom idx u p = T) ↔ (¬ inDom p ∧ u = T) := by
          intro p
          refine and_congr_right fun hp => ?_
          unfold dest
          by_cases h1 : inTile u p
          · rw [if_pos h1]
          · rw [if_neg h1, if_pos hp]
        simp only [hd]
        by_cases hu : u = T
        · subst hu
          simp [hn.1]
        · have hTu : T ≠ u := fun e => hu e.symm
          simp [hu, hTu]
    rw [key _ (nodup_box _ _), if_pos (mem_box.mpr hT)]

open Classical in
/-- C62. After the exchange between tiles (3-D, no threads) of a species with any distribution of particles over tiles: no fault; the collection
of all particles is unchanged; every particle of the process' particle domain is in the tile that contains it; the particles outside the domain
are in the tiles where they were. -/
theorem C62_tile_exchange (n : ℕ) (g : Geo) (S : Species n) (hg : Fits g S.nt) (L : I3 → List (Part n)) (h : HoldsAll S L) :
    ∃ S' L', bcsTiles g S = .ok S' ∧ S'.nt = S.nt ∧ S'.npart = S.npart ∧ HoldsAll S' L' ∧ total S.nt L' = total S.nt L ∧
      (∀ T, InBox ⟨1, 1, 1⟩ S.nt T → ∀ p ∈ L' T, InDom3 g p → InTile3 g T p) ∧
      ∀ T, InBox ⟨1, 1, 1⟩ S.nt T → (L' T : Multiset (Part n)).filter (fun p => ¬ InDom3 g p) =
        (L T : Multiset (Part n)).filter (fun p => ¬ InDom3 g p) := by
  have hd : ∀ p : Part n, g.inDom p ↔ InDom3 g p := fun p => by
    unfold Geo.inDom InDom3
    rw [inDom_iff, inDom_iff, inDom_iff]
  obtain ⟨S', L', e, a, b, c, d, f1, f2⟩ := exchange_spec (sorts3 hg) h
  simp only [hd] at f1 f2
  exact ⟨S', L', e, a, b, c, d, fun T hT p hp hi => ⟨(f1 T hT p hp hi).1.1, (f1 T hT p hp hi).1.2, (f1 T hT p hp hi).2⟩, f2⟩

open Classical in
/-- C62 for the 2-D routine. -/
theorem C62_tile_exchange_2d (n : ℕ) (g : Geo) (S : Species n) (hg : Fits g S.nt) (L : I3 → List (Part n)) (h : HoldsAll S L) :
    ∃ S' L', bcsTiles2 g S = .ok S' ∧ S'.nt = S.nt ∧ S'.npart = S.npart ∧ HoldsAll S' L' ∧ total S.nt L' = total S.nt L ∧
      (∀ T, InBox ⟨1, 1, 1⟩ S.nt T → ∀ p ∈ L' T, InDom2 g p → InTile2 g T p) ∧
      ∀ T, InBox ⟨1, 1, 1⟩ S.nt T → (L' T : Multiset (Part n)).filter (fun p => ¬ InDom2 g p) =
        (L T : Multiset (Part n)).filter (fun p => ¬ InDom2 g p) := by
  have hd : ∀ p : Part n, g.inDom2 p ↔ InDom2 g p := fun p => by
    unfold Geo.inDom2 InDom2
    rw [inDom_iff, inDom_iff]
  obtain ⟨S', L', e, a, b, c, d, f1, f2⟩ := exchange_spec (sorts2 hg) h
  simp only [hd] at f1 f2
  exact ⟨S', L', e, a, b, c, d, fun T hT p hp hi => ⟨(f1 T hT p hp hi).1, (f1 T hT p hp hi).2⟩, f2⟩

/-- Three tiles in each direction. -/
noncomputable def exGeo3 : Geo := ⟨exGeo, exGeo, exGeo⟩
theorem exFits : Fits exGeo3 ⟨3, 3, 3⟩ := ⟨⟨3, 22, exGeo_ok⟩, ⟨3, 22, exGeo_ok⟩, ⟨3, 22, exGeo_ok⟩, rfl⟩

/-- A species with one particle at (10, 10, 10), stored in the wrong tile (1,1,1): it is moved to tile (2,2,2). -/
example : ∃ (S S' : Species 1) (L' : I3 → List (Part 1)), HoldsAll S (Function.update (fun _ => []) ⟨1, 1, 1⟩ [exPart 10]) ∧ bcsTiles exGeo3 S = .ok S' ∧
    HoldsAll S' L' ∧ exPart 10 ∈ L' ⟨2, 2, 2⟩ := by
  have h0 : Holds (newTile (n := 1) 1) [] := ⟨rfl, by simp [newTile, allocArrays], fun _ _ => rfl, fun _ => rfl, fun _ _ i hi => absurd hi (Nat.not_lt_zero i)⟩
  obtain ⟨t1, -, h1⟩ := (C59_operations 1 _ _ h0).1 (exPart 10)
  have hS : HoldsAll (⟨⟨3, 3, 3⟩, Function.update (fun _ => newTile 1) ⟨1, 1, 1⟩ t1, 1⟩ : Species 1)
      (Function.update (fun _ => []) ⟨1, 1, 1⟩ [exPart 10]) := by
    intro u _
    dsimp only
    by_cases hu : u = ⟨1, 1, 1⟩
    · subst hu
      rw [Function.update_self, Function.update_self]
      exact h1
    · rw [Function.update_of_ne hu, Function.update_of_ne hu]
      exact h0
  obtain ⟨S', L', e, a, b, c, d, f1, -⟩ := C62_tile_exchange 1 exGeo3 _ exFits _ hS
  refine ⟨_, S', L', hS, e, c, ?_⟩
  have hmem : exPart 10 ∈ total ⟨3, 3, 3⟩ L' := by
    rw [d]
    unfold total
    rw [mem_listSum]
    refine ⟨_, List.mem_map.mpr ⟨⟨1, 1, 1⟩, mem_box.mpr (by dsimp only; decide), rfl⟩, ?_⟩
    rw [Function.update_self]
    simp
  unfold total at hmem
  rw [mem_listSum] at hmem
  obtain ⟨s, hs, hp⟩ := hmem
  obtain ⟨T, hT, rfl⟩ := List.mem_map.mp hs
  have hin := f1 T (mem_box.mp hT) (exPart 10) hp (by unfold InDom3; norm_num [exGeo3, exGeo, exPart])
  have e1 : (exGeo.ext 2).lo = 6.5 := by
    unfold Geo1.ext tileExt; rw [if_neg (by simp [exGeo]), if_neg (by norm_num)]; norm_num [exGeo]
  have e2 : (exGeo.ext 2).hi = 13.5 := by
    unfold Geo1.ext tileExt; rw [if_neg (by simp [exGeo]), if_neg (by norm_num)]; norm_num [exGeo]
  have hx : exGeo.xmin ≤ 10 ∧ (10 : ℝ) < exGeo.xmax := by norm_num [exGeo]
  have i2 := ((C58_positions exGeo 3 22 exGeo_ok 10 hx).2 2 (by norm_num) (by simp [exGeo])).mp (by rw [e1, e2]; norm_num)
  have hb := mem_box.mp hT
  unfold InBox at hb
  dsimp only at hb
  have key : ∀ i : ℤ, 1 ≤ i → i ≤ 3 → (exGeo.ext i).lo ≤ 10 ∧ (10 : ℝ) < (exGeo.ext i).hi → i = 2 := fun i a b c => by
    rw [((C58_positions exGeo 3 22 exGeo_ok 10 hx).2 i a b).mp c, ← i2]
  have k1 := key T.j hb.1 hb.2.1 hin.1
  have k2 := key T.k hb.2.2.1 hb.2.2.2.1 hin.2.1
  have k3 := key T.l hb.2.2.2.2.1 hb.2.2.2.2.2 hin.2.2
  have : T = ⟨2, 2, 2⟩ := by cases T; simp_all
  exact this ▸ hp

/-! ### C59, whole species -/

theorem total_update {n : ℕ} {nt u : I3} (hu : InBox ⟨1, 1, 1⟩ nt u) (L : I3 → List (Part n)) (l' : List (Part n)) :
    total nt (Function.update L u l') + (L u : Multiset (Part n)) = total nt L + (l' : Multiset (Part n)) := by
  unfold total
  have key : ∀ us : List I3, us.Nodup → u ∈ us → (us.map fun v => (Function.update L u l' v : Multiset (Part n))).sum + (L u : Multiset (Part n)) =
      (us.map fun v => (L v : Multiset (Part n))).sum + (l' : Multiset (Part n)) := by
    intro us
    induction us with
    | nil => intro _ h; simp at h
    | cons v us ih =>
      intro hn hm
      rw [List.nodup_cons] at hn
      simp only [List.map_cons, List.sum_cons]
      by_cases hv : v = u
      · subst hv
        rw [Function.update_self]
        have : (us.map fun w => (Function.update L v l' w : Multiset (Part n))) = us.map fun w => (L w : Multiset (Part n)) :=
          List.map_congr_left fun w hw => by
            have hwv : w ≠ v := fun e => hn.1 (e ▸ hw)
            rw [Function.update_of_ne hwv]
        rw [this]
        abel
      · have hmu : u ∈ us := by
          rcases List.mem_cons.mp hm with e | e
          · exact absurd e.symm hv
          · exact e
        rw [Function.update_of_ne hv, add_assoc, ih hn.2 hmu, add_assoc]
  exact key _ (nodup_box _ _) (mem_box.mpr hu)

theorem sub_idx {n : ℕ} {g : Geo} {nt : I3} (hg : Fits g nt) {p : Part n} (hp : InSub g p) : InBox ⟨1, 1, 1⟩ nt (g.idx p) := by
  obtain ⟨⟨a, b, hx⟩, ⟨c, d, hy⟩, ⟨e, f, hz⟩, rfl⟩ := hg
  have x1 := idx_range hx hp.1.1
  have y1 := idx_range hy hp.2.1.1
  have z1 := idx_range hz hp.2.2.1
  exact ⟨x1.1, x1.2, y1.1, y1.2, z1.1, z1.2⟩

/-- C59 for a whole species: in every state reachable from empty tiles by adding particles of the subdomain, removing particles and exchanging
particles between tiles, all tiles are consistent, the particle count of the species is the number of stored particles, and the next addition,
removal or exchange does not fault. -/
theorem C59_species (n : ℕ) (g : Geo) (S0 S : Species n) (hg : Fits g S0.nt) (h0 : HoldsAll S0 fun _ => []) (hn : S0.npart = 0)
    (hr : Reach g S0 S) : S.nt = S0.nt ∧ (∃ L, HoldsAll S L ∧ S.npart = Multiset.card (total S.nt L)) ∧
      (∀ p, InSub g p → ∃ S', addSpecies g.idx p S = .ok S') ∧
      (∀ u i, InBox ⟨1, 1, 1⟩ S.nt u → 1 ≤ i ∧ i ≤ (S.tiles u).np → ∃ S', rmSpecies u i S = .ok S') ∧
      ∃ S', bcsTiles g S = .ok S' := by
  -- the invariant
  have add_ok : ∀ (S : Species n) (L), S.nt = S0.nt → HoldsAll S L → S.npart = Multiset.card (total S.nt L) → ∀ p, InSub g p →
      ∃ S' L', addSpecies g.idx p S = .ok S' ∧ S'.nt = S0.nt ∧ HoldsAll S' L' ∧ S'.npart = Multiset.card (total S'.nt L') := by
    intro S L hnt h hc p hp
    have hu : InBox ⟨1, 1, 1⟩ S.nt (g.idx p) := by rw [hnt]; exact sub_idx hg hp
    obtain ⟨S1, e1, h1, n1, np1⟩ := atTile_ok h hu (addTile_ok (h _ hu) p)
    refine ⟨⟨S1.nt, S1.tiles, S1.npart + 1⟩, _, ?_, by rw [← hnt, ← n1], h1, ?_⟩
    · unfold addSpecies addAt
      rw [e1]
      rfl
    · have := congrArg Multiset.card (total_update hu L (L (g.idx p) ++ [p]))
      simp only [Multiset.card_add, Multiset.coe_card, List.length_append, List.length_cons, List.length_nil] at this
      show S1.npart + 1 = _
      rw [np1, hc, show S1.nt = S.nt from n1]
      omega
  have rm_ok : ∀ (S : Species n) (L), S.nt = S0.nt → HoldsAll S L → S.npart = Multiset.card (total S.nt L) → ∀ u i, InBox ⟨1, 1, 1⟩ S.nt u →
      1 ≤ i ∧ i ≤ (S.tiles u).np →
      ∃ S' L', rmSpecies u i S = .ok S' ∧ S'.nt = S0.nt ∧ HoldsAll S' L' ∧ S'.npart = Multiset.card (total S'.nt L') := by
    intro S L hnt h hc u i hu hi
    have hcu := (h u hu).count
    obtain ⟨k, rfl⟩ : ∃ k : ℕ, i = k + 1 := ⟨(i - 1).toNat, by omega⟩
    have hk : k < (L u).length := by omega
    obtain ⟨S1, e1, h1, n1, np1⟩ := atTile_ok h hu (rmTile_ok (h _ hu) hk)
    refine ⟨⟨S1.nt, S1.tiles, S1.npart - 1⟩, _, ?_, by rw [← hnt, ← n1], h1, ?_⟩
    · unfold rmSpecies rmAt
      rw [e1]
      rfl
    · have := congrArg Multiset.card (total_update hu L (swapRm (L u) k))
      have hl := swapRm_length (L u) k hk
      simp only [Multiset.card_add, Multiset.coe_card] at this
      show S1.npart - 1 = _
      rw [np1, hc, show S1.nt = S.nt from n1]
      omega
  have ex_ok : ∀ (S : Species n) (L), S.nt = S0.nt → HoldsAll S L → S.npart = Multiset.card (total S.nt L) →
      ∃ S' L', bcsTiles g S = .ok S' ∧ S'.nt = S0.nt ∧ HoldsAll S' L' ∧ S'.npart = Multiset.card (total S'.nt L') := by
    intro S L hnt h hc
    obtain ⟨S', L', e, a, b, c, d, -⟩ := C62_tile_exchange n g S (hnt ▸ hg) L h
    exact ⟨S', L', e, by rw [a, hnt], c, by rw [b, hc, a, d]⟩
  have inv : S.nt = S0.nt ∧ ∃ L, HoldsAll S L ∧ S.npart = Multiset.card (total S.nt L) := by
    induction hr with
    | start =>
      refine ⟨rfl, _, h0, ?_⟩
      rw [hn]
      unfold total
      simp
    | add _ hp e ih =>
      obtain ⟨hnt, L, h, hc⟩ := ih
      obtain ⟨S', L', e', a, b, c⟩ := add_ok _ L hnt h hc _ hp
      rw [e'] at e
      injection e with e
      subst e
      exact ⟨a, L', b, c⟩
    | rm _ hu hi e ih =>
      obtain ⟨hnt, L, h, hc⟩ := ih
      obtain ⟨S', L', e', a, b, c⟩ := rm_ok _ L hnt h hc _ _ hu hi
      rw [e'] at e
      injection e with e
      subst e
      exact ⟨a, L', b, c⟩
    | exchange _ e ih =>
      obtain ⟨hnt, L, h, hc⟩ := ih
      obtain ⟨S', L', e', a, b, c⟩ := ex_ok _ L hnt h hc
      rw [e'] at e
      injection e with e
      subst e
      exact ⟨a, L', b, c⟩
  obtain ⟨hnt, L, h, hc⟩ := inv
  refine ⟨hnt, ⟨L, h, hc⟩, fun p hp => ?_, fun u i hu hi => ?_, ?_⟩
  · obtain ⟨S', -, e, -⟩ := add_ok S L hnt h hc p hp
    exact ⟨S', e⟩
  · obtain ⟨S', -, e, -⟩ := rm_ok S L hnt h hc u i hu hi
    exact ⟨S', e⟩
  · obtain ⟨S', -, e, -⟩ := ex_ok S L hnt h hc
    exact ⟨S', e⟩

/-- The start state exists and an addition is possible from it. -/
example : ∃ S0 S' : Species 1, S0.nt = ⟨3, 3, 3⟩ ∧ HoldsAll S0 (fun _ => []) ∧ addSpecies exGeo3.idx (exPart 10) S0 = .ok S' ∧ Reach exGeo3 S0 S' := by
  have h0 : Holds (newTile (n := 1) 1) [] := ⟨rfl, by simp [newTile, allocArrays], fun _ _ => rfl, fun _ => rfl, fun _ _ i hi => absurd hi (Nat.not_lt_zero i)⟩
  have hS : HoldsAll (⟨⟨3, 3, 3⟩, fun _ => newTile 1, 0⟩ : Species 1) (fun _ => []) := fun u _ => h0
  have hp : InSub exGeo3 (exPart 10) := by unfold InSub; norm_num [exGeo3, exGeo, exPart]
  obtain ⟨-, -, h, -⟩ := C59_species 1 exGeo3 _ _ exFits hS rfl .start
  obtain ⟨S', e⟩ := h (exPart 10) hp
  exact ⟨_, S', rfl, hS, e, .add .start hp e⟩

end Picsar.Props
