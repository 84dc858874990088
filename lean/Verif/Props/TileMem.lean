import Verif.Lemmas.TileMem
import Verif.Props.Tiling
/-
C185: the memory of the particle arrays.
-/
namespace Picsar.Props
open Picsar Picsar.Grid Picsar.Tiling

/-- C185, what is reported: eight bytes for each of the 13 quantities and `n` further properties, for every place of the arrays of every allocated tile; never less
than the stored particles need. -/
theorem C185_reported (n : ℕ) (Ss : List (Species n)) (L : Species n → I3 → List (Part n)) (h : ∀ S ∈ Ss, HoldsAll S (L S)) :
    localMem Ss = 8 * (13 + n) * (Ss.map fun S => ((box ⟨1, 1, 1⟩ S.nt).map fun u => if (S.tiles u).alloc then (S.tiles u).npmax else 0).sum).sum ∧
    8 * (13 + n) * (Ss.map fun S => (Multiset.card (total S.nt (L S)) : ℤ)).sum ≤ localMem Ss := by
  have h1 : ∀ (S : Species n) (K : I3 → List (Part n)) (us : List I3), (∀ u ∈ us, Holds (S.tiles u) (K u)) → ∀ m,
      us.foldl (fun m u => tileMem m (S.tiles u)) m = m + 8 * (13 + n) * (us.map fun u => if (S.tiles u).alloc then (S.tiles u).npmax else 0).sum := by
    intro S K us
    induction us with
    | nil => intro _ m; simp
    | cons u us ih =>
      intro hu m
      rw [List.foldl_cons, tileMem_eq (hu u List.mem_cons_self), ih fun v hv => hu v (List.mem_cons_of_mem _ hv), List.map_cons, List.sum_cons]
      split <;> ring
  have h2 : ∀ (Ss : List (Species n)), (∀ S ∈ Ss, HoldsAll S (L S)) → ∀ m,
      Ss.foldl (fun m S => (box ⟨1, 1, 1⟩ S.nt).foldl (fun m u => tileMem m (S.tiles u)) m) m =
      m + 8 * (13 + n) * (Ss.map fun S => ((box ⟨1, 1, 1⟩ S.nt).map fun u => if (S.tiles u).alloc then (S.tiles u).npmax else 0).sum).sum := by
    intro Ss
    induction Ss with
    | nil => intro _ m; simp
    | cons S Ss ih =>
      intro hS m
      rw [List.foldl_cons, h1 S (L S) _ (fun u hu => hS S List.mem_cons_self u (mem_box.mp hu)), ih fun T hT => hS T (List.mem_cons_of_mem _ hT), List.map_cons,
        List.sum_cons]
      ring
  have e : localMem Ss = _ := h2 Ss h 0
  rw [zero_add] at e
  refine ⟨e, ?_⟩
  rw [e]
  refine mul_le_mul_of_nonneg_left (List.sum_le_sum fun S hS => ?_) (by positivity)
  unfold total
  have key : ∀ us : List I3, (∀ u ∈ us, Holds (S.tiles u) (L S u)) → ((Multiset.card (us.map fun u => (L S u : Multiset (Part n))).sum : ℕ) : ℤ) ≤
      (us.map fun u => if (S.tiles u).alloc then (S.tiles u).npmax else 0).sum := by
    intro us
    induction us with
    | nil => intro _; simp
    | cons u us ih =>
      intro hu
      have hh := hu u List.mem_cons_self
      have := ih fun v hv => hu v (List.mem_cons_of_mem _ hv)
      rw [List.map_cons, List.map_cons, List.sum_cons, List.sum_cons, Multiset.card_add]
      push_cast
      refine add_le_add ?_ this
      cases ha : (S.tiles u).alloc with
      | true => simpa using hh.fits
      | false => simp [hh.empty ha]
  exact key _ fun u hu => h S hS u (mem_box.mp hu)

/-- C185, no leak: after any history of additions and removals on a new tile with `c0` places, the tile has at most `c0` places, or at most two and a half times its
current number of particles plus two. -/
theorem C185_no_leak (n : ℕ) (c0 : ℤ) (hc : 0 ≤ c0) (ops : List (Op n)) (hv : Valid 0 ops) :
    ∃ t log, run ops (newTile c0) [] = .ok (t, log) ∧ t.np ≤ t.npmax ∧ (t.npmax ≤ c0 ∨ 2 * t.npmax ≤ 5 * t.np + 4) ∧
      tileMem 0 t ≤ 8 * (13 + n) * max c0 ((5 * t.np + 4) / 2) := by
  have key : ∀ (ops : List (Op n)) (t t' : Tile n) (log log' : List (Part n)), 0 ≤ t.np → Valid t.np ops → (t.npmax ≤ c0 ∨ 2 * t.npmax ≤ 5 * t.np + 4) →
      t.np ≤ t.npmax → run ops t log = .ok (t', log') → (t'.npmax ≤ c0 ∨ 2 * t'.npmax ≤ 5 * t'.np + 4) := by
    intro ops
    induction ops with
    | nil =>
      intro t t' log log' _ _ hi _ h
      unfold run at h
      injection h with h
      injection h with h _
      exact h ▸ hi
    | cons o ops ih =>
      intro t t' log log' h0 hv hi hf h
      cases o with
      | add p =>
        unfold run at h
        cases ha : addTile p t with
        | error e => rw [ha] at h; cases h
        | ok t1 =>
          rw [ha] at h
          obtain ⟨c1, c2⟩ := addTile_cap ha
          refine ih t1 t' log log' (by omega) (by rw [c1]; exact hv) ?_ ?_ h
          · split at c2 <;> omega
          · split at c2 <;> omega
      | rm i =>
        unfold run at h
        cases hp : readPart t i with
        | error e => rw [hp] at h; cases h
        | ok p =>
          rw [hp] at h
          cases ha : rmTile i t with
          | error e => simp only [except_bind_ok] at h; rw [ha] at h; cases h
          | ok t1 =>
            simp only [except_bind_ok] at h
            rw [ha] at h
            obtain ⟨c1, c2⟩ := rmTile_cap ha
            have hv1 := hv.1
            refine ih t1 t' (p :: log) log' (by omega) (by rw [c1]; exact hv.2) ?_ ?_ h
            · split at c2 <;> omega
            · split at c2 <;> omega
  obtain ⟨t, l, log, e, h, -⟩ := C59_history n c0 hc ops hv
  have hk := key ops (newTile c0) t [] log le_rfl hv (Or.inl le_rfl) (by change (0 : ℤ) ≤ c0; omega) e
  refine ⟨t, log, e, by rw [h.count]; exact h.fits, hk, ?_⟩
  rw [tileMem_eq h, zero_add]
  have hm : t.npmax ≤ max c0 ((5 * t.np + 4) / 2) := by omega
  have h0 := h.count
  split
  · exact mul_le_mul_of_nonneg_left hm (by positivity)
  · have : (0 : ℤ) ≤ max c0 ((5 * t.np + 4) / 2) := by omega
    positivity

/-- C185, no leak in a whole species: in every state reachable from empty tiles with at most `c0` places by adding and removing particles and exchanging them between
tiles, twice the reported memory is at most that of five times the particles of the species, and of `2 c0 + 4` particles in each tile. -/
theorem C185_species (n : ℕ) (g : Geo) (S0 S : Species n) (c0 : ℤ) (hg : Fits g S0.nt) (h0 : HoldsAll S0 fun _ => []) (hn : S0.npart = 0)
    (hc : ∀ u, InBox ⟨1, 1, 1⟩ S0.nt u → (S0.tiles u).npmax ≤ c0) (hr : Reach g S0 S) :
    (∀ u, InBox ⟨1, 1, 1⟩ S.nt u → (S.tiles u).npmax ≤ c0 ∨ 2 * (S.tiles u).npmax ≤ 5 * (S.tiles u).np + 4) ∧
    2 * localMem [S] ≤ 8 * (13 + n) * (5 * S.npart + (2 * c0 + 4) * (box ⟨1, 1, 1⟩ S.nt).length) := by
  have hcap : Caps c0 S := by
    clear hg hn
    induction hr with
    | start => exact fun u hu => ⟨by have := (h0 u hu).fits; simpa using this, Or.inl (hc u hu)⟩
    | @add S1 S2 p _ hp e ih =>
      unfold addSpecies at e
      cases ha : addAt (g.idx p) p S1 with
      | error _ => rw [ha] at e; cases e
      | ok S3 =>
        rw [ha] at e
        injection e with e
        subst e
        have h3 : Caps c0 S3 := caps_at (fun _ _ => cap_add) ih ha
        exact h3
    | @rm S1 S2 u i _ hu hi e ih =>
      unfold rmSpecies at e
      cases ha : rmAt u i S1 with
      | error _ => rw [ha] at e; cases e
      | ok S3 =>
        rw [ha] at e
        injection e with e
        subst e
        have h3 : Caps c0 S3 := caps_at (fun _ _ => cap_rm) ih ha
        exact h3
    | exchange _ e ih =>
      classical
      unfold bcsTiles at e
      exact caps_move ih e
  obtain ⟨hnt, ⟨L, hL, hN⟩, -⟩ := C59_species n g S0 S hg h0 hn hr
  have hb : ∀ u, InBox ⟨1, 1, 1⟩ S.nt u → (S.tiles u).npmax ≤ c0 ∨ 2 * (S.tiles u).npmax ≤ 5 * (S.tiles u).np + 4 := by
    intro u hu
    have h1 := (hcap u hu).2
    have h2 := (hL u hu).count
    omega
  refine ⟨hb, ?_⟩
  rw [(C185_reported n [S] (fun _ => L) (by intro T hT; rw [List.mem_singleton] at hT; exact hT ▸ hL)).1, hN]
  have key : ∀ us : List I3, (∀ u ∈ us, InBox ⟨1, 1, 1⟩ S.nt u) → 2 * (us.map fun u => if (S.tiles u).alloc then (S.tiles u).npmax else 0).sum ≤
      5 * ((Multiset.card (us.map fun u => (L u : Multiset (Part n))).sum : ℕ) : ℤ) + (2 * c0 + 4) * us.length := by
    intro us
    induction us with
    | nil => intro _; simp
    | cons u us ih =>
      intro hu
      have i1 := ih fun v hv => hu v (List.mem_cons_of_mem _ hv)
      have hu1 := hu u List.mem_cons_self
      have i2 := hb u hu1
      have i3 := (hL u hu1).count
      have i4 := (hL u hu1).fits
      have i5 : 0 ≤ c0 := by
        have a := hc u (hnt ▸ hu1)
        have b := (h0 u (hnt ▸ hu1)).fits
        simp only [List.length_nil, Nat.cast_zero] at b
        omega
      rw [List.map_cons, List.map_cons, List.sum_cons, List.sum_cons, Multiset.card_add, Multiset.coe_card, List.length_cons]
      push_cast
      have : 2 * (if (S.tiles u).alloc then (S.tiles u).npmax else 0) ≤ 5 * ((L u).length : ℤ) + (2 * c0 + 4) := by split <;> omega
      linarith
  have k := key _ fun u hu => mem_box.mp hu
  simp only [List.map_cons, List.map_nil, List.sum_cons, List.sum_nil, add_zero]
  have hpos : (0 : ℤ) ≤ 8 * (13 + n) := by positivity
  have k2 := mul_le_mul_of_nonneg_left k hpos
  unfold total
  linarith

/-- The hypotheses are met by 27 tiles of one place, and a particle can be added. -/
example : ∃ S0 S : Species 1, S0.nt = ⟨3, 3, 3⟩ ∧ addSpecies exGeo3.idx (exPart 10) S0 = .ok S ∧ 2 * localMem [S] ≤ 112 * (5 * S.npart + 6 * (box ⟨1, 1, 1⟩ S.nt).length) := by
  have h0 : Holds (newTile (n := 1) 1) [] := ⟨rfl, by simp [newTile, allocArrays], fun _ _ => rfl, fun _ => rfl, fun _ _ i hi => absurd hi (Nat.not_lt_zero i)⟩
  have hS : HoldsAll (⟨⟨3, 3, 3⟩, fun _ => newTile 1, 0⟩ : Species 1) (fun _ => []) := fun u _ => h0
  have hp : InSub exGeo3 (exPart 10) := by unfold InSub; norm_num [exGeo3, exGeo, exPart]
  obtain ⟨-, -, h, -⟩ := C59_species 1 exGeo3 _ _ exFits hS rfl .start
  obtain ⟨S', e⟩ := h (exPart 10) hp
  have := (C185_species 1 exGeo3 _ S' 1 exFits hS rfl (fun _ _ => le_rfl) (.add .start hp e)).2
  exact ⟨_, S', rfl, e, by norm_num at this ⊢; exact this⟩

/-- Six additions to a tile with one place and five removals. -/
example : ∃ t log, run [.add (exPart 1), .add (exPart 2), .add (exPart 3), .add (exPart 4), .add (exPart 5), .add (exPart 6), .rm 1, .rm 1, .rm 2, .rm 3, .rm 1] (newTile 1) [] =
    .ok (t, log) ∧ (t.npmax ≤ 1 ∨ 2 * t.npmax ≤ 5 * t.np + 4) := by
  obtain ⟨t, log, e, -, h, -⟩ := C185_no_leak 1 1 (by norm_num) [.add (exPart 1), .add (exPart 2), .add (exPart 3), .add (exPart 4), .add (exPart 5), .add (exPart 6), .rm 1, .rm 1,
    .rm 2, .rm 3, .rm 1] (by simp [Valid])
  exact ⟨t, log, e, h⟩

/-- 27 tiles of one place and no particles: 27 places of 14 numbers. -/
example : localMem [(⟨⟨3, 3, 3⟩, fun _ => newTile 1, 0⟩ : Species 1)] = 3024 := by
  have h0 : Holds (newTile (n := 1) 1) [] := ⟨rfl, by simp [newTile, allocArrays], fun _ _ => rfl, fun _ => rfl, fun _ _ i hi => absurd hi (Nat.not_lt_zero i)⟩
  rw [(C185_reported 1 _ (fun _ _ => []) (by intro S hS u _; rw [List.mem_singleton] at hS; rw [hS]; exact h0)).1]
  have : (box ⟨1, 1, 1⟩ ⟨3, 3, 3⟩).length = 27 := by decide
  simp [newTile, allocArrays, this]

end Picsar.Props
