import Verif.Lemmas.Tile2d
import Verif.Props.Tiling
/-
C168: storage of particles in two dimensions; C169: the way of particles to the neighbour in two dimensions.
-/
namespace Picsar.Props
open Picsar Picsar.Grid Picsar.Tiling Picsar.Tile2d

/-! ### C168 -/

/-- C168, the part that holds: for every history of additions and removals of existing positions with the two-dimensional routines, from a new tile of any
capacity, nothing faults, and at the end the tile holds particles of the plane that together with the removed ones are a rearrangement of the added ones with
y = 0. Missing: particles with another y, which the interface of Python stores (`C168_y_refuted`). -/
theorem C168_history_partial (n : ℕ) (npmax : ℤ) (hc : 0 ≤ npmax) (ops : List (Op n)) (hv : Valid 0 ops) :
    ∃ t l log, run2 ops (newTile npmax) [] = .ok (t, log) ∧ Holds t l ∧ (∀ p ∈ l, InPlane p) ∧
      (l ++ log).Perm ((added ops).map fun p => { p with y := 0 }) := by
  have h0 : Holds (newTile (n := n) npmax) [] := ⟨rfl, hc, fun _ _ => rfl, fun _ => rfl, fun _ _ i hi => absurd hi (Nat.not_lt_zero i)⟩
  obtain ⟨t, l, log, e, h, q, p⟩ := run2_ok ops [] h0 (by simp) hv
  refine ⟨t, l, log, e, h, q, ?_⟩
  rw [List.nil_append, List.append_nil] at p
  exact p

/-- Four additions, two removals. -/
example : ∃ t l log, run2 [.add (exPart 1), .add (exPart 2), .add (exPart 3), .rm 1, .add (exPart 4), .rm 2] (newTile 1) [] = .ok (t, log) ∧ Holds t l ∧
    (l ++ log).Perm [⟨1, 0, 1, 1, 1, 1, 1, fun _ => 1⟩, ⟨2, 0, 2, 2, 2, 2, 2, fun _ => 2⟩, ⟨3, 0, 3, 3, 3, 3, 3, fun _ => 3⟩,
      (⟨4, 0, 4, 4, 4, 4, 4, fun _ => 4⟩ : Part 1)] := by
  obtain ⟨t, l, log, e, h, -, p⟩ := C168_history_partial 1 1 (by norm_num) [.add (exPart 1), .add (exPart 2), .add (exPart 3), .rm 1, .add (exPart 4), .rm 2]
    (by simp [Valid])
  exact ⟨t, l, log, e, h, p⟩

/-- C168 as stated fails: from every tile that holds two particles with different y, removing the first one with the two-dimensional routine leaves the
second one with the y of the first. Such a tile arises from a new one with two additions through the interface of Python, which uses the three-dimensional routine. -/
theorem C168_y_refuted (n : ℕ) (p q : Part n) (hy : p.y ≠ q.y) (npmax : ℤ) (hc : 0 ≤ npmax) :
    ∃ t t' : Tile n, run [.add p, .add q] (newTile npmax) [] = .ok (t, []) ∧ Holds t [p, q] ∧ rmTile2 1 t = .ok t' ∧
      Holds t' [{ q with y := p.y }] ∧ ({ q with y := p.y } : Part n) ≠ q := by
  have h0 : Holds (newTile (n := n) npmax) [] := ⟨rfl, hc, fun _ _ => rfl, fun _ => rfl, fun _ _ i hi => absurd hi (Nat.not_lt_zero i)⟩
  obtain ⟨t1, e1, h1⟩ := (C59_operations n _ _ h0).1 p
  obtain ⟨t2, e2, h2⟩ := (C59_operations n _ _ h1).1 q
  obtain ⟨t', e, h⟩ := rmTile2_ok h2 (i := 0) (by simp)
  refine ⟨t2, t', ?_, h2, e, h, fun h' => hy (show ({ q with y := p.y } : Part n).y = q.y by rw [h'])⟩
  unfold run
  rw [e1, except_bind_ok]
  unfold run
  rw [e2]
  rfl

/-- Two such particles. -/
example : (exPart 1).y ≠ (exPart 2).y := by norm_num [exPart]

/-! ### C169 -/

/-- C169, the part that holds: the particles `Y` (one list for each species) that leave a process in one direction, at most as many as are counted for the
buffer, arrive at the neighbour: nothing faults (the places of the buffers that are never written are not read), and each species of the neighbour has
its particles and those of its list, every property as sent, with y = 0. Missing: y itself (`C169_y_refuted`). -/
theorem C169_delivered_partial (n : ℕ) (idx : Part n → I3) (nbuff nmax : ℤ) (Y : List (List (Part n))) (Ss : List (Species n)) (L : ℕ → I3 → List (Part n))
    (hl : Ss.length = Y.length) (h : ∀ (i : ℕ) (S : Species n), Ss[i]? = some S → HoldsAll S (L i)) (hn : ((Y.map List.length).sum : ℤ) ≤ nbuff)
    (hm : (7 + n : ℤ) * ((Y.map List.length).sum : ℕ) ≤ nmax)
    (hi : ∀ (i : ℕ) (S : Species n) (l : List (Part n)), Ss[i]? = some S → Y[i]? = some l → ∀ p ∈ l, InBox ⟨1, 1, 1⟩ S.nt (idx ({ p with y := 0 } : Part n))) :
    ∃ (Ss' : List (Species n)) (M : ℕ → I3 → List (Part n)), handOver idx nbuff nmax Y Ss = .ok Ss' ∧ Ss'.length = Ss.length ∧
      ∀ (i : ℕ) (S : Species n) (l : List (Part n)), Ss[i]? = some S → Y[i]? = some l → ∃ S', Ss'[i]? = some S' ∧ Gained S S' (L i) (M i) ((l.map fun p => ({ p with y := 0 } : Part n) : List (Part n)) : Multiset (Part n)) := by
  have hf : Y.flatten.length = (Y.map List.length).sum := List.length_flatten
  refine handOver_ok hl h (by rw [hf]; exact_mod_cast hn) ?_ hi
  have : PartExchange.nvar n = 7 + (n : ℤ) := by unfold PartExchange.nvar; ring
  rw [hf, this]
  exact hm

/-- Two species of the neighbour with 3 × 1 × 3 empty tiles; two and one particles arrive. -/
example : ∃ Ss' : List (Species 1), handOver (fun p => ⟨if p.x < 2 then 1 else 2, 1, 3⟩) 4 24 [[exPart 1, exPart 2], [exPart 3]]
      [⟨⟨3, 1, 3⟩, fun _ => newTile 1, 0⟩, ⟨⟨3, 1, 3⟩, fun _ => newTile 5, 0⟩] = .ok Ss' ∧ (Ss'[0]?.map (·.npart)) = some 2 ∧ (Ss'[1]?.map (·.npart)) = some 1 := by
  have hS : ∀ c : ℤ, 0 ≤ c → HoldsAll (⟨⟨3, 1, 3⟩, fun _ => newTile c, 0⟩ : Species 1) (fun _ => []) := fun c hc u _ =>
    ⟨rfl, hc, fun _ _ => rfl, fun _ => rfl, fun _ _ i hi => absurd hi (Nat.not_lt_zero i)⟩
  have hin : ∀ p : Part 1, InBox ⟨1, 1, 1⟩ ⟨3, 1, 3⟩ (⟨if p.x < 2 then 1 else 2, 1, 3⟩ : I3) := fun p => by
    unfold InBox
    split_ifs <;> norm_num
  obtain ⟨Ss', M, e, -, k⟩ := C169_delivered_partial 1 (fun p => ⟨if p.x < 2 then 1 else 2, 1, 3⟩) 4 24 [[exPart 1, exPart 2], [exPart 3]]
    [⟨⟨3, 1, 3⟩, fun _ => newTile 1, 0⟩, ⟨⟨3, 1, 3⟩, fun _ => newTile 5, 0⟩] (fun _ _ => []) rfl
    (fun i S h => by
      match i, h with
      | 0, h => injection h with h; rw [← h]; exact hS 1 (by norm_num)
      | 1, h => injection h with h; rw [← h]; exact hS 5 (by norm_num)) (by simp) (by simp)
    (fun i S l h _ p _ => by
      match i, h with
      | 0, h => injection h with h; rw [← h]; exact hin _
      | 1, h => injection h with h; rw [← h]; exact hin _)
  obtain ⟨S0, e0, g0⟩ := k 0 _ _ rfl rfl
  obtain ⟨S1, e1, g1⟩ := k 1 _ _ rfl rfl
  refine ⟨Ss', e, ?_, ?_⟩
  · rw [e0, Option.map_some, g0.npart]; rfl
  · rw [e1, Option.map_some, g1.npart]; rfl

/-- C169 as stated fails for y: a particle with y ≠ 0 that is handed over to an empty species is not among the particles that the neighbour has afterwards;
instead there is one with y = 0. -/
theorem C169_y_refuted (n : ℕ) (p : Part n) (hy : p.y ≠ 0) (npmax : ℤ) (hc : 0 ≤ npmax) :
    ∃ (S' : Species n) (M : I3 → List (Part n)), handOver (fun _ => ⟨1, 1, 1⟩) 1 (7 + n) [[p]] [⟨⟨1, 1, 1⟩, fun _ => newTile npmax, 0⟩] = .ok [S'] ∧ HoldsAll S' M ∧
      total ⟨1, 1, 1⟩ M = {{ p with y := 0 }} ∧ p ∉ total ⟨1, 1, 1⟩ M := by
  have hS : HoldsAll (⟨⟨1, 1, 1⟩, fun _ => newTile npmax, 0⟩ : Species n) (fun _ => []) := fun u _ =>
    ⟨rfl, hc, fun _ _ => rfl, fun _ => rfl, fun _ _ i hi => absurd hi (Nat.not_lt_zero i)⟩
  obtain ⟨Ss', M, e, l, k⟩ := C169_delivered_partial n (fun _ => ⟨1, 1, 1⟩) 1 (7 + n) [[p]] [⟨⟨1, 1, 1⟩, fun _ => newTile npmax, 0⟩] (fun _ _ => []) rfl
    (fun i S h => by
      match i, h with
      | 0, h => injection h with h; rw [← h]; exact hS) (by simp) (by simp)
    (fun i S l h _ q _ => by
      match i, h with
      | 0, h => injection h with h; rw [← h]; exact ⟨le_rfl, le_rfl, le_rfl, le_rfl, le_rfl, le_rfl⟩)
  obtain ⟨S', hS'⟩ : ∃ S', Ss' = [S'] := List.length_eq_one_iff.mp l
  obtain ⟨S1, e1, g1⟩ := k 0 _ _ rfl rfl
  rw [hS'] at e1
  injection e1 with e1
  subst e1 hS'
  have ht : total ⟨1, 1, 1⟩ (M 0) = {{ p with y := 0 }} := by
    have := g1.all
    rw [show total (n := n) (⟨1, 1, 1⟩ : I3) (fun _ => []) = 0 by simp [total], zero_add] at this
    exact this
  refine ⟨S', M 0, e, g1.holds, ht, ?_⟩
  rw [ht, Multiset.mem_singleton]
  exact fun h => hy (congrArg Part.y h)

/-- Such a particle. -/
example : (exPart 1).y ≠ 0 := by norm_num [exPart]

end Picsar.Props
