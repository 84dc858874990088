import Verif.Lemmas.PlaneDiag
import Verif.Props.Tiling
/-
C170: values of the particles for scripts; C171: particles that cross a plane; C172: quantities on the plane.
-/
namespace Picsar.Props
open Picsar Picsar.Grid Picsar.Tiling Picsar.PlaneDiag

/-! ### C170 -/

/-- C170, the part that holds: the number of particles is that of the species, and each of x, y, z, ux, uy, uz and of the further properties is returned for every
particle, in the same order for all quantities. Field values are returned as stored in the tiles, in this order, too. Missing: that the stored field values are
those of the particle (`C170_fields_refuted`). -/
theorem C170_values_partial (n : ℕ) (S : Species n) (L : I3 → List (Part n)) (h : HoldsAll S L) : ∃ ps : List (Part n),
    (ps : Multiset (Part n)) = total S.nt L ∧ ps = (box ⟨1, 1, 1⟩ S.nt).flatMap L ∧ localNumber S = ps.length ∧
    (∀ q ∈ ([(1, Part.x), (2, Part.y), (3, Part.z), (4, Part.ux), (5, Part.uy), (6, Part.uz)] : List (ℤ × (Part n → ℝ))),
      ∃ b, getquantity S q.1 (localNumber S) = .ok b ∧ b.n = ps.length ∧ b.Holds (ps.map q.2)) ∧
    (∀ k : Fin n, ∃ b, getquantityPid S k (localNumber S) = .ok b ∧ b.n = ps.length ∧ b.Holds (ps.map fun p => p.pid k)) ∧
    ∀ q ∈ ([(7, .ex), (8, .ey), (9, .ez), (10, .bx), (11, .by), (12, .bz)] : List (ℤ × Attr n)), ∀ F : I3 → List ℝ,
      (∀ u, InBox ⟨1, 1, 1⟩ S.nt u → (F u).length = (L u).length ∧ ((S.tiles u).arr q.2).Holds (F u)) →
      ∃ b, getquantity S q.1 (localNumber S) = .ok b ∧ b.n = ps.length ∧ b.Holds ((box ⟨1, 1, 1⟩ S.nt).flatMap F) := by
  have hN := localNumber_eq h
  refine ⟨listed S L, listed_total S L, rfl, hN, fun q hq => ?_, fun k => ?_, fun q hq F hF => ?_⟩
  · rw [← hN]
    simp only [List.mem_cons, List.not_mem_nil, or_false] at hq
    rcases hq with rfl | rfl | rfl | rfl | rfl | rfl
    · exact copyAll_kept h (a := .x) (by simp [kept])
    · exact copyAll_kept h (a := .y) (by simp [kept])
    · exact copyAll_kept h (a := .z) (by simp [kept])
    · exact copyAll_kept h (a := .ux) (by simp [kept])
    · exact copyAll_kept h (a := .uy) (by simp [kept])
    · exact copyAll_kept h (a := .uz) (by simp [kept])
  · rw [← hN]
    exact copyAll_kept h (a := .pid k) (by simp [kept])
  · have hlen : (((box ⟨1, 1, 1⟩ S.nt).flatMap F).length : ℤ) = localNumber S := by
      rw [hN]
      unfold listed
      rw [List.length_flatMap, List.length_flatMap]
      congr 2
      exact List.map_congr_left fun u hu => (hF u (mem_box.mp hu)).1
    have key : ∃ b, copyAll q.2 S (localNumber S) = .ok b ∧ b.n = (listed S L).length ∧ b.Holds ((box ⟨1, 1, 1⟩ S.nt).flatMap F) := by
      have := copyAll_ok (a := q.2) (S := S) (V := F) (fun u hu => by rw [(h u (mem_box.mp hu)).count, (hF u (mem_box.mp hu)).1])
        fun u hu _ => (hF u (mem_box.mp hu)).2
      rw [hlen] at this
      rwa [← hN]
    simp only [List.mem_cons, List.not_mem_nil, or_false] at hq
    rcases hq with rfl | rfl | rfl | rfl | rfl | rfl <;> exact key

/-- A tile with two particles and values of the fields. -/
noncomputable def pdTile (e1 e2 : ℝ) : Tile 1 := ⟨2, 2, true, fun a => if a = .ex then FArr.ofList [e1, e2] else FArr.ofList [(exPart 1).val a, (exPart 2).val a]⟩

theorem pdTile_holds (e1 e2 : ℝ) : Holds (pdTile e1 e2) [exPart 1, exPart 2] := by
  refine ⟨rfl, le_rfl, fun _ a => ?_, fun h => (by cases h), fun a ha i hi => ?_⟩
  · unfold pdTile
    dsimp only
    split_ifs <;> rfl
  · have hne : a ≠ .ex := fun h => by rw [h] at ha; simp [kept] at ha
    unfold pdTile
    dsimp only
    rw [if_neg hne, (FArr.holds_ofList [(exPart 1).val a, (exPart 2).val a]).2 i hi]
    match i, hi with
    | 0, _ => rfl
    | 1, _ => rfl

/-- Such a species with one tile: the values of x are those of the particles. -/
example : ∃ b, getquantity (⟨⟨1, 1, 1⟩, fun _ => pdTile 5 6, 2⟩ : Species 1) 1 2 = .ok b ∧ b.Holds [1, 2] := by
  have h : HoldsAll (⟨⟨1, 1, 1⟩, fun _ => pdTile 5 6, 2⟩ : Species 1) (fun _ => [exPart 1, exPart 2]) := fun u _ => pdTile_holds 5 6
  obtain ⟨ps, -, hps, hl, hk, -⟩ := C170_values_partial 1 _ _ h
  have hps' : ps = [exPart 1, exPart 2] := hps
  subst hps'
  obtain ⟨b, e, -, hb⟩ := hk (1, Part.x) (by simp)
  rw [hl] at e
  exact ⟨b, e, hb⟩

theorem pd_onArrays {n : ℕ} {f : Attr n → FArr ℝ → Res (FArr ℝ)} : ∀ (l : List (Attr n)) {t t' : Tile n}, onArrays l f t = .ok t' →
    t'.np = t.np ∧ t'.npmax = t.npmax ∧ ∀ a, a ∉ l → t'.arr a = t.arr a
  | [], t, t', h => by
    injection h with h
    subst h
    exact ⟨rfl, rfl, fun _ _ => rfl⟩
  | b :: l, t, t', h => by
    unfold onArrays at h
    rw [List.foldlM_cons] at h
    cases hb : f b (t.arr b) with
    | error e => rw [hb] at h; cases h
    | ok v =>
      rw [hb] at h
      obtain ⟨h1, h2, h3⟩ := pd_onArrays l (t := ⟨t.np, t.npmax, t.alloc, Function.update t.arr b v⟩) h
      refine ⟨h1, h2, fun a ha => ?_⟩
      rw [h3 a fun h => ha (by simp [h])]
      exact Function.update_of_ne (fun h => ha (by simp [h])) _ _

/-- C170 as stated fails for the fields: in every tile with the particles `p` and `q` and the values `e1` and `e2` of the electric field at them, after the removal of `p` (as
when it leaves for another tile) the position returned is that of `q`, but the field is the one at `p`. -/
theorem C170_fields_refuted (n : ℕ) (p q : Part n) (e1 e2 : ℝ) (he : e1 ≠ e2) (t : Tile n) (h : Holds t [p, q]) (hm : t.npmax ≤ 4) (hf : (t.arr .ex).Holds [e1, e2]) :
    (∃ b, getquantity ⟨⟨1, 1, 1⟩, fun _ => t, 2⟩ 7 2 = .ok b ∧ b.Holds [e1, e2]) ∧
    ∃ S' bx be, rmSpecies ⟨1, 1, 1⟩ 1 ⟨⟨1, 1, 1⟩, fun _ => t, 2⟩ = .ok S' ∧ HoldsAll S' (fun _ => [q]) ∧ getquantity S' 1 1 = .ok bx ∧ bx.Holds [q.x] ∧
      getquantity S' 7 1 = .ok be ∧ be.Holds [e1] ∧ ¬ be.Holds [e2] := by
  have hS : HoldsAll (⟨⟨1, 1, 1⟩, fun _ => t, 2⟩ : Species n) (fun _ => [p, q]) := fun u _ => h
  obtain ⟨t', et, ht', -⟩ := rmTile_ok h (i := 0) (by simp)
  have ht : Holds t' [q] := ht'
  have et' : rmTile 1 t = .ok t' := et
  have hex : t'.arr .ex = t.arr .ex := by
    unfold rmTile rmMove at et'
    rw [if_neg (by rw [h.count]; simp)] at et'
    cases ho : onArrays (kept n) (fun _ b => do
        let v ← b.get t.np
        b.set 1 v) t with
    | error e => rw [ho] at et'; cases et'
    | ok t1 =>
      rw [ho] at et'
      obtain ⟨h1, h2, h3⟩ := pd_onArrays _ ho
      have hc := h.count
      simp only [except_bind_ok] at et'
      unfold shrink at et'
      rw [if_neg (by
        dsimp only
        rw [h1, h2, hc]
        simp only [List.length_cons, List.length_nil]
        omega)] at et'
      injection et' with et'
      rw [← et']
      exact h3 _ (by simp [kept])
  have hbox : box ⟨1, 1, 1⟩ ⟨1, 1, 1⟩ = [⟨1, 1, 1⟩] := rfl
  refine ⟨?_, ⟨⟨1, 1, 1⟩, Function.update (fun _ => t) ⟨1, 1, 1⟩ t', 1⟩, ?_⟩
  · obtain ⟨ps, -, hps, hl, -, -, hk⟩ := C170_values_partial n _ _ hS
    have hps' : ps = [p, q] := hps
    subst hps'
    obtain ⟨b, e, -, hb⟩ := hk (7, .ex) (by simp) (fun _ => [e1, e2]) fun u _ => ⟨rfl, hf⟩
    rw [hl] at e
    exact ⟨b, e, hb⟩
  · have hS' : HoldsAll (⟨⟨1, 1, 1⟩, Function.update (fun _ => t) ⟨1, 1, 1⟩ t', 1⟩ : Species n) (fun _ => [q]) := fun u hu => by
      have : u = ⟨1, 1, 1⟩ := by
        have := mem_box.mpr hu
        rw [hbox] at this
        simpa using this
      rw [this]
      dsimp only
      rw [Function.update_self]
      exact ht
    obtain ⟨ps, -, hps, hl, hx, -, hk⟩ := C170_values_partial n _ _ hS'
    have hps' : ps = [q] := hps
    subst hps'
    obtain ⟨bx, ex, -, hbx⟩ := hx (1, Part.x) (by simp)
    obtain ⟨be, ee, -, hbe⟩ := hk (7, .ex) (by simp) (fun _ => [e1]) fun u hu => by
      have : u = ⟨1, 1, 1⟩ := by
        have := mem_box.mpr hu
        rw [hbox] at this
        simpa using this
      refine ⟨rfl, ?_⟩
      rw [this]
      dsimp only
      rw [Function.update_self, hex]
      refine ⟨by have := hf.1; simp at this ⊢; omega, fun i hi => ?_⟩
      match i, hi with
      | 0, _ => exact hf.2 0 (by simp)
    rw [hl] at ex ee
    refine ⟨bx, be, ?_, hS', ex, hbx, ee, hbe, fun h' => he ?_⟩
    · unfold rmSpecies rmAt atTile
      rw [if_pos ⟨le_rfl, le_rfl, le_rfl, le_rfl, le_rfl, le_rfl⟩, et']
      rfl
    · have hbe' : be.Holds [e1] := hbe
      have a1 := hbe'.2 0 (by simp)
      have a2 := h'.2 0 (by simp)
      rw [a1] at a2
      simpa using a2

/-- Such a tile. -/
example : Holds (pdTile 5 6) [exPart 1, exPart 2] ∧ (pdTile 5 6).npmax ≤ 4 ∧ ((pdTile 5 6).arr .ex).Holds [5, 6] :=
  ⟨pdTile_holds 5 6, by norm_num [pdTile], by simpa [pdTile] using FArr.holds_ofList [(5 : ℝ), 6]⟩

/-! ### C171 -/

open Classical in
/-- C171, the part that holds: if no element of the array for the marks is 1 before, `npnew` is the number of particles that cross the plane, and the selection from any
quantity gives its values for exactly these particles, in order. `rs` are the particles with old and new positions `po` and `pn`, `v` is the quantity. Missing: marks left
in the array (`C171_stale_refuted`). -/
theorem C171_selected_partial {α : Type} (rs : List α) (po pn : α → Fin 3 → ℝ) (v : α → ℝ) (st : α → ℤ) (N co c : Fin 3 → ℝ) (X XOld : Fin 3 → FArr ℝ) (mask : FArr ℤ)
    (q : FArr ℝ) (hX : ∀ k, (X k).Holds (rs.map fun r => pn r k)) (hO : ∀ k, (XOld k).Holds (rs.map fun r => po r k)) (hm : mask.Holds (rs.map st))
    (hq : q.Holds (rs.map v)) (hst : ∀ r ∈ rs, st r ≠ 1) :
    ∃ T b, loadTestPlane rs.length N c co X XOld mask = .ok T ∧ T.npnew = (rs.filter fun r => decide (Crosses N co c (po r) (pn r))).length ∧
      select rs.length T.npnew T.mask q = .ok b ∧ b.n = T.npnew ∧ b.Holds ((rs.filter fun r => decide (Crosses N co c (po r) (pn r))).map v) := by
  obtain ⟨T, e, hn, -, -, hM⟩ := loadTestPlane_ok (N := N) (c := c) (co := co) hX hO hm
  have := select_run (C := fun r => decide (Crosses N co c (po r) (pn r))) hM (fun r hr => by
    by_cases h : Crosses N co c (po r) (pn r)
    · simp [h]
    · simp [h, hst r hr]) hq (rs.countP fun r => decide (Crosses N co c (po r) (pn r)))
  rw [if_pos le_rfl] at this
  obtain ⟨b, e2, nb, hb⟩ := this
  refine ⟨T, b, e, by rw [hn, List.countP_eq_length_filter], by rw [hn]; exact e2, by rw [nb, hn], hb⟩

/-- Arrays for the examples. -/
def pdArr (ps : List (Fin 3 → ℝ)) (k : Fin 3) : FArr ℝ := FArr.ofList (ps.map fun p => p k)

theorem pdArr_holds (ps : List (Fin 3 → ℝ)) (k : Fin 3) : (pdArr ps k).Holds (ps.map fun p => p k) := FArr.holds_ofList _

/-- The second of two particles crosses the plane x = 0, which does not move. -/
theorem pd_crosses : ¬ Crosses ![1, 0, 0] ![0, 0, 0] ![0, 0, 0] ![-1, 0, 0] ![-1, 0, 0] ∧ Crosses ![1, 0, 0] ![0, 0, 0] ![0, 0, 0] ![-1, 2, 0] ![3, 2, 0] := by
  constructor <;> simp [Crosses, side, Fin.sum_univ_three]

open Classical in
/-- Two particles, the second crosses: it is selected. -/
example : ∃ T b, loadTestPlane 2 ![1, 0, 0] ![0, 0, 0] ![0, 0, 0] (pdArr [![-1, 0, 0], ![3, 2, 0]]) (pdArr [![-1, 0, 0], ![-1, 2, 0]]) (FArr.ofList [0, 0]) = .ok T ∧
    T.npnew = 1 ∧ select 2 T.npnew T.mask (FArr.ofList [7, 8]) = .ok b ∧ b.Holds [8] := by
  obtain ⟨T, b, e, hn, es, -, hb⟩ := C171_selected_partial (α := Bool) [false, true] (fun r => if r then ![-1, 2, 0] else ![-1, 0, 0])
    (fun r => if r then ![3, 2, 0] else ![-1, 0, 0]) (fun r => if r then 8 else 7) (fun _ => 0) ![1, 0, 0] ![0, 0, 0] ![0, 0, 0] (pdArr [![-1, 0, 0], ![3, 2, 0]])
    (pdArr [![-1, 0, 0], ![-1, 2, 0]]) (FArr.ofList [0, 0]) (FArr.ofList [7, 8]) (fun k => pdArr_holds _ k) (fun k => pdArr_holds _ k)
    (FArr.holds_ofList [0, 0]) (FArr.holds_ofList [7, 8]) (by simp)
  have hf : ([false, true].filter fun r => decide (Crosses ![1, 0, 0] ![0, 0, 0] ![0, 0, 0] (if r then ![-1, 2, 0] else ![-1, 0, 0]) (if r then ![3, 2, 0] else ![-1, 0, 0]))) =
      [true] := by
    simp [pd_crosses.1, pd_crosses.2]
  rw [hf] at hn hb
  exact ⟨T, b, e, hn, es, hb⟩

theorem pd_countP_lt {α : Type} (A B : α → Bool) (h : ∀ a, A a = true → B a = true) : ∀ l : List α, (∃ a ∈ l, A a = false ∧ B a = true) → l.countP A < l.countP B
  | [], h' => by obtain ⟨a, ha, -⟩ := h'; simp at ha
  | b :: l, h' => by
    rw [List.countP_cons, List.countP_cons]
    have hmono : l.countP A ≤ l.countP B := List.countP_mono_left fun a _ => h a
    obtain ⟨a, ha, h1, h2⟩ := h'
    rcases List.mem_cons.mp ha with rfl | ha
    · rw [h1, h2]
      simp
      omega
    · have := pd_countP_lt A B h l ⟨a, ha, h1, h2⟩
      cases hA : A b with
      | false => simp; omega
      | true => rw [h b hA]; simp; omega

/-- C171 as stated fails: the routine never clears marks. Whenever the array has a 1 for some particle that does not cross (as after a call for an earlier plane), the selection
with the returned count writes outside of its array, for every quantity. -/
theorem C171_stale_refuted {α : Type} (rs : List α) (po pn : α → Fin 3 → ℝ) (v : α → ℝ) (st : α → ℤ) (N co c : Fin 3 → ℝ) (X XOld : Fin 3 → FArr ℝ) (mask : FArr ℤ)
    (q : FArr ℝ) (hX : ∀ k, (X k).Holds (rs.map fun r => pn r k)) (hO : ∀ k, (XOld k).Holds (rs.map fun r => po r k)) (hm : mask.Holds (rs.map st))
    (hq : q.Holds (rs.map v)) (hst : ∃ r ∈ rs, st r = 1 ∧ ¬ Crosses N co c (po r) (pn r)) :
    ∃ T, loadTestPlane rs.length N c co X XOld mask = .ok T ∧ select rs.length T.npnew T.mask q = .error .outOfBounds := by
  classical
  obtain ⟨T, e, hn, -, -, hM⟩ := loadTestPlane_ok (N := N) (c := c) (co := co) hX hO hm
  have := select_run (C := fun r => decide (Crosses N co c (po r) (pn r) ∨ st r = 1)) hM (fun r _ => by
    by_cases h : Crosses N co c (po r) (pn r)
    · simp [h]
    · simp [h]) hq (rs.countP fun r => decide (Crosses N co c (po r) (pn r)))
  rw [if_neg] at this
  · exact ⟨T, e, by rw [hn]; exact this⟩
  · obtain ⟨r, hr, h1, h2⟩ := hst
    rw [not_le]
    exact pd_countP_lt _ _ (fun a ha => by simp at ha ⊢; exact Or.inl ha) rs ⟨r, hr, by simp [h2], by simp [h1]⟩

/-- In the example above with a mark left for the first particle. -/
example : ∃ T, loadTestPlane 2 ![1, 0, 0] ![0, 0, 0] ![0, 0, 0] (pdArr [![-1, 0, 0], ![3, 2, 0]]) (pdArr [![-1, 0, 0], ![-1, 2, 0]]) (FArr.ofList [1, 0]) = .ok T ∧
    select 2 T.npnew T.mask (FArr.ofList [7, 8]) = .error .outOfBounds :=
  C171_stale_refuted (α := Bool) [false, true] (fun r => if r then ![-1, 2, 0] else ![-1, 0, 0])
    (fun r => if r then ![3, 2, 0] else ![-1, 0, 0]) (fun r => if r then 8 else 7) (fun r => if r then 0 else 1) ![1, 0, 0] ![0, 0, 0] ![0, 0, 0]
    (pdArr [![-1, 0, 0], ![3, 2, 0]]) (pdArr [![-1, 0, 0], ![-1, 2, 0]]) (FArr.ofList [1, 0]) (FArr.ofList [7, 8]) (fun k => pdArr_holds _ k) (fun k => pdArr_holds _ k)
    (FArr.holds_ofList [1, 0]) (FArr.holds_ofList [7, 8]) ⟨false, by simp, rfl, pd_crosses.1⟩

/-! ### C172 -/

open Classical in
/-- C172. With marks cleared before: for each particle that crosses the plane there is exactly one time of the step at which it is on the plane, and the value returned for the
particle is the quantity at this time, varying linearly from its old to its new value; there are no other values, and no division by zero. -/
theorem C172_on_plane {α : Type} (rs : List α) (po pn : α → Fin 3 → ℝ) (vo vn : α → ℝ) (st : α → ℤ) (N co c : Fin 3 → ℝ) (X XOld : Fin 3 → FArr ℝ) (mask : FArr ℤ)
    (prev cur : FArr ℝ) (hX : ∀ k, (X k).Holds (rs.map fun r => pn r k)) (hO : ∀ k, (XOld k).Holds (rs.map fun r => po r k)) (hm : mask.Holds (rs.map st))
    (hp : prev.Holds (rs.map vo)) (hc : cur.Holds (rs.map vn)) (hst : ∀ r ∈ rs, st r ≠ 1) :
    ∃ T b ws, loadTestPlane rs.length N c co X XOld mask = .ok T ∧ interpolate rs.length T.npnew T.mask prev cur T.rel T.relOld = .ok b ∧ b.n = T.npnew ∧ b.Holds ws ∧
      List.Forall₂ (fun r w => ∃ t, OnPlane N co c (po r) (pn r) t ∧ (∀ t', OnPlane N co c (po r) (pn r) t' → t' = t) ∧ w = (1 - t) * vo r + t * vn r)
        (rs.filter fun r => decide (Crosses N co c (po r) (pn r))) ws := by
  obtain ⟨T, e, hn, hr, hro, hM⟩ := loadTestPlane_ok (N := N) (c := c) (co := co) hX hO hm
  have hsel : ∀ {q : FArr ℝ} {v : α → ℝ}, q.Holds (rs.map v) → ∃ b, select rs.length T.npnew T.mask q = .ok b ∧
      b.Holds ((rs.filter fun r => decide (Crosses N co c (po r) (pn r))).map v) := fun {q v} hq => by
    have := select_run (C := fun r => decide (Crosses N co c (po r) (pn r))) hM (fun r hr => by
      by_cases h : Crosses N co c (po r) (pn r)
      · simp [h]
      · simp [h, hst r hr]) hq (rs.countP fun r => decide (Crosses N co c (po r) (pn r)))
    rw [if_pos le_rfl] at this
    obtain ⟨b, e2, -, hb⟩ := this
    exact ⟨b, by rw [hn]; exact e2, hb⟩
  have hlen : T.npnew = (rs.filter fun r => decide (Crosses N co c (po r) (pn r))).length := by rw [hn, List.countP_eq_length_filter]
  have hcr : ∀ r ∈ rs.filter fun r => decide (Crosses N co c (po r) (pn r)), Crosses N co c (po r) (pn r) := fun r hr => by
    simpa using (List.mem_filter.mp hr).2
  unfold interpolate
  by_cases h0 : T.npnew > 0
  · obtain ⟨pv, e1, h1⟩ := hsel hp
    obtain ⟨cv, e2, h2⟩ := hsel hc
    obtain ⟨r, e3, h3⟩ := hsel hr
    obtain ⟨ro, e4, h4⟩ := hsel hro
    obtain ⟨b, e5, nb, hb⟩ := interp_ok h4 h3 h1 h2 fun s hs => by
      have := (hcr s hs).2
      have := abs_nonneg (side N co (po s))
      linarith
    refine ⟨T, b, _, e, ?_, by rw [nb, hlen], hb, ?_⟩
    · rw [if_pos h0, e1, except_bind_ok, e2, except_bind_ok, e3, except_bind_ok, e4, except_bind_ok, hlen]
      exact e5
    · rw [List.forall₂_map_right_iff, List.forall₂_same]
      intro s hs
      have hs' := hcr s hs
      refine ⟨_, (onPlane_iff hs' _).mpr rfl, fun t' ht' => (onPlane_iff hs' t').mp ht', ?_⟩
      have := hs'.2
      have := abs_nonneg (side N co (po s))
      have hd : |side N co (po s)| + side N c (pn s) ≠ 0 := by linarith
      field_simp
      ring
  · have hnil : (rs.filter fun r => decide (Crosses N co c (po r) (pn r))) = [] := by
      rw [← List.length_eq_zero_iff]
      omega
    refine ⟨T, FArr.undef T.npnew, [], e, if_neg h0, rfl, ⟨by show ((0 : ℕ) : ℤ) ≤ T.npnew; omega, fun i hi => by simp at hi⟩, ?_⟩
    rw [hnil]
    exact .nil

/-- The particle of the example goes from x = -1 to x = 3: it is on the plane after a quarter of the step. -/
example : OnPlane ![1, 0, 0] ![0, 0, 0] ![0, 0, 0] ![-1, 2, 0] ![3, 2, 0] (1 / 4) ∧ Crosses ![1, 0, 0] ![0, 0, 0] ![0, 0, 0] ![-1, 2, 0] ![3, 2, 0] := by
  refine ⟨⟨by norm_num, by norm_num, ?_⟩, pd_crosses.2⟩
  simp [side, on, Fin.sum_univ_three]
  norm_num

end Picsar.Props
