import Verif.Spec.PartDump
import Verif.Lemmas.FieldFile
import Mathlib.Data.Finset.Card
import Mathlib.Data.Finset.Filter
import Mathlib.Data.Finset.Range
import Mathlib.Tactic.FinCases

/-
Lemmas about the particle dumps.
-/
namespace Picsar.PartDump
open Picsar

theorem foldlM_tiles {α β : Type} (f : β → α → Res β) (ts : List (List α)) (s : β) :
    ts.foldlM (fun c t => t.foldlM f c) s = ts.flatten.foldlM f s := by
  induction ts generalizing s with
  | nil => rfl
  | cons t ts ih =>
    rw [List.foldlM_cons, List.flatten_cons, List.foldlM_append]
    congr 1
    funext c
    exact ih c

theorem sel_iff (W : Window) (p : Part) : W.sel p = true ↔ Asked W p := by
  unfold Window.sel Asked
  rw [decide_eq_true_iff]
  constructor
  · rintro ⟨h1, h2, h3, h4, h5, h6, h7, h8, h9, h10, h11, h12⟩ k
    fin_cases k
    exacts [⟨h1, h2⟩, ⟨h3, h4⟩, ⟨h5, h6⟩, ⟨h7, h8⟩, ⟨h9, h10⟩, ⟨h11, h12⟩]
  · intro h
    exact ⟨(h 0).1, (h 0).2, (h 1).1, (h 1).2, (h 2).1, (h 2).2, (h 3).1, (h 3).2, (h 4).1, (h 4).2, (h 5).1, (h 5).2⟩

/-- Marking a list of particles with indices. -/
theorem mark_ok (W : Window) (narr : ℕ) (ps : List (Part × ℕ)) (hp : ∀ q ∈ ps, q.2 < narr) (m : ℕ → Bool) (n : ℕ)
    (hc : ∀ N, ((Finset.range N).filter fun i => m i = true).card ≤ n) :
    ∃ m', ps.foldlM (mark W narr) (m, n) = .ok (m', n + (ps.filter fun q => W.sel q.1).length) ∧
      (∀ i, m' i = true ↔ m i = true ∨ ∃ q ∈ ps, q.2 = i ∧ W.sel q.1 = true) ∧
      ∀ N, ((Finset.range N).filter fun i => m' i = true).card ≤ n + (ps.filter fun q => W.sel q.1).length := by
  induction ps generalizing m n with
  | nil => exact ⟨m, rfl, fun i => by simp, hc⟩
  | cons q ps ih =>
    rw [List.foldlM_cons]
    by_cases h : W.sel q.1 = true
    · have e : mark W narr (m, n) q = .ok (Function.update m q.2 true, n + 1) := by
        unfold mark
        rw [if_pos h, if_pos (hp q List.mem_cons_self)]
      rw [e, except_bind_ok]
      obtain ⟨m', e', h1, h2⟩ := ih (fun r hr => hp r (List.mem_cons_of_mem _ hr)) (Function.update m q.2 true) (n + 1) (fun N => by
        refine le_trans (Finset.card_le_card (t := insert q.2 ((Finset.range N).filter fun i => m i = true)) fun i hi => ?_)
          (le_trans (Finset.card_insert_le _ _) (Nat.succ_le_succ (hc N)))
        rw [Finset.mem_filter] at hi
        rw [Finset.mem_insert, Finset.mem_filter]
        by_cases hq : i = q.2
        · exact Or.inl hq
        · rw [Function.update_of_ne hq] at hi
          exact Or.inr hi)
      have hl : ((q :: ps).filter fun q => W.sel q.1).length = 1 + (ps.filter fun q => W.sel q.1).length := by
        rw [List.filter_cons_of_pos (p := fun q : Part × ℕ => W.sel q.1) h, List.length_cons, Nat.add_comm]
      rw [hl, ← Nat.add_assoc]
      refine ⟨m', e', fun i => ?_, h2⟩
      rw [h1 i]
      by_cases hq : i = q.2
      · subst hq
        simp [h]
      · rw [Function.update_of_ne hq]
        simp only [List.mem_cons, exists_eq_or_imp]
        constructor
        · rintro (a | a)
          · exact Or.inl a
          · exact Or.inr (Or.inr a)
        · rintro (a | ⟨a, -⟩ | a)
          · exact Or.inl a
          · exact absurd a.symm hq
          · exact Or.inr a
    · have e : mark W narr (m, n) q = .ok (m, n) := by
        unfold mark
        rw [if_neg h]
      rw [e, except_bind_ok]
      obtain ⟨m', e', h1, h2⟩ := ih (fun r hr => hp r (List.mem_cons_of_mem _ hr)) m n hc
      rw [List.filter_cons_of_neg (p := fun q : Part × ℕ => W.sel q.1) h]
      refine ⟨m', e', fun i => ?_, h2⟩
      rw [h1 i]
      simp only [List.mem_cons, exists_eq_or_imp]
      constructor
      · rintro (a | a)
        · exact Or.inl a
        · exact Or.inr (Or.inr a)
      · rintro (a | ⟨-, a⟩ | a)
        · exact Or.inl a
        · exact absurd a h
        · exact Or.inr a

/-- The list of particles of `ps` whose running index, from `k` on, is in the mask. -/
def chosen (mask : ℕ → Bool) : ℕ → List Part → List Part
  | _, [] => []
  | k, p :: ps => if mask k then p :: chosen mask (k + 1) ps else chosen mask (k + 1) ps

theorem chosen_length (mask : ℕ → Bool) (k : ℕ) (ps : List Part) :
    (chosen mask k ps).length + ((Finset.range k).filter fun i => mask i = true).card =
      ((Finset.range (k + ps.length)).filter fun i => mask i = true).card := by
  induction ps generalizing k with
  | nil => simp [chosen]
  | cons p ps ih =>
    have := ih (k + 1)
    rw [Finset.range_add_one, Finset.filter_insert] at this
    rw [List.length_cons (a := p), show k + (ps.length + 1) = k + 1 + ps.length by omega, ← this]
    rw [chosen]
    by_cases h : mask k = true
    · rw [if_pos h, if_pos h, Finset.card_insert_of_notMem (by simp), List.length_cons]
      omega
    · rw [if_neg h, if_neg h]

theorem cat_ok (mask : ℕ → Bool) (nmask ndump : ℕ) (v : Fin 7) (ps : List Part) (c : Cat) (h1 : c.np + ps.length ≤ nmask)
    (h2 : c.ncurr + (chosen mask c.np ps).length ≤ ndump) :
    ∃ c', ps.foldlM (Cat.step mask nmask ndump v) c = .ok c' ∧
      ∀ i, c'.arr i = if h : c.ncurr ≤ i ∧ i < c.ncurr + (chosen mask c.np ps).length then
        some ((chosen mask c.np ps)[i - c.ncurr].var v) else c.arr i := by
  induction ps generalizing c with
  | nil =>
    refine ⟨c, rfl, fun i => ?_⟩
    rw [dif_neg]
    simp [chosen]
  | cons p ps ih =>
    rw [List.length_cons] at h1
    rw [List.foldlM_cons]
    unfold Cat.step
    rw [if_pos (by omega)]
    by_cases h : mask c.np = true
    · have hc : chosen mask c.np (p :: ps) = p :: chosen mask (c.np + 1) ps := by
        rw [chosen, if_pos h]
      rw [hc, List.length_cons] at h2
      rw [if_pos h, if_pos (by omega), except_bind_ok]
      obtain ⟨c', e, h3⟩ := ih ⟨c.np + 1, c.ncurr + 1, Function.update c.arr c.ncurr (some (p.var v))⟩ (by simp only []; omega)
        (by simp only []; omega)
      refine ⟨c', e, fun i => ?_⟩
      rw [h3 i]
      simp only [hc, List.length_cons]
      by_cases hi : c.ncurr = i
      · subst hi
        rw [dif_neg (by omega), dif_pos (by omega), Function.update_self]
        simp
      · by_cases h5 : c.ncurr + 1 ≤ i ∧ i < c.ncurr + 1 + (chosen mask (c.np + 1) ps).length
        · rw [dif_pos h5, dif_pos (by omega)]
          congr 2
          obtain ⟨j, rfl⟩ : ∃ j, i = c.ncurr + 1 + j := ⟨i - (c.ncurr + 1), by omega⟩
          simp only [Nat.add_sub_cancel_left, show c.ncurr + 1 + j - c.ncurr = j + 1 by omega]
          rfl
        · rw [dif_neg h5, dif_neg (by omega), Function.update_of_ne (Ne.symm hi)]
    · have hc : chosen mask c.np (p :: ps) = chosen mask (c.np + 1) ps := by
        rw [chosen, if_neg h]
      rw [hc] at h2
      rw [if_neg h, except_bind_ok]
      obtain ⟨c', e, h3⟩ := ih ⟨c.np + 1, c.ncurr, c.arr⟩ (by simp only []; omega) (by simp only []; omega)
      refine ⟨c', e, fun i => ?_⟩
      rw [h3 i]
      simp only [hc]

/-- Content of `arr` after the call for variable `v`. -/
noncomputable def column (S : List Part) (v : Fin 7) (i : ℕ) : Option ℝ := (S[i]?).map fun p => p.var v

theorem concatenate_ok {mask : ℕ → Bool} {nmask ndump : ℕ} {tiles : List (List Part)} (h1 : tiles.flatten.length ≤ nmask)
    (h2 : (chosen mask 0 tiles.flatten).length ≤ ndump) (v : Fin 7) {arr : ℕ → Option ℝ}
    (ha : ∀ i, (chosen mask 0 tiles.flatten).length ≤ i → arr i = none) :
    concatenate mask nmask ndump v tiles arr = .ok (column (chosen mask 0 tiles.flatten) v) := by
  unfold concatenate
  rw [foldlM_tiles]
  obtain ⟨c', e, h3⟩ := cat_ok mask nmask ndump v tiles.flatten ⟨0, 0, arr⟩ (by simpa using h1) (by simpa using h2)
  rw [e, except_bind_ok]
  congr 1
  funext i
  rw [h3 i]
  simp only [Nat.zero_le, true_and, Nat.zero_add, Nat.sub_zero]
  unfold column
  by_cases h : i < (chosen mask 0 tiles.flatten).length
  · rw [dif_pos h, List.getElem?_eq_getElem h]
    rfl
  · rw [dif_neg h, ha i (by omega), List.getElem?_eq_none (by omega)]
    rfl

theorem column_none (S : List Part) (v : Fin 7) (i : ℕ) (h : S.length ≤ i) : column S v i = none := by
  unfold column
  rw [List.getElem?_eq_none h]
  rfl

theorem blocks_ok {mask : ℕ → Bool} {nmask ndump : ℕ} {tiles : List (List Part)} (h1 : tiles.flatten.length ≤ nmask)
    (h2 : (chosen mask 0 tiles.flatten).length ≤ ndump) (vs : List (Fin 7)) (o : ℕ) {arr : ℕ → Option ℝ}
    (ha : ∀ i, (chosen mask 0 tiles.flatten).length ≤ i → arr i = none) :
    blocks mask nmask ndump tiles vs o arr =
      .ok ((vs.zipIdx).flatMap fun q => blockWrites (o + q.2 * ndump) ndump (column (chosen mask 0 tiles.flatten) q.1)) := by
  induction vs generalizing o arr with
  | nil => rfl
  | cons v vs ih =>
    unfold blocks
    rw [concatenate_ok h1 h2 v ha, except_bind_ok, ih (o + ndump) (column_none _ v), except_bind_ok]
    congr 1
    rw [List.zipIdx_cons, List.flatMap_cons]
    congr 1
    · simp
    · rw [show (0 + 1 : ℕ) = 1 + 0 from rfl, ← List.map_snd_add_zipIdx_eq_zipIdx (n := 1), List.flatMap_map]
      apply List.flatMap_congr
      intro q _
      congr 1
      simp only [Prod.map, id]
      ring

theorem getParticles_ok (W : Window) (narr : ℕ) (tiles : List (List Part)) (h : tiles.flatten.length ≤ narr) :
    ∃ mask, getParticlesToDump W narr tiles = .ok (mask, (tiles.flatten.filter W.sel).length) ∧
      (∀ i, mask i = true ↔ ∃ t ∈ tiles, ∃ h : i < t.length, W.sel t[i] = true) ∧
      ∀ N, ((Finset.range N).filter fun i => mask i = true).card ≤ (tiles.flatten.filter W.sel).length := by
  have hlen : ∀ t ∈ tiles, t.length ≤ narr := fun t ht => le_trans (List.Sublist.length_le (List.sublist_flatten_of_mem ht)) h
  obtain ⟨m, e, h1, h2⟩ := mark_ok W narr (tiles.map fun t => t.zipIdx).flatten (by
    intro q hq
    rw [List.mem_flatten] at hq
    obtain ⟨l, hl, hq⟩ := hq
    rw [List.mem_map] at hl
    obtain ⟨t, ht, rfl⟩ := hl
    have := List.mem_zipIdx' (x := q.1) (i := q.2) hq
    have := hlen t ht
    omega) (fun _ => false) 0 (by simp)
  have hl : ((tiles.map fun t => t.zipIdx).flatten.filter fun q => W.sel q.1).length = (tiles.flatten.filter W.sel).length := by
    rw [← List.countP_eq_length_filter, ← List.countP_eq_length_filter]
    clear e h1 h2 m h hlen
    induction tiles with
    | nil => rfl
    | cons t ts ih =>
      rw [List.map_cons, List.flatten_cons, List.flatten_cons, List.countP_append, List.countP_append, ih]
      congr 1
      conv_rhs => rw [← List.zipIdx_map_fst 0 t, List.countP_map]
      rfl
  rw [Nat.zero_add, hl] at e h2
  refine ⟨m, ?_, fun i => ?_, h2⟩
  · rw [← e, ← foldlM_tiles, List.foldlM_map]
    rfl
  · rw [h1 i]
    simp only [Bool.false_eq_true, false_or]
    constructor
    · rintro ⟨q, hq, rfl, hs⟩
      rw [List.mem_flatten] at hq
      obtain ⟨l, hl, hq⟩ := hq
      rw [List.mem_map] at hl
      obtain ⟨t, ht, rfl⟩ := hl
      have := List.mem_zipIdx' (x := q.1) (i := q.2) hq
      exact ⟨t, ht, this.1, by rw [← this.2]; exact hs⟩
    · rintro ⟨t, ht, hi, hs⟩
      refine ⟨(t[i], i), List.mem_flatten.mpr ⟨t.zipIdx, List.mem_map.mpr ⟨t, ht, rfl⟩, ?_⟩, rfl, hs⟩
      rw [List.mem_zipIdx_iff_getElem?, List.getElem?_eq_getElem hi]

/-- The writes of one process. -/
theorem writesOf_ok (W : Window) (narr : ℕ) (tiles : List (List Part)) (h : tiles.flatten.length ≤ narr) :
    ∃ mask : ℕ → Bool, (∀ i, mask i = true ↔ ∃ t ∈ tiles, ∃ h : i < t.length, W.sel t[i] = true) ∧
      (chosen mask 0 tiles.flatten).length ≤ (tiles.flatten.filter W.sel).length ∧
      writesOf W narr tiles = .ok (([0, 1, 2, 3, 4, 5, 6] : List (Fin 7)).flatMap fun v : Fin 7 =>
        blockWrites (v.val * (tiles.flatten.filter W.sel).length) (tiles.flatten.filter W.sel).length (column (chosen mask 0 tiles.flatten) v)) := by
  obtain ⟨mask, e, h1, h2⟩ := getParticles_ok W narr tiles h
  have hl : (chosen mask 0 tiles.flatten).length ≤ (tiles.flatten.filter W.sel).length := by
    have := chosen_length mask 0 tiles.flatten
    have := h2 (0 + tiles.flatten.length)
    omega
  refine ⟨mask, h1, hl, ?_⟩
  unfold writesOf
  rw [e, except_bind_ok, blocks_ok h hl _ _ fun _ _ => rfl]
  congr 1
  simp only [Nat.zero_add]
  rfl

theorem keys (n : ℕ) (c : Fin 7 → ℕ → Option ℝ) :
    ((([0, 1, 2, 3, 4, 5, 6] : List (Fin 7)).flatMap fun v : Fin 7 => blockWrites (v.val * n) n (c v))).map Prod.fst = List.range (7 * n) := by
  have hb : ∀ o d, (blockWrites o n d).map Prod.fst = (List.range n).map (o + ·) := by
    intro o d
    unfold blockWrites
    rw [List.map_map]
    rfl
  rw [show 7 * n = 0 + n + n + n + n + n + n + n by ring]
  simp only [List.range_add, List.flatMap_cons, List.flatMap_nil, List.map_append, hb, List.append_assoc, List.range_zero, List.nil_append,
    List.append_nil]
  have e : ∀ (v : Fin 7) (m : ℕ), (v : ℕ) * n = m → (List.range n).map ((v : ℕ) * n + ·) = (List.range n).map (m + ·) := by
    rintro v m rfl
    rfl
  rw [e 0 0 (by simp), e 1 (0 + n) (by simp), e 2 (0 + n + n) (by show 2 * n = _; ring), e 3 (0 + n + n + n) (by show 3 * n = _; ring),
    e 4 (0 + n + n + n + n) (by show 4 * n = _; ring), e 5 (0 + n + n + n + n + n) (by show 5 * n = _; ring),
    e 6 (0 + n + n + n + n + n + n) (by show 6 * n = _; ring)]

theorem written_append (f : File) (a b : List Write) : written f (a ++ b) = written (written f a) b := by
  unfold written
  rw [List.foldl_append]

theorem written_out {f : File} {ws : List Write} {k : ℕ} (h : k ∉ ws.map Prod.fst) : written f ws k = f k := by
  induction ws generalizing f with
  | nil => rfl
  | cons w ws ih =>
    rw [List.map_cons, List.mem_cons, not_or] at h
    show written _ ws k = _
    rw [ih h.2]
    exact Function.update_of_ne h.1 _ _

theorem written_in {f : File} {ws : List Write} {k : ℕ} {v : Option ℝ} (hm : (k, v) ∈ ws) (hn : (ws.map Prod.fst).Nodup) :
    written f ws k = some v := by
  induction ws generalizing f with
  | nil => exact absurd hm List.not_mem_nil
  | cons w ws ih =>
    rw [List.map_cons, List.nodup_cons] at hn
    show written _ ws k = _
    rcases List.mem_cons.mp hm with rfl | hm
    · rw [written_out hn.1]
      exact Function.update_self _ _ _
    · exact ih hm hn.2

/-- The file of one process, in any order of its writes. -/
theorem file_ok (W : Window) (narr : ℕ) (tiles : List (List Part)) (h : tiles.flatten.length ≤ narr) :
    ∃ (mask : ℕ → Bool) (ws : List Write), (∀ i, mask i = true ↔ ∃ t ∈ tiles, ∃ h : i < t.length, W.sel t[i] = true) ∧
      (chosen mask 0 tiles.flatten).length ≤ (tiles.flatten.filter W.sel).length ∧ writesOf W narr tiles = .ok ws ∧
      ws.map Prod.fst = List.range (7 * (tiles.flatten.filter W.sel).length) ∧
      ∀ order, order.Perm ws → ∀ f, (∀ (v : Fin 7) i, i < (tiles.flatten.filter W.sel).length →
          written f order (v * (tiles.flatten.filter W.sel).length + i) = some (column (chosen mask 0 tiles.flatten) v i)) ∧
        ∀ k, 7 * (tiles.flatten.filter W.sel).length ≤ k → written f order k = f k := by
  obtain ⟨mask, h1, h2, e⟩ := writesOf_ok W narr tiles h
  set n := (tiles.flatten.filter W.sel).length with hn
  refine ⟨mask, _, h1, h2, e, keys n _, fun order ho f => ⟨fun v i hi => ?_, fun k hk => ?_⟩⟩
  · apply written_in
    · rw [ho.mem_iff, List.mem_flatMap]
      refine ⟨v, by fin_cases v <;> decide, ?_⟩
      unfold blockWrites
      exact List.mem_map.mpr ⟨i, List.mem_range.mpr hi, rfl⟩
    · rw [(ho.map Prod.fst).nodup_iff, keys n]
      exact List.nodup_range
  · apply written_out
    rw [(ho.map Prod.fst).mem_iff, keys n, List.mem_range]
    omega

theorem decimal_no_underscore (n : ℕ) (c : Char) (h : c ∈ FieldFile.decimal n) : (c != '_') = true := by
  unfold FieldFile.decimal at h
  split_ifs at h with h0
  · rw [List.mem_singleton] at h
    subst h
    decide
  · rw [List.mem_map] at h
    obtain ⟨d, hd, rfl⟩ := h
    have := Nat.digits_lt_base (by norm_num) (List.mem_reverse.mp hd)
    interval_cases d <;> decide

end Picsar.PartDump
