import Verif.Spec.Tiling
import Verif.Lemmas.FArr
import Verif.Lemmas.Grid
import Mathlib.Data.List.Basic
import Mathlib.Algebra.Order.Field.Basic
import Mathlib.Tactic.Linarith
import Mathlib.Tactic.FieldSimp
import Mathlib.Tactic.Ring
import Mathlib.Tactic.Push
import Mathlib.Tactic.Abel
import Mathlib.Tactic.Tauto
import Mathlib.Algebra.Order.BigOperators.Group.Multiset
namespace Picsar.Tiling
open Picsar Picsar.Grid

variable {n : ℕ}

theorem kept_nodup : (kept n).Nodup := by
  unfold kept
  rw [List.nodup_append]
  refine ⟨by simp, (List.nodup_finRange n).map (fun a b h => by injection h), ?_⟩
  intro a ha b hb
  simp at ha hb
  obtain ⟨k, rfl⟩ := hb
  rcases ha with rfl | rfl | rfl | rfl | rfl | rfl | rfl <;> simp

theorem all_nodup : (kept n ++ fieldAttrs n).Nodup := by
  rw [List.nodup_append]
  refine ⟨kept_nodup, by simp [fieldAttrs], ?_⟩
  intro a ha b hb
  simp [kept, fieldAttrs] at ha hb
  rcases hb with rfl | rfl | rfl | rfl | rfl | rfl <;> rcases ha with rfl | rfl | rfl | rfl | rfl | rfl | rfl | ⟨k, rfl⟩ <;> simp

theorem mem_all (a : Attr n) : a ∈ kept n ++ fieldAttrs n := by
  cases a <;> simp [kept, fieldAttrs]

theorem onArrays_ok {f : Attr n → FArr ℝ → Res (FArr ℝ)} {g : Attr n → FArr ℝ} : ∀ {l : List (Attr n)} {t : Tile n}, l.Nodup →
    (∀ a ∈ l, f a (t.arr a) = .ok (g a)) →
    onArrays l f t = .ok ⟨t.np, t.npmax, t.alloc, fun a => if a ∈ l then g a else t.arr a⟩ := by
  intro l
  induction l with
  | nil => intro t _ _; unfold onArrays; simp
  | cons b l ih =>
    intro t hn hf
    have hb := hf b List.mem_cons_self
    have hn' := List.nodup_cons.mp hn
    have := ih (t := ⟨t.np, t.npmax, t.alloc, Function.update t.arr b (g b)⟩) hn'.2 (fun a ha => by
      have : a ≠ b := fun e => hn'.1 (e ▸ ha)
      show f a (Function.update t.arr b (g b) a) = _
      rw [Function.update_of_ne this]
      exact hf a (List.mem_cons_of_mem _ ha))
    unfold onArrays at this ⊢
    rw [List.foldlM_cons, hb]
    simp only [except_bind_ok]
    rw [this]
    congr 2
    funext a
    by_cases hab : a = b
    · subst hab
      simp [hn'.1]
    · simp [hab]

theorem onArrays_all {f : Attr n → FArr ℝ → Res (FArr ℝ)} {g : Attr n → FArr ℝ} {t : Tile n} (h : ∀ a, f a (t.arr a) = .ok (g a)) :
    onArrays (kept n ++ fieldAttrs n) f t = .ok ⟨t.np, t.npmax, t.alloc, g⟩ := by
  rw [onArrays_ok all_nodup (fun a _ => h a)]
  congr 2
  funext a
  rw [if_pos (mem_all a)]

theorem resize_ok {t : Tile n} {l : List (Part n)} (h : Holds t l) (ha : t.alloc = true) {new : ℤ} (hn : (l.length : ℤ) ≤ new)
     : ∃ t', resize t.npmax new t = .ok t' ∧ Holds t' l ∧ t'.npmax = new ∧ t'.alloc = true := by
  have hs := h.size ha
  have hb : ∀ a, resize1 t.npmax new (t.arr a) =
      .ok ⟨new, fun i => if i ≤ (if new > t.npmax then t.npmax else new) then (t.arr a).val i else none⟩ := by
    intro a
    unfold resize1
    rw [if_pos]
    rw [hs a]
    split_ifs <;> omega
  refine ⟨_, onArrays_all (t := ⟨t.np, new, t.alloc, t.arr⟩) (fun a => hb a), ⟨h.count, hn, fun _ a => rfl, h.empty, ?_⟩, rfl, ha⟩
  intro a hak i hi
  have hf := h.fits
  dsimp only
  rw [if_pos (by split_ifs <;> omega)]
  exact h.vals a hak i hi

theorem ensure_ok {t : Tile n} {l : List (Part n)} (h : Holds t l) : Holds (ensure t) l ∧ (ensure t).alloc = true := by
  unfold ensure
  cases ha : t.alloc with
  | true => exact ⟨h, ha⟩
  | false =>
    have he := h.empty ha
    subst he
    exact ⟨⟨h.count, h.fits, fun _ a => rfl, fun e => (by cases e), fun a _ i hi => absurd hi (Nat.not_lt_zero i)⟩, rfl⟩

theorem grow_ok {t : Tile n} {l : List (Part n)} (h : Holds t l) (ha : t.alloc = true) {need : ℤ} (hn : need ≤ 2 * t.npmax + 1) :
    ∃ t', grow need t = .ok t' ∧ Holds t' l ∧ t'.alloc = true ∧ need ≤ t'.npmax := by
  have hf := h.fits
  unfold grow
  by_cases hg : need > t.npmax
  · obtain ⟨t', r1, r2, r3, r4⟩ := resize_ok h ha (new := 2 * t.npmax + 1) (by omega)
    exact ⟨t', by rw [if_pos hg, r1], r2, r4, by omega⟩
  · exact ⟨t, by rw [if_neg hg], h, ha, by omega⟩

theorem addTile_ok {t : Tile n} {l : List (Part n)} (h : Holds t l) (p : Part n) :
    ∃ t', addTile p t = .ok t' ∧ Holds t' (l ++ [p]) ∧ t'.alloc = true := by
  unfold addTile
  obtain ⟨h1, a1⟩ := ensure_ok h
  have hc := h1.count
  have hf := h1.fits
  obtain ⟨t2, e2, h2, a2, f2⟩ := grow_ok h1 a1 (need := (ensure t).np + 1) (by omega)
  dsimp only
  rw [e2]
  simp only [except_bind_ok]
  have hs := h2.size a2
  refine ⟨_, onArrays_all (t := ⟨(ensure t).np + 1, t2.npmax, t2.alloc, t2.arr⟩) (fun a => FArr.set_ok _ ⟨by omega, by dsimp only; rw [hs a]; omega⟩),
    ⟨by simp [hc], by simp; omega, fun _ a => hs a, fun e => absurd (show t2.alloc = false from e) (by simp [a2]), ?_⟩, a2⟩
  intro a hak i hi
  simp only [List.length_append, List.length_cons, List.length_nil] at hi
  dsimp only
  by_cases hil : i < l.length
  · rw [Function.update_of_ne (by omega), List.getElem_append_left hil]
    exact h2.vals a hak i hil
  · have : i = l.length := by omega
    subst this
    rw [hc, Function.update_self]
    simp

/-- Removal of position `i` (from zero) by moving the last element there. -/
def swapRm {α : Type} (l : List α) (i : ℕ) : List α :=
  match l.getLast? with
  | none => l
  | some x => (l.set i x).dropLast

theorem swapRm_split {α : Type} (a b : List α) (x : α) : ∃ b', b'.Perm b ∧ swapRm (a ++ x :: b) a.length = a ++ b' := by
  rcases List.eq_nil_or_concat b with rfl | ⟨c, y, rfl⟩
  · refine ⟨[], List.Perm.refl _, ?_⟩
    unfold swapRm
    simp
  · refine ⟨y :: c, ?_, ?_⟩
    · rw [List.concat_eq_append]; exact (List.perm_append_singleton y c).symm
    · unfold swapRm
      have : (a ++ x :: (c.concat y)).getLast? = some y := by
        rw [List.concat_eq_append, show a ++ x :: (c ++ [y]) = (a ++ x :: c) ++ [y] by simp, List.getLast?_concat]
      rw [this]
      simp only
      rw [List.concat_eq_append, List.set_append_right _ _ (le_refl _), Nat.sub_self, List.set_cons_zero]
      rw [show a ++ y :: (c ++ [y]) = (a ++ y :: c) ++ [y] by simp, List.dropLast_concat]

theorem swapRm_length {α : Type} (l : List α) (i : ℕ) (h : i < l.length) : (swapRm l i).length + 1 = l.length := by
  unfold swapRm
  rw [List.getLast?_eq_getElem?, List.getElem?_eq_getElem (by omega)]
  simp
  omega

theorem swapRm_get {α : Type} (l : List α) (i : ℕ) (h : i < l.length) (j : ℕ) (hj : j < (swapRm l i).length) :
    (swapRm l i)[j] = if j = i then l[l.length - 1]'(by omega) else l[j]'(by have := swapRm_length l i h; omega) := by
  have hl := swapRm_length l i h
  have : swapRm l i = (l.set i (l[l.length - 1]'(by omega))).dropLast := by
    unfold swapRm
    rw [List.getLast?_eq_getElem?, List.getElem?_eq_getElem (by omega)]
  simp only [this, List.getElem_dropLast, List.getElem_set, eq_comm (a := j)]

theorem rmMove_ok {t : Tile n} {l : List (Part n)} (h : Holds t l) {i : ℕ} (hi : i < l.length) :
    ∃ t', rmMove (i + 1) t = .ok t' ∧ Holds t' (swapRm l i) ∧ t'.alloc = true := by
  have ha : t.alloc = true := by
    by_contra hn
    have := h.empty (by simpa using hn)
    rw [this] at hi
    simp at hi
  have hs := h.size ha
  have hc := h.count
  have hf := h.fits
  have hl := swapRm_length l i hi
  unfold rmMove
  by_cases hg : (i : ℤ) + 1 = t.np
  · refine ⟨⟨t.np - 1, t.npmax, t.alloc, t.arr⟩, by rw [if_pos hg], ⟨by show t.np - 1 = _; omega, by show _ ≤ t.npmax; omega, h.size, fun e => ?_, ?_⟩, ha⟩
    · rw [show t.alloc = false from e] at ha; cases ha
    · intro a hak j hj
      rw [swapRm_get l i hi j hj, if_neg (by omega)]
      exact h.vals a hak j (by omega)
  · have hk : ∀ a ∈ kept n, (do
        let v ← (t.arr a).get t.np
        (t.arr a).set (i + 1) v) = .ok ⟨t.npmax, Function.update (t.arr a).val (i + 1) (some (l[l.length - 1].val a))⟩ := by
      intro a hak
      have hv := h.vals a hak (l.length - 1) (by omega)
      rw [show ((l.length - 1 : ℕ) : ℤ) + 1 = t.np by omega] at hv
      rw [FArr.get_ok ⟨by omega, by rw [hs a]; omega⟩ hv]
      simp only [except_bind_ok]
      rw [FArr.set_ok _ ⟨by omega, by rw [hs a]; omega⟩, hs a]
    rw [if_neg hg, onArrays_ok kept_nodup hk]
    simp only [except_bind_ok]
    refine ⟨_, rfl, ⟨by show t.np - 1 = _; omega, by show _ ≤ t.npmax; omega, fun _ a => ?_, fun e => ?_, ?_⟩, ha⟩
    · dsimp only
      split_ifs
      · rfl
      · exact hs a
    · rw [show t.alloc = false from e] at ha; cases ha
    · intro a hak j hj
      rw [swapRm_get l i hi j hj]
      dsimp only
      rw [if_pos hak]
      dsimp only
      by_cases hji : j = i
      · subst hji
        rw [Function.update_self, if_pos rfl]
      · rw [Function.update_of_ne (by omega), if_neg hji]
        exact h.vals a hak j (by omega)

theorem rmTile_ok {t : Tile n} {l : List (Part n)} (h : Holds t l) {i : ℕ} (hi : i < l.length) :
    ∃ t', rmTile (i + 1) t = .ok t' ∧ Holds t' (swapRm l i) ∧ t'.alloc = true := by
  obtain ⟨t1, e1, h1, a1⟩ := rmMove_ok h hi
  unfold rmTile
  rw [e1]
  simp only [except_bind_ok]
  have hc1 := h1.count
  unfold shrink
  by_cases hd : t1.np < 2 * t1.npmax / 5
  · rw [if_pos hd]
    by_cases hz : t1.npmax / 2 > 0
    · rw [if_pos hz]
      obtain ⟨t', r1, r2, r3, r4⟩ := resize_ok h1 a1 (new := t1.npmax / 2) (by omega)
      exact ⟨t', r1, r2, r4⟩
    · rw [if_neg hz]; exact ⟨t1, rfl, h1, a1⟩
  · rw [if_neg hd]; exact ⟨t1, rfl, h1, a1⟩

theorem readPart_ok {t : Tile n} {l : List (Part n)} (h : Holds t l) {i : ℕ} (hi : i < l.length) :
    readPart t (i + 1) = .ok l[i] := by
  have ha : t.alloc = true := by
    by_contra hn
    have := h.empty (by simpa using hn)
    rw [this] at hi
    simp at hi
  have hs := h.size ha
  have hf := h.fits
  have hk : ∀ a ∈ kept n, (t.arr a).get (i + 1) = .ok (l[i].val a) := fun a hak =>
    FArr.get_ok ⟨by omega, by rw [hs a]; omega⟩ (h.vals a hak i hi)
  have hp : ∀ (ks : List (Fin n)) (f : Fin n → ℝ), ks.foldlM (fun (f : Fin n → ℝ) k => (do
      let v ← (t.arr (.pid k)).get (i + 1)
      .ok (Function.update f k v) : Res (Fin n → ℝ))) f = .ok fun k => if k ∈ ks then l[i].pid k else f k := by
    intro ks
    induction ks with
    | nil => intro f; simp
    | cons k ks ih =>
      intro f
      rw [List.foldlM_cons, hk (.pid k) (by simp [kept])]
      simp only [except_bind_ok]
      rw [ih]
      congr 1
      funext q
      by_cases h1 : q ∈ ks
      · simp [h1]
      · by_cases h2 : q = k
        · subst h2; simp [h1, Part.val]
        · simp [h1, h2]
  unfold readPart
  rw [hk .x (by simp [kept]), hk .y (by simp [kept]), hk .z (by simp [kept]), hk .ux (by simp [kept]), hk .uy (by simp [kept]),
    hk .uz (by simp [kept]), hk .gam (by simp [kept])]
  simp only [except_bind_ok]
  rw [hp]
  simp [Part.val]

/-! ### Histories, masks, groups -/

theorem run_ok : ∀ (ops : List (Op n)) {t : Tile n} {l : List (Part n)} (log : List (Part n)), Holds t l → Valid l.length ops →
    ∃ t' l' log', run ops t log = .ok (t', log') ∧ Holds t' l' ∧ (l' ++ log').Perm (l ++ added ops ++ log) := by
  intro ops
  induction ops with
  | nil => exact fun log h _ => ⟨_, _, _, rfl, h, by simp [added]⟩
  | cons o ops ih =>
    intro t l log h hv
    cases o with
    | add p =>
      obtain ⟨t1, e1, h1, -⟩ := addTile_ok h p
      have hv' : Valid ((l ++ [p]).length : ℤ) ops := by
        rw [show (((l ++ [p]).length : ℕ) : ℤ) = (l.length : ℤ) + 1 by simp]
        exact hv
      obtain ⟨t2, l2, log2, e2, h2, p2⟩ := ih log h1 hv'
      refine ⟨t2, l2, log2, ?_, h2, p2.trans ?_⟩
      · show (addTile p t >>= fun t => run ops t log) = _
        rw [e1]
        exact e2
      · simp [added]
    | rm i =>
      obtain ⟨⟨i1, i2⟩, hv'⟩ := hv
      obtain ⟨k, rfl⟩ : ∃ k : ℕ, i = k + 1 := ⟨(i - 1).toNat, by omega⟩
      have hk : k < l.length := by omega
      obtain ⟨t1, e1, h1, -⟩ := rmTile_ok h hk
      have hl := swapRm_length l k hk
      have hv'' : Valid ((swapRm l k).length : ℤ) ops := by
        rw [show ((swapRm l k).length : ℤ) = (l.length : ℤ) - 1 by omega]
        exact hv'
      obtain ⟨t2, l2, log2, e2, h2, p2⟩ := ih (l[k] :: log) h1 hv''
      refine ⟨t2, l2, log2, ?_, h2, p2.trans ?_⟩
      · show (readPart t (k + 1) >>= fun p => rmTile (k + 1) t >>= fun t => run ops t (p :: log)) = _
        rw [readPart_ok h hk, except_bind_ok, e1]
        exact e2
      · obtain ⟨b', hb, e⟩ := swapRm_split (l.take k) (l.drop (k + 1)) l[k]
        have hsplit : l.take k ++ l[k] :: l.drop (k + 1) = l := by
          rw [← List.drop_eq_getElem_cons hk, List.take_append_drop]
        rw [List.length_take_of_le hk.le, hsplit] at e
        rw [e]
        have : (l ++ added (.rm (k + 1) :: ops) ++ log) = (l.take k ++ l[k] :: l.drop (k + 1)) ++ (added ops ++ log) := by
          rw [hsplit]; simp [added]
        rw [this]
        have h3 : (l.take k ++ b' ++ added ops ++ l[k] :: log).Perm (l[k] :: (l.take k ++ b' ++ added ops ++ log)) := List.perm_middle
        refine h3.trans ?_
        have h4 : (l.take k ++ l[k] :: l.drop (k + 1) ++ (added ops ++ log)).Perm
            (l[k] :: (l.take k ++ l.drop (k + 1)) ++ (added ops ++ log)) := List.Perm.append_right _ List.perm_middle
        refine List.Perm.trans ?_ h4.symm
        simp only [List.cons_append, List.append_assoc]
        exact List.Perm.cons _ (List.Perm.append_left _ (List.Perm.append_right _ hb))

theorem irange_succ (k : ℕ) : irange 1 ((k + 1 : ℕ) : ℤ) = irange 1 (k : ℤ) ++ [(k : ℤ) + 1] := by
  unfold irange
  rw [show (((k + 1 : ℕ) : ℤ) - 1 + 1).toNat = k + 1 by omega, show ((k : ℤ) - 1 + 1).toNat = k by omega, List.range_succ, List.map_append]
  simp
  omega

theorem irange_zero : irange 1 (0 : ℤ) = [] := by
  unfold irange; simp

theorem irange_rev_succ (k : ℕ) : (irange 1 ((k + 1 : ℕ) : ℤ)).reverse = ((k : ℤ) + 1) :: (irange 1 (k : ℤ)).reverse := by
  rw [irange_succ, List.reverse_append]; rfl

theorem masked_succ (l : List (Part n)) (m : List Bool) {k : ℕ} (h1 : k < l.length) (h2 : k < m.length) :
    masked (l.take (k + 1)) (m.take (k + 1)) = masked (l.take k) (m.take k) ++ if m[k] = true then [l[k]] else [] := by
  unfold masked
  rw [← List.take_append_getElem h1, ← List.take_append_getElem h2, List.zip_append (by simp; omega)]
  simp only [List.zip_cons_cons, List.zip_nil_right, List.filter_append, List.map_append]
  congr 1
  split_ifs with h <;> simp [h]

theorem mask_loop {mask : FArr Bool} {m : List Bool} (hm : mask.Holds m) {l : List (Part n)} (hl : l.length ≤ m.length) :
    ∀ (k : ℕ), k ≤ l.length → ∀ (t : Tile n) (r : List (Part n)), Holds t (l.take k ++ r) →
    ∃ t' l', (irange 1 (k : ℤ)).reverse.foldlM (fun t i => (do
      let m ← mask.get i
      if m = false then rmTile i t else .ok t : Res (Tile n))) t = .ok t' ∧ Holds t' l' ∧
      l'.Perm (masked (l.take k) (m.take k) ++ r) := by
  intro k
  induction k with
  | zero => intro _ t r h; exact ⟨t, r, by rw [show ((0 : ℕ) : ℤ) = 0 from rfl, irange_zero]; rfl, by simpa using h, by simp [masked]⟩
  | succ k ih =>
    intro hk t r h
    have hkl : k < l.length := by omega
    have hkm : k < m.length := by omega
    rw [irange_rev_succ, List.foldlM_cons, hm.get hkm]
    simp only [except_bind_ok]
    rw [masked_succ l m hkl hkm]
    rw [← List.take_append_getElem hkl, List.append_assoc, List.singleton_append] at h
    by_cases hmk : m[k] = true
    · rw [if_neg (by simp [hmk]), if_pos hmk]
      simp only [except_bind_ok]
      obtain ⟨t', l', e', h', p'⟩ := ih (by omega) t _ h
      exact ⟨t', l', e', h', by simpa using p'⟩
    · rw [if_pos (by simpa using hmk), if_neg hmk]
      have hlen : (l.take k).length = k := List.length_take_of_le hkl.le
      obtain ⟨t1, e1, h1, -⟩ := rmTile_ok h (i := k) (by simp; omega)
      obtain ⟨b', hb, e⟩ := swapRm_split (l.take k) r l[k]
      rw [hlen] at e
      rw [e] at h1
      rw [e1]
      simp only [except_bind_ok]
      obtain ⟨t', l', e', h', p'⟩ := ih (by omega) t1 _ h1
      exact ⟨t', l', e', h', p'.trans (by simpa using List.Perm.append_left _ hb)⟩

theorem rmMask_ok {mask : FArr Bool} {m : List Bool} (hm : mask.Holds m) {t : Tile n} {l : List (Part n)} (h : Holds t l)
    (hl : l.length ≤ m.length) : ∃ t' l', rmMask mask t = .ok t' ∧ Holds t' l' ∧ l'.Perm (masked l m) := by
  obtain ⟨t', l', e, h', p⟩ := mask_loop hm hl l.length le_rfl t [] (by simpa using h)
  refine ⟨t', l', ?_, h', ?_⟩
  · unfold rmMask
    rw [h.count]
    exact e
  · have : masked l (m.take l.length) = masked l m := by
      unfold masked
      congr 2
      have hz : l.zip m = _ := List.zip_eq_zip_take_min
      rw [Nat.min_eq_left hl, List.take_length] at hz
      exact hz.symm
    simpa [this] using p

theorem setFrom_ok : ∀ (vs : List ℝ) (k : ℤ) (b : FArr ℝ), 1 ≤ k → k + vs.length - 1 ≤ b.n →
    ∃ b', setFrom k vs b = .ok b' ∧ b'.n = b.n ∧ (∀ i, i < k → b'.val i = b.val i) ∧
      ∀ (i : ℕ) (h : i < vs.length), b'.val (k + i) = some vs[i] := by
  intro vs
  induction vs with
  | nil => exact fun k b _ _ => ⟨b, rfl, rfl, fun _ _ => rfl, fun i h => absurd h (Nat.not_lt_zero i)⟩
  | cons v vs ih =>
    intro k b hk hn
    simp only [List.length_cons] at hn
    push_cast at hn
    have e1 := FArr.set_ok (a := b) (i := k) v ⟨hk, by omega⟩
    obtain ⟨b', e2, n2, l2, v2⟩ := ih (k + 1) ⟨b.n, Function.update b.val k (some v)⟩ (by omega) (by show _ ≤ b.n; omega)
    refine ⟨b', ?_, n2, fun i hi => ?_, fun i hi => ?_⟩
    · show (b.set k v >>= fun b => setFrom (k + 1) vs b) = _
      rw [e1]
      exact e2
    · rw [l2 i (by omega)]
      exact Function.update_of_ne (by omega) _ _
    · cases i with
      | zero =>
        rw [show k + ((0 : ℕ) : ℤ) = k by simp, l2 k (by omega)]
        simp
      | succ i =>
        have := v2 i (by simpa using hi)
        rw [show k + ((i + 1 : ℕ) : ℤ) = k + 1 + i by push_cast; ring, this]
        simp

theorem addGroup_ok {t : Tile n} {l : List (Part n)} (h : Holds t l) (ps : List (Part n))
    (hn : (l.length : ℤ) + ps.length ≤ 2 * t.npmax + 1) :
    ∃ t', addGroup ps t = .ok t' ∧ Holds t' (l ++ ps) := by
  unfold addGroup
  obtain ⟨h1, a1⟩ := ensure_ok h
  have hmax : (ensure t).npmax = t.npmax := by unfold ensure; split_ifs <;> rfl
  have hc := h1.count
  have hf := h1.fits
  obtain ⟨t2, e2, h2, a2, f2⟩ := grow_ok h1 a1 (need := (ensure t).np + ps.length) (by omega)
  dsimp only
  rw [e2]
  simp only [except_bind_ok]
  have hs := h2.size a2
  have hset := fun a => setFrom_ok (ps.map (·.val a)) ((ensure t).np + 1) (t2.arr a) (by omega) (by
    rw [hs a, List.length_map]; omega)
  choose g g1 g2 g3 g4 using hset
  refine ⟨_, onArrays_all (t := ⟨(ensure t).np + ps.length, t2.npmax, t2.alloc, t2.arr⟩) (fun a => g1 a),
    ⟨by simp [hc], by simp; omega, fun _ a => by dsimp only; rw [g2 a, hs a], fun e => absurd (show t2.alloc = false from e) (by simp [a2]), ?_⟩⟩
  intro a hak i hi
  simp only [List.length_append] at hi
  dsimp only
  by_cases hil : i < l.length
  · rw [g3 a _ (by omega), List.getElem_append_left hil]
    exact h2.vals a hak i hil
  · have := g4 a (i - l.length) (by rw [List.length_map]; omega)
    rw [show (ensure t).np + 1 + ((i - l.length : ℕ) : ℤ) = (i : ℤ) + 1 by omega] at this
    rw [this, List.getElem_append_right (by omega), List.getElem_map]

/-! ### Exchange between tiles -/

/-- What the generic exchange needs: a particle that does not stay is sent to an existing tile, where it stays. -/
structure Sorts (nt : I3) (inTile : I3 → Part n → Prop) (inDom : Part n → Prop) (idx : Part n → I3) : Prop where
  box : ∀ p, inDom p → InBox ⟨1, 1, 1⟩ nt (idx p)
  home : ∀ p, inDom p → inTile (idx p) p

theorem atTile_ok {S : Species n} {L : I3 → List (Part n)} (h : HoldsAll S L) {u : I3} (hu : InBox ⟨1, 1, 1⟩ S.nt u)
    {f : Tile n → Res (Tile n)} {l' : List (Part n)} (hf : ∃ t', f (S.tiles u) = .ok t' ∧ Holds t' l' ∧ t'.alloc = true) :
    ∃ S', atTile u f S = .ok S' ∧ HoldsAll S' (Function.update L u l') ∧ S'.nt = S.nt ∧ S'.npart = S.npart := by
  obtain ⟨t', e, ht, -⟩ := hf
  refine ⟨⟨S.nt, Function.update S.tiles u t', S.npart⟩, ?_, fun v hv => ?_, rfl, rfl⟩
  · unfold atTile
    rw [if_pos hu, e]
    rfl
  · dsimp only
    by_cases hvu : v = u
    · subst hvu
      rw [Function.update_self, Function.update_self]
      exact ht
    · rw [Function.update_of_ne hvu, Function.update_of_ne hvu]
      exact h v hv

section exchange
open Classical

variable {nt : I3} {inTile : I3 → Part n → Prop} {inDom : Part n → Prop} {idx : Part n → I3}

/-- Where the exchange puts a particle found in tile `u`. -/
noncomputable def dest (inTile : I3 → Part n → Prop) (inDom : Part n → Prop) (idx : Part n → I3) (u : I3) (p : Part n) : I3 :=
  if inTile u p then u else if ¬ inDom p then u else idx p

theorem dest_dest (h : Sorts nt inTile inDom idx) {u v : I3} {p : Part n} (e : dest inTile inDom idx u p = v) :
    dest inTile inDom idx v p = v := by
  unfold dest at e ⊢
  by_cases h1 : inTile u p
  · rw [if_pos h1] at e
    subst e
    rw [if_pos h1]
  · rw [if_neg h1] at e
    by_cases h2 : inDom p
    · rw [if_neg (not_not.mpr h2)] at e
      rw [if_pos (e ▸ h.home p h2)]
    · rw [if_pos h2] at e
      split_ifs <;> simp_all

theorem moveOne_stay {S : Species n} {u : I3} {l : List (Part n)} (ht : Holds (S.tiles u) l) {k : ℕ} (hk : k < l.length)
    (hd : inTile u l[k] ∨ ¬ inDom l[k]) : moveOne inTile inDom idx u (k + 1) S = .ok S := by
  unfold moveOne
  rw [readPart_ok ht hk]
  simp only [except_bind_ok]
  by_cases h1 : inTile u l[k]
  · rw [if_pos h1]
  · rw [if_neg h1, if_pos (by tauto)]

theorem moveOne_go {S : Species n} {u : I3} {l : List (Part n)} (ht : Holds (S.tiles u) l) {k : ℕ} (hk : k < l.length)
    (h1 : ¬ inTile u l[k]) (h2 : inDom l[k]) : moveOne inTile inDom idx u (k + 1) S = rmAt u (k + 1) S >>= addAt (idx l[k]) l[k] := by
  unfold moveOne
  rw [readPart_ok ht hk]
  simp only [except_bind_ok]
  rw [if_neg h1, if_neg (not_not.mpr h2)]

theorem move_loop (hs : Sorts nt inTile inDom idx) {u : I3} (hu : InBox ⟨1, 1, 1⟩ nt u) {l : List (Part n)} :
    ∀ (k : ℕ), k ≤ l.length → ∀ (S : Species n) (L : I3 → List (Part n)) (r : List (Part n)), S.nt = nt → HoldsAll S L →
      L u = l.take k ++ r →
    ∃ S' L', (irange 1 (k : ℤ)).reverse.foldlM (fun S i => moveOne inTile inDom idx u i S) S = .ok S' ∧ S'.nt = nt ∧
      S'.npart = S.npart ∧ HoldsAll S' L' ∧ ∀ T, (L' T : Multiset (Part n)) =
        (if T = u then (r : Multiset (Part n)) else (L T : Multiset (Part n))) +
          ((l.take k : List (Part n)) : Multiset (Part n)).filter (fun p => dest inTile inDom idx u p = T) := by
  intro k
  induction k with
  | zero =>
    intro _ S L r hnt h hL
    refine ⟨S, L, by rw [show ((0 : ℕ) : ℤ) = 0 from rfl, irange_zero]; rfl, hnt, rfl, h, fun T => ?_⟩
    by_cases hT : T = u
    · subst hT; simp [hL]
    · simp [hT]
  | succ k ih =>
    intro hk S L r hnt h hL
    have hkl : k < l.length := by omega
    have hlen : (l.take k).length = k := List.length_take_of_le hkl.le
    rw [← List.take_append_getElem hkl, List.append_assoc, List.singleton_append] at hL
    have hku : k < (L u).length := by rw [hL]; simp; omega
    have hget : (L u)[k] = l[k] := by
      simp only [hL]
      rw [List.getElem_append_right (by omega)]
      simp [hlen]
    have htu := h u (hnt ▸ hu)
    rw [irange_rev_succ, List.foldlM_cons]
    have htake : ((l.take (k + 1) : List (Part n)) : Multiset (Part n)) = {l[k]} + ((l.take k : List (Part n)) : Multiset (Part n)) := by
      rw [← List.take_append_getElem hkl, ← Multiset.coe_add, add_comm, Multiset.coe_singleton]
    by_cases hd : inTile u l[k] ∨ ¬ inDom l[k]
    · rw [moveOne_stay htu hku (by rw [hget]; exact hd)]
      simp only [except_bind_ok]
      obtain ⟨S', L', e', n', np', h', m'⟩ := ih (by omega) S L _ hnt h hL
      refine ⟨S', L', e', n', np', h', fun T => ?_⟩
      have hdest : dest inTile inDom idx u l[k] = u := by
        unfold dest
        by_cases a : inTile u l[k]
        · rw [if_pos a]
        · rw [if_neg a, if_pos (by tauto)]
      rw [m' T, htake, Multiset.filter_add, Multiset.filter_singleton, hdest]
      by_cases hT : T = u
      · subst hT
        rw [if_pos rfl, if_pos rfl, if_pos rfl, ← Multiset.cons_coe, ← Multiset.singleton_add]
        rw [add_comm {l[k]} _, add_assoc]
      · rw [if_neg hT, if_neg hT, if_neg (Ne.symm hT)]
        simp
    · push Not at hd
      rw [moveOne_go htu hku (by rw [hget]; exact hd.1) (by rw [hget]; exact hd.2), hget]
      have hne : idx l[k] ≠ u := fun e => hd.1 (e ▸ hs.home _ hd.2)
      obtain ⟨S1, e1, h1, n1, np1⟩ := atTile_ok h (hnt ▸ hu) (rmTile_ok htu hku)
      have hib : InBox ⟨1, 1, 1⟩ S1.nt (idx l[k]) := by rw [n1, hnt]; exact hs.box _ hd.2
      obtain ⟨S2, e2, h2, n2, np2⟩ := atTile_ok h1 hib (addTile_ok (h1 _ hib) l[k])
      have hrm : rmAt u (k + 1) S = .ok S1 := e1
      have hadd : addAt (idx l[k]) l[k] S1 = .ok S2 := e2
      rw [hrm]
      simp only [except_bind_ok]
      rw [hadd]
      simp only [except_bind_ok]
      obtain ⟨b', hb, eb⟩ := swapRm_split (l.take k) r l[k]
      rw [hlen, ← hL] at eb
      obtain ⟨S', L', e', n', np', h', m'⟩ := ih (by omega) S2 _ b' (by rw [n2, n1, hnt]) h2 (by
        rw [Function.update_of_ne (Ne.symm hne), Function.update_self, eb])
      refine ⟨S', L', e', n', by rw [np', np2, np1], h', fun T => ?_⟩
      have hdest : dest inTile inDom idx u l[k] = idx l[k] := by
        unfold dest
        rw [if_neg hd.1, if_neg (not_not.mpr hd.2)]
      rw [m' T, htake, Multiset.filter_add, Multiset.filter_singleton, hdest]
      by_cases hT : T = u
      · subst hT
        rw [if_pos rfl, if_pos rfl, if_neg hne, Multiset.coe_eq_coe.mpr hb]
        simp
      · rw [if_neg hT, if_neg hT]
        by_cases hTi : T = idx l[k]
        · subst hTi
          rw [Function.update_self, Function.update_of_ne hT, if_pos rfl, ← Multiset.coe_add, add_assoc, Multiset.coe_singleton]
        · rw [Function.update_of_ne hTi, Function.update_of_ne hT, if_neg (Ne.symm hTi)]
          simp

theorem moveTile_ok (hs : Sorts nt inTile inDom idx) {u : I3} (hu : InBox ⟨1, 1, 1⟩ nt u) {S : Species n} {L : I3 → List (Part n)}
    (hnt : S.nt = nt) (h : HoldsAll S L) : ∃ S' L', moveTile inTile inDom idx u S = .ok S' ∧ S'.nt = nt ∧ S'.npart = S.npart ∧
      HoldsAll S' L' ∧ ∀ T, (L' T : Multiset (Part n)) = (if T = u then 0 else (L T : Multiset (Part n))) +
        (L u : Multiset (Part n)).filter (fun p => dest inTile inDom idx u p = T) := by
  obtain ⟨S', L', e, n', np', h', m⟩ := move_loop hs hu (l := L u) _ le_rfl S L [] hnt h (by simp)
  refine ⟨S', L', ?_, n', np', h', fun T => ?_⟩
  · unfold moveTile
    rw [(h u (hnt ▸ hu)).count]
    exact e
  · rw [m T, List.take_length]
    rfl

theorem mem_listSum {α : Type} {p : α} : ∀ {l : List (Multiset α)}, p ∈ l.sum ↔ ∃ s ∈ l, p ∈ s := by
  intro l
  induction l with
  | nil => simp
  | cons a l ih => simp [ih]

theorem moves_ok (hs : Sorts nt inTile inDom idx) {L : I3 → List (Part n)} : ∀ (us ps : List I3), (ps ++ us).Nodup →
    (∀ u ∈ us, InBox ⟨1, 1, 1⟩ nt u) → ∀ (S : Species n) (M : I3 → List (Part n)), S.nt = nt → HoldsAll S M →
    (∀ T, (M T : Multiset (Part n)) = (if T ∈ ps then 0 else (L T : Multiset (Part n))) +
      (ps.map fun u => (L u : Multiset (Part n)).filter (fun p => dest inTile inDom idx u p = T)).sum) →
    ∃ S' M', us.foldlM (fun S u => moveTile inTile inDom idx u S) S = .ok S' ∧ S'.nt = nt ∧ S'.npart = S.npart ∧ HoldsAll S' M' ∧
      ∀ T, (M' T : Multiset (Part n)) = (if T ∈ ps ++ us then 0 else (L T : Multiset (Part n))) +
        ((ps ++ us).map fun u => (L u : Multiset (Part n)).filter (fun p => dest inTile inDom idx u p = T)).sum := by
  intro us
  induction us with
  | nil => exact fun ps _ _ S M hnt h hM => ⟨S, M, rfl, hnt, rfl, h, by simpa using hM⟩
  | cons u us ih =>
    intro ps hnd hb S M hnt h hM
    obtain ⟨S1, M1, e1, n1, np1, h1, m1⟩ := moveTile_ok hs (hb u List.mem_cons_self) hnt h
    have hnd' : ((ps ++ [u]) ++ us).Nodup := by simpa using hnd
    have hups : u ∉ ps := by
      intro hc
      rw [List.nodup_append] at hnd
      exact hnd.2.2 u hc u List.mem_cons_self rfl
    obtain ⟨S2, M2, e2, n2, np2, h2, m2⟩ := ih (ps ++ [u]) hnd' (fun v hv => hb v (List.mem_cons_of_mem _ hv)) S1 M1 n1 h1 (fun T => by
      rw [m1 T, hM T, hM u, if_neg hups, Multiset.filter_add, List.map_append, List.sum_append]
      have key : Multiset.filter (fun p => dest inTile inDom idx u p = T)
          ((ps.map fun v => (L v : Multiset (Part n)).filter (fun p => dest inTile inDom idx v p = u)).sum) =
          if T = u then ((ps.map fun v => (L v : Multiset (Part n)).filter (fun p => dest inTile inDom idx v p = u)).sum) else 0 := by
        by_cases hT : T = u
        · subst hT
          rw [if_pos rfl, Multiset.filter_eq_self]
          intro p hp
          rw [mem_listSum] at hp
          obtain ⟨s, hs', hp⟩ := hp
          obtain ⟨v, -, rfl⟩ := List.mem_map.mp hs'
          exact dest_dest hs (Multiset.mem_filter.mp hp).2
        · rw [if_neg hT, Multiset.filter_eq_nil]
          intro p hp e
          rw [mem_listSum] at hp
          obtain ⟨s, hs', hp⟩ := hp
          obtain ⟨v, -, rfl⟩ := List.mem_map.mp hs'
          rw [dest_dest hs (Multiset.mem_filter.mp hp).2] at e
          exact hT e.symm
      rw [key]
      by_cases hT : T = u
      · subst hT
        simp [hups]
        abel
      · have : (T ∈ ps ++ [u]) = (T ∈ ps) := by simp [hT]
        simp only [this, if_neg hT]
        simp
        abel)
    refine ⟨S2, M2, ?_, n2, by rw [np2, np1], h2, by simpa using m2⟩
    rw [List.foldlM_cons, e1]
    exact e2

theorem moveTiles_ok {S : Species n} (hs : Sorts S.nt inTile inDom idx) {L : I3 → List (Part n)} (h : HoldsAll S L) :
    ∃ S' L', moveTiles inTile inDom idx S = .ok S' ∧ S'.nt = S.nt ∧ S'.npart = S.npart ∧ HoldsAll S' L' ∧
      ∀ T, InBox ⟨1, 1, 1⟩ S.nt T → (L' T : Multiset (Part n)) =
        ((box ⟨1, 1, 1⟩ S.nt).map fun u => (L u : Multiset (Part n)).filter (fun p => dest inTile inDom idx u p = T)).sum := by
  obtain ⟨S', L', e, n', np', h', m⟩ := moves_ok hs (L := L) (box ⟨1, 1, 1⟩ S.nt) [] (by simpa using nodup_box _ _)
    (fun u hu => mem_box.mp hu) S L rfl h (by simp)
  refine ⟨S', L', e, n', np', h', fun T hT => ?_⟩
  rw [m T, List.nil_append, if_pos (mem_box.mpr hT), zero_add]

end exchange

end Picsar.Tiling
