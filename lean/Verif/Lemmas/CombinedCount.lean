import Verif.Lemmas.CombinedMpi
import Mathlib.Algebra.BigOperators.Group.List.Basic
/-
The exchange between tiles and processes: counting particles, and the sending of the counts.
-/
namespace Picsar.Combined
open Picsar Picsar.Grid Picsar.Tiling Picsar.ParticleBcs Picsar.PartExchange

variable {n : ℕ}

theorem sum_comm' {α β : Type} (l : List α) (k : List β) (f : α → β → ℕ) :
    (l.map fun a => (k.map fun b => f a b).sum).sum = (k.map fun b => (l.map fun a => f a b).sum).sum := by
  induction l with
  | nil => simp
  | cons a l ih => simp only [List.map_cons, List.sum_cons, ih, List.sum_map_add]

theorem card_sum' {α : Type} (l : List (Multiset α)) : Multiset.card l.sum = (l.map Multiset.card).sum := by
  induction l with
  | nil => rfl
  | cons a l ih => simp [ih]

theorem mem_sum_map {α β : Type} {l : List α} {f : α → Multiset β} {q : β} : q ∈ (l.map f).sum ↔ ∃ a ∈ l, q ∈ f a := by
  induction l with
  | nil => simp
  | cons a l ih => rw [List.map_cons, List.sum_cons, Multiset.mem_add, ih]; simp

theorem one_hit {α : Type} [DecidableEq α] {l : List α} (hn : l.Nodup) {a : α} (ha : a ∈ l) (v : ℕ) : (l.map fun b => if a = b then v else 0).sum = v := by
  induction l with
  | nil => simp at ha
  | cons c l ih =>
    rw [List.nodup_cons] at hn
    rw [List.map_cons, List.sum_cons]
    by_cases hc : a = c
    · subst hc
      rw [if_pos rfl]
      have : (l.map fun b => if a = b then v else 0) = l.map fun _ => 0 := List.map_congr_left fun b hb => if_neg (by rintro rfl; exact hn.1 hb)
      rw [this]; simp
    · rw [if_neg hc, zero_add]
      exact ih hn.2 (by simpa [hc] using ha)

theorem no_hit {α : Type} (l : List α) : (l.map fun _ => 0).sum = 0 := by simp

/-- Length of a filtered list, as a sum. -/
theorem length_filterMap' {α β : Type} (f : α → Option β) (l : List α) : (l.filterMap f).length = (l.map fun a => (f a).toList.length).sum := by
  induction l with
  | nil => rfl
  | cons a l ih => rw [List.filterMap_cons, List.map_cons, List.sum_cons, ← ih]; cases f a <;> simp [Nat.add_comm]

/-- Every particle of a tile stays, is sent or is absorbed. -/
theorem particle_once {P : Proc n} {nt : I3} (hbox : ∀ p, ¬ outDom P.A p → InBox ⟨1, 1, 1⟩ nt (P.idx p)) {u : I3} (hu : InBox ⟨1, 1, 1⟩ nt u) (p : Part n) :
    ((box ⟨1, 1, 1⟩ nt).map fun T => (into P u T p).toList.length).sum + (dirs.map fun d => (sends d (scan .combined P.A (P.T u) p)).toList.length).sum +
      (gone p (scan .combined P.A (P.T u) p)).toList.length = 1 := by
  classical
  have hin : ∀ q, scan .combined P.A (P.T u) p = .kept q → InBox ⟨1, 1, 1⟩ nt (home P u p) →
      ((box ⟨1, 1, 1⟩ nt).map fun T => (into P u T p).toList.length).sum = 1 := by
    intro q e hh
    have : (fun T => (into P u T p).toList.length) = fun T => if home P u p = T then 1 else 0 := by
      funext T
      unfold into
      rw [e]
      by_cases h : home P u p = T
      · rw [if_pos h, if_pos h]; rfl
      · rw [if_neg h, if_neg h]; rfl
    rw [this]
    exact one_hit (nodup_box _ _) (mem_box.mpr hh) 1
  have hout : (∀ q, scan .combined P.A (P.T u) p ≠ .kept q) → ((box ⟨1, 1, 1⟩ nt).map fun T => (into P u T p).toList.length).sum = 0 := by
    intro e
    have : (fun T => (into P u T p).toList.length) = fun _ => 0 := by
      funext T
      unfold into
      split_ifs
      · cases h : scan .combined P.A (P.T u) p with
        | kept q => exact absurd h (e q)
        | removed => rfl
        | sent d q => rfl
      · rfl
    rw [this]
    exact no_hit _
  have hkept : ∀ q, scan .combined P.A (P.T u) p = .kept q → InBox ⟨1, 1, 1⟩ nt (home P u p) → ((box ⟨1, 1, 1⟩ nt).map fun T => (into P u T p).toList.length).sum +
      (dirs.map fun d => (sends d (scan .combined P.A (P.T u) p)).toList.length).sum + (gone p (scan .combined P.A (P.T u) p)).toList.length = 1 := by
    intro q e hh
    rw [hin q e hh, e]
    have : (fun d : I3 => (sends d (Outcome.kept q)).toList.length) = fun _ => 0 := rfl
    rw [this, no_hit]; rfl
  by_cases hs : inTile (P.T u) p ∨ ¬ outDom P.A p
  · refine hkept p (scan_stay hs) ?_
    unfold home
    split_ifs with h
    · exact hu
    · exact hbox p (by tauto)
  · push Not at hs
    rcases scan_out hs.1 hs.2 with e | ⟨q, e⟩ | ⟨d, q, e, hd⟩
    · rw [hout (by rw [e]; intro q; simp), e]
      have : (fun d : I3 => (sends d (Outcome.removed : Outcome n)).toList.length) = fun _ => 0 := rfl
      rw [this, no_hit]; rfl
    · refine hkept _ e ?_
      unfold home
      rw [if_pos (.inr hs.2)]
      exact hu
    · rw [hout (by rw [e]; intro q; simp), e]
      have : (fun e : I3 => (sends e (Outcome.sent d q)).toList.length) = fun e => if d = e then 1 else 0 := by
        funext e
        unfold sends
        dsimp only
        by_cases h : d = e
        · rw [if_pos h, if_pos h]; rfl
        · rw [if_neg h, if_neg h]; rfl
      rw [this, one_hit nodup_dirs hd]; rfl

/-- Nothing is lost or doubled by the local part. -/
theorem accounted {P : Proc n} {nt : I3} (L : I3 → List (Part n)) (hbox : ∀ p, ¬ outDom P.A p → InBox ⟨1, 1, 1⟩ nt (P.idx p)) :
    ((box ⟨1, 1, 1⟩ nt).map fun T => Multiset.card (here P nt L T)).sum + (dirs.map fun d => Multiset.card (leaving P nt L d)).sum + Multiset.card (lost P nt L) =
      Multiset.card (total nt L) := by
  have h1 : ∀ T, Multiset.card (here P nt L T) = ((box ⟨1, 1, 1⟩ nt).map fun u => ((L u).map fun p => (into P u T p).toList.length).sum).sum := by
    intro T
    unfold here
    rw [card_sum', List.map_map]
    refine congrArg List.sum (List.map_congr_left fun u _ => ?_)
    rw [Function.comp_apply, Multiset.coe_card, ← length_filterMap']
    rfl
  have h2 : ∀ d, Multiset.card (leaving P nt L d) = ((box ⟨1, 1, 1⟩ nt).map fun u => ((L u).map fun p => (sends d (scan .combined P.A (P.T u) p)).toList.length).sum).sum := by
    intro d
    unfold leaving
    rw [card_sum', List.map_map]
    refine congrArg List.sum (List.map_congr_left fun u _ => ?_)
    rw [Function.comp_apply, Multiset.coe_card, ← length_filterMap']
  have h3 : Multiset.card (lost P nt L) = ((box ⟨1, 1, 1⟩ nt).map fun u => ((L u).map fun p => (gone p (scan .combined P.A (P.T u) p)).toList.length).sum).sum := by
    unfold lost
    rw [card_sum', List.map_map]
    refine congrArg List.sum (List.map_congr_left fun u _ => ?_)
    rw [Function.comp_apply, Multiset.coe_card, ← length_filterMap']
  have h4 : Multiset.card (total nt L) = ((box ⟨1, 1, 1⟩ nt).map fun u => (L u).length).sum := by
    unfold total
    rw [card_sum', List.map_map]
    rfl
  simp only [h1, h2]
  rw [h3, h4, sum_comm', sum_comm' dirs, ← List.sum_map_add, ← List.sum_map_add]
  refine congrArg List.sum (List.map_congr_left fun u hu => ?_)
  rw [sum_comm', sum_comm' dirs, ← List.sum_map_add, ← List.sum_map_add]
  have : ((L u).map fun p => ((box ⟨1, 1, 1⟩ nt).map fun T => (into P u T p).toList.length).sum + (dirs.map fun d => (sends d (scan .combined P.A (P.T u) p)).toList.length).sum +
      (gone p (scan .combined P.A (P.T u) p)).toList.length) = (L u).map fun _ => 1 := List.map_congr_left fun p _ => particle_once hbox (mem_box.mp hu) p
  rw [this]
  simp

theorem clamp_in {lo hi dx v : ℝ} (h0 : 0 < dx) (hw : lo + dx ≤ hi) : lo ≤ clamp lo hi dx v ∧ clamp lo hi dx v < hi := by
  unfold clamp
  constructor
  · exact le_min (le_trans (by linarith) (le_max_right _ _)) (by linarith)
  · exact lt_of_le_of_lt (min_le_right _ _) (by linarith)

/-- Particles that stay are in their tile. -/
theorem here_in {P : Proc n} {nt : I3} {L : I3 → List (Part n)} (hhome : ∀ p, ¬ outDom P.A p → inTile (P.T (P.idx p)) p) {T : I3}
    (hw : ∀ a, 0 < (P.A a).dx ∧ (P.T T).lo a + (P.A a).dx ≤ (P.T T).hi a) {q : Part n} (hq : q ∈ here P nt L T) : inTile (P.T T) q := by
  classical
  unfold here at hq
  obtain ⟨u, hu, hq⟩ : ∃ u, u ∈ box ⟨1, 1, 1⟩ nt ∧ q ∈ (L u).filterMap fun p => if home P u p = T then keeps (scan .combined P.A (P.T u) p) else none := by
    revert hq
    generalize box ⟨1, 1, 1⟩ nt = b
    induction b with
    | nil => intro h; simp at h
    | cons v b ih =>
      intro h
      rw [List.map_cons, List.sum_cons, Multiset.mem_add] at h
      rcases h with h | h
      · exact ⟨v, by simp, h⟩
      · obtain ⟨u, hu, e⟩ := ih h
        exact ⟨u, by simp [hu], e⟩
  rw [List.mem_filterMap] at hq
  obtain ⟨p, -, e⟩ := hq
  split_ifs at e with hh
  unfold home at hh
  by_cases h1 : inTile (P.T u) p
  · rw [if_pos (.inl h1)] at hh
    rw [scan_stay (.inl h1)] at e
    cases e
    rw [← hh]
    exact h1
  · by_cases h2 : outDom P.A p
    · rw [if_pos (.inr h2)] at hh
      rcases scan_out h1 h2 with e' | ⟨q', e'⟩ | ⟨d, q', e', -⟩ <;> rw [e'] at e
      · cases e
      · cases e
        rw [hh]
        intro a
        have hc := hw a
        cases a
        · exact clamp_in hc.1 hc.2
        · exact clamp_in hc.1 hc.2
        · exact clamp_in hc.1 hc.2
      · cases e
    · rw [if_neg (by tauto)] at hh
      rw [scan_stay (.inr h2)] at e
      cases e
      rw [← hh]
      exact hhome _ h2

variable {R : Type}

theorem arriving_land {nb : R → I3 → R} {P : R → Proc n} {S : R → Species n} {L : R → I3 → List (Part n)} (hm : Mutual nb) (hl : LandBorder nb P (fun r => (S r).nt) L) {r : R} {q : Part n}
    (hq : q ∈ arriving nb P S L r) : InBox ⟨1, 1, 1⟩ (S r).nt ((P r).idx q) ∧ (P r).border ((P r).idx q) = true := by
  unfold arriving at hq
  have hex : ∀ l : List I3, (∀ d ∈ l, d ∈ dirs) → q ∈ (l.map fun d => leaving (P (nb r (neg d))) (S (nb r (neg d))).nt (L (nb r (neg d))) d).sum →
      ∃ d ∈ dirs, q ∈ leaving (P (nb r (neg d))) (S (nb r (neg d))).nt (L (nb r (neg d))) d := by
    intro l
    induction l with
    | nil => intro _ h; simp at h
    | cons d l ih =>
      intro hd h
      rw [List.map_cons, List.sum_cons, Multiset.mem_add] at h
      rcases h with h | h
      · exact ⟨d, hd d (by simp), h⟩
      · exact ih (fun e he => hd e (by simp [he])) h
  obtain ⟨d, hd, hq⟩ := hex dirs (fun _ h => h) hq
  have h2 : nb (nb r (neg d)) d = r := by simpa [neg_neg'] using hm r _ (neg_mem hd)
  have h3 := hl (nb r (neg d)) d hd q hq
  rw [h2] at h3
  exact h3

theorem stored_received {nb : R → I3 → R} {P : R → Proc n} {S : R → Species n} {L : R → I3 → List (Part n)} (hm : Mutual nb) (hl : LandBorder nb P (fun r => (S r).nt) L) {r : R} {S' : Species n}
    (h : Stored nb P S L r S') : Received nb P S L r S' := by
  classical
  obtain ⟨L', h1, h2, h3, h4, h5⟩ := h
  refine ⟨L', h1, h2, h3, fun T hT => ?_, h5⟩
  rw [h4 T hT]
  by_cases hb : (P r).border T = true
  · rw [if_pos hb]
  · rw [if_neg hb, eq_comm]
    congr 1
    rw [Multiset.filter_eq_nil]
    rintro q hq rfl
    exact hb (arriving_land hm hl hq).2

theorem sum_filter {α : Type} [DecidableEq α] {l : List α} (hn : l.Nodup) (f : Part n → α) (M : Multiset (Part n)) (h : ∀ q ∈ M, f q ∈ l) :
    (l.map fun a => Multiset.card (M.filter fun q => f q = a)).sum = Multiset.card M := by
  induction M using Multiset.induction_on with
  | empty => simp
  | cons q M ih =>
    have : (fun a => Multiset.card ((q ::ₘ M).filter fun q => f q = a)) = fun a => (if f q = a then 1 else 0) + Multiset.card (M.filter fun q => f q = a) := by
      funext a
      by_cases hq : f q = a
      · rw [Multiset.filter_cons_of_pos (p := fun q => f q = a) _ hq, if_pos hq, Multiset.card_cons, Nat.add_comm]
      · rw [Multiset.filter_cons_of_neg (p := fun q => f q = a) _ hq, if_neg hq, Nat.zero_add]
    rw [this, List.sum_map_add, one_hit hn (h q (by simp)), ih fun p hp => h p (by simp [hp]), Multiset.card_cons, Nat.add_comm]

open Classical in
theorem received_card {nb : R → I3 → R} {P : R → Proc n} {S : R → Species n} {L : R → I3 → List (Part n)} (hm : Mutual nb) (hl : LandBorder nb P (fun r => (S r).nt) L) {r : R} {S' : Species n}
    {L' : I3 → List (Part n)} (hn : S'.nt = (S r).nt)
    (h : ∀ T, InBox ⟨1, 1, 1⟩ (S r).nt T → (L' T : Multiset (Part n)) = here (P r) (S r).nt (L r) T + (arriving nb P S L r).filter fun q => (P r).idx q = T) :
    Multiset.card (total S'.nt L') = ((box ⟨1, 1, 1⟩ (S r).nt).map fun T => Multiset.card (here (P r) (S r).nt (L r) T)).sum + Multiset.card (arriving nb P S L r) := by
  rw [hn]
  unfold total
  rw [card_sum', List.map_map, ← sum_filter (nodup_box ⟨1, 1, 1⟩ (S r).nt) (P r).idx (arriving nb P S L r) fun q hq => mem_box.mpr (arriving_land hm hl hq).1, ← List.sum_map_add]
  refine congrArg List.sum (List.map_congr_left fun T hT => ?_)
  rw [Function.comp_apply, h T (mem_box.mp hT), Multiset.card_add]

theorem arriving_sum [Fintype R] {nb : R → I3 → R} {P : R → Proc n} {S : R → Species n} {L : R → I3 → List (Part n)} (hm : Mutual nb) :
    ∑ r, Multiset.card (arriving nb P S L r) = ∑ r, (dirs.map fun d => Multiset.card (leaving (P r) (S r).nt (L r) d)).sum := by
  have key : ∀ l : List I3, (∀ d ∈ l, d ∈ dirs) → ∑ r, Multiset.card (l.map fun d => leaving (P (nb r (neg d))) (S (nb r (neg d))).nt (L (nb r (neg d))) d).sum =
      ∑ r, (l.map fun d => Multiset.card (leaving (P r) (S r).nt (L r) d)).sum := by
    intro l
    induction l with
    | nil => intro _; rfl
    | cons d l ih =>
      intro hl
      have hd := hl d (by simp)
      simp only [List.map_cons, List.sum_cons, Multiset.card_add, Finset.sum_add_distrib]
      rw [ih fun e he => hl e (by simp [he])]
      congr 1
      refine Fintype.sum_bijective (fun r => nb r (neg d)) ?_ _ _ fun r => rfl
      refine Function.bijective_iff_has_inverse.mpr ⟨fun r => nb r d, fun r => ?_, fun r => hm r d hd⟩
      simpa [neg_neg'] using hm r (neg d) (neg_mem hd)
  exact key dirs fun _ h => h

/-- The content of a tile determines the list. -/
theorem holds_unique {t : Tile n} {l l' : List (Part n)} (h : Holds t l) (h' : Holds t l') : l = l' := by
  have hlen : l.length = l'.length := by have := h.count; have := h'.count; omega
  refine List.ext_getElem hlen fun i h1 h2 => ?_
  have a := readPart_ok h h1
  have b := readPart_ok h' h2
  rw [a] at b
  exact Except.ok.inj b

/-! ### The counts -/

theorem race_inv {c : ℕ → ℤ} {s : Race} (h : Race.Steps c .start s) : s.next ≤ 26 ∧ (s.next ≠ 0 → s.k = c (s.next - 1)) ∧ (∀ q ∈ s.pending, q < s.next) ∧
    ∀ q, q < s.next → q ∈ s.pending ∨ ∃ j, q ≤ j ∧ j < s.next ∧ s.got q = some (c j) := by
  generalize ha : Race.start = a at h
  induction h with
  | refl => subst ha; exact ⟨by decide, fun h => absurd rfl h, fun q h => by simp [Race.start] at h, fun q h => absurd h (Nat.not_lt_zero q)⟩
  | @step b _ hs st ih =>
    obtain ⟨h1, h2, h3, h4⟩ := ih
    cases st with
    | post hn =>
      refine ⟨by dsimp only; omega, fun _ => rfl, fun q hq => ?_, fun q hq => ?_⟩
      · dsimp only at hq ⊢
        rcases List.mem_cons.mp hq with rfl | hq
        · omega
        · have := h3 q hq; omega
      · dsimp only at hq ⊢
        by_cases hqn : q = b.next
        · exact .inl (by rw [hqn]; simp)
        · rcases h4 q (by omega) with h | ⟨j, a1, a2, a3⟩
          · exact .inl (List.mem_cons_of_mem _ h)
          · exact .inr ⟨j, a1, by omega, a3⟩
    | read q hq =>
      have hqn := h3 q hq
      refine ⟨h1, h2, fun q' hq' => h3 q' (List.mem_of_mem_erase hq'), fun q' hq' => ?_⟩
      dsimp only at hq' ⊢
      by_cases e : q' = q
      · subst e
        exact .inr ⟨b.next - 1, by omega, by omega, by rw [Function.update_self, h2 (by omega)]⟩
      · rw [Function.update_of_ne e]
        rcases h4 q' hq' with h | h
        · exact .inl ((List.mem_erase_of_ne e).mpr h)
        · exact .inr h

theorem prompt_inv {c : ℕ → ℤ} {s : Race} (h : Prompt c .start s) : s.next ≤ 26 ∧ (s.pending = [] ∨ ∃ q, q + 1 = s.next ∧ s.pending = [q] ∧ s.k = c q) ∧
    ∀ q, q < s.next → q ∉ s.pending → s.got q = some (c q) := by
  generalize ha : Race.start = a at h
  induction h with
  | refl => subst ha; exact ⟨by decide, .inl rfl, fun q h => absurd h (Nat.not_lt_zero q)⟩
  | post hs hp hn ih =>
    obtain ⟨h1, h2, h3⟩ := ih
    refine ⟨by dsimp only; omega, .inr ⟨_, rfl, by rw [hp], rfl⟩, fun q hq hq' => ?_⟩
    dsimp only at hq hq' ⊢
    rw [hp] at hq' h3
    simp only [List.mem_cons, List.not_mem_nil, or_false] at hq'
    exact h3 q (by omega) (by simp)
  | read hs hq ih =>
    obtain ⟨h1, h2, h3⟩ := ih
    rcases h2 with h2 | ⟨q', e1, e2, e3⟩
    · rw [h2] at hq; simp at hq
    · rw [e2, List.mem_singleton] at hq
      subst hq
      rename_i q'
      refine ⟨h1, .inl (by dsimp only; rw [e2]; simp), fun q hq hq' => ?_⟩
      dsimp only at hq ⊢
      by_cases e : q = q'
      · rw [e, Function.update_self, e3]
      · rw [Function.update_of_ne e]
        exact h3 q hq (by rw [e2]; simpa using e)

/-- All counts are posted, then all are read. -/
theorem race_late (c : ℕ → ℤ) : ∃ s, Race.Steps c .start s ∧ s.Done ∧ ∀ q, q < 26 → s.got q = some (c 25) := by
  have post : ∀ j, j ≤ 26 → ∃ s, Race.Steps c .start s ∧ s.next = j ∧ s.pending = (List.range j).reverse ∧ (j ≠ 0 → s.k = c (j - 1)) := by
    intro j
    induction j with
    | zero => exact fun _ => ⟨_, .refl _, rfl, rfl, fun h => absurd rfl h⟩
    | succ j ih =>
      intro hj
      obtain ⟨s, a, b, d, -⟩ := ih (by omega)
      exact ⟨_, .step a (.post s (by omega)), by dsimp only; omega, by dsimp only; rw [b, d, List.range_succ]; simp, fun _ => by dsimp only; rw [b]; simp⟩
  obtain ⟨s, a, b, d, k⟩ := post 26 le_rfl
  have read : ∀ (l : List ℕ) (s : Race), Race.Steps c .start s → s.pending = l → s.next = 26 → s.k = c 25 →
      ∃ s', Race.Steps c .start s' ∧ s'.Done ∧ (∀ q, q ∈ l → s'.got q = some (c 25)) ∧ ∀ q, s.got q = some (c 25) → s'.got q = some (c 25) := by
    intro l
    induction l with
    | nil => exact fun s a p b k => ⟨s, a, ⟨b, p⟩, by simp, fun q h => h⟩
    | cons q l ih =>
      intro s a p b k
      obtain ⟨s', a', d', g', k'⟩ := ih ⟨s.k, s.next, s.pending.erase q, Function.update s.got q (some s.k)⟩ (.step a (.read s q (by rw [p]; simp))) (by dsimp only; rw [p]; simp) b k
      refine ⟨s', a', d', fun q' hq' => ?_, fun q' h => k' q' ?_⟩
      · rcases List.mem_cons.mp hq' with rfl | h
        · exact k' _ (by dsimp only; rw [Function.update_self, k])
        · exact g' _ h
      · dsimp only
        by_cases e : q' = q
        · subst e; rw [Function.update_self, k]
        · rw [Function.update_of_ne e]; exact h
  obtain ⟨s', a', d', g', -⟩ := read _ s a d b (k (by omega))
  exact ⟨s', a', d', fun q hq => g' q (by simpa using hq)⟩

end Picsar.Combined
