import Verif.Spec.RemapPart
import Verif.Lemmas.PartBuffers
import Verif.Lemmas.Remap
import Verif.Props.LoadBalance
import Mathlib.Algebra.Order.Floor.Ring
import Mathlib.Algebra.BigOperators.Group.List.Basic
/-
Lemmas for the exchange of particles after a new split.
-/
namespace Picsar.RemapPart
open Picsar Picsar.Grid Picsar.Tiling Picsar.PartExchange Picsar.Remap Picsar.LoadBalance

variable {n : ℕ}

/-! ### Loop over the particles of a tile -/

/-- Column with room for `cap` particles that holds those of `l`. -/
structure Col (cap : ℤ) (a : FArr ℝ) (l : List (Part n)) : Prop where
  size : a.n = nvar n * cap
  arr : a.Holds (flat l)

theorem col_new (cap : ℤ) (h : 0 ≤ cap) : Col (n := n) cap (FArr.undef (nvar n * cap)) [] := by
  refine ⟨rfl, ?_, fun i h => absurd h (by simp [flat])⟩
  show (0 : ℤ) ≤ nvar n * cap
  unfold nvar
  positivity

theorem col_push {cap : ℤ} {a : FArr ℝ} {l : List (Part n)} (h : Col cap a l) (p : Part n) (hc : (l.length : ℤ) + 1 ≤ cap) :
    ∃ a', setFrom (nvar n * l.length + 1) (vals p) a = .ok a' ∧ Col cap a' (l ++ [p]) := by
  have hnv : nvar n = (n : ℤ) + 7 := rfl
  have h0 : (0 : ℤ) ≤ nvar n * l.length := by rw [hnv]; positivity
  have hm : nvar n * ((l.length : ℤ) + 1) ≤ nvar n * cap := mul_le_mul_of_nonneg_left hc (by rw [hnv]; positivity)
  rw [mul_add, mul_one] at hm
  obtain ⟨a', ea, na, lo, hi⟩ := setFrom_ok (vals p) (nvar n * l.length + 1) a (by omega) (by rw [vals_length, h.size]; push_cast; omega)
  refine ⟨a', ea, ⟨by rw [na, h.size], ?_, fun i hi' => ?_⟩⟩
  · rw [flat_length, na, h.size, List.length_append, List.length_singleton]
    push_cast
    rw [hnv] at hm ⊢
    linarith
  · have hf : flat (l ++ [p]) = flat l ++ vals p := by rw [flat_append]; simp [flat]
    have hfl : (flat l).length = l.length * (n + 7) := flat_length l
    have hpos : nvar n * l.length = ((flat l).length : ℤ) := by rw [hfl, hnv]; push_cast; ring
    simp only [hf]
    by_cases hlt : i < (flat l).length
    · rw [lo _ (by rw [hpos]; omega), List.getElem_append_left hlt]
      exact h.arr.2 i hlt
    · have hi2 : i - (flat l).length < (vals p).length := by
        rw [hf, List.length_append] at hi'
        omega
      rw [List.getElem_append_right (by omega), ← hi _ hi2, hpos]
      congr 1
      omega

/-- Destination of a particle. -/
noncomputable def dest (P : Proc n) (p : Part n) : Option ℤ :=
  match route P p with
  | .ok o => o
  | .error _ => none

/-- Buffers and numbers after packing the particles `X d`. -/
structure Packed (cap : ℤ) (s s' : Sc n) (B X : ℤ → List (Part n)) : Prop where
  buf : ∀ d, Col cap (s'.buf d) (B d ++ X d) ∧ s'.cnt d = ((B d ++ X d).length : ℤ)
  send : ∀ d, s'.send d = s.send d + (X d).length

theorem scan_loop (P : Proc n) {cap : ℤ} {nt u : I3} (hu : InBox ⟨1, 1, 1⟩ nt u) {l : List (Part n)} (hr : ∀ p ∈ l, ∃ o, route P p = .ok o) :
    ∀ (k : ℕ), k ≤ l.length → ∀ (s : Sc n) (L : I3 → List (Part n)) (B : ℤ → List (Part n)) (r : List (Part n)), s.S.nt = nt → HoldsAll s.S L →
      (∀ d, Col cap (s.buf d) (B d) ∧ s.cnt d = ((B d).length : ℤ)) → (∀ d, ((B d).length : ℤ) + k ≤ cap) → L u = l.take k ++ r →
    ∃ s' l' X, (irange 1 (k : ℤ)).reverse.foldlM (fun s i => scanOne P u i s) s = .ok s' ∧ s'.S.nt = nt ∧ HoldsAll s'.S (Function.update L u l') ∧
      l'.Perm ((l.take k).filter (fun p => decide (dest P p = none)) ++ r) ∧ Packed cap s s' B X ∧
      (∀ d, (X d).Perm ((l.take k).filter fun p => decide (dest P p = some d))) ∧
      s'.S.npart = s.S.npart + l'.length - (L u).length := by
  intro k
  induction k with
  | zero =>
    intro _ s L B r hnt h hB _ hL
    refine ⟨s, r, fun _ => [], by rw [show ((0 : ℕ) : ℤ) = 0 from rfl, irange_zero]; rfl, hnt, ?_, by simp, ⟨fun d => by simpa using hB d, fun d => by simp⟩, fun d => by simp, ?_⟩
    · have : Function.update L u r = L := by
        rw [Function.update_eq_self_iff, hL]; simp
      rw [this]; exact h
    · rw [hL]; simp
  | succ k ih =>
    intro hk s L B r hnt h hB hcap hL
    have hkl : k < l.length := by omega
    have hlen : (l.take k).length = k := List.length_take_of_le hkl.le
    rw [← List.take_append_getElem hkl, List.append_assoc, List.singleton_append] at hL
    have hku : k < (L u).length := by rw [hL]; simp; omega
    have hget : (L u)[k] = l[k] := by
      simp only [hL]
      rw [List.getElem_append_right (by omega)]
      simp [hlen]
    have hu' : InBox ⟨1, 1, 1⟩ s.S.nt u := hnt ▸ hu
    have htu := h u hu'
    have hfm : ∀ (f : Part n → Bool), (l.take (k + 1)).filter f = (l.take k).filter f ++ (if f l[k] = true then [l[k]] else []) := by
      intro f
      rw [← List.take_append_getElem hkl, List.filter_append]
      congr 1
      by_cases hf : f l[k] = true <;> simp [hf]
    obtain ⟨o, ho⟩ := hr l[k] (List.getElem_mem hkl)
    have hdest : dest P l[k] = o := by unfold dest; rw [ho]
    rw [irange_rev_succ, List.foldlM_cons]
    unfold scanOne
    rw [readPart_ok htu hku, hget]
    simp only [except_bind_ok]
    rw [ho]
    simp only [hfm, hdest, except_bind_ok]
    cases o with
    | none =>
      dsimp only
      simp only [except_bind_ok]
      obtain ⟨s', l', X, e', n', h', p', pk, px, np'⟩ := ih (by omega) s L B (l[k] :: r) hnt h hB (fun d => by have := hcap d; push_cast at this; omega) hL
      refine ⟨s', l', X, e', n', h', ?_, pk, fun d => by simpa using px d, np'⟩
      simpa using p'
    | some d =>
      obtain ⟨a, ea, ha⟩ := col_push (hB d).1 l[k] (by have := hcap d; push_cast at this; omega)
      obtain ⟨S2, e2, h2, n2, np2⟩ := rmSpecies_ok h hu' hku
      obtain ⟨b', hb, eb⟩ := swapRm_split (l.take k) r l[k]
      rw [hlen, ← hL] at eb
      dsimp only
      rw [(hB d).2, ea]
      simp only [except_bind_ok]
      rw [e2]
      simp only [except_bind_ok]
      obtain ⟨s', l', X, e', n', h', p', pk, px, np'⟩ := ih (by omega)
        ⟨S2, Function.update s.buf d a, Function.update s.cnt d ((B d).length + 1), Function.update s.send d (s.send d + 1)⟩ _
        (Function.update B d (B d ++ [l[k]])) b' (by rw [n2, hnt]) h2 (fun e => by
          show Col cap (Function.update s.buf d a e) _ ∧ Function.update s.cnt d ((B d).length + 1) e = _
          by_cases he : e = d
          · subst he; rw [Function.update_self, Function.update_self, Function.update_self]; exact ⟨ha, by simp⟩
          · rw [Function.update_of_ne he, Function.update_of_ne he, Function.update_of_ne he]; exact hB e)
        (fun e => by
          have := hcap e
          push_cast at this
          by_cases he : e = d
          · subst he; rw [Function.update_self]; simp; omega
          · rw [Function.update_of_ne he]; omega)
        (by rw [Function.update_self, eb])
      rw [Function.update_idem] at h'
      refine ⟨s', l', fun e => if e = d then l[k] :: X e else X e, e', n', h', ?_, ⟨fun e => ?_, fun e => ?_⟩, fun e => ?_, ?_⟩
      · simpa using p'.trans (List.Perm.append_left _ hb)
      · have := pk.buf e
        by_cases he : e = d
        · subst he
          rw [Function.update_self] at this
          simpa using this
        · rw [Function.update_of_ne he] at this
          simpa [he] using this
      · have := pk.send e
        by_cases he : e = d
        · subst he
          rw [this]
          show Function.update s.send e (s.send e + 1) e + _ = _
          rw [Function.update_self]
          simp
          ring
        · rw [this]
          show Function.update s.send d (s.send d + 1) e + _ = _
          rw [Function.update_of_ne he]
          simp [he]
      · by_cases he : e = d
        · subst he
          simpa using ((px e).cons l[k]).trans (List.perm_append_singleton l[k] _).symm
        · have hde : d ≠ e := fun h => he h.symm
          simpa [he, hde] using px e
      · have := swapRm_length (L u) k hku
        rw [np', Function.update_self]
        show S2.npart + _ - _ = _
        rw [np2]
        omega

/-! ### Tiles and species -/

/-- What stays in tile `u`. -/
noncomputable def post (P : Proc n) (u : I3) (l : List (Part n)) : Multiset (Part n) :=
  if P.border u = true then ((l.filter fun p => decide (dest P p = none) : List (Part n)) : Multiset (Part n)) else (l : Multiset (Part n))

/-- What tile `u` hands over to the process at position `d`. -/
noncomputable def outs (P : Proc n) (u : I3) (l : List (Part n)) (d : ℤ) : Multiset (Part n) :=
  if P.border u = true then ((l.filter fun p => decide (dest P p = some d) : List (Part n)) : Multiset (Part n)) else 0

theorem outs_card (P : Proc n) (u : I3) (l : List (Part n)) (d : ℤ) : Multiset.card (outs P u l d) ≤ l.length := by
  unfold outs
  split_ifs
  · exact List.length_filter_le _ _
  · simp

theorem scanTile_ok (P : Proc n) {cap : ℤ} {u : I3} {s : Sc n} {L : I3 → List (Part n)} {B : ℤ → List (Part n)} (hu : InBox ⟨1, 1, 1⟩ s.S.nt u)
    (h : HoldsAll s.S L) (hr : P.border u = true → ∀ p ∈ L u, ∃ o, route P p = .ok o)
    (hB : ∀ d, Col cap (s.buf d) (B d) ∧ s.cnt d = ((B d).length : ℤ)) (hcap : ∀ d, ((B d).length : ℤ) + (L u).length ≤ cap) :
    ∃ s' l' X, scanTile P u s = .ok s' ∧ s'.S.nt = s.S.nt ∧ HoldsAll s'.S (Function.update L u l') ∧ (l' : Multiset (Part n)) = post P u (L u) ∧
      Packed cap s s' B X ∧ (∀ d, (X d : Multiset (Part n)) = outs P u (L u) d) ∧ s'.S.npart = s.S.npart + l'.length - (L u).length := by
  unfold scanTile
  by_cases hb : P.border u = true
  · rw [if_pos hb, (h u hu).count]
    obtain ⟨s', l', X, e, n', h', p', pk, px, np'⟩ := scan_loop P hu (l := L u) (hr hb) _ le_rfl s L B [] rfl h hB hcap (by simp)
    rw [List.take_length] at p' px
    refine ⟨s', l', X, e, n', h', ?_, pk, fun d => ?_, np'⟩
    · unfold post; rw [if_pos hb]; exact Multiset.coe_eq_coe.mpr (by simpa using p')
    · unfold outs; rw [if_pos hb]; exact Multiset.coe_eq_coe.mpr (px d)
  · rw [if_neg hb]
    refine ⟨s, L u, fun _ => [], rfl, rfl, by rw [Function.update_eq_self]; exact h, ?_, ⟨fun d => by simpa using hB d, fun d => by simp⟩, fun d => ?_, by omega⟩
    · unfold post; rw [if_neg hb]
    · unfold outs; rw [if_neg hb]; rfl

/-- Number of particles in the tiles `us`. -/
def cnt (us : List I3) (L : I3 → List (Part n)) : ℕ := (us.map fun u => (L u).length).sum

theorem tiles_ok (P : Proc n) {cap : ℤ} {L : I3 → List (Part n)} :
    ∀ (us : List I3), us.Nodup → ∀ (s : Sc n) (M : I3 → List (Part n)) (B : ℤ → List (Part n)), (∀ u ∈ us, InBox ⟨1, 1, 1⟩ s.S.nt u) → (∀ u ∈ us, M u = L u) →
      HoldsAll s.S M → (∀ u ∈ us, P.border u = true → ∀ p ∈ L u, ∃ o, route P p = .ok o) →
      (∀ d, Col cap (s.buf d) (B d) ∧ s.cnt d = ((B d).length : ℤ)) → (∀ d, ((B d).length : ℤ) + cnt us L ≤ cap) →
    ∃ s' M' X, us.foldlM (fun s u => scanTile P u s) s = .ok s' ∧ s'.S.nt = s.S.nt ∧ HoldsAll s'.S M' ∧
      (∀ v, (M' v : Multiset (Part n)) = if v ∈ us then post P v (L v) else (M v : Multiset (Part n))) ∧ Packed cap s s' B X ∧
      (∀ d, (X d : Multiset (Part n)) = (us.map fun u => outs P u (L u) d).sum) ∧ (∀ d, (X d).length ≤ cnt us L) ∧
      s'.S.npart - Multiset.card (total s.S.nt M') = s.S.npart - Multiset.card (total s.S.nt M) := by
  intro us
  induction us with
  | nil =>
    intro _ s M B _ _ h _ hB _
    exact ⟨s, M, fun _ => [], rfl, rfl, h, fun v => by simp, ⟨fun d => by simpa using hB d, fun d => by simp⟩, fun d => by simp, fun d => by simp, rfl⟩
  | cons u us ih =>
    intro hn s M B hus hM h hr hB hcap
    rw [List.nodup_cons] at hn
    have hu := hus u (by simp)
    have hMu := hM u (by simp)
    have hcnt : cnt (u :: us) L = (L u).length + cnt us L := by unfold cnt; simp
    obtain ⟨s1, l1, X1, e1, n1, h1, p1, pk1, px1, np1⟩ := scanTile_ok P hu h (by rw [hMu]; exact hr u (by simp)) hB
      (fun d => by have := hcap d; rw [hcnt] at this; rw [hMu]; push_cast at this; omega)
    have hX1 : ∀ d, (X1 d).length ≤ (L u).length := fun d => by
      have := outs_card P u (M u) d
      rw [← px1 d, Multiset.coe_card, hMu] at this
      exact this
    obtain ⟨s2, M2, X2, e2, n2, h2, p2, pk2, px2, le2, np2⟩ := ih hn.2 s1 (Function.update M u l1) (fun d => B d ++ X1 d)
      (fun v hv => by rw [n1]; exact hus v (by simp [hv]))
      (fun v hv => by
        have hne : v ≠ u := fun e => hn.1 (by rw [← e]; exact hv)
        rw [Function.update_of_ne hne]; exact hM v (by simp [hv])) h1 (fun v hv => hr v (by simp [hv])) pk1.buf
      (fun d => by
        have := hcap d
        have := hX1 d
        rw [hcnt] at *
        rw [List.length_append]
        push_cast at *
        omega)
    refine ⟨s2, M2, fun d => X1 d ++ X2 d, ?_, by rw [n2, n1], h2, fun v => ?_, ⟨fun d => ?_, fun d => ?_⟩, fun d => ?_, fun d => ?_, ?_⟩
    · rw [List.foldlM_cons, e1]; exact e2
    · rw [p2 v]
      by_cases hvu : v = u
      · subst hvu
        rw [if_neg hn.1, if_pos (by simp), Function.update_self, p1, hM v (by simp)]
      · rw [Function.update_of_ne hvu]
        simp [hvu]
    · rw [← List.append_assoc]; exact pk2.buf d
    · rw [pk2.send d, pk1.send d, List.length_append]; push_cast; ring
    · rw [← Multiset.coe_add, px1, px2, List.map_cons, List.sum_cons, hM u (by simp)]
    · have := hX1 d
      have := le2 d
      rw [List.length_append, hcnt]
      omega
    · rw [← n1, np2, n1, np1]
      have := congrArg Multiset.card (total_upd hu M l1)
      simp only [Multiset.card_add, Multiset.coe_card] at this
      omega

/-- What stays of a species. -/
noncomputable def stays (P : Proc n) (nt : I3) (L : I3 → List (Part n)) : Multiset (Part n) := ((box ⟨1, 1, 1⟩ nt).map fun u => post P u (L u)).sum

/-- What a species hands over. -/
noncomputable def handed (P : Proc n) (nt : I3) (L : I3 → List (Part n)) (d : ℤ) : Multiset (Part n) :=
  ((box ⟨1, 1, 1⟩ nt).map fun u => outs P u (L u) d).sum

theorem cnt_total (nt : I3) (L : I3 → List (Part n)) : cnt (box ⟨1, 1, 1⟩ nt) L = Multiset.card (total nt L) := by
  unfold cnt total
  induction box ⟨1, 1, 1⟩ nt with
  | nil => rfl
  | cons u us ih => simp only [List.map_cons, List.sum_cons, Multiset.card_add, ih, Multiset.coe_card]

/-- Particles have a destination. -/
def Routed (P : Proc n) (nt : I3) (L : I3 → List (Part n)) : Prop :=
  ∀ u, InBox ⟨1, 1, 1⟩ nt u → P.border u = true → ∀ p ∈ L u, ∃ o, route P p = .ok o

theorem scanSpecies_ok (P : Proc n) {cap : ℤ} {s : Sc n} {L : I3 → List (Part n)} {B : ℤ → List (Part n)} (h : HoldsAll s.S L) (hr : Routed P s.S.nt L)
    (hB : ∀ d, Col cap (s.buf d) (B d) ∧ s.cnt d = ((B d).length : ℤ)) (hcap : ∀ d, ((B d).length : ℤ) + Multiset.card (total s.S.nt L) ≤ cap) :
    ∃ s' M' X, scanSpecies P s = .ok s' ∧ s'.S.nt = s.S.nt ∧ HoldsAll s'.S M' ∧ total s.S.nt M' = stays P s.S.nt L ∧ Packed cap s s' B X ∧
      (∀ d, (X d : Multiset (Part n)) = handed P s.S.nt L d) ∧ (∀ d, (X d).length ≤ Multiset.card (total s.S.nt L)) ∧
      s'.S.npart - Multiset.card (total s.S.nt M') = s.S.npart - Multiset.card (total s.S.nt L) := by
  obtain ⟨s', M', X, e, n', h', p, pk, px, le, np⟩ := tiles_ok P (L := L) (box ⟨1, 1, 1⟩ s.S.nt) (nodup_box _ _) s L B
    (fun u hu => mem_box.mp hu) (fun u _ => rfl) h (fun u hu => hr u (mem_box.mp hu)) hB (fun d => by rw [cnt_total]; exact hcap d)
  refine ⟨s', M', X, e, n', h', ?_, pk, px, fun d => by rw [← cnt_total]; exact le d, np⟩
  unfold total stays
  congr 1
  apply List.map_congr_left
  intro u hu
  rw [p u, if_pos hu]

end Picsar.RemapPart
