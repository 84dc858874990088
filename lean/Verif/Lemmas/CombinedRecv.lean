import Verif.Lemmas.CombinedSend
import Mathlib.Tactic.LinearCombination
/-
The exchange between tiles and processes: the receive buffer.
-/
namespace Picsar.Combined
open Picsar Picsar.Grid Picsar.Tiling Picsar.ParticleBcs Picsar.PartExchange

variable {n : ℕ}

theorem place_ok : ∀ (es : List (ℤ × ℝ)) (b : FArr ℝ), (∀ e ∈ es, 1 ≤ e.1 ∧ e.1 ≤ b.n) → (es.map Prod.fst).Nodup →
    ∃ b', es.foldlM (fun (b : FArr ℝ) e => b.set e.1 e.2) b = .ok b' ∧ b'.n = b.n ∧ (∀ i, (∀ e ∈ es, e.1 ≠ i) → b'.val i = b.val i) ∧ ∀ e ∈ es, b'.val e.1 = some e.2 := by
  intro es
  induction es with
  | nil => exact fun b _ _ => ⟨b, rfl, rfl, fun _ _ => rfl, by simp⟩
  | cons a es ih =>
    intro b hb hnd
    rw [List.map_cons, List.nodup_cons] at hnd
    obtain ⟨b', e', n', u', v'⟩ := ih ⟨b.n, Function.update b.val a.1 (some a.2)⟩ (fun e he => hb e (by simp [he])) hnd.2
    have hna : ∀ e ∈ es, e.1 ≠ a.1 := fun e he h => hnd.1 (h ▸ List.mem_map.mpr ⟨e, he, rfl⟩)
    refine ⟨b', ?_, n', fun i hi => ?_, fun e he => ?_⟩
    · rw [List.foldlM_cons, FArr.set_ok a.2 (hb a (by simp))]
      exact e'
    · rw [u' i fun e he => hi e (by simp [he])]
      exact Function.update_of_ne (Ne.symm (hi a (by simp))) _ _
    · rcases List.mem_cons.mp he with rfl | he
      · rw [u' _ hna]; exact Function.update_self _ _ _
      · exact v' e he

theorem grid_inj {st a a' : ℤ} {c c' : ℕ} (h1 : 1 ≤ a) (h2 : a ≤ st) (h1' : 1 ≤ a') (h2' : a' ≤ st) (h : a + c * st = a' + c' * st) : a = a' ∧ c = c' := by
  have key : ∀ {x x' : ℤ} {d d' : ℕ}, 1 ≤ x → x' ≤ st → x + d * st = x' + d' * st → ¬ d' < d := by
    intro x x' d d' hx hx' e hlt
    have h0 : (d' : ℤ) + 1 ≤ d := by omega
    have hst : 0 < st := by omega
    nlinarith
  have k1 := key h1 h2' h
  have k2 := key h1' h2 h.symm
  have hc : c = c' := by omega
  subst hc
  exact ⟨by omega, rfl⟩

theorem zip_flatMap {α β γ : Type} (f : α → List β) (g : α → List γ) : ∀ l : List α, (∀ a ∈ l, (f a).length = (g a).length) →
    (l.flatMap f).zip (l.flatMap g) = l.flatMap fun a => (f a).zip (g a) := by
  intro l
  induction l with
  | nil => intro _; rfl
  | cons a l ih =>
    intro h
    rw [List.flatMap_cons, List.flatMap_cons, List.flatMap_cons, List.zip_append (h a (by simp)), ih fun b hb => h b (by simp [hb])]

/-- Rows `W`, at rows `pos, pos+1, ...` of the receive buffer with `st` rows. -/
def Rows (b : FArr ℝ) (st pos : ℤ) (W : List (Part n)) : Prop :=
  ∀ (c : ℕ), c < n + 7 → ∀ (i : ℕ) (h : i < W.length), b.val (pos + i + c * st) = some (column c W[i])

theorem colMajor_length (W : List (Part n)) : (colMajor W).length = (n + 7) * W.length := by
  unfold colMajor
  rw [List.length_flatMap]
  simp

theorem vec_ok (W : List (Part n)) {b : FArr ℝ} {st pos : ℤ} (h1 : 1 ≤ pos) (h2 : pos + W.length ≤ st) (hb : b.n = st * (n + 7)) :
    ∃ b', place (vecMap (n + 7) (W.length : ℤ) st pos) (colMajor W) b = .ok b' ∧ b'.n = b.n ∧ Rows b' st pos W ∧
      ∀ V : List (Part n), 1 + (V.length : ℤ) ≤ pos → Rows b st 1 V → Rows b' st 1 V := by
  have hzip : (vecMap (n + 7) (W.length : ℤ) st pos).zip (colMajor W) =
      (List.range (n + 7)).flatMap fun (c : ℕ) => ((List.range W.length).map fun (i : ℕ) => pos + i + c * st).zip (W.map (column c)) := by
    unfold vecMap colMajor
    rw [Int.toNat_natCast]
    exact zip_flatMap _ _ _ fun c _ => by simp
  have hmem : ∀ e, e ∈ (vecMap (n + 7) (W.length : ℤ) st pos).zip (colMajor W) ↔
      ∃ c, c < n + 7 ∧ ∃ (i : ℕ) (h : i < W.length), e = (pos + i + c * st, column c W[i]) := by
    intro e
    rw [hzip, List.mem_flatMap]
    constructor
    · rintro ⟨c, hc, he⟩
      obtain ⟨i, hi, rfl⟩ := List.mem_iff_getElem.mp he
      simp only [List.length_zip, List.length_map, List.length_range, min_self] at hi
      exact ⟨c, List.mem_range.mp hc, i, hi, by simp⟩
    · rintro ⟨c, hc, i, hi, rfl⟩
      exact ⟨c, List.mem_range.mpr hc, List.mem_iff_getElem.mpr ⟨i, by simpa using hi, by simp⟩⟩
  have hnd : (((vecMap (n + 7) (W.length : ℤ) st pos).zip (colMajor W)).map Prod.fst).Nodup := by
    rw [List.map_fst_zip (by rw [colMajor_length]; unfold vecMap; rw [List.length_flatMap]; simp)]
    unfold vecMap
    rw [List.nodup_flatMap]
    refine ⟨fun c _ => ?_, ?_⟩
    · refine List.Nodup.map_on (fun i _ j _ e => ?_) List.nodup_range
      omega
    · refine List.Pairwise.imp_of_mem (R := fun a b => a ≠ b) ?_ List.nodup_range
      intro c c' _ _ hne x hx hx'
      rw [List.mem_map] at hx hx'
      obtain ⟨i, hi, rfl⟩ := hx
      obtain ⟨j, hj, e⟩ := hx'
      rw [List.mem_range] at hi hj
      exact hne (grid_inj (st := st) (a := pos + i) (a' := pos + j) (by omega) (by omega) (by omega) (by omega) e.symm).2
  obtain ⟨b', e', n', u', v'⟩ := place_ok _ b (fun e he => by
    obtain ⟨c, hc, i, hi, rfl⟩ := (hmem e).mp he
    dsimp only
    have hst : 0 < st := by omega
    have hc' : (c : ℤ) ≤ n + 6 := by omega
    have hc0 : (0 : ℤ) ≤ c := by omega
    rw [hb]
    constructor
    · nlinarith
    · nlinarith) hnd
  refine ⟨b', e', n', fun c hc i hi => ?_, fun V hV hR c hc i hi => ?_⟩
  · exact v' (pos + i + c * st, column c W[i]) ((hmem _).mpr ⟨c, hc, i, hi, rfl⟩)
  · rw [u' _ ?_]
    · exact hR c hc i hi
    · intro e he h
      obtain ⟨c', hc', j, hj, rfl⟩ := (hmem e).mp he
      dsimp only at h
      have := (grid_inj (st := st) (a := pos + j) (a' := 1 + i) (by omega) (by omega) (by omega) (by omega) h).1
      omega

theorem rows_append {b : FArr ℝ} {st : ℤ} {V W : List (Part n)} (h1 : Rows b st 1 V) (h2 : Rows b st (1 + V.length) W) : Rows b st 1 (V ++ W) := by
  intro c hc i hi
  by_cases h : i < V.length
  · rw [List.getElem_append_left h]; exact h1 c hc i h
  · rw [List.getElem_append_right (by omega)]
    have := h2 c hc (i - V.length) (by simp at hi; omega)
    rw [← this]
    congr 2
    omega

theorem unpackRow_ok {b : FArr ℝ} {st i : ℤ} {p : Part n} (h1 : 1 ≤ i) (h2 : i ≤ st) (hb : b.n = st * (n + 7))
    (hv : ∀ c : ℕ, c < n + 7 → b.val (i + c * st) = some (column c p)) : unpackRow n b st i = .ok p := by
  have g : ∀ c : ℕ, c < n + 7 → b.get (i + c * st) = .ok (column c p) := fun c hc => by
    refine FArr.get_ok ⟨?_, ?_⟩ (hv c hc)
    · have : (0 : ℤ) ≤ c := by omega
      nlinarith
    · have : (c : ℤ) ≤ n + 6 := by omega
      rw [hb]
      nlinarith
  have g0 : b.get i = .ok p.x := by have := g 0 (by omega); simpa [column, vals] using this
  have g1 : b.get (i + st) = .ok p.y := by have := g 1 (by omega); simpa [column, vals] using this
  have g2 : b.get (i + 2 * st) = .ok p.z := g 2 (by omega)
  have g3 : b.get (i + 3 * st) = .ok p.ux := g 3 (by omega)
  have g4 : b.get (i + 4 * st) = .ok p.uy := g 4 (by omega)
  have g5 : b.get (i + 5 * st) = .ok p.uz := g 5 (by omega)
  have g6 : b.get (i + 6 * st) = .ok p.gam := g 6 (by omega)
  have gp : ∀ k : Fin n, b.get (i + (7 + k.val) * st) = .ok (p.pid k) := by
    intro k
    have := g (7 + k.val) (by have := k.isLt; omega)
    rw [show i + (7 + (k.val : ℤ)) * st = i + ((7 + k.val : ℕ) : ℤ) * st by push_cast; ring, this]
    congr 1
    unfold column vals
    rw [List.getD_eq_getElem?_getD, List.getElem?_append_right (by simp)]
    simp
  have hp : ∀ (ks : List (Fin n)) (f : Fin n → ℝ), ks.foldlM (fun (f : Fin n → ℝ) k => (do
      let v ← b.get (i + (7 + k.val) * st)
      .ok (Function.update f k v) : Res (Fin n → ℝ))) f = .ok fun k => if k ∈ ks then p.pid k else f k := by
    intro ks
    induction ks with
    | nil => intro f; simp
    | cons q ks ih =>
      intro f
      rw [List.foldlM_cons, gp q]
      simp only [except_bind_ok]
      rw [ih]
      congr 1
      funext k
      by_cases h1 : k ∈ ks
      · simp [h1]
      · by_cases h2 : k = q
        · subst h2; simp [h1]
        · simp [h1, h2]
  unfold unpackRow
  rw [g0, g1, g2, g3, g4, g5, g6]
  simp only [except_bind_ok]
  rw [hp]
  simp

theorem addRecv_ok {t : Tile n} {l : List (Part n)} (h : Holds t l) (ha : t.alloc = true) (p : Part n) :
    ∃ t', addRecv p t = .ok t' ∧ Holds t' (l ++ [p]) ∧ t'.alloc = true := by
  obtain ⟨t', e, r⟩ := addTile_ok h p
  refine ⟨t', ?_, r⟩
  rw [← e]
  unfold addRecv addTile
  have : ensure t = t := by unfold ensure; simp [ha]
  rw [this, if_neg (by simp [ha])]

open Classical in
/-- One tile reads rows `1..k`. -/
theorem recvRows_ok {P : Proc n} {b : FArr ℝ} {st : ℤ} {V : List (Part n)} (hV : (V.length : ℤ) ≤ st) (hb : b.n = st * (n + 7)) (hR : Rows b st 1 V) {u : I3} {S : Species n}
    {L : I3 → List (Part n)} (h : HoldsAll S L) (hA : AllocAll S) (hu : InBox ⟨1, 1, 1⟩ S.nt u) : ∀ k : ℕ, k ≤ V.length →
    ∃ S', (irange 1 (k : ℤ)).foldlM (fun S i => recvOne P b st u i S) S = .ok S' ∧ HoldsAll S' (Function.update L u (L u ++ (V.take k).filter fun p => P.idx p = u)) ∧
      AllocAll S' ∧ S'.nt = S.nt ∧ S'.npart = S.npart := by
  intro k
  induction k with
  | zero =>
    intro _
    refine ⟨S, by rw [show ((0 : ℕ) : ℤ) = 0 from rfl, irange_zero]; rfl, ?_, hA, rfl, rfl⟩
    simpa using h
  | succ k ih =>
    intro hk
    have hkV : k < V.length := by omega
    obtain ⟨S1, e1, h1, A1, n1, np1⟩ := ih (by omega)
    rw [irange_succ, List.foldlM_append, e1]
    simp only [except_bind_ok, List.foldlM_cons, List.foldlM_nil]
    have hrow : unpackRow n b st ((k : ℤ) + 1) = .ok V[k] := unpackRow_ok (by omega) (by omega) hb fun c hc => by
      rw [← hR c hc k hkV]
      congr 1
      ring
    unfold recvOne
    rw [hrow]
    simp only [except_bind_ok]
    have hu1 : InBox ⟨1, 1, 1⟩ S1.nt u := n1 ▸ hu
    by_cases hi : P.idx V[k] = u
    · rw [if_pos hi]
      obtain ⟨S2, e2, h2, A2, n2, np2⟩ := atTile_alloc h1 A1 hu1 (addRecv_ok (h1 u hu1) (A1 u hu1) V[k])
      rw [e2]
      refine ⟨S2, rfl, ?_, A2, by rw [n2, n1], by rw [np2, np1]⟩
      rw [Function.update_self, Function.update_idem] at h2
      rw [← List.take_append_getElem hkV, List.filter_append, ← List.append_assoc]
      simpa [hi] using h2
    · rw [if_neg hi]
      refine ⟨S1, rfl, ?_, A1, n1, np1⟩
      rw [← List.take_append_getElem hkV, List.filter_append]
      simpa [hi] using h1

open Classical in
/-- All tiles. -/
theorem recvTiles_ok {P : Proc n} {b : FArr ℝ} {V : List (Part n)} (hb : b.n = ((V.length : ℤ) + 1) * (n + 7)) (hR : Rows b ((V.length : ℤ) + 1) 1 V) {nt : I3} {L : I3 → List (Part n)} :
    ∀ us : List I3, us.Nodup → (∀ u ∈ us, InBox ⟨1, 1, 1⟩ nt u) → ∀ (S : Species n) (M : I3 → List (Part n)), S.nt = nt → HoldsAll S M → AllocAll S → (∀ u ∈ us, M u = L u) →
    ∃ S' M', us.foldlM (fun S u => recvTile P b (V.length : ℤ) u S) S = .ok S' ∧ HoldsAll S' M' ∧ AllocAll S' ∧ S'.nt = nt ∧ S'.npart = S.npart ∧
      ∀ v, M' v = if v ∈ us ∧ P.border v = true then L v ++ V.filter fun p => P.idx p = v else M v := by
  intro us
  induction us with
  | nil => exact fun _ _ S M hnt h hA _ => ⟨S, M, rfl, h, hA, hnt, rfl, by simp⟩
  | cons u us ih =>
    intro hnd hbx S M hnt h hA hM
    rw [List.nodup_cons] at hnd
    rw [List.foldlM_cons]
    unfold recvTile
    by_cases hbo : P.border u = true
    · rw [if_pos hbo]
      obtain ⟨S1, e1, h1, A1, n1, np1⟩ := recvRows_ok (P := P) (by omega) hb hR h hA (hnt ▸ hbx u (by simp)) V.length le_rfl
      rw [e1]
      simp only [except_bind_ok]
      obtain ⟨S', M', e', h', A', n', np', m'⟩ := ih hnd.2 (fun v hv => hbx v (by simp [hv])) S1 _ (by rw [n1, hnt]) h1 A1 (fun v hv => by
        rw [Function.update_of_ne (fun e => hnd.1 (by rw [← e]; exact hv)), hM v (by simp [hv])])
      refine ⟨S', M', e', h', A', n', by rw [np', np1], fun v => ?_⟩
      rw [m' v]
      by_cases hvu : v = u
      · subst hvu
        rw [if_neg (fun hh => hnd.1 hh.1), Function.update_self, if_pos ⟨by simp, hbo⟩, hM v (by simp), List.take_length]
      · rw [Function.update_of_ne hvu]
        simp [hvu]
    · rw [if_neg hbo]
      simp only [except_bind_ok]
      obtain ⟨S', M', e', h', A', n', np', m'⟩ := ih hnd.2 (fun v hv => hbx v (by simp [hv])) S M hnt h hA (fun v hv => hM v (by simp [hv]))
      refine ⟨S', M', e', h', A', n', np', fun v => ?_⟩
      rw [m' v]
      by_cases hvu : v = u
      · subst hvu
        rw [if_neg (fun hh => hbo hh.2), if_neg (fun hh => hbo hh.2)]
      · simp [hvu]

open Classical in
theorem recvSpecies_ok {P : Proc n} {b : FArr ℝ} {V : List (Part n)} (hb : b.n = ((V.length : ℤ) + 1) * (n + 7)) (hR : Rows b ((V.length : ℤ) + 1) 1 V) {S : Species n} {L : I3 → List (Part n)}
    (h : HoldsAll S L) (hA : AllocAll S) :
    ∃ S' M', recvSpecies P b (V.length : ℤ) S = .ok S' ∧ HoldsAll S' M' ∧ AllocAll S' ∧ S'.nt = S.nt ∧ S'.npart = S.npart + V.length ∧
      ∀ v, InBox ⟨1, 1, 1⟩ S.nt v → M' v = if P.border v = true then L v ++ V.filter fun p => P.idx p = v else L v := by
  unfold recvSpecies
  by_cases h0 : (V.length : ℤ) > 0
  · rw [if_pos h0]
    obtain ⟨S', M', e', h', A', n', np', m'⟩ := recvTiles_ok (P := P) hb hR (L := L) (box ⟨1, 1, 1⟩ S.nt) (nodup_box _ _) (fun u hu => mem_box.mp hu) S L rfl h hA (fun _ _ => rfl)
    rw [e']
    refine ⟨⟨S'.nt, S'.tiles, S'.npart + V.length⟩, M', rfl, h', A', n', by dsimp only; rw [np'], fun v hv => ?_⟩
    rw [m' v]
    simp [mem_box.mpr hv]
  · rw [if_neg h0]
    have hV : V = [] := List.length_eq_zero_iff.mp (by omega)
    subst hV
    exact ⟨S, L, rfl, h, hA, rfl, by simp, fun v _ => by simp⟩

end Picsar.Combined
