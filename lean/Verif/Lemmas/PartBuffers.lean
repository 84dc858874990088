import Verif.Spec.PartExchange
import Verif.Lemmas.Tiling
import Verif.Lemmas.Grid
import Mathlib.Tactic.Ring
import Mathlib.Tactic.Linarith
/-
Buffers of particles and the loop over the particles of a tile.
-/
namespace Picsar.PartExchange
open Picsar Picsar.Grid Picsar.Tiling Picsar.ParticleBcs

variable {n : ℕ}

/-- The values of a list of particles. -/
def flat (l : List (Part n)) : List ℝ := l.flatMap vals

theorem vals_length (p : Part n) : (vals p).length = n + 7 := by
  unfold vals; simp

theorem flat_length (l : List (Part n)) : (flat l).length = l.length * (n + 7) := by
  unfold flat
  induction l with
  | nil => simp
  | cons p l ih => rw [List.flatMap_cons, List.length_append, ih, vals_length, List.length_cons]; ring

theorem flat_append (a b : List (Part n)) : flat (a ++ b) = flat a ++ flat b := by
  unfold flat; rw [List.flatMap_append]

/-- A send buffer holds exactly the particles of `l`. -/
structure BufHolds (b : SBuf) (l : List (Part n)) : Prop where
  cnt : b.cnt = l.length
  pos : b.ibuff = l.length * nvar n + 1
  size : b.arr.n = b.nbuff
  arr : b.arr.Holds (flat l)

theorem bufHolds_new : BufHolds (n := n) SBuf.new [] :=
  ⟨rfl, by simp [SBuf.new], rfl, by unfold SBuf.new; exact ⟨by simp [flat, FArr.undef], fun i h => absurd h (by simp [flat])⟩⟩

theorem grow_buf {b : SBuf} {l : List (Part n)} (h : BufHolds b l) :
    ∃ b', b.grow (nvar n) = .ok b' ∧ BufHolds b' l ∧ (l.length : ℤ) * nvar n + nvar n ≤ b'.nbuff := by
  have hl := h.arr.1
  rw [flat_length, h.size] at hl
  push_cast at hl
  have hp := h.pos
  have hnv : nvar n = (n : ℤ) + 7 := rfl
  unfold SBuf.grow
  by_cases hg : b.ibuff + nvar n > b.nbuff
  · rw [if_pos hg]
    have hr : resize1 b.nbuff (2 * (b.nbuff + nvar n + 1)) b.arr = .ok ⟨2 * (b.nbuff + nvar n + 1), fun i => if i ≤ b.nbuff then b.arr.val i else none⟩ := by
      unfold resize1
      have h0 : (0 : ℤ) ≤ b.nbuff := by nlinarith
      rw [if_pos (show 2 * (b.nbuff + nvar n + 1) > b.nbuff by omega), if_pos (by rw [h.size])]
    rw [hr]
    refine ⟨_, rfl, ⟨h.cnt, h.pos, rfl, ?_, fun i hi => ?_⟩, ?_⟩
    · show _ ≤ 2 * (b.nbuff + nvar n + 1)
      rw [flat_length]; push_cast
      nlinarith
    · show (if (i : ℤ) + 1 ≤ b.nbuff then b.arr.val (i + 1) else none) = _
      have := h.arr.1
      rw [h.size] at this
      rw [if_pos (by omega)]
      exact h.arr.2 i hi
    · show _ ≤ 2 * (b.nbuff + nvar n + 1)
      have : (0 : ℤ) ≤ b.nbuff := by nlinarith
      rw [hnv]
      linarith
  · rw [if_neg hg]
    exact ⟨b, rfl, h, by omega⟩

theorem pack_ok {b : SBuf} {l : List (Part n)} (h : BufHolds b l) (p : Part n) : ∃ b', pack p b = .ok b' ∧ BufHolds b' (l ++ [p]) := by
  obtain ⟨b1, e1, h1, hs1⟩ := grow_buf h
  have hnv : nvar n = (n : ℤ) + 7 := rfl
  have hp := h1.pos
  have h0 : (0 : ℤ) ≤ (l.length : ℤ) * nvar n := by rw [hnv]; positivity
  obtain ⟨a, ea, na, lo, hi⟩ := setFrom_ok (vals p) b1.ibuff b1.arr (by omega) (by rw [vals_length, h1.size]; push_cast; omega)
  unfold pack
  rw [e1]
  simp only [except_bind_ok]
  rw [ea]
  refine ⟨_, rfl, ⟨?_, ?_, ?_, ?_, fun i hi' => ?_⟩⟩
  · show b1.cnt + 1 = _
    rw [h1.cnt]; simp
  · show (b1.cnt + 1) * nvar n + 1 = _
    rw [h1.cnt]; simp
  · show a.n = b1.nbuff
    rw [na, h1.size]
  · show _ ≤ a.n
    rw [flat_length, na, h1.size]
    simp only [List.length_append, List.length_singleton]
    push_cast
    rw [hnv] at hs1
    linarith
  · show a.val (i + 1) = _
    have hf : flat (l ++ [p]) = flat l ++ vals p := by rw [flat_append]; simp [flat]
    have hfl : (flat l).length = l.length * (n + 7) := flat_length l
    have hpos : b1.ibuff = ((flat l).length : ℤ) + 1 := by rw [hp, hfl, hnv]; push_cast; ring
    simp only [hf]
    by_cases hlt : i < (flat l).length
    · rw [lo _ (by rw [hpos]; omega), List.getElem_append_left hlt]
      exact h1.arr.2 i hlt
    · have hi2 : i - (flat l).length < (vals p).length := by
        rw [hf, List.length_append] at hi'
        omega
      rw [List.getElem_append_right (by omega), ← hi _ hi2, hpos]
      congr 1
      omega

theorem slice_ok {a : FArr ℝ} : ∀ (l : List ℝ) (k : ℤ), 1 ≤ k → k + l.length - 1 ≤ a.n → (∀ (i : ℕ) (h : i < l.length), a.val (k + i) = some l[i]) →
    slice a k l.length = .ok l := by
  intro l
  induction l with
  | nil => intro k _ _ _; rfl
  | cons v l ih =>
    intro k hk hn hv
    simp only [List.length_cons] at hn
    push_cast at hn
    show (do let v ← a.get k; let r ← slice a (k + 1) l.length; .ok (v :: r)) = _
    rw [FArr.get_ok ⟨hk, by omega⟩ (by simpa using hv 0 (by simp))]
    simp only [except_bind_ok]
    rw [ih (k + 1) (by omega) (by omega) (fun i h => by
      have := hv (i + 1) (by simp; omega)
      simp only [List.getElem_cons_succ] at this
      rw [← this]
      congr 1
      push_cast
      ring)]
    rfl

theorem slice_buf {b : SBuf} {l : List (Part n)} (h : BufHolds b l) : slice b.arr 1 (flat l).length = .ok (flat l) := by
  refine slice_ok (flat l) 1 le_rfl ?_ fun i hi => ?_
  · have := h.arr.1
    omega
  · rw [← h.arr.2 i hi]
    congr 1
    ring

/-- A particle read from an array that holds its values. -/
theorem unpackPart_ok {b : FArr ℝ} {k : ℤ} {p : Part n} (h1 : 1 ≤ k) (h2 : k + n + 6 ≤ b.n)
    (hv : ∀ (i : ℕ) (h : i < (vals p).length), b.val (k + i) = some (vals p)[i]) : unpackPart n b k = .ok p := by
  have hl := vals_length p
  have g : ∀ (i : ℕ) (h : i < (vals p).length), b.get (k + i) = .ok (vals p)[i] := fun i h => FArr.get_ok ⟨by omega, by omega⟩ (hv i h)
  have g0 := g 0 (by omega)
  have g1 := g 1 (by omega)
  have g2 := g 2 (by omega)
  have g3 := g 3 (by omega)
  have g4 := g 4 (by omega)
  have g5 := g 5 (by omega)
  have g6 := g 6 (by omega)
  have gp : ∀ i : Fin n, b.get (k + 7 + i.val) = .ok (p.pid i) := by
    intro i
    have := g (7 + i.val) (by have := i.isLt; omega)
    rw [show k + 7 + (i.val : ℤ) = k + ((7 + i.val : ℕ) : ℤ) by push_cast; ring, this]
    congr 1
    unfold vals
    rw [List.getElem_append_right (by simp)]
    simp
  have hp : ∀ (ks : List (Fin n)) (f : Fin n → ℝ), ks.foldlM (fun (f : Fin n → ℝ) i => (do
      let v ← b.get (k + 7 + i.val)
      .ok (Function.update f i v) : Res (Fin n → ℝ))) f = .ok fun i => if i ∈ ks then p.pid i else f i := by
    intro ks
    induction ks with
    | nil => intro f; simp
    | cons q ks ih =>
      intro f
      rw [List.foldlM_cons, gp q]
      simp only [except_bind_ok]
      rw [ih]
      congr 1
      funext i
      by_cases h1 : i ∈ ks
      · simp [h1]
      · by_cases h2 : i = q
        · subst h2; simp [h1]
        · simp [h1, h2]
  have z0 : k + ((0 : ℕ) : ℤ) = k := by simp
  rw [z0] at g0
  unfold unpackPart
  rw [g0, show k + 1 = k + ((1 : ℕ) : ℤ) from rfl, g1, show k + 2 = k + ((2 : ℕ) : ℤ) from rfl, g2, show k + 3 = k + ((3 : ℕ) : ℤ) from rfl, g3,
    show k + 4 = k + ((4 : ℕ) : ℤ) from rfl, g4, show k + 5 = k + ((5 : ℕ) : ℤ) from rfl, g5, show k + 6 = k + ((6 : ℕ) : ℤ) from rfl, g6]
  simp only [except_bind_ok]
  rw [hp]
  simp [vals]

theorem strided_eq (c : ℕ) : strided (c * nvar n) (nvar n) = (List.range c).map fun (q : ℕ) => 1 + (q : ℤ) * nvar n := by
  unfold strided
  have hnv : nvar n = (n : ℤ) + 7 := rfl
  have hpos : 0 < nvar n := by rw [hnv]; omega
  have ht : ((c : ℤ) * nvar n - 1 + nvar n).tdiv (nvar n) = c := by
    rw [Int.tdiv_eq_ediv_of_nonneg (by nlinarith), show (c : ℤ) * nvar n - 1 + nvar n = (nvar n - 1) + c * nvar n by ring,
      Int.add_mul_ediv_right _ _ hpos.ne', Int.ediv_eq_zero_of_lt (by omega) (by omega), zero_add]
  rw [ht]
  unfold irange
  rw [show ((c : ℤ) - 1 - 0 + 1).toNat = c by omega, List.map_map]
  apply List.map_congr_left
  intro q _
  simp

/-! ### Adding received particles -/

theorem total_upd {nt u : I3} (hu : InBox ⟨1, 1, 1⟩ nt u) (L : I3 → List (Part n)) (l' : List (Part n)) :
    total nt (Function.update L u l') + (L u : Multiset (Part n)) = total nt L + (l' : Multiset (Part n)) := by
  unfold total
  have key : ∀ us : List I3, us.Nodup → u ∈ us → (us.map fun v => (Function.update L u l' v : Multiset (Part n))).sum + (L u : Multiset (Part n)) =
      (us.map fun v => (L v : Multiset (Part n))).sum + (l' : Multiset (Part n)) := by
    intro us
    induction us with
    | nil => intro _ h; simp at h
    | cons v us ih =>
      intro hn hm
      rw [List.nodup_cons] at hn
      simp only [List.map_cons, List.sum_cons]
      by_cases hv : v = u
      · subst hv
        have hrest : (us.map fun w => (Function.update L v l' w : Multiset (Part n))) = us.map fun w => (L w : Multiset (Part n)) :=
          List.map_congr_left fun w hw => by
            have hne : w ≠ v := fun e => hn.1 (by rw [← e]; exact hw)
            rw [Function.update_of_ne hne]
        rw [hrest, Function.update_self]
        ac_rfl
      · rw [Function.update_of_ne hv, add_assoc, ih hn.2 (by rcases List.mem_cons.mp hm with h | h; exact absurd h.symm hv; exact h), add_assoc]
  exact key _ (nodup_box _ _) (mem_box.mpr hu)

theorem addSpecies_ok {idx : Part n → I3} {S : Species n} {L : I3 → List (Part n)} (h : HoldsAll S L) {p : Part n} (hp : InBox ⟨1, 1, 1⟩ S.nt (idx p)) :
    ∃ S' L', addSpecies idx p S = .ok S' ∧ HoldsAll S' L' ∧ S'.nt = S.nt ∧ S'.npart = S.npart + 1 ∧ total S.nt L' = total S.nt L + {p} := by
  obtain ⟨S1, e1, h1, n1, np1⟩ := atTile_ok h hp (addTile_ok (h _ hp) p)
  refine ⟨⟨S1.nt, S1.tiles, S1.npart + 1⟩, _, ?_, h1, n1, by show S1.npart + 1 = _; rw [np1], ?_⟩
  · unfold addSpecies addAt
    rw [e1]
    rfl
  · have := total_upd hp L (L (idx p) ++ [p])
    rw [← Multiset.coe_add, ← add_assoc, add_right_comm] at this
    rw [Multiset.coe_singleton] at this
    exact add_right_cancel this

/-- The loop over the received particles `l`, whose values are at `off+1, ...`. -/
theorem unpackAll_ok {idx : Part n → I3} {b : FArr ℝ} {off : ℕ} {S : Species n} {L : I3 → List (Part n)} (h : HoldsAll S L) (l : List (Part n))
    (hb : ((off : ℤ) + (flat l).length) ≤ b.n) (hv : ∀ (i : ℕ) (h : i < (flat l).length), b.val (off + 1 + i) = some (flat l)[i])
    (hi : ∀ p ∈ l, InBox ⟨1, 1, 1⟩ S.nt (idx p)) {m : ℤ} (hm : m = l.length * nvar n) :
    ∃ S' L', unpackAll idx b off m S = .ok S' ∧ HoldsAll S' L' ∧ S'.nt = S.nt ∧ S'.npart = S.npart + l.length ∧
      total S.nt L' = total S.nt L + (l : Multiset (Part n)) := by
  unfold unpackAll
  rw [hm, strided_eq]
  have key : ∀ c, c ≤ l.length → ∃ S' L', ((List.range c).map fun (q : ℕ) => 1 + (q : ℤ) * nvar n).foldlM (fun S i => (do
      let p ← unpackPart n b (off + i)
      addSpecies idx p S : Res (Species n))) S = .ok S' ∧ HoldsAll S' L' ∧ S'.nt = S.nt ∧ S'.npart = S.npart + c ∧
      total S.nt L' = total S.nt L + ((l.take c : List (Part n)) : Multiset (Part n)) := by
    intro c
    induction c with
    | zero => exact fun _ => ⟨S, L, rfl, h, rfl, by simp, by simp⟩
    | succ c ih =>
      intro hc
      obtain ⟨S1, L1, e1, h1, n1, np1, t1⟩ := ih (by omega)
      have hcl : c < l.length := hc
      have hu : unpackPart n b (off + (1 + (c : ℤ) * nvar n)) = .ok l[c] := by
        have hsplit : flat l = flat (l.take c) ++ (vals l[c] ++ flat (l.drop (c + 1))) := by
          conv_lhs => rw [← List.take_append_drop c l, List.drop_eq_getElem_cons hcl, flat_append]
          rfl
        have hlen : (flat (l.take c)).length = c * (n + 7) := by
          rw [flat_length, List.length_take_of_le hcl.le]
        have hnv : nvar n = (n : ℤ) + 7 := rfl
        have hvl := vals_length l[c]
        refine unpackPart_ok ?_ ?_ fun i hi => ?_
        · have : (0 : ℤ) ≤ (c : ℤ) * nvar n := by rw [hnv]; positivity
          omega
        · have hle := hb
          rw [flat_length] at hle
          have hc' : (c + 1) * (n + 7) ≤ l.length * (n + 7) := Nat.mul_le_mul_right _ hc
          have hc2 : ((c : ℤ) + 1) * ((n : ℤ) + 7) ≤ (l.length : ℤ) * ((n : ℤ) + 7) := by exact_mod_cast hc'
          push_cast at hle
          rw [hnv]
          linarith
        · have hlt : c * (n + 7) + i < (flat l).length := by
            rw [hsplit, List.length_append, List.length_append, hlen]
            omega
          have := hv _ hlt
          have hget : (flat l)[c * (n + 7) + i] = (vals l[c])[i] := by
            simp only [hsplit]
            rw [List.getElem_append_right (by omega), List.getElem_append_left (by omega)]
            congr 1
            omega
          rw [hget] at this
          rw [← this]
          congr 1
          rw [hnv]
          push_cast
          ring
      obtain ⟨S2, L2, e2, h2, n2, np2, t2⟩ := addSpecies_ok (idx := idx) h1 (p := l[c]) (by rw [n1]; exact hi _ (List.getElem_mem hcl))
      refine ⟨S2, L2, ?_, h2, by rw [n2, n1], by rw [np2, np1]; push_cast; ring, ?_⟩
      · rw [List.range_succ, List.map_append, List.foldlM_append, e1]
        simp only [except_bind_ok, List.map_cons, List.map_nil, List.foldlM_cons, List.foldlM_nil]
        rw [hu]
        simp only [except_bind_ok]
        rw [e2]
        rfl
      · rw [← n1, t2, n1, t1, ← List.take_append_getElem hcl, ← Multiset.coe_add, add_assoc, Multiset.coe_singleton]
  have := key l.length le_rfl
  rwa [List.take_length] at this

/-! ### The loop over particles -/

theorem writePart_ok {t : Tile n} {l : List (Part n)} (h : Holds t l) {i : ℕ} (hi : i < l.length) (q : Part n) :
    ∃ t', writePart (i + 1) q t = .ok t' ∧ Holds t' (l.set i q) ∧ t'.alloc = true := by
  have ha : t.alloc = true := by
    by_contra hn
    have := h.empty (by simpa using hn)
    rw [this] at hi
    simp at hi
  have hs := h.size ha
  have hf := h.fits
  unfold writePart
  rw [onArrays_ok (g := fun a => ⟨(t.arr a).n, Function.update (t.arr a).val (i + 1) (some (q.val a))⟩) kept_nodup
    (fun a _ => FArr.set_ok _ ⟨by omega, by rw [hs a]; omega⟩)]
  refine ⟨_, rfl, ⟨?_, ?_, fun _ a => ?_, fun e => ?_, fun a hak j hj => ?_⟩, ha⟩
  · show t.np = _
    rw [h.count, List.length_set]
  · show _ ≤ t.npmax
    rw [List.length_set]; exact hf
  · show (if a ∈ kept n then _ else t.arr a : FArr ℝ).n = t.npmax
    split_ifs
    · exact hs a
    · exact hs a
  · have : t.alloc = false := e
    rw [ha] at this
    cases this
  · show (if a ∈ kept n then _ else t.arr a : FArr ℝ).val (j + 1) = _
    rw [if_pos hak]
    rw [List.length_set] at hj
    show Function.update (t.arr a).val (i + 1) (some (q.val a)) (j + 1) = _
    rw [List.getElem_set]
    by_cases hji : i = j
    · subst hji; simp
    · rw [Function.update_of_ne (by omega), if_neg hji]
      exact h.vals a hak j hj

theorem rmSpecies_ok {S : Species n} {L : I3 → List (Part n)} (h : HoldsAll S L) {u : I3} (hu : InBox ⟨1, 1, 1⟩ S.nt u) {k : ℕ} (hk : k < (L u).length) :
    ∃ S', rmSpecies u (k + 1) S = .ok S' ∧ HoldsAll S' (Function.update L u (swapRm (L u) k)) ∧ S'.nt = S.nt ∧ S'.npart = S.npart - 1 := by
  obtain ⟨S1, e1, h1, n1, np1⟩ := atTile_ok h hu (rmTile_ok (h u hu) hk)
  refine ⟨⟨S1.nt, S1.tiles, S1.npart - 1⟩, ?_, h1, n1, by show S1.npart - 1 = _; rw [np1]⟩
  unfold rmSpecies rmAt
  rw [e1]
  rfl

/-- Buffers and numbers after packing the particles `X d`. -/
structure Packed (s s' : Sc n) (B : I3 → List (Part n)) (X : I3 → List (Part n)) : Prop where
  buf : ∀ d, BufHolds (s'.buf d) (B d ++ X d)
  send : ∀ d, s'.send d = s.send d + (X d).length

/-- The loop over the first `k` particles of a tile, from the last to the first. -/
theorem scan_loop (P : Proc n) {nt u : I3} (hu : InBox ⟨1, 1, 1⟩ nt u) {l : List (Part n)} :
    ∀ (k : ℕ), k ≤ l.length → ∀ (s : Sc n) (L B : I3 → List (Part n)) (r : List (Part n)), s.S.nt = nt → HoldsAll s.S L → (∀ d, BufHolds (s.buf d) (B d)) →
      L u = l.take k ++ r →
    ∃ s' l' X, (irange 1 (k : ℤ)).reverse.foldlM (fun s i => scanOne P u i s) s = .ok s' ∧ s'.S.nt = nt ∧ HoldsAll s'.S (Function.update L u l') ∧
      l'.Perm ((l.take k).filterMap (fun p => keeps (scan .nonBlocking P.A (P.T u) p)) ++ r) ∧ Packed s s' B X ∧
      (∀ d, (X d).Perm ((l.take k).filterMap fun p => sends d (scan .nonBlocking P.A (P.T u) p))) ∧
      s'.S.npart = s.S.npart + l'.length - (L u).length := by
  intro k
  induction k with
  | zero =>
    intro _ s L B r hnt h hB hL
    refine ⟨s, r, fun _ => [], by rw [show ((0 : ℕ) : ℤ) = 0 from rfl, irange_zero]; rfl, hnt, ?_, by simp, ⟨fun d => by simpa using hB d, fun d => by simp⟩, fun d => by simp, ?_⟩
    · have : Function.update L u r = L := by
        rw [Function.update_eq_self_iff, hL]; simp
      rw [this]; exact h
    · rw [hL]; simp
  | succ k ih =>
    intro hk s L B r hnt h hB hL
    have hkl : k < l.length := by omega
    have hlen : (l.take k).length = k := List.length_take_of_le hkl.le
    rw [← List.take_append_getElem hkl, List.append_assoc, List.singleton_append] at hL
    have hku : k < (L u).length := by rw [hL]; simp; omega
    have hget : (L u)[k] = l[k] := by
      simp only [hL]
      rw [List.getElem_append_right (by omega)]
      simp [hlen]
    have hu' : InBox ⟨1, 1, 1⟩ s.S.nt u := hnt ▸ hu
    have htu := h u hu'
    have hfm : ∀ (f : Part n → Option (Part n)), (l.take (k + 1)).filterMap f = (l.take k).filterMap f ++ (f l[k]).toList := by
      intro f
      rw [← List.take_append_getElem hkl, List.filterMap_append]
      congr 1
    have hset : ∀ q, (L u).set k q = l.take k ++ q :: r := by
      intro q
      rw [hL, List.set_append_right _ _ (by omega), hlen]
      simp
    rw [irange_rev_succ, List.foldlM_cons]
    unfold scanOne
    rw [readPart_ok htu hku, hget]
    simp only [except_bind_ok]
    simp only [hfm]
    cases hsc : scan .nonBlocking P.A (P.T u) l[k] with
    | kept q =>
      obtain ⟨S1, e1, h1, n1, np1⟩ := atTile_ok h hu' (writePart_ok htu hku q)
      dsimp only
      rw [e1]
      simp only [except_bind_ok]
      obtain ⟨s', l', X, e', n', h', p', pk, px, np'⟩ := ih (by omega) ⟨S1, s.buf, s.send⟩ _ B (q :: r) (by rw [n1, hnt]) h1 hB
        (by rw [Function.update_self, hset])
      rw [Function.update_idem] at h'
      refine ⟨s', l', X, e', n', h', ?_, ⟨pk.buf, pk.send⟩, fun d => by simpa [sends] using px d, ?_⟩
      · simpa [keeps] using p'
      · rw [np', Function.update_self, List.length_set]
        show S1.npart + _ - _ = _
        rw [np1]
    | removed =>
      obtain ⟨S1, e1, h1, n1, np1⟩ := rmSpecies_ok h hu' hku
      obtain ⟨b', hb, eb⟩ := swapRm_split (l.take k) r l[k]
      rw [hlen, ← hL] at eb
      dsimp only
      rw [e1]
      simp only [except_bind_ok]
      obtain ⟨s', l', X, e', n', h', p', pk, px, np'⟩ := ih (by omega) ⟨S1, s.buf, s.send⟩ _ B b' (by rw [n1, hnt]) h1 hB
        (by rw [Function.update_self, eb])
      rw [Function.update_idem] at h'
      refine ⟨s', l', X, e', n', h', ?_, ⟨pk.buf, pk.send⟩, fun d => by simpa [sends] using px d, ?_⟩
      · simpa [keeps] using p'.trans (List.Perm.append_left _ hb)
      · have := swapRm_length (L u) k hku
        rw [np', Function.update_self]
        show S1.npart + _ - _ = _
        rw [np1]
        omega
    | sent d q =>
      obtain ⟨S1, e1, h1, n1, np1⟩ := atTile_ok h hu' (writePart_ok htu hku q)
      obtain ⟨c, ec, hc⟩ := pack_ok (hB d) q
      have hL1 : Function.update L u ((L u).set k q) u = l.take k ++ q :: r := by rw [Function.update_self, hset]
      obtain ⟨S2, e2, h2, n2, np2⟩ := rmSpecies_ok h1 (u := u) (by rw [n1]; exact hu') (k := k) (by rw [hL1]; simp; omega)
      obtain ⟨b', hb, eb⟩ := swapRm_split (l.take k) r q
      rw [hlen, ← hL1] at eb
      rw [eb, Function.update_idem] at h2
      dsimp only
      rw [e1]
      simp only [except_bind_ok]
      rw [ec]
      simp only [except_bind_ok]
      rw [e2]
      simp only [except_bind_ok]
      obtain ⟨s', l', X, e', n', h', p', pk, px, np'⟩ := ih (by omega) ⟨S2, Function.update s.buf d c, Function.update s.send d (s.send d + 1)⟩ _
        (Function.update B d (B d ++ [q])) b' (by rw [n2, n1, hnt]) h2 (fun e => by
          show BufHolds (Function.update s.buf d c e) _
          by_cases he : e = d
          · subst he; rw [Function.update_self, Function.update_self]; exact hc
          · rw [Function.update_of_ne he, Function.update_of_ne he]; exact hB e)
        (by rw [Function.update_self])
      rw [Function.update_idem] at h'
      refine ⟨s', l', fun e => if e = d then q :: X e else X e, e', n', h', ?_, ⟨fun e => ?_, fun e => ?_⟩, fun e => ?_, ?_⟩
      · simpa [keeps] using p'.trans (List.Perm.append_left _ hb)
      · have := pk.buf e
        by_cases he : e = d
        · subst he
          rw [Function.update_self] at this
          simpa using this
        · rw [Function.update_of_ne he] at this
          simpa [he] using this
      · have := pk.send e
        by_cases he : e = d
        · subst he
          rw [this]
          show Function.update s.send e (s.send e + 1) e + _ = _
          rw [Function.update_self]
          simp
          ring
        · rw [this]
          show Function.update s.send d (s.send d + 1) e + _ = _
          rw [Function.update_of_ne he]
          simp [he]
      · by_cases he : e = d
        · subst he
          simp only [if_true, sends]
          exact ((px e).cons q).trans (List.perm_append_singleton q _).symm
        · have hde : d ≠ e := fun h => he h.symm
          simpa [he, sends, hde] using px e
      · rw [np', Function.update_self]
        show S2.npart + _ - _ = _
        rw [np2, np1, hL]
        simp only [List.length_append, List.length_cons, hb.length_eq]
        push_cast
        ring

/-! ### Tiles and species -/

/-- What stays in tile `u`. -/
noncomputable def post (m : Mode) (P : Proc n) (u : I3) (l : List (Part n)) : Multiset (Part n) :=
  if P.border u = true then ((l.filterMap fun p => keeps (scan m P.A (P.T u) p) : List (Part n)) : Multiset (Part n)) else (l : Multiset (Part n))

/-- What tile `u` hands over in direction `d`. -/
noncomputable def outs (m : Mode) (P : Proc n) (u : I3) (l : List (Part n)) (d : I3) : Multiset (Part n) :=
  if P.border u = true then ((l.filterMap fun p => sends d (scan m P.A (P.T u) p) : List (Part n)) : Multiset (Part n)) else 0

/-- Specification of the treatment of one tile. -/
def TileSpec (m : Mode) (P : Proc n) (f : I3 → Sc n → Res (Sc n)) : Prop :=
  ∀ (u : I3) (s : Sc n) (L B : I3 → List (Part n)), InBox ⟨1, 1, 1⟩ s.S.nt u → HoldsAll s.S L → (∀ d, BufHolds (s.buf d) (B d)) →
    ∃ s' l' X, f u s = .ok s' ∧ s'.S.nt = s.S.nt ∧ HoldsAll s'.S (Function.update L u l') ∧ (l' : Multiset (Part n)) = post m P u (L u) ∧
      Packed s s' B X ∧ (∀ d, (X d : Multiset (Part n)) = outs m P u (L u) d) ∧ s'.S.npart = s.S.npart + l'.length - (L u).length

theorem scanTile_spec (P : Proc n) : TileSpec .nonBlocking P (scanTile P) := by
  intro u s L B hu h hB
  unfold scanTile
  by_cases hb : P.border u = true
  · rw [if_pos hb, (h u hu).count]
    obtain ⟨s', l', X, e, n', h', p', pk, px, np'⟩ := scan_loop P hu (l := L u) _ le_rfl s L B [] rfl h hB (by simp)
    rw [List.take_length] at p' px
    refine ⟨s', l', X, e, n', h', ?_, pk, fun d => ?_, np'⟩
    · unfold post; rw [if_pos hb]; exact Multiset.coe_eq_coe.mpr (by simpa using p')
    · unfold outs; rw [if_pos hb]; exact Multiset.coe_eq_coe.mpr (px d)
  · rw [if_neg hb]
    refine ⟨s, L u, fun _ => [], rfl, rfl, by rw [Function.update_eq_self]; exact h, ?_, ⟨fun d => by simpa using hB d, fun d => by simp⟩, fun d => ?_, by omega⟩
    · unfold post; rw [if_neg hb]
    · unfold outs; rw [if_neg hb]; rfl

/-- All tiles of a species. -/
theorem species_spec {m : Mode} {P : Proc n} {f : I3 → Sc n → Res (Sc n)} (hf : TileSpec m P f) {L : I3 → List (Part n)} :
    ∀ (us : List I3), us.Nodup → ∀ (s : Sc n) (M B : I3 → List (Part n)), (∀ u ∈ us, InBox ⟨1, 1, 1⟩ s.S.nt u) → (∀ u ∈ us, M u = L u) → HoldsAll s.S M →
      (∀ d, BufHolds (s.buf d) (B d)) →
    ∃ s' M' X, us.foldlM (fun s u => f u s) s = .ok s' ∧ s'.S.nt = s.S.nt ∧ HoldsAll s'.S M' ∧
      (∀ v, (M' v : Multiset (Part n)) = if v ∈ us then post m P v (L v) else (M v : Multiset (Part n))) ∧ Packed s s' B X ∧
      (∀ d, (X d : Multiset (Part n)) = (us.map fun u => outs m P u (L u) d).sum) ∧
      s'.S.npart - Multiset.card (total s.S.nt M') = s.S.npart - Multiset.card (total s.S.nt M) := by
  intro us
  induction us with
  | nil =>
    intro _ s M B _ _ h hB
    exact ⟨s, M, fun _ => [], rfl, rfl, h, fun v => by simp, ⟨fun d => by simpa using hB d, fun d => by simp⟩, fun d => by simp, rfl⟩
  | cons u us ih =>
    intro hn s M B hus hM h hB
    rw [List.nodup_cons] at hn
    have hu := hus u (by simp)
    obtain ⟨s1, l1, X1, e1, n1, h1, p1, pk1, px1, np1⟩ := hf u s M B hu h hB
    obtain ⟨s2, M2, X2, e2, n2, h2, p2, pk2, px2, np2⟩ := ih hn.2 s1 (Function.update M u l1) (fun d => B d ++ X1 d)
      (fun v hv => by rw [n1]; exact hus v (by simp [hv]))
      (fun v hv => by
        have hne : v ≠ u := fun e => hn.1 (by rw [← e]; exact hv)
        rw [Function.update_of_ne hne]; exact hM v (by simp [hv])) h1 pk1.buf
    refine ⟨s2, M2, fun d => X1 d ++ X2 d, ?_, by rw [n2, n1], h2, fun v => ?_, ⟨fun d => ?_, fun d => ?_⟩, fun d => ?_, ?_⟩
    · rw [List.foldlM_cons, e1]; exact e2
    · rw [p2 v]
      by_cases hvu : v = u
      · subst hvu
        rw [if_neg hn.1, if_pos (by simp), Function.update_self, p1, hM v (by simp)]
      · rw [Function.update_of_ne hvu]
        simp [hvu]
    · rw [← List.append_assoc]; exact pk2.buf d
    · rw [pk2.send d, pk1.send d, List.length_append]; push_cast; ring
    · rw [← Multiset.coe_add, px1, px2, List.map_cons, List.sum_cons, hM u (by simp)]
    · rw [← n1, np2, n1, np1]
      have := congrArg Multiset.card (total_upd hu M l1)
      simp only [Multiset.card_add, Multiset.coe_card] at this
      omega

/-- Result of the loops over tiles and particles of a species. -/
theorem scan_spec {m : Mode} {P : Proc n} {f : I3 → Sc n → Res (Sc n)} (hf : TileSpec m P f) {s : Sc n} {L B : I3 → List (Part n)} (h : HoldsAll s.S L)
    (hB : ∀ d, BufHolds (s.buf d) (B d)) :
    ∃ s' M' X, (box ⟨1, 1, 1⟩ s.S.nt).foldlM (fun s u => f u s) s = .ok s' ∧ s'.S.nt = s.S.nt ∧ HoldsAll s'.S M' ∧
      total s.S.nt M' = stays m P s.S.nt L ∧ Packed s s' B X ∧ (∀ d, (X d : Multiset (Part n)) = handed m P s.S.nt L d) ∧
      s'.S.npart - Multiset.card (total s.S.nt M') = s.S.npart - Multiset.card (total s.S.nt L) := by
  obtain ⟨s', M', X, e, n', h', p, pk, px, np⟩ := species_spec hf (L := L) (box ⟨1, 1, 1⟩ s.S.nt) (nodup_box _ _) s L B
    (fun u hu => mem_box.mp hu) (fun u _ => rfl) h hB
  refine ⟨s', M', X, e, n', h', ?_, pk, px, np⟩
  unfold total stays
  congr 1
  apply List.map_congr_left
  intro u hu
  rw [p u, if_pos hu]
  rfl

/-! ### Blocking version -/

/-- The particle as it is after the scan. -/
def after (p : Part n) : Outcome n → Part n
  | .kept q => q
  | .sent _ q => q
  | .removed => p

/-- The mask entry. -/
def stay : Outcome n → Bool
  | .kept _ => true
  | _ => false

theorem masked_scan (o : Part n → Outcome n) : ∀ l : List (Part n), masked (l.map fun p => after p (o p)) (l.map fun p => stay (o p)) = l.filterMap fun p => keeps (o p) := by
  intro l
  unfold masked
  induction l with
  | nil => rfl
  | cons p l ih =>
    rw [List.map_cons, List.map_cons, List.zip_cons_cons]
    have hf : ((p :: l).filterMap fun p => keeps (o p)) = (keeps (o p)).toList ++ l.filterMap fun p => keeps (o p) := by
      cases hk : keeps (o p) <;> simp [hk]
    rw [hf, ← ih]
    cases ho : o p <;> rfl

theorem scanB_loop (P : Proc n) {nt u : I3} (hu : InBox ⟨1, 1, 1⟩ nt u) {l : List (Part n)} {s : Sc n} {L B : I3 → List (Part n)}
    (hnt : s.S.nt = nt) (h : HoldsAll s.S L) (hB : ∀ d, BufHolds (s.buf d) (B d)) (hL : L u = l) :
    ∀ k : ℕ, k ≤ l.length → ∃ s' M X, (irange 1 (k : ℤ)).foldlM (fun s i => scanOneB P u i s) (s, FArr.fill l.length true) = .ok (s', M) ∧ s'.S.nt = nt ∧
      HoldsAll s'.S (Function.update L u (((l.take k).map fun p => after p (scan .blocking P.A (P.T u) p)) ++ l.drop k)) ∧
      M.n = l.length ∧ (∀ (i : ℕ) (hi : i < l.length), M.val (i + 1) = some (if i < k then stay (scan .blocking P.A (P.T u) l[i]) else true)) ∧
      Packed s s' B X ∧ (∀ d, X d = (l.take k).filterMap fun p => sends d (scan .blocking P.A (P.T u) p)) ∧ s'.S.npart = s.S.npart := by
  intro k
  induction k with
  | zero =>
    intro _
    refine ⟨s, FArr.fill l.length true, fun _ => [], by rw [show ((0 : ℕ) : ℤ) = 0 from rfl, irange_zero]; rfl, hnt, ?_, rfl, fun i hi => by simp [FArr.fill],
      ⟨fun d => by simpa using hB d, fun d => by simp⟩, fun d => by simp, rfl⟩
    have : Function.update L u (((l.take 0).map fun p => after p (scan .blocking P.A (P.T u) p)) ++ l.drop 0) = L := by
      rw [Function.update_eq_self_iff, hL]; simp
    rw [this]; exact h
  | succ k ih =>
    intro hk
    have hkl : k < l.length := hk
    obtain ⟨s1, M1, X1, e1, n1, h1, m1, v1, pk1, px1, np1⟩ := ih (by omega)
    have hu1 : InBox ⟨1, 1, 1⟩ s1.S.nt u := n1 ▸ hu
    have ht1 := h1 u hu1
    rw [Function.update_self] at ht1
    have hlen : ((l.take k).map fun p => after p (scan .blocking P.A (P.T u) p)).length = k := by simp; omega
    have hkl1 : k < (((l.take k).map fun p => after p (scan .blocking P.A (P.T u) p)) ++ l.drop k).length := by
      rw [List.length_append, hlen, List.length_drop]; omega
    have hget : (((l.take k).map fun p => after p (scan .blocking P.A (P.T u) p)) ++ l.drop k)[k] = l[k] := by
      rw [List.getElem_append_right (by omega)]
      simp only [hlen, List.getElem_drop]
      congr 1
      omega
    have hfm : ∀ (f : Part n → Option (Part n)), (l.take (k + 1)).filterMap f = (l.take k).filterMap f ++ (f l[k]).toList := by
      intro f
      rw [← List.take_append_getElem hkl, List.filterMap_append]
      congr 1
    have hmap : ((l.take (k + 1)).map fun p => after p (scan .blocking P.A (P.T u) p)) ++ l.drop (k + 1) =
        ((l.take k).map fun p => after p (scan .blocking P.A (P.T u) p)) ++ after l[k] (scan .blocking P.A (P.T u) l[k]) :: l.drop (k + 1) := by
      rw [← List.take_append_getElem hkl, List.map_append, List.append_assoc]
      rfl
    have hset : ∀ q, (((l.take k).map fun p => after p (scan .blocking P.A (P.T u) p)) ++ l.drop k).set k q =
        ((l.take k).map fun p => after p (scan .blocking P.A (P.T u) p)) ++ q :: l.drop (k + 1) := by
      intro q
      rw [List.set_append_right _ _ (by omega), hlen, List.drop_eq_getElem_cons hkl, Nat.sub_self, List.set_cons_zero]
    have hv : ∀ (b : Bool), b = stay (scan .blocking P.A (P.T u) l[k]) → ∀ (M : FArr Bool), (∀ i, M.val i = if i = (k : ℤ) + 1 then some b else M1.val i) →
        ∀ (i : ℕ) (hi : i < l.length), M.val (i + 1) = some (if i < k + 1 then stay (scan .blocking P.A (P.T u) l[i]) else true) := by
      intro b hb M hM i hi
      rw [hM]
      by_cases hik : i = k
      · subst hik
        rw [if_pos rfl, if_pos (by omega), hb]
      · rw [if_neg (by omega), v1 i hi]
        by_cases hlt : i < k
        · rw [if_pos hlt, if_pos (by omega)]
        · rw [if_neg hlt, if_neg (by omega)]
    rw [irange_succ, List.foldlM_append, e1]
    simp only [except_bind_ok, List.foldlM_cons, List.foldlM_nil]
    rw [hmap]
    simp only [hfm]
    unfold scanOneB
    dsimp only
    rw [readPart_ok ht1 hkl1, hget]
    simp only [except_bind_ok]
    cases hsc : scan .blocking P.A (P.T u) l[k] with
    | kept q =>
      obtain ⟨S1, e2, h2, n2, np2⟩ := atTile_ok h1 hu1 (writePart_ok ht1 hkl1 q)
      dsimp only
      rw [e2]
      simp only [except_bind_ok]
      rw [hset, Function.update_idem] at h2
      refine ⟨⟨S1, s1.buf, s1.send⟩, M1, X1, rfl, by rw [n2, n1], h2, m1, ?_, ⟨pk1.buf, pk1.send⟩, fun d => by rw [px1 d]; simp [sends], by rw [np2, np1]⟩
      refine hv true (by rw [hsc]; rfl) M1 fun i => ?_
      split_ifs with hi
      · subst hi
        rw [v1 k hkl]; simp
      · rfl
    | removed =>
      dsimp only
      rw [FArr.set_ok false ⟨by omega, by rw [m1]; omega⟩]
      simp only [except_bind_ok]
      refine ⟨s1, ⟨M1.n, Function.update M1.val ((k : ℤ) + 1) (some false)⟩, X1, rfl, n1, ?_, m1, ?_, pk1, fun d => by rw [px1 d]; simp [sends], np1⟩
      · rw [List.drop_eq_getElem_cons hkl] at h1
        exact h1
      · refine hv false (by rw [hsc]; rfl) _ fun i => ?_
        by_cases hi : i = (k : ℤ) + 1
        · subst hi; simp
        · simp [hi]
    | sent d q =>
      obtain ⟨S1, e2, h2, n2, np2⟩ := atTile_ok h1 hu1 (writePart_ok ht1 hkl1 q)
      obtain ⟨c, ec, hc⟩ := pack_ok (pk1.buf d) q
      dsimp only
      rw [e2]
      simp only [except_bind_ok]
      rw [FArr.set_ok false ⟨by omega, by rw [m1]; omega⟩]
      simp only [except_bind_ok]
      rw [ec]
      simp only [except_bind_ok]
      rw [hset, Function.update_idem] at h2
      refine ⟨⟨S1, Function.update s1.buf d c, Function.update s1.send d (s1.send d + 1)⟩, ⟨M1.n, Function.update M1.val ((k : ℤ) + 1) (some false)⟩,
        fun e => if e = d then X1 e ++ [q] else X1 e, rfl, by rw [n2, n1], h2, m1, ?_, ⟨fun e => ?_, fun e => ?_⟩, fun e => ?_, by rw [np2, np1]⟩
      · refine hv false (by rw [hsc]; rfl) _ fun i => ?_
        by_cases hi : i = (k : ℤ) + 1
        · subst hi; simp
        · simp [hi]
      · show BufHolds (Function.update s1.buf d c e) _
        by_cases he : e = d
        · subst he
          rw [Function.update_self]
          simpa [List.append_assoc] using hc
        · rw [Function.update_of_ne he]
          simpa [he] using pk1.buf e
      · show Function.update s1.send d (s1.send d + 1) e = _
        by_cases he : e = d
        · subst he
          rw [Function.update_self, pk1.send e]
          simp
          ring
        · rw [Function.update_of_ne he, pk1.send e]
          simp [he]
      · by_cases he : e = d
        · subst he
          simp [sends, px1 e]
        · have hde : d ≠ e := fun h => he h.symm
          simp [he, sends, hde, px1 e]

theorem rmMaskSpecies_ok {S : Species n} {L : I3 → List (Part n)} (h : HoldsAll S L) {u : I3} (hu : InBox ⟨1, 1, 1⟩ S.nt u) {mask : FArr Bool} {m : List Bool}
    (hm : mask.Holds m) (hl : (L u).length ≤ m.length) : ∃ S' l', rmMaskSpecies u mask S = .ok S' ∧ S'.nt = S.nt ∧ HoldsAll S' (Function.update L u l') ∧
      l'.Perm (masked (L u) m) ∧ S'.npart = S.npart + l'.length - (L u).length := by
  have key : ∀ (l : List (Part n)), l.length ≤ m.length → ∀ (k : ℕ), k ≤ l.length → ∀ (S : Species n) (L : I3 → List (Part n)) (r : List (Part n)),
      InBox ⟨1, 1, 1⟩ S.nt u → HoldsAll S L → L u = l.take k ++ r →
      ∃ S' l', (irange 1 (k : ℤ)).reverse.foldlM (fun S i => (do
        let m ← mask.get i
        if m = false then rmSpecies u i S else .ok S : Res (Species n))) S = .ok S' ∧ S'.nt = S.nt ∧ HoldsAll S' (Function.update L u l') ∧
        l'.Perm (masked (l.take k) (m.take k) ++ r) ∧ S'.npart = S.npart + l'.length - (L u).length := by
    intro l hl k
    induction k with
    | zero =>
      intro _ S L r hu h hL
      refine ⟨S, r, by rw [show ((0 : ℕ) : ℤ) = 0 from rfl, irange_zero]; rfl, rfl, ?_, by simp [masked], by rw [hL]; simp⟩
      have : Function.update L u r = L := by
        rw [Function.update_eq_self_iff, hL]; simp
      rw [this]; exact h
    | succ k ih =>
      intro hk S L r hu h hL
      have hkl : k < l.length := hk
      have hkm : k < m.length := by omega
      have hlen : (l.take k).length = k := List.length_take_of_le hkl.le
      rw [← List.take_append_getElem hkl, List.append_assoc, List.singleton_append] at hL
      have hku : k < (L u).length := by rw [hL]; simp; omega
      rw [irange_rev_succ, List.foldlM_cons, hm.get hkm]
      simp only [except_bind_ok]
      rw [masked_succ l m hkl hkm]
      by_cases hb : m[k] = true
      · rw [if_neg (by rw [hb]; decide), if_pos hb]
        simp only [except_bind_ok]
        obtain ⟨S', l', e', n', h', p', np'⟩ := ih (by omega) S L _ hu h hL
        exact ⟨S', l', e', n', h', by simpa using p', np'⟩
      · obtain ⟨S1, e1, h1, n1, np1⟩ := rmSpecies_ok h hu hku
        obtain ⟨b', hb', eb⟩ := swapRm_split (l.take k) r l[k]
        rw [hlen, ← hL] at eb
        rw [if_pos (by simpa using hb), if_neg hb, e1]
        simp only [except_bind_ok]
        obtain ⟨S', l', e', n', h', p', np'⟩ := ih (by omega) S1 _ b' (by rw [n1]; exact hu) h1 (by rw [Function.update_self, eb])
        rw [Function.update_idem] at h'
        refine ⟨S', l', e', by rw [n', n1], h', by simpa using p'.trans (List.Perm.append_left _ hb'), ?_⟩
        have := swapRm_length (L u) k hku
        rw [np', Function.update_self, np1]
        omega
  obtain ⟨S', l', e', n', h', p', np'⟩ := key (L u) hl _ le_rfl S L [] hu h (by simp)
  refine ⟨S', l', ?_, n', h', ?_, np'⟩
  · unfold rmMaskSpecies
    rw [if_pos hu, (h u hu).count]
    exact e'
  · have : masked (L u) (m.take (L u).length) = masked (L u) m := by
      have hz : ∀ (l : List (Part n)) (m : List Bool), l.zip (m.take l.length) = l.zip m := by
        intro l
        induction l with
        | nil => intro m; rfl
        | cons a l ih =>
          intro m
          cases m with
          | nil => rfl
          | cons b m => rw [List.length_cons, List.take_succ_cons, List.zip_cons_cons, List.zip_cons_cons, ih]
      unfold masked
      rw [hz]
    simpa [this] using p'

theorem scanTileB_spec (P : Proc n) : TileSpec .blocking P (scanTileB P) := by
  intro u s L B hu h hB
  unfold scanTileB
  by_cases hb : P.border u = true
  · rw [if_pos hb, (h u hu).count]
    obtain ⟨s1, M, X, e, n1, h1, m1, v1, pk, px, np1⟩ := scanB_loop P hu rfl h hB rfl (L u).length le_rfl
    rw [List.take_length, List.drop_length, List.append_nil] at h1
    simp only [List.take_length] at px
    have hm : M.Holds ((L u).map fun p => stay (scan .blocking P.A (P.T u) p)) := by
      refine ⟨by rw [m1, List.length_map], fun i hi => ?_⟩
      rw [List.length_map] at hi
      rw [v1 i hi, if_pos hi, List.getElem_map]
    obtain ⟨S', l', e', n', h', p', np'⟩ := rmMaskSpecies_ok h1 (u := u) (by rw [n1]; exact hu) hm (by rw [Function.update_self, List.length_map, List.length_map])
    rw [Function.update_self, masked_scan] at p'
    rw [Function.update_idem] at h'
    rw [e]
    simp only [except_bind_ok]
    rw [e']
    refine ⟨⟨S', s1.buf, s1.send⟩, l', X, rfl, by rw [n', n1], h', ?_, ⟨pk.buf, pk.send⟩, fun d => ?_, ?_⟩
    · unfold post; rw [if_pos hb]; exact Multiset.coe_eq_coe.mpr p'
    · unfold outs; rw [if_pos hb, px d]
    · rw [np', np1, Function.update_self, List.length_map]
  · rw [if_neg hb]
    refine ⟨s, L u, fun _ => [], rfl, rfl, by rw [Function.update_eq_self]; exact h, ?_, ⟨fun d => by simpa using hB d, fun d => by simp⟩, fun d => ?_, by omega⟩
    · unfold post; rw [if_neg hb]
    · unfold outs; rw [if_neg hb]; rfl

end Picsar.PartExchange
