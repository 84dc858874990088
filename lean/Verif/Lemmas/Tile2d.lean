import Verif.Spec.Tile2d
import Verif.Spec.RemapPart
import Verif.Lemmas.PartBuffers
/-
Lemmas for the storage of particles in two dimensions.
-/
namespace Picsar.Tile2d
open Picsar Picsar.Grid Picsar.Tiling Picsar.PartExchange

variable {n : ℕ}

theorem kept2_nodup : (kept2 n).Nodup := by
  unfold kept2
  rw [List.nodup_append]
  refine ⟨by simp, (List.nodup_finRange n).map (fun a b h => by injection h), ?_⟩
  intro a ha b hb
  simp at ha hb
  obtain ⟨k, rfl⟩ := hb
  rcases ha with rfl | rfl | rfl | rfl | rfl | rfl <;> simp

theorem kept_iff (a : Attr n) : a ∈ kept n ↔ a = .y ∨ a ∈ kept2 n := by
  cases a <;> simp [kept, kept2]

/-- The particle `q` with the y of `p`. -/
def withY (p q : Part n) : Part n := { q with y := p.y }

/-- The list after a removal in two dimensions: the last particle takes the place, with the y of the removed one. -/
def swapY (l : List (Part n)) (i : ℕ) (h : i < l.length) : List (Part n) :=
  (l.set i (withY l[i] (l[l.length - 1]'(by omega)))).dropLast

theorem swapY_length (l : List (Part n)) (i : ℕ) (h : i < l.length) : (swapY l i h).length + 1 = l.length := by
  unfold swapY
  rw [List.length_dropLast, List.length_set]
  omega

theorem swapY_get (l : List (Part n)) (i : ℕ) (h : i < l.length) (j : ℕ) (hj : j < (swapY l i h).length) :
    (swapY l i h)[j] = if j = i then withY l[i] (l[l.length - 1]'(by omega)) else l[j]'(by have := swapY_length l i h; omega) := by
  have hj' : j < (l.set i (withY l[i] (l[l.length - 1]'(by omega)))).dropLast.length := hj
  show ((l.set i (withY l[i] (l[l.length - 1]'(by omega)))).dropLast)[j]'hj' = _
  rw [List.getElem_dropLast, List.getElem_set]
  by_cases e : i = j
  · rw [if_pos e, if_pos e.symm]
  · rw [if_neg e, if_neg fun h => e h.symm]

theorem swapY_planar {l : List (Part n)} (hl : ∀ p ∈ l, InPlane p) (i : ℕ) (h : i < l.length) : swapY l i h = swapRm l i := by
  have : withY l[i] (l[l.length - 1]'(by omega)) = l[l.length - 1]'(by omega) := by
    have h1 : l[i].y = 0 := hl _ (List.getElem_mem h)
    have h2 : (l[l.length - 1]'(by omega)).y = 0 := hl _ (List.getElem_mem _)
    unfold withY
    ext <;> simp [h1, h2]
  unfold swapY swapRm
  rw [this, List.getLast?_eq_getElem?, List.getElem?_eq_getElem (by omega)]

theorem rmMove2_ok {t : Tile n} {l : List (Part n)} (h : Holds t l) {i : ℕ} (hi : i < l.length) :
    ∃ t', rmMove2 (i + 1) t = .ok t' ∧ Holds t' (swapY l i hi) ∧ t'.alloc = true := by
  have ha : t.alloc = true := by
    by_contra hn
    have := h.empty (by simpa using hn)
    rw [this] at hi
    simp at hi
  have hs := h.size ha
  have hc := h.count
  have hf := h.fits
  have hl := swapY_length l i hi
  unfold rmMove2
  by_cases hg : (i : ℤ) + 1 = t.np
  · refine ⟨⟨t.np - 1, t.npmax, t.alloc, t.arr⟩, by rw [if_pos hg], ⟨by show t.np - 1 = _; omega, by show _ ≤ t.npmax; omega, h.size, fun e => ?_, ?_⟩, ha⟩
    · rw [show t.alloc = false from e] at ha; cases ha
    · intro a hak j hj
      rw [swapY_get l i hi j hj, if_neg (by omega)]
      exact h.vals a hak j (by omega)
  · have hk : ∀ a ∈ kept2 n, (do
        let v ← (t.arr a).get t.np
        (t.arr a).set (i + 1) v) = .ok ⟨t.npmax, Function.update (t.arr a).val (i + 1) (some (l[l.length - 1].val a))⟩ := by
      intro a hak
      have hv := h.vals a ((kept_iff a).mpr (.inr hak)) (l.length - 1) (by omega)
      rw [show ((l.length - 1 : ℕ) : ℤ) + 1 = t.np by omega] at hv
      rw [FArr.get_ok ⟨by omega, by rw [hs a]; omega⟩ hv]
      simp only [except_bind_ok]
      rw [FArr.set_ok _ ⟨by omega, by rw [hs a]; omega⟩, hs a]
    rw [if_neg hg, onArrays_ok kept2_nodup hk]
    simp only [except_bind_ok]
    refine ⟨_, rfl, ⟨by show t.np - 1 = _; omega, by show _ ≤ t.npmax; omega, fun _ a => ?_, fun e => ?_, ?_⟩, ha⟩
    · dsimp only
      split_ifs
      · rfl
      · exact hs a
    · rw [show t.alloc = false from e] at ha; cases ha
    · intro a hak j hj
      rw [swapY_get l i hi j hj]
      dsimp only
      rcases (kept_iff a).mp hak with rfl | hak2
      · rw [if_neg (by simp [kept2]), h.vals _ hak j (by omega)]
        by_cases hji : j = i
        · subst hji; rw [if_pos rfl]; rfl
        · rw [if_neg hji]
      · rw [if_pos hak2]
        dsimp only
        by_cases hji : j = i
        · subst hji
          rw [Function.update_self, if_pos rfl]
          congr 1
          unfold kept2 at hak2
          cases a <;> first | rfl | simp at hak2
        · rw [Function.update_of_ne (by omega), if_neg hji]
          exact h.vals a hak j (by omega)

theorem rmTile2_ok {t : Tile n} {l : List (Part n)} (h : Holds t l) {i : ℕ} (hi : i < l.length) :
    ∃ t', rmTile2 (i + 1) t = .ok t' ∧ Holds t' (swapY l i hi) := by
  obtain ⟨t1, e1, h1, a1⟩ := rmMove2_ok h hi
  unfold rmTile2
  rw [e1]
  simp only [except_bind_ok]
  have hc1 := h1.count
  unfold shrink
  by_cases hd : t1.np < 2 * t1.npmax / 5
  · rw [if_pos hd]
    by_cases hz : t1.npmax / 2 > 0
    · rw [if_pos hz]
      obtain ⟨t', r1, r2, r3, r4⟩ := resize_ok h1 a1 (new := t1.npmax / 2) (by omega)
      exact ⟨t', r1, r2⟩
    · rw [if_neg hz]; exact ⟨t1, rfl, h1⟩
  · rw [if_neg hd]; exact ⟨t1, rfl, h1⟩

theorem swapRm_perm {α : Type} (l : List α) (k : ℕ) (hk : k < l.length) : (l[k] :: swapRm l k).Perm l := by
  obtain ⟨b', hb, e⟩ := swapRm_split (l.take k) (l.drop (k + 1)) l[k]
  have hsplit : l.take k ++ l[k] :: l.drop (k + 1) = l := by
    rw [← List.drop_eq_getElem_cons hk, List.take_append_drop]
  rw [List.length_take_of_le hk.le, hsplit] at e
  rw [e]
  refine ((List.Perm.append_left _ hb).cons _).trans ?_
  have h2 : (l.take k ++ l[k] :: l.drop (k + 1)).Perm (l[k] :: (l.take k ++ l.drop (k + 1))) := List.perm_middle
  rw [hsplit] at h2
  exact h2.symm

theorem run2_ok : ∀ (ops : List (Op n)) {t : Tile n} {l : List (Part n)} (log : List (Part n)), Holds t l → (∀ p ∈ l, InPlane p) → Valid l.length ops →
    ∃ t' l' log', run2 ops t log = .ok (t', log') ∧ Holds t' l' ∧ (∀ p ∈ l', InPlane p) ∧ (l' ++ log').Perm (l ++ (added ops).map planar ++ log) := by
  intro ops
  induction ops with
  | nil => exact fun log h hp _ => ⟨_, _, _, rfl, h, hp, by simp [added]⟩
  | cons o ops ih =>
    intro t l log h hp hv
    cases o with
    | add p =>
      obtain ⟨t1, e1, h1, -⟩ := addTile_ok h (planar p)
      have hv' : Valid ((l ++ [planar p]).length : ℤ) ops := by
        rw [show (((l ++ [planar p]).length : ℕ) : ℤ) = (l.length : ℤ) + 1 by simp]
        exact hv
      obtain ⟨t2, l2, log2, e2, h2, q2, p2⟩ := ih log h1 (fun q hq => by
        rcases List.mem_append.mp hq with hq | hq
        · exact hp q hq
        · rw [List.mem_singleton] at hq
          rw [hq]
          rfl) hv'
      refine ⟨t2, l2, log2, ?_, h2, q2, p2.trans ?_⟩
      · show (addTile2 p t >>= fun t => run2 ops t log) = _
        unfold addTile2
        rw [e1]
        exact e2
      · simp [added]
    | rm i =>
      obtain ⟨⟨i1, i2⟩, hv'⟩ := hv
      obtain ⟨k, rfl⟩ : ∃ k : ℕ, i = k + 1 := ⟨(i - 1).toNat, by omega⟩
      have hk : k < l.length := by omega
      obtain ⟨t1, e1, h1⟩ := rmTile2_ok h hk
      rw [swapY_planar hp] at h1
      have hl := swapRm_length l k hk
      have hv'' : Valid ((swapRm l k).length : ℤ) ops := by
        rw [show ((swapRm l k).length : ℤ) = (l.length : ℤ) - 1 by omega]
        exact hv'
      have hperm := swapRm_perm l k hk
      obtain ⟨t2, l2, log2, e2, h2, q2, p2⟩ := ih (l[k] :: log) h1 (fun q hq => hp q (hperm.subset (List.mem_cons_of_mem _ hq))) hv''
      refine ⟨t2, l2, log2, ?_, h2, q2, p2.trans ?_⟩
      · show (readPart t (k + 1) >>= fun p => rmTile2 (k + 1) t >>= fun t => run2 ops t (p :: log)) = _
        rw [readPart_ok h hk, except_bind_ok, e1]
        exact e2
      · show (swapRm l k ++ (added ops).map planar ++ l[k] :: log).Perm (l ++ (added ops).map planar ++ log)
        refine List.perm_middle.trans ?_
        rw [← List.cons_append, ← List.cons_append]
        exact ((hperm.append_right _)).append_right _

/-! ### The way through the buffers -/

theorem vals2_length (p : Part n) : (vals2 p).length = n + 6 := by
  unfold vals2; simp

/-- From position `off + 1` on the array has the values of the particles of `l`, `nvar` places for each. -/
def Blocks (a : FArr ℝ) (off : ℤ) (l : List (Part n)) : Prop :=
  ∀ (q : ℕ) (hq : q < l.length) (i : ℕ) (hi : i < (vals2 l[q]).length), a.val (off + q * nvar n + 1 + i) = some (vals2 l[q])[i]

theorem pack2_ok {a : FArr ℝ} {l : List (Part n)} {c : ℤ} (hc : c = l.length) (h : Blocks a 0 l) (p : Part n) (hn : ((l.length : ℤ) + 1) * nvar n ≤ a.n) :
    ∃ a', pack2 (a, c) p = .ok (a', c + 1) ∧ a'.n = a.n ∧ Blocks a' 0 (l ++ [p]) := by
  have hnv : nvar n = (n : ℤ) + 7 := rfl
  have h0 : (0 : ℤ) ≤ (l.length : ℤ) * nvar n := by rw [hnv]; positivity
  rw [add_mul, one_mul] at hn
  subst hc
  obtain ⟨a', ea, na, lo, hi⟩ := setFrom_ok (vals2 p) ((l.length : ℤ) * nvar n + 1) a (by omega) (by rw [vals2_length]; push_cast; omega)
  refine ⟨a', ?_, na, fun q hq i hi' => ?_⟩
  · unfold pack2
    simp only [ea, except_bind_ok]
  · by_cases hql : q < l.length
    · simp only [List.getElem_append_left hql] at hi' ⊢
      rw [lo, h q hql i hi']
      rw [vals2_length] at hi'
      have : ((q : ℤ) + 1) * nvar n ≤ (l.length : ℤ) * nvar n := mul_le_mul_of_nonneg_right (by exact_mod_cast hql) (by rw [hnv]; positivity)
      rw [add_mul, one_mul] at this
      omega
    · have : q = l.length := by simp at hq; omega
      subst this
      simp only [List.getElem_append_right le_rfl, Nat.sub_self, List.getElem_singleton] at hi' ⊢
      rw [zero_add]
      exact hi i hi'

theorem packAll_ok : ∀ (r : List (Part n)) {a : FArr ℝ} {l : List (Part n)} {c : ℤ}, c = l.length → Blocks a 0 l → (((l ++ r).length : ℤ)) * nvar n ≤ a.n →
    ∃ a', r.foldlM pack2 (a, c) = .ok (a', ((l ++ r).length : ℤ)) ∧ a'.n = a.n ∧ Blocks a' 0 (l ++ r)
  | [], a, l, c, hc, h, hn => ⟨a, by simp [hc], rfl, by simpa using h⟩
  | p :: r, a, l, c, hc, h, hn => by
    have hnv : nvar n = (n : ℤ) + 7 := rfl
    obtain ⟨a1, e1, n1, h1⟩ := pack2_ok hc h p (le_trans (mul_le_mul_of_nonneg_right (by simp) (by rw [hnv]; positivity)) hn)
    obtain ⟨a2, e2, n2, h2⟩ := packAll_ok r (a := a1) (l := l ++ [p]) (c := c + 1) (by rw [hc]; simp) h1 (by rw [n1]; simpa using hn)
    refine ⟨a2, ?_, by rw [n2, n1], by simpa using h2⟩
    rw [List.foldlM_cons, e1, except_bind_ok, e2]
    simp

theorem unpackPart2_ok {b : FArr ℝ} {k : ℤ} {p : Part n} (h1 : 1 ≤ k) (h2 : k + n + 5 ≤ b.n)
    (hv : ∀ (i : ℕ) (h : i < (vals2 p).length), b.val (k + i) = some (vals2 p)[i]) : unpackPart2 n b k = .ok (planar p) := by
  have hl := vals2_length p
  have g : ∀ (i : ℕ) (h : i < (vals2 p).length), b.get (k + i) = .ok (vals2 p)[i] := fun i h => FArr.get_ok ⟨by omega, by omega⟩ (hv i h)
  have g0 := g 0 (by omega)
  have g1 := g 1 (by omega)
  have g2 := g 2 (by omega)
  have g3 := g 3 (by omega)
  have g4 := g 4 (by omega)
  have g5 := g 5 (by omega)
  have gp : ∀ i : Fin n, b.get (k + 6 + i.val) = .ok (p.pid i) := by
    intro i
    have := g (6 + i.val) (by have := i.isLt; omega)
    rw [show k + 6 + (i.val : ℤ) = k + ((6 + i.val : ℕ) : ℤ) by push_cast; ring, this]
    congr 1
    unfold vals2
    rw [List.getElem_append_right (by simp)]
    simp
  have hp : ∀ (ks : List (Fin n)) (f : Fin n → ℝ), ks.foldlM (fun (f : Fin n → ℝ) i => (do
      let v ← b.get (k + 6 + i.val)
      .ok (Function.update f i v) : Res (Fin n → ℝ))) f = .ok fun i => if i ∈ ks then p.pid i else f i := by
    intro ks
    induction ks with
    | nil => intro f; simp
    | cons q ks ih =>
      intro f
      rw [List.foldlM_cons, gp q]
      simp only [except_bind_ok]
      rw [ih]
      congr 1
      funext i
      by_cases h1 : i ∈ ks
      · simp [h1]
      · by_cases h2 : i = q
        · subst h2; simp [h1]
        · simp [h1, h2]
  have z0 : k + ((0 : ℕ) : ℤ) = k := by simp
  rw [z0] at g0
  unfold unpackPart2
  rw [g0, show k + 1 = k + ((1 : ℕ) : ℤ) from rfl, g1, show k + 2 = k + ((2 : ℕ) : ℤ) from rfl, g2, show k + 3 = k + ((3 : ℕ) : ℤ) from rfl, g3,
    show k + 4 = k + ((4 : ℕ) : ℤ) from rfl, g4, show k + 5 = k + ((5 : ℕ) : ℤ) from rfl, g5]
  simp only [except_bind_ok]
  rw [hp]
  simp [vals2, planar]

theorem unpackAll2_ok {idx : Part n → I3} {b : FArr ℝ} {off : ℤ} (ho : 0 ≤ off) {S : Species n} {L : I3 → List (Part n)} (h : HoldsAll S L)
    (l : List (Part n)) (hb : off + l.length * nvar n ≤ b.n) (hv : Blocks b off l)
    (hi : ∀ p ∈ l, InBox ⟨1, 1, 1⟩ S.nt (idx (planar p))) :
    ∃ S' L', unpackAll2 idx b off (nvar n * l.length) S = .ok S' ∧ Gained S S' L L' ((l.map planar : List (Part n)) : Multiset (Part n)) := by
  unfold unpackAll2
  rw [mul_comm, strided_eq]
  have hnv : nvar n = (n : ℤ) + 7 := rfl
  have key : ∀ c, c ≤ l.length → ∃ S' L', ((List.range c).map fun (q : ℕ) => 1 + (q : ℤ) * nvar n).foldlM (fun S i => (do
      let p ← unpackPart2 n b (off + i)
      addSpecies2 idx p S : Res (Species n))) S = .ok S' ∧ Gained S S' L L' (((l.take c).map planar : List (Part n)) : Multiset (Part n)) := by
    intro c
    induction c with
    | zero => exact fun _ => ⟨S, L, rfl, rfl, h, by simp, by simp⟩
    | succ c ih =>
      intro hc
      obtain ⟨S1, L1, e1, k1⟩ := ih (by omega)
      have hcl : c < l.length := hc
      have h0 : (0 : ℤ) ≤ (c : ℤ) * nvar n := by rw [hnv]; positivity
      have hle : ((c : ℤ) + 1) * nvar n ≤ (l.length : ℤ) * nvar n := mul_le_mul_of_nonneg_right (by exact_mod_cast hc) (by rw [hnv]; positivity)
      rw [add_mul, one_mul] at hle
      have hu : unpackPart2 n b (off + (1 + (c : ℤ) * nvar n)) = .ok (planar l[c]) := by
        refine unpackPart2_ok (by omega) (by omega) fun i hi' => ?_
        rw [← hv c hcl i hi']
        congr 1
        ring
      obtain ⟨S2, L2, e2, h2, n2, np2, t2⟩ := addSpecies_ok (idx := idx) k1.holds (p := planar l[c]) (by rw [k1.nt]; exact hi _ (List.getElem_mem hcl))
      refine ⟨S2, L2, ?_, by rw [n2, k1.nt], h2, ?_, ?_⟩
      · rw [List.range_succ, List.map_append, List.foldlM_append, e1]
        simp only [except_bind_ok, List.map_cons, List.map_nil, List.foldlM_cons, List.foldlM_nil]
        rw [hu]
        simp only [except_bind_ok]
        rw [show addSpecies2 idx (planar l[c]) S1 = addSpecies idx (planar l[c]) S1 from rfl, e2]
        rfl
      · rw [← k1.nt, t2, k1.nt, k1.all, ← List.take_append_getElem hcl, List.map_append, ← Multiset.coe_add, add_assoc]
        rfl
      · rw [np2, k1.npart, ← List.take_append_getElem hcl, List.map_append, ← Multiset.coe_add, Multiset.card_add]
        simp
        ring
  have := key l.length le_rfl
  rwa [List.take_length] at this

theorem unpackSpecies2_ok {idx : Part n → I3} {b : FArr ℝ} : ∀ (Ss : List (Species n)) (Y : List (List (Part n))) (L : ℕ → I3 → List (Part n)) (off : ℤ), 0 ≤ off →
    Ss.length = Y.length → RemapPart.HoldsSp Ss L → off + Y.flatten.length * nvar n ≤ b.n → Blocks b off Y.flatten →
    (∀ (i : ℕ) (S : Species n) (l : List (Part n)), Ss[i]? = some S → Y[i]? = some l → ∀ p ∈ l, InBox ⟨1, 1, 1⟩ S.nt (idx (planar p))) →
    ∃ (Ss' : List (Species n)) (M : ℕ → I3 → List (Part n)), unpackSpecies2 idx b off (Y.map fun l => (l.length : ℤ)) Ss = .ok Ss' ∧ Ss'.length = Ss.length ∧
      ∀ (i : ℕ) (S : Species n) (l : List (Part n)), Ss[i]? = some S → Y[i]? = some l → ∃ S', Ss'[i]? = some S' ∧
        Gained S S' (L i) (M i) ((l.map planar : List (Part n)) : Multiset (Part n))
  | [], Y, L, off, _, _, _, _, _, _ => ⟨[], L, by unfold unpackSpecies2; rfl, rfl, fun i S l hS => by simp at hS⟩
  | S :: Ss, [], L, off, _, hl, _, _, _, _ => by simp at hl
  | S :: Ss, l :: Y, L, off, ho, hl, h, hb, hv, hi => by
    have hnv : nvar n = (n : ℤ) + 7 := rfl
    rw [List.flatten_cons, List.length_append] at hb
    push_cast at hb
    rw [add_mul] at hb
    rw [List.flatten_cons] at hv
    have h0 : (0 : ℤ) ≤ (l.length : ℤ) * nvar n := by rw [hnv]; positivity
    have h0' : (0 : ℤ) ≤ (Y.flatten.length : ℤ) * nvar n := by rw [hnv]; positivity
    obtain ⟨S1, L1, e1, k1⟩ := unpackAll2_ok (idx := idx) (b := b) ho (h 0 S rfl) l (by omega) (fun q hq i hi' => by
      have := hv q (by rw [List.length_append]; omega) i (by rw [List.getElem_append_left hq]; exact hi')
      rw [this]
      simp only [List.getElem_append_left hq]) (hi 0 S l rfl rfl)
    obtain ⟨Ss', M, e2, l2, k2⟩ := unpackSpecies2_ok (idx := idx) (b := b) Ss Y (fun i => L (i + 1)) (off + nvar n * l.length) (by rw [mul_comm]; omega) (by simpa using hl)
      (fun i T hT => h (i + 1) T (by simpa using hT)) (by rw [mul_comm]; omega) (fun q hq i hi' => by
        have hg : (l ++ Y.flatten)[l.length + q]'(by rw [List.length_append]; omega) = Y.flatten[q] := by
          rw [List.getElem_append_right (by omega)]
          simp
        have := hv (l.length + q) (by rw [List.length_append]; omega) i (by rw [hg]; exact hi')
        simp only [hg] at this
        rw [← this]
        congr 1
        push_cast
        ring) (fun i T m hT hm => hi (i + 1) T m (by simpa using hT) (by simpa using hm))
    refine ⟨S1 :: Ss', fun i => match i with | 0 => L1 | i + 1 => M i, ?_, by simp [l2], fun i T m hT hm => ?_⟩
    · rw [List.map_cons]
      unfold unpackSpecies2
      rw [e1, except_bind_ok, e2]
      rfl
    · cases i with
      | zero =>
        simp only [List.getElem?_cons_zero, Option.some.injEq] at hT hm
        subst hT hm
        exact ⟨S1, rfl, k1⟩
      | succ i =>
        obtain ⟨S', e', k'⟩ := k2 i T m (by simpa using hT) (by simpa using hm)
        exact ⟨S', by simpa using e', k'⟩

theorem handOver_ok {idx : Part n → I3} {nbuff nmax : ℤ} {Y : List (List (Part n))} {Ss : List (Species n)} {L : ℕ → I3 → List (Part n)}
    (hl : Ss.length = Y.length) (h : RemapPart.HoldsSp Ss L) (hn : (Y.flatten.length : ℤ) ≤ nbuff) (hm : nvar n * Y.flatten.length ≤ nmax)
    (hi : ∀ (i : ℕ) (S : Species n) (l : List (Part n)), Ss[i]? = some S → Y[i]? = some l → ∀ p ∈ l, InBox ⟨1, 1, 1⟩ S.nt (idx (planar p))) :
    ∃ (Ss' : List (Species n)) (M : ℕ → I3 → List (Part n)), handOver idx nbuff nmax Y Ss = .ok Ss' ∧ Ss'.length = Ss.length ∧
      ∀ (i : ℕ) (S : Species n) (l : List (Part n)), Ss[i]? = some S → Y[i]? = some l → ∃ S', Ss'[i]? = some S' ∧
        Gained S S' (L i) (M i) ((l.map planar : List (Part n)) : Multiset (Part n)) := by
  have hnv : nvar n = (n : ℤ) + 7 := rfl
  have hsz : (((([] : List (Part n)) ++ Y.flatten).length : ℤ)) * nvar n ≤ (FArr.undef (α := ℝ) (nbuff * nvar n)).n := by
    rw [List.nil_append]
    exact mul_le_mul_of_nonneg_right hn (by rw [hnv]; positivity)
  obtain ⟨a, e, na, ha⟩ := packAll_ok Y.flatten (a := FArr.undef (nbuff * nvar n)) (l := []) (c := 0) (by simp) (fun q hq => by simp at hq) hsz
  rw [List.nil_append] at e ha hsz
  have h0 : (0 : ℤ) ≤ nvar n * (Y.flatten.length : ℤ) := by rw [hnv]; positivity
  have hcnt : ((nvar n * (Y.flatten.length : ℤ)).toNat : ℤ) = nvar n * (Y.flatten.length : ℤ) := Int.toNat_of_nonneg h0
  unfold handOver
  rw [e, except_bind_ok]
  have hraw : raw a (nvar n * (Y.flatten.length : ℤ)).toNat = .ok ((List.range (nvar n * (Y.flatten.length : ℤ)).toNat).map fun i : ℕ => a.val ((i : ℤ) + 1)) := by
    unfold raw
    rw [if_pos]
    rw [hcnt, na, mul_comm]
    exact hsz
  rw [hraw, except_bind_ok]
  unfold received
  rw [if_pos (by rw [List.length_map, List.length_range, hcnt]; exact hm), except_bind_ok]
  refine unpackSpecies2_ok Ss Y L 0 le_rfl hl h (by rw [zero_add, mul_comm]; exact hm) (fun q hq i hi' => ?_) hi
  rw [← ha q hq i hi']
  rw [vals2_length] at hi'
  have hq0 : (0 : ℤ) ≤ (q : ℤ) * nvar n := by rw [hnv]; positivity
  have hle : ((q : ℤ) + 1) * nvar n ≤ (Y.flatten.length : ℤ) * nvar n := mul_le_mul_of_nonneg_right (by exact_mod_cast hq) (by rw [hnv]; positivity)
  rw [add_mul, one_mul] at hle
  rw [mul_comm] at hcnt
  dsimp only
  rw [if_pos (by omega)]
  have hlt : (0 + (q : ℤ) * nvar n + 1 + i - 1).toNat < (nvar n * (Y.flatten.length : ℤ)).toNat := by
    rw [mul_comm (nvar n)]
    omega
  rw [List.getD_eq_getElem?_getD, List.getElem?_map, List.getElem?_range hlt]
  simp only [Option.map_some, Option.getD_some]
  congr 1
  omega

end Picsar.Tile2d
