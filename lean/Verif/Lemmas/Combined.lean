import Verif.Spec.Combined
import Verif.Spec.ParticleBcs
import Verif.Lemmas.PartMatch
import Verif.Lemmas.ParticleBcs
import Verif.Lemmas.TileOmp
/-
The exchange between tiles and processes: the local part.
-/
namespace Picsar.Combined
open Picsar Picsar.Grid Picsar.Tiling Picsar.ParticleBcs Picsar.PartExchange

variable {n : ℕ}

/-! ### One particle -/

theorem axis_comb (A : Ax → Axis) (T : TileLim) (a : Ax) (p : Part n) (d : I3) (rm : Bool) :
    (axis .combined A T a p d rm = .stop .removed) ∨ (∃ q, axis .combined A T a p d rm = .stop (.kept (clampAll .combined A T q))) ∨
    ∃ p' d', axis .combined A T a p d rm = .go p' d' rm ∧ (∀ b, b ≠ a → pos p' b = pos p b ∧ dirOf d' b = dirOf d b) ∧
      ((Within A p a ∧ dirOf d' a = dirOf d a) ∨ (¬ Within A p a ∧ (dirOf d' a = -1 ∨ dirOf d' a = 1))) := by
  have key : ∀ (side kind : ℤ) (wall x0 : ℝ), (side = -1 ∨ side = 1) → ¬ Within A p a →
      (cases .combined A T a side kind wall x0 p (setDir d a side) rm = .stop .removed) ∨
      (∃ q, cases .combined A T a side kind wall x0 p (setDir d a side) rm = .stop (.kept (clampAll .combined A T q))) ∨
      ∃ p' d', cases .combined A T a side kind wall x0 p (setDir d a side) rm = .go p' d' rm ∧ (∀ b, b ≠ a → pos p' b = pos p b ∧ dirOf d' b = dirOf d b) ∧
        ((Within A p a ∧ dirOf d' a = dirOf d a) ∨ (¬ Within A p a ∧ (dirOf d' a = -1 ∨ dirOf d' a = 1))) := by
    intro side kind wall x0 hs hw
    unfold cases
    by_cases h1 : kind = 1
    · rw [if_pos h1]; exact .inl rfl
    · rw [if_neg h1, if_neg (by simp)]
      by_cases h3 : kind = 3
      · rw [if_pos h3]; exact .inr (.inl ⟨_, rfl⟩)
      · rw [if_neg h3]
        exact .inr (.inr ⟨_, _, rfl, fun b hb => by simp [hb], .inr ⟨hw, by simpa using hs⟩⟩)
  have kf : ∀ (side : ℤ) (x0 : ℝ), (side = -1 ∨ side = 1) → ¬ Within A p a →
      (face .combined A T a side x0 p d rm = .stop .removed) ∨ (∃ q, face .combined A T a side x0 p d rm = .stop (.kept (clampAll .combined A T q))) ∨
      ∃ p' d', face .combined A T a side x0 p d rm = .go p' d' rm ∧ (∀ b, b ≠ a → pos p' b = pos p b ∧ dirOf d' b = dirOf d b) ∧
        ((Within A p a ∧ dirOf d' a = dirOf d a) ∨ (¬ Within A p a ∧ (dirOf d' a = -1 ∨ dirOf d' a = 1))) := by
    intro side x0 hs hw
    unfold face
    by_cases hb : (if side = -1 then (A a).bmin else (A a).bmax) = true
    · rw [if_pos hb]; exact key _ _ _ _ hs hw
    · rw [if_neg hb]
      exact .inr (.inr ⟨_, _, rfl, fun b hb => by simp [hb], .inr ⟨hw, by simpa using hs⟩⟩)
  unfold axis
  dsimp only
  rw [if_neg (by simp), if_pos (rfl : Mode.combined = Mode.combined)]
  by_cases h1 : pos p a < (A a).lo
  · rw [if_pos h1]; exact kf _ _ (.inl rfl) fun w => absurd w.1 (not_le.mpr h1)
  · rw [if_neg h1]
    by_cases h2 : pos p a ≥ (A a).hi
    · rw [if_pos h2]; exact kf _ _ (.inr rfl) fun w => absurd w.2 (not_lt.mpr h2)
    · rw [if_neg h2]
      exact .inr (.inr ⟨p, d, rfl, fun _ _ => ⟨rfl, rfl⟩, .inl ⟨⟨not_lt.mp h1, not_le.mp h2⟩, rfl⟩⟩)

theorem scan_stay {A : Ax → Axis} {T : TileLim} {p : Part n} (h : inTile T p ∨ ¬ outDom A p) : scan .combined A T p = .kept p := by
  unfold scan; rw [if_pos ⟨rfl, h⟩]

theorem scan_out {A : Ax → Axis} {T : TileLim} {p : Part n} (h1 : ¬ inTile T p) (h2 : outDom A p) :
    (scan .combined A T p = .removed) ∨ (∃ q, scan .combined A T p = .kept (clampAll .combined A T q)) ∨
    ∃ d q, scan .combined A T p = .sent d q ∧ d ∈ dirs := by
  unfold scan
  rw [if_neg (by tauto)]
  rcases axis_comb A T .x p ⟨0, 0, 0⟩ false with e | ⟨q, e⟩ | ⟨px, dx, e, sx, cx⟩ <;> rw [e]
  · exact .inl rfl
  · exact .inr (.inl ⟨q, rfl⟩)
  show (finish .combined ((axis .combined A T .y px dx false).andThen _) = _) ∨ (∃ q, finish .combined ((axis .combined A T .y px dx false).andThen _) = _) ∨
    ∃ d q, finish .combined ((axis .combined A T .y px dx false).andThen _) = _ ∧ _
  rcases axis_comb A T .y px dx false with e | ⟨q, e⟩ | ⟨py, dy, e, sy, cy⟩ <;> rw [e]
  · exact .inl rfl
  · exact .inr (.inl ⟨q, rfl⟩)
  show (finish .combined (axis .combined A T .z py dy false) = _) ∨ (∃ q, finish .combined (axis .combined A T .z py dy false) = _) ∨
    ∃ d q, finish .combined (axis .combined A T .z py dy false) = _ ∧ _
  rcases axis_comb A T .z py dy false with e | ⟨q, e⟩ | ⟨pz, dz, e, sz, cz⟩ <;> rw [e]
  · exact .inl rfl
  · exact .inr (.inl ⟨q, rfl⟩)
  refine .inr (.inr ⟨dz, pz, rfl, ?_⟩)
  have wy : Within A px .y ↔ Within A p .y := by unfold Within; rw [(sx .y (by simp)).1]
  have wz : Within A py .z ↔ Within A p .z := by unfold Within; rw [(sy .z (by simp)).1, (sx .z (by simp)).1]
  have hj : dz.j = dx.j := by have a := (sz .x (by simp)).2; have b := (sy .x (by simp)).2; exact a.trans b
  have hk : dz.k = dy.k := (sz .y (by simp)).2
  have ejy : dx.k = 0 := (sx .y (by simp)).2
  have ejz : dy.l = 0 := by have a := (sy .z (by simp)).2; have b := (sx .z (by simp)).2; exact a.trans b
  rw [wy] at cy
  rw [wz] at cz
  have cx' : (Within A p .x ∧ dz.j = 0) ∨ (¬ Within A p .x ∧ (dz.j = -1 ∨ dz.j = 1)) := by rw [hj]; exact cx
  have cy' : (Within A p .y ∧ dz.k = 0) ∨ (¬ Within A p .y ∧ (dz.k = -1 ∨ dz.k = 1)) := by 
    rcases cy with ⟨a, b⟩ | ⟨a, b⟩
    · exact .inl ⟨a, by rw [hk]; exact (show dy.k = dx.k from b).trans ejy⟩
    · exact .inr ⟨a, by rw [hk]; exact b⟩
  have cz' : (Within A p .z ∧ dz.l = 0) ∨ (¬ Within A p .z ∧ (dz.l = -1 ∨ dz.l = 1)) := by
    rcases cz with ⟨a, b⟩ | c
    · exact .inl ⟨a, (show dz.l = dy.l from b).trans ejz⟩
    · exact .inr c
  have hne : ¬ (Within A p .x ∧ Within A p .y ∧ Within A p .z) := by
    rintro ⟨a, b, c⟩
    obtain ⟨e, he⟩ := h2
    have : Within A p e := by cases e <;> assumption
    rcases he with he | he
    · exact absurd this.1 (not_le.mpr he)
    · exact absurd this.2 (not_lt.mpr he)
  rw [mem_dirs]
  have hbx : dz.j = -1 ∨ dz.j = 0 ∨ dz.j = 1 := by
    rcases cx' with ⟨-, h⟩ | ⟨-, h | h⟩ <;> omega
  have hby : dz.k = -1 ∨ dz.k = 0 ∨ dz.k = 1 := by
    rcases cy' with ⟨-, h⟩ | ⟨-, h | h⟩ <;> omega
  have hbz : dz.l = -1 ∨ dz.l = 0 ∨ dz.l = 1 := by
    rcases cz' with ⟨-, h⟩ | ⟨-, h | h⟩ <;> omega
  refine ⟨?_, fun h0 => ?_⟩
  · unfold InBox; dsimp only; omega
  · have a1 := abs_nonneg dz.j
    have a2 := abs_nonneg dz.k
    have a3 := abs_nonneg dz.l
    have b1 : dz.j = 0 := abs_eq_zero.mp (by omega)
    have b2 : dz.k = 0 := abs_eq_zero.mp (by omega)
    have b3 : dz.l = 0 := abs_eq_zero.mp (by omega)
    refine hne ⟨?_, ?_, ?_⟩
    · rcases cx' with h | h
      · exact h.1
      · omega
    · rcases cy' with h | h
      · exact h.1
      · omega
    · rcases cz' with h | h
      · exact h.1
      · omega

theorem scan_sent {A : Ax → Axis} {T : TileLim} {p : Part n} {d : I3} {q : Part n} (h : scan .combined A T p = .sent d q) : ¬ inTile T p ∧ outDom A p ∧ d ∈ dirs := by
  by_cases hs : inTile T p ∨ ¬ outDom A p
  · rw [scan_stay hs] at h; cases h
  · push Not at hs
    refine ⟨hs.1, hs.2, ?_⟩
    rcases scan_out hs.1 hs.2 with e | ⟨q', e⟩ | ⟨d', q', e, hd⟩
    · rw [e] at h; cases h
    · rw [e] at h; cases h
    · rw [e] at h; injection h with h1 h2; exact h1 ▸ hd

theorem ibOf_range {d : I3} (h : d ∈ dirs) : 1 ≤ ibOf d ∧ ibOf d ≤ 27 := by
  obtain ⟨h1, -⟩ := mem_dirs.mp h
  unfold InBox at h1
  unfold ibOf
  dsimp only at h1
  omega

theorem ibOf_inj {d e : I3} (hd : d ∈ dirs) (he : e ∈ dirs) (h : ibOf d = ibOf e) : d = e := by
  obtain ⟨h1, -⟩ := mem_dirs.mp hd
  obtain ⟨h2, -⟩ := mem_dirs.mp he
  unfold InBox at h1 h2
  unfold ibOf at h
  dsimp only at h1 h2
  have a : d.j = e.j := by omega
  have b : d.k = e.k := by omega
  have c : d.l = e.l := by omega
  cases d; cases e; simp_all

/-! ### Tile buffers -/

/-- A tile buffer holds the lists `B`, per number of direction. -/
structure TBHolds (b : TBuf n) (B : ℤ → List (Part n)) : Prop where
  np : ∀ ib, b.np ib = (B ib).length
  room : ∀ ib, ((B ib).length : ℤ) < b.size
  size : ∀ ib, (b.rows ib).n = b.size
  vals : ∀ ib (i : ℕ) (h : i < (B ib).length), (b.rows ib).val (i + 1) = some (B ib)[i]

theorem tb_new (c : Bool) {bs : ℤ} (h : 1 ≤ bs) : TBHolds (n := n) (TBuf.new c bs) fun _ => [] :=
  ⟨fun _ => rfl, fun _ => by simp [TBuf.new]; omega, fun _ => rfl, fun _ i h => absurd h (Nat.not_lt_zero i)⟩

theorem push_ok {b : TBuf n} {B : ℤ → List (Part n)} (h : TBHolds b B) (ha : b.alloc = true) {ib : ℤ} (hi : 1 ≤ ib ∧ ib ≤ 27) (q : Part n) :
    ∃ b', push ib q b = .ok b' ∧ b'.alloc = true ∧ TBHolds b' (Function.update B ib (B ib ++ [q])) := by
  have hr := h.room ib
  have hn := h.np ib
  unfold push
  rw [if_neg (by simp [ha]), if_neg (by simpa using hi), FArr.set_ok q ⟨by omega, by rw [h.size]; omega⟩]
  simp only [except_bind_ok]
  have base : ∀ jb (i : ℕ) (hi : i < (Function.update B ib (B ib ++ [q]) jb).length),
      (Function.update b.rows ib ⟨(b.rows ib).n, Function.update (b.rows ib).val (b.np ib + 1) (some q)⟩ jb).val (i + 1) =
        some (Function.update B ib (B ib ++ [q]) jb)[i] := by
    intro jb i hi
    by_cases hj : jb = ib
    · subst hj
      simp only [Function.update_self] at hi ⊢
      by_cases hil : i < (B jb).length
      · rw [Function.update_of_ne (by omega), List.getElem_append_left hil]
        exact h.vals jb i hil
      · have : i = (B jb).length := by simp at hi; omega
        subst this
        rw [hn, Function.update_self]
        simp
    · simp only [Function.update_of_ne hj] at hi ⊢
      exact h.vals jb i hi
  have bnp : ∀ jb, Function.update b.np ib (b.np ib + 1) jb = ((Function.update B ib (B ib ++ [q]) jb).length : ℤ) := by
    intro jb
    by_cases hj : jb = ib
    · subst hj; simp [hn]
    · simp [Function.update_of_ne hj, h.np jb]
  have bsz : ∀ jb, (Function.update b.rows ib ⟨(b.rows ib).n, Function.update (b.rows ib).val (b.np ib + 1) (some q)⟩ jb).n = b.size := by
    intro jb
    by_cases hj : jb = ib
    · subst hj; simp [h.size]
    · simp [Function.update_of_ne hj, h.size jb]
  have blen : ∀ jb, ((Function.update B ib (B ib ++ [q]) jb).length : ℤ) ≤ b.size ∧ (jb ≠ ib → ((Function.update B ib (B ib ++ [q]) jb).length : ℤ) < b.size) := by
    intro jb
    by_cases hj : jb = ib
    · subst hj; simp; omega
    · have := h.room jb
      simp only [Function.update_of_ne hj]
      exact ⟨this.le, fun _ => this⟩
  by_cases hf : b.np ib + 1 = b.size
  · rw [if_pos hf]
    refine ⟨_, rfl, rfl, ⟨bnp, fun jb => ?_, fun jb => rfl, fun jb i hi => ?_⟩⟩
    · have := (blen jb).1
      have : 0 < b.size := by omega
      show _ < b.size * 2
      omega
    · show (regrow b.size (b.size * 2) _).val _ = _
      unfold regrow
      have := (blen jb).1
      dsimp only
      rw [if_pos (by rw [if_pos (by omega)]; omega)]
      exact base jb i hi
  · rw [if_neg hf]
    refine ⟨_, rfl, rfl, ⟨bnp, fun jb => ?_, bsz, base⟩⟩
    show _ < b.size
    by_cases hj : jb = ib
    · subst hj
      have := bnp jb
      rw [Function.update_self] at this
      rw [← this]
      omega
    · exact (blen jb).2 hj

/-! ### Tiles -/

theorem atTile_alloc {S : Species n} {L : I3 → List (Part n)} (h : HoldsAll S L) (hA : AllocAll S) {u : I3} (hu : InBox ⟨1, 1, 1⟩ S.nt u)
    {f : Tile n → Res (Tile n)} {l' : List (Part n)} (hf : ∃ t', f (S.tiles u) = .ok t' ∧ Holds t' l' ∧ t'.alloc = true) :
    ∃ S', atTile u f S = .ok S' ∧ HoldsAll S' (Function.update L u l') ∧ AllocAll S' ∧ S'.nt = S.nt ∧ S'.npart = S.npart := by
  obtain ⟨t', e, ht, ha⟩ := hf
  refine ⟨⟨S.nt, Function.update S.tiles u t', S.npart⟩, ?_, fun v hv => ?_, fun v hv => ?_, rfl, rfl⟩
  · unfold atTile
    rw [if_pos hu, e]
    rfl
  · dsimp only
    by_cases hvu : v = u
    · subst hvu
      rw [Function.update_self, Function.update_self]
      exact ht
    · rw [Function.update_of_ne hvu, Function.update_of_ne hvu]
      exact h v hv
  · dsimp only
    by_cases hvu : v = u
    · subst hvu
      rw [Function.update_self]
      exact ha
    · rw [Function.update_of_ne hvu]
      exact hA v hv

/-- The particle if it is put into the buffer number `ib`. -/
def sendsIb (ib : ℤ) : Outcome n → Option (Part n)
  | .sent d q => if ibOf d = ib then some q else none
  | _ => none

open Classical in
/-- The particle if it stays and belongs to `T`. -/
noncomputable def into (P : Proc n) (u T : I3) (p : Part n) : Option (Part n) := if home P u p = T then keeps (scan .combined P.A (P.T u) p) else none

theorem comb_loop {P : Proc n} {nt : I3} (hbox : ∀ p, ¬ outDom P.A p → InBox ⟨1, 1, 1⟩ nt (P.idx p)) (hhome : ∀ p, ¬ outDom P.A p → inTile (P.T (P.idx p)) p)
    {u : I3} (hu : InBox ⟨1, 1, 1⟩ nt u) {l : List (Part n)} :
    ∀ (k : ℕ), k ≤ l.length → ∀ (s : Sc3 n) (L : I3 → List (Part n)) (B : ℤ → List (Part n)) (r : List (Part n)), s.S.nt = nt → HoldsAll s.S L → AllocAll s.S →
      TBHolds (s.tb u) B → (∀ p ∈ l, ∀ d q, scan .combined P.A (P.T u) p = .sent d q → (s.tb u).alloc = true) → L u = l.take k ++ r →
    ∃ s' L' X, (irange 1 (k : ℤ)).reverse.foldlM (fun s i => combOne P u i s) s = .ok s' ∧ s'.S.nt = nt ∧ HoldsAll s'.S L' ∧ AllocAll s'.S ∧
      s'.S.npart = s.S.npart ∧ (∀ v, v ≠ u → s'.tb v = s.tb v) ∧ s'.cnt = s.cnt ∧ TBHolds (s'.tb u) X ∧
      (∀ ib, (X ib : Multiset (Part n)) = (B ib : Multiset (Part n)) + ((l.take k).filterMap fun p => sendsIb ib (scan .combined P.A (P.T u) p) : List (Part n))) ∧
      ∀ T, (L' T : Multiset (Part n)) = (if T = u then (r : Multiset (Part n)) else (L T : Multiset (Part n))) +
        (((l.take k).filterMap (into P u T) : List (Part n)) : Multiset (Part n)) := by
  intro k
  induction k with
  | zero =>
    intro _ s L B r hnt h hA hB _ hL
    refine ⟨s, L, B, by rw [show ((0 : ℕ) : ℤ) = 0 from rfl, irange_zero]; rfl, hnt, h, hA, rfl, fun _ _ => rfl, rfl, hB, fun ib => by simp, fun T => ?_⟩
    by_cases hT : T = u
    · subst hT; simp [hL]
    · simp [hT]
  | succ k ih =>
    intro hk s L B r hnt h hA hB hal hL
    have hkl : k < l.length := by omega
    have hlen : (l.take k).length = k := List.length_take_of_le hkl.le
    rw [← List.take_append_getElem hkl, List.append_assoc, List.singleton_append] at hL
    have hku : k < (L u).length := by rw [hL]; simp; omega
    have hget : (L u)[k] = l[k] := by
      simp only [hL]
      rw [List.getElem_append_right (by omega)]
      simp [hlen]
    have hu' : InBox ⟨1, 1, 1⟩ s.S.nt u := hnt ▸ hu
    have htu := h u hu'
    have hfm : ∀ (f : Part n → Option (Part n)), (((l.take (k + 1)).filterMap f : List (Part n)) : Multiset (Part n)) =
        (((l.take k).filterMap f : List (Part n)) : Multiset (Part n)) + ((f l[k]).toList : Multiset (Part n)) := by
      intro f
      rw [← List.take_append_getElem hkl, List.filterMap_append, ← Multiset.coe_add]
      congr 1
    have hset : ∀ q, (L u).set k q = l.take k ++ q :: r := by
      intro q
      rw [hL, List.set_append_right _ _ (by omega), hlen]
      simp
    rw [irange_rev_succ, List.foldlM_cons]
    unfold combOne
    rw [readPart_ok htu hku, hget]
    simp only [except_bind_ok]
    simp only [hfm]
    by_cases hin : inTile (P.T u) l[k]
    · rw [if_pos hin]
      simp only [except_bind_ok]
      have hsc : scan .combined P.A (P.T u) l[k] = .kept l[k] := scan_stay (.inl hin)
      have hh : home P u l[k] = u := by unfold home; rw [if_pos (.inl hin)]
      obtain ⟨s', L', X, e', n', h', A', np', tb', c', pk, px, m'⟩ := ih (by omega) s L B _ hnt h hA hB hal hL
      refine ⟨s', L', X, e', n', h', A', np', tb', c', pk, fun ib => by rw [px ib, hsc]; simp [sendsIb], fun T => ?_⟩
      rw [m' T]
      unfold into
      rw [hsc, hh]
      by_cases hT : T = u
      · subst hT
        simp only [if_true, keeps, Option.toList_some, ← Multiset.cons_coe, ← Multiset.singleton_add]
        abel
      · simp only [if_neg hT, if_neg (Ne.symm hT), Option.toList_none, Multiset.coe_nil, add_zero]
    · rw [if_neg hin]
      by_cases hout : outDom P.A l[k]
      · rw [if_pos hout]
        have hh : home P u l[k] = u := by unfold home; rw [if_pos (.inr hout)]
        cases hsc : scan .combined P.A (P.T u) l[k] with
        | kept q =>
          obtain ⟨S1, e1, h1, A1, n1, np1⟩ := atTile_alloc h hA hu' (writePart_ok htu hku q)
          dsimp only
          rw [e1]
          simp only [except_bind_ok]
          obtain ⟨s', L', X, e', n', h', A', np', tb', c', pk, px, m'⟩ := ih (by omega) ⟨S1, s.tb, s.cnt⟩ _ B (q :: r) (by rw [n1, hnt]) h1 A1 hB hal
            (by rw [Function.update_self, hset])
          refine ⟨s', L', X, e', n', h', A', by rw [np']; exact np1, tb', c', pk, fun ib => by rw [px ib]; simp [sendsIb], fun T => ?_⟩
          rw [m' T]
          have hi : into P u T l[k] = if u = T then some q else none := by unfold into; rw [hsc, hh]; rfl
          rw [hi]
          by_cases hT : T = u
          · subst hT
            simp only [if_true, Option.toList_some, ← Multiset.cons_coe, ← Multiset.singleton_add]
            abel
          · simp only [if_neg hT, if_neg (Ne.symm hT), Option.toList_none, Multiset.coe_nil, add_zero, Function.update_of_ne hT]
        | removed =>
          obtain ⟨S1, e1, h1, A1, n1, np1⟩ := atTile_alloc h hA hu' (rmTile_ok htu hku)
          have hrm : rmAt u (k + 1) s.S = .ok S1 := e1
          obtain ⟨b', hb, eb⟩ := swapRm_split (l.take k) r l[k]
          rw [hlen, ← hL] at eb
          dsimp only
          rw [hrm]
          simp only [except_bind_ok]
          obtain ⟨s', L', X, e', n', h', A', np', tb', c', pk, px, m'⟩ := ih (by omega) ⟨S1, s.tb, s.cnt⟩ _ B b' (by rw [n1, hnt]) h1 A1 hB hal
            (by rw [Function.update_self, eb])
          refine ⟨s', L', X, e', n', h', A', by rw [np']; exact np1, tb', c', pk, fun ib => by rw [px ib]; simp [sendsIb], fun T => ?_⟩
          rw [m' T]
          have hi : into P u T l[k] = none := by unfold into; rw [hsc]; simp [keeps]
          rw [hi]
          by_cases hT : T = u
          · subst hT
            simp only [if_true, Option.toList_none, Multiset.coe_nil, add_zero, Multiset.coe_eq_coe.mpr hb]
          · simp only [if_neg hT, Option.toList_none, Multiset.coe_nil, add_zero, Function.update_of_ne hT]
        | sent d q =>
          obtain ⟨S1, e1, h1, A1, n1, np1⟩ := atTile_alloc h hA hu' (writePart_ok htu hku q)
          have hd := (scan_sent hsc).2.2
          obtain ⟨c, ec, ac, hc⟩ := push_ok hB (hal _ (List.getElem_mem hkl) d q hsc) (ibOf_range hd) q
          have hL1 : Function.update L u ((L u).set k q) u = l.take k ++ q :: r := by rw [Function.update_self, hset]
          obtain ⟨S2, e2, h2, A2, n2, np2⟩ := atTile_alloc h1 A1 (u := u) (by rw [n1]; exact hu')
            (rmTile_ok (h1 u (by rw [n1]; exact hu')) (i := k) (by rw [hL1]; simp; omega))
          have hrm : rmAt u (k + 1) S1 = .ok S2 := e2
          obtain ⟨b', hb, eb⟩ := swapRm_split (l.take k) r q
          rw [hlen, ← hL1] at eb
          rw [eb, Function.update_idem] at h2
          dsimp only
          rw [e1]
          simp only [except_bind_ok]
          rw [ec]
          simp only [except_bind_ok]
          rw [hrm]
          simp only [except_bind_ok]
          obtain ⟨s', L', X, e', n', h', A', np', tb', c', pk, px, m'⟩ := ih (by omega) ⟨S2, Function.update s.tb u c, s.cnt⟩ _
            (Function.update B (ibOf d) (B (ibOf d) ++ [q])) b' (by rw [n2, n1, hnt]) h2 A2 (by dsimp only; rw [Function.update_self]; exact hc)
            (fun _ _ _ _ _ => by dsimp only; rw [Function.update_self]; exact ac) (by rw [Function.update_self])
          refine ⟨s', L', X, e', n', h', A', by rw [np']; show S2.npart = _; rw [np2, np1], fun v hv => ?_, c', pk, fun ib => ?_, fun T => ?_⟩
          · rw [tb' v hv]; exact Function.update_of_ne hv _ _
          · rw [px ib]
            by_cases hib : ib = ibOf d
            · subst hib
              simp only [Function.update_self, sendsIb, if_true, Option.toList_some, ← Multiset.coe_add]
              abel
            · simp only [Function.update_of_ne hib, sendsIb, if_neg (Ne.symm hib), Option.toList_none, Multiset.coe_nil, add_zero]
          · rw [m' T]
            have hi : into P u T l[k] = none := by unfold into; rw [hsc]; simp [keeps]
            rw [hi]
            by_cases hT : T = u
            · subst hT
              simp only [if_true, Option.toList_none, Multiset.coe_nil, add_zero, Multiset.coe_eq_coe.mpr hb]
            · simp only [if_neg hT, Option.toList_none, Multiset.coe_nil, add_zero, Function.update_of_ne hT]
      · rw [if_neg hout]
        have hsc : scan .combined P.A (P.T u) l[k] = .kept l[k] := scan_stay (.inr hout)
        have hh : home P u l[k] = P.idx l[k] := by unfold home; rw [if_neg (by tauto)]
        have hne : P.idx l[k] ≠ u := fun e => hin (e ▸ hhome _ hout)
        obtain ⟨S1, e1, h1, A1, n1, np1⟩ := atTile_alloc h hA hu' (rmTile_ok htu hku)
        have hib : InBox ⟨1, 1, 1⟩ S1.nt (P.idx l[k]) := by rw [n1, hnt]; exact hbox _ hout
        obtain ⟨S2, e2, h2, A2, n2, np2⟩ := atTile_alloc h1 A1 hib (addTile_ok (h1 _ hib) l[k])
        have hrm : rmAt u (k + 1) s.S = .ok S1 := e1
        have hadd : addAt (P.idx l[k]) l[k] S1 = .ok S2 := e2
        rw [hrm]
        simp only [except_bind_ok]
        rw [hadd]
        simp only [except_bind_ok]
        obtain ⟨b', hb, eb⟩ := swapRm_split (l.take k) r l[k]
        rw [hlen, ← hL] at eb
        obtain ⟨s', L', X, e', n', h', A', np', tb', c', pk, px, m'⟩ := ih (by omega) ⟨S2, s.tb, s.cnt⟩ _ B b' (by rw [n2, n1, hnt]) h2 A2 hB hal (by
          rw [Function.update_of_ne (Ne.symm hne), Function.update_self, eb])
        refine ⟨s', L', X, e', n', h', A', by rw [np']; show S2.npart = _; rw [np2, np1], tb', c', pk, fun ib => by rw [px ib, hsc]; simp [sendsIb], fun T => ?_⟩
        rw [m' T]
        have hi : into P u T l[k] = if P.idx l[k] = T then some l[k] else none := by unfold into; rw [hsc, hh]; rfl
        rw [hi]
        by_cases hT : T = u
        · subst hT
          simp only [if_true, if_neg hne, Option.toList_none, Multiset.coe_nil, add_zero, Multiset.coe_eq_coe.mpr hb]
        · rw [if_neg hT, if_neg hT]
          by_cases hTi : T = P.idx l[k]
          · subst hTi
            rw [Function.update_self, Function.update_of_ne hT, if_pos rfl, ← Multiset.coe_add, Option.toList_some]
            abel
          · rw [Function.update_of_ne hTi, Function.update_of_ne hT, if_neg (Ne.symm hTi)]
            simp

/-- One tile. -/
theorem combTile_ok {P : Proc n} {nt : I3} (hbox : ∀ p, ¬ outDom P.A p → InBox ⟨1, 1, 1⟩ nt (P.idx p)) (hhome : ∀ p, ¬ outDom P.A p → inTile (P.T (P.idx p)) p)
    {bs : ℤ} (hbs : 1 ≤ bs) {u : I3} (hu : InBox ⟨1, 1, 1⟩ nt u) {s : Sc3 n} {L : I3 → List (Part n)} (hnt : s.S.nt = nt) (h : HoldsAll s.S L) (hA : AllocAll s.S)
    (hb : ∀ p ∈ L u, ∀ d q, scan .combined P.A (P.T u) p = .sent d q → P.border u = true) :
    ∃ s' L' X, combTile P bs u s = .ok s' ∧ s'.S.nt = nt ∧ HoldsAll s'.S L' ∧ AllocAll s'.S ∧ s'.S.npart = s.S.npart ∧ (∀ v, v ≠ u → s'.tb v = s.tb v) ∧
      TBHolds (s'.tb u) X ∧ (∀ ib, s'.cnt ib = s.cnt ib + (X ib).length) ∧
      (∀ ib, (X ib : Multiset (Part n)) = (((L u).filterMap fun p => sendsIb ib (scan .combined P.A (P.T u) p) : List (Part n)) : Multiset (Part n))) ∧
      ∀ T, (L' T : Multiset (Part n)) = (if T = u then 0 else (L T : Multiset (Part n))) + (((L u).filterMap (into P u T) : List (Part n)) : Multiset (Part n)) := by
  obtain ⟨s', L', X, e, n', h', A', np', tb', c', pk, px, m⟩ := comb_loop hbox hhome hu (l := L u) _ le_rfl
    ⟨s.S, Function.update s.tb u (TBuf.new (P.border u) bs), s.cnt⟩ L (fun _ => []) [] hnt h hA
    (by dsimp only; rw [Function.update_self]; exact tb_new _ hbs) (fun p hp d q e => by dsimp only; rw [Function.update_self]; exact hb p hp d q e) (by simp)
  rw [List.take_length] at px m
  refine ⟨⟨s'.S, s'.tb, if P.border u = true then fun ib => s'.cnt ib + (s'.tb u).np ib else s'.cnt⟩, L', X, ?_, n', h', A', np', fun v hv => ?_, pk, fun ib => ?_,
    fun ib => by rw [px ib]; simp, fun T => by rw [m T]; rfl⟩
  · unfold combTile
    rw [(h u (hnt ▸ hu)).count, e]
    rfl
  · rw [show s'.tb v = _ from tb' v hv]
    exact Function.update_of_ne hv _ _
  · by_cases hbo : P.border u = true
    · simp only [if_pos hbo]
      rw [c', pk.np]
    · simp only [if_neg hbo]
      rw [c']
      have h0 : (X ib : Multiset (Part n)) = 0 := by
        rw [px ib]
        simp only [Multiset.coe_nil, zero_add, Multiset.coe_eq_zero, List.filterMap_eq_nil_iff]
        intro p hp
        cases hsc : scan .combined P.A (P.T u) p with
        | sent d q => exact absurd (hb p hp d q hsc) hbo
        | kept q => rfl
        | removed => rfl
      rw [(Multiset.coe_eq_zero _).mp h0]
      simp

theorem into_again {P : Proc n} (hhome : ∀ p, ¬ outDom P.A p → inTile (P.T (P.idx p)) p) {u v : I3} (hv : v ≠ u) {p q : Part n} (h : into P v u p = some q) :
    inTile (P.T u) q := by
  unfold into at h
  split_ifs at h with hc
  unfold home at hc
  split_ifs at hc with hs
  · exact absurd hc hv
  · push Not at hs
    rw [scan_stay (.inr hs.2)] at h
    simp only [keeps, Option.some.injEq] at h
    subst h
    rw [← hc]
    exact hhome _ hs.2

/-- All tiles, in any order. -/
theorem combs_ok {P : Proc n} {nt : I3} {L : I3 → List (Part n)} (hP : Sorted P nt L) {bs : ℤ} (hbs : 1 ≤ bs) : ∀ (us ps : List I3), (ps ++ us).Nodup →
    (∀ u ∈ us, InBox ⟨1, 1, 1⟩ nt u) → ∀ (s : Sc3 n) (M : I3 → List (Part n)) (X : I3 → ℤ → List (Part n)), s.S.nt = nt → HoldsAll s.S M → AllocAll s.S →
    (∀ v ∈ ps, TBHolds (s.tb v) (X v)) →
    (∀ v ∈ ps, ∀ ib, (X v ib : Multiset (Part n)) = (((L v).filterMap fun p => sendsIb ib (scan .combined P.A (P.T v) p) : List (Part n)) : Multiset (Part n))) →
    (∀ ib, s.cnt ib = (ps.map fun v => ((X v ib).length : ℤ)).sum) →
    (∀ T, (M T : Multiset (Part n)) = (if T ∈ ps then 0 else (L T : Multiset (Part n))) +
      (ps.map fun u => (((L u).filterMap (into P u T) : List (Part n)) : Multiset (Part n))).sum) →
    ∃ (s' : Sc3 n) (M' : I3 → List (Part n)) (X' : I3 → ℤ → List (Part n)), us.foldlM (fun s u => combTile P bs u s) s = .ok s' ∧ s'.S.nt = nt ∧ s'.S.npart = s.S.npart ∧ HoldsAll s'.S M' ∧ AllocAll s'.S ∧
      (∀ v ∈ ps ++ us, TBHolds (s'.tb v) (X' v)) ∧
      (∀ v ∈ ps ++ us, ∀ ib, (X' v ib : Multiset (Part n)) = (((L v).filterMap fun p => sendsIb ib (scan .combined P.A (P.T v) p) : List (Part n)) : Multiset (Part n))) ∧
      (∀ ib, s'.cnt ib = ((ps ++ us).map fun v => ((X' v ib).length : ℤ)).sum) ∧
      ∀ T, (M' T : Multiset (Part n)) = (if T ∈ ps ++ us then 0 else (L T : Multiset (Part n))) +
        ((ps ++ us).map fun u => (((L u).filterMap (into P u T) : List (Part n)) : Multiset (Part n))).sum := by
  intro us
  induction us with
  | nil => exact fun ps _ _ s M X hnt h hA h1 h2 h3 hM => ⟨s, M, X, rfl, hnt, rfl, h, hA, by simpa using h1, by simpa using h2, by simpa using h3, by simpa using hM⟩
  | cons u us ih =>
    intro ps hnd hb s M X hnt h hA h1 h2 h3 hM
    have hub := hb u List.mem_cons_self
    have hnd' : ((ps ++ [u]) ++ us).Nodup := by simpa using hnd
    have hups : u ∉ ps := by
      intro hc
      rw [List.nodup_append] at hnd
      exact hnd.2.2 u hc u List.mem_cons_self rfl
    have hMu := hM u
    rw [if_neg hups] at hMu
    have hin : ∀ q ∈ (ps.map fun v => (((L v).filterMap (into P v u) : List (Part n)) : Multiset (Part n))).sum, inTile (P.T u) q := by
      intro q hq
      rw [mem_listSum] at hq
      obtain ⟨w, hw, hq⟩ := hq
      obtain ⟨v, hv, rfl⟩ := List.mem_map.mp hw
      rw [Multiset.mem_coe, List.mem_filterMap] at hq
      obtain ⟨p, -, hp⟩ := hq
      exact into_again hP.home (fun e => hups (by rw [← e]; exact hv)) hp
    have hsplit : ∀ (f : Part n → Option (Part n)), (((M u).filterMap f : List (Part n)) : Multiset (Part n)) =
        (((L u).filterMap f : List (Part n)) : Multiset (Part n)) +
          ((ps.map fun v => (((L v).filterMap (into P v u) : List (Part n)) : Multiset (Part n))).sum).filterMap f := by
      intro f
      rw [← Multiset.filterMap_coe, ← Multiset.filterMap_coe, hMu, Multiset.filterMap_add]
    have hkeep : ∀ (f : Part n → Option (Part n)) (W : Multiset (Part n)), (∀ q ∈ W, f q = some q) → W.filterMap f = W := by
      intro f W
      induction W using Multiset.induction_on with
      | empty => intro _; rfl
      | cons a W ihW =>
        intro hW
        rw [Multiset.filterMap_cons_some _ _ _ (hW a (by simp)), ihW fun q hq => hW q (by simp [hq])]
    have hdrop : ∀ (f : Part n → Option (Part n)) (W : Multiset (Part n)), (∀ q ∈ W, f q = none) → W.filterMap f = 0 := by
      intro f W
      induction W using Multiset.induction_on with
      | empty => intro _; rfl
      | cons a W ihW =>
        intro hW
        rw [Multiset.filterMap_cons_none _ _ (hW a (by simp)), ihW fun q hq => hW q (by simp [hq])]
    obtain ⟨s1, M1, Y, e1, n1, g1, A1, np1, tb1, pk1, c1, px1, m1⟩ := combTile_ok hP.box hP.home hbs hub hnt h hA (fun p hp d q e => by
      have : p ∈ (M u : Multiset (Part n)) := hp
      rw [hMu, Multiset.mem_add] at this
      rcases this with hp' | hp'
      · exact hP.border u hub p hp' d q e
      · rw [scan_stay (.inl (hin p hp'))] at e; cases e)
    have key : ∀ T, ((ps.map fun v => (((L v).filterMap (into P v u) : List (Part n)) : Multiset (Part n))).sum).filterMap (into P u T) =
        if T = u then (ps.map fun v => (((L v).filterMap (into P v u) : List (Part n)) : Multiset (Part n))).sum else 0 := by
      intro T
      have hi : ∀ q ∈ (ps.map fun v => (((L v).filterMap (into P v u) : List (Part n)) : Multiset (Part n))).sum, into P u T q = if u = T then some q else none := by
        intro q hq
        have := hin q hq
        unfold into home
        rw [if_pos (Or.inl this), scan_stay (.inl this)]
        rfl
      by_cases hT : T = u
      · subst hT
        rw [if_pos rfl]
        exact hkeep _ _ fun q hq => by rw [hi q hq, if_pos rfl]
      · rw [if_neg hT]
        exact hdrop _ _ fun q hq => by rw [hi q hq, if_neg (Ne.symm hT)]
    have hYs : ∀ ib, (Y ib : Multiset (Part n)) = (((L u).filterMap fun p => sendsIb ib (scan .combined P.A (P.T u) p) : List (Part n)) : Multiset (Part n)) := by
      intro ib
      rw [px1 ib, hsplit, hdrop _ _ (fun q hq => by rw [scan_stay (.inl (hin q hq))]; rfl), add_zero]
    obtain ⟨s2, M2, X2, e2, n2, np2, g2, A2, a2, b2, c2, m2⟩ := ih (ps ++ [u]) hnd' (fun v hv => hb v (List.mem_cons_of_mem _ hv)) s1 M1 (Function.update X u Y) n1 g1 A1
      (fun v hv => by
        by_cases hvu : v = u
        · subst hvu; rw [Function.update_self]; exact pk1
        · rw [Function.update_of_ne hvu, tb1 v hvu]
          exact h1 v (by simpa [hvu] using hv))
      (fun v hv ib => by
        by_cases hvu : v = u
        · subst hvu; rw [Function.update_self]; exact hYs ib
        · rw [Function.update_of_ne hvu]
          exact h2 v (by simpa [hvu] using hv) ib)
      (fun ib => by
        rw [c1 ib, h3 ib, List.map_append, List.sum_append]
        congr 1
        · refine congrArg List.sum (List.map_congr_left fun v hv => ?_)
          rw [Function.update_of_ne (fun e => hups (by rw [← e]; exact hv))]
        · simp)
      (fun T => by
        rw [m1 T, hM T, hsplit, key T, List.map_append, List.sum_append]
        by_cases hT : T = u
        · subst hT
          simp [hups]
          abel
        · have : (T ∈ ps ++ [u]) = (T ∈ ps) := by simp [hT]
          simp only [this, if_neg hT]
          simp
          abel)
    refine ⟨s2, M2, X2, ?_, n2, by rw [np2, np1], g2, A2, by simpa using a2, by simpa using b2, by simpa using c2, by simpa using m2⟩
    rw [List.foldlM_cons, e1]
    exact e2

/-- State of a species after part 1. -/
structure Moved (P : Proc n) (S : Species n) (L : I3 → List (Part n)) (s : Sc3 n) (M : I3 → List (Part n)) (X : I3 → ℤ → List (Part n)) : Prop where
  nt : s.S.nt = S.nt
  npart : s.S.npart = S.npart
  holds : HoldsAll s.S M
  alloc : AllocAll s.S
  buf : ∀ v, InBox ⟨1, 1, 1⟩ S.nt v → TBHolds (s.tb v) (X v)
  sent : ∀ v, InBox ⟨1, 1, 1⟩ S.nt v → ∀ d ∈ dirs, (X v (ibOf d) : Multiset (Part n)) = (((L v).filterMap fun p => sends d (scan .combined P.A (P.T v) p) : List (Part n)) : Multiset (Part n))
  cnt : ∀ ib, s.cnt ib = ((box ⟨1, 1, 1⟩ S.nt).map fun v => ((X v ib).length : ℤ)).sum
  here : ∀ T, InBox ⟨1, 1, 1⟩ S.nt T → (M T : Multiset (Part n)) = here P S.nt L T

theorem combSpecies_ok {P : Proc n} {S : Species n} {L : I3 → List (Part n)} (hP : Sorted P S.nt L) {bs : ℤ} (hbs : 1 ≤ bs) (h : HoldsAll S L) (hA : AllocAll S) :
    ∃ s M X, combSpecies P bs S = .ok s ∧ Moved P S L s M X := by
  have hperm : (tileOrder S.nt).Perm (box ⟨1, 1, 1⟩ S.nt) := colours_perm S.nt
  obtain ⟨s, M, X, e, n', np', g, A, a, b, c, m⟩ := combs_ok hP hbs (tileOrder S.nt) [] (by simpa using hperm.nodup_iff.mpr (nodup_box _ _))
    (fun u hu => mem_box.mp (hperm.mem_iff.mp hu)) ⟨S, fun _ => TBuf.new false 0, fun _ => 0⟩ L (fun _ _ => []) rfl h hA (by simp) (by simp) (by simp) (by simp)
  refine ⟨s, M, X, e, ⟨n', np', g, A, fun v hv => a v ?_, fun v hv d hd => ?_, fun ib => ?_, fun T hT => ?_⟩⟩
  · simpa using hperm.mem_iff.mpr (mem_box.mpr hv)
  · rw [b v (by simpa using hperm.mem_iff.mpr (mem_box.mpr hv))]
    congr 1
    refine List.filterMap_congr fun p _ => ?_
    cases hsc : scan .combined P.A (P.T v) p with
    | kept q => rfl
    | removed => rfl
    | sent e q =>
      have he := (scan_sent hsc).2.2
      simp only [sendsIb, sends]
      by_cases hde : e = d
      · rw [if_pos (by rw [hde]), if_pos hde]
      · rw [if_neg (fun h => hde (ibOf_inj he hd h)), if_neg hde]
  · rw [c ib, List.nil_append]
    exact (hperm.map _).sum_eq
  · rw [m T, List.nil_append, if_pos (hperm.mem_iff.mpr (mem_box.mpr hT)), zero_add]
    unfold Combined.here
    exact (hperm.map _).sum_eq

end Picsar.Combined
