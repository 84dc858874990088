import Verif.Spec.FieldExchange
import Verif.Lemmas.Mpi
import Verif.Lemmas.Topology
import Mathlib.Tactic.Linarith
import Mathlib.Tactic.Ring
import Mathlib.Algebra.Order.Group.Int
import Mathlib.Data.Fintype.Prod

namespace Picsar.Exchange
open Picsar Picsar.Grid Picsar.Mpi

/-! ### Indices -/

@[simp] theorem at_upd (i : I3) (a : Ax) (v : ℤ) : at_ (upd i a v) a = v := by cases a <;> rfl
theorem at_upd_ne (i : I3) {a b : Ax} (h : b ≠ a) (v : ℤ) : at_ (upd i a v) b = at_ i b := by
  cases a <;> cases b <;> first | rfl | exact absurd rfl h
theorem i3_ext {i j : I3} (h : ∀ a, at_ i a = at_ j a) : i = j := by
  have hx := h .x; have hy := h .y; have hz := h .z
  cases i; cases j
  simp only [at_] at hx hy hz
  subst hx; subst hy; subst hz; rfl
@[simp] theorem upd_upd (i : I3) (a : Ax) (v w : ℤ) : upd (upd i a v) a w = upd i a w := by cases a <;> rfl
@[simp] theorem upd_at (i : I3) (a : Ax) : upd i a (at_ i a) = i := by cases a <;> rfl
theorem inBox_iff {lo hi i : I3} : InBox lo hi i ↔ ∀ a, at_ lo a ≤ at_ i a ∧ at_ i a ≤ at_ hi a := by
  unfold InBox
  constructor
  · rintro ⟨a, b, c, d, e, f⟩ ax
    cases ax
    · exact ⟨a, b⟩
    · exact ⟨c, d⟩
    · exact ⟨e, f⟩
  · intro h
    exact ⟨(h .x).1, (h .x).2, (h .y).1, (h .y).2, (h .z).1, (h .z).2⟩
theorem at_lowB (D : Dom) (a : Ax) : at_ (lowB D) a = -D.g a := by cases a <;> rfl
theorem at_highB (D : Dom) (c : I3) (a : Ax) : at_ (highB D c) a = D.n a (at_ c a) + D.g a := by cases a <;> rfl

theorem nodup_box (lo hi : I3) : (box lo hi).Nodup := by
  unfold box
  rw [List.nodup_flatMap]
  refine ⟨fun l _ => ?_, ?_⟩
  · rw [List.nodup_flatMap]
    refine ⟨fun k _ => ?_, ?_⟩
    · exact (nodup_irange _ _).map (fun a b h => by simpa using h)
    · refine (nodup_irange _ _).imp ?_
      intro a b hab x hx hy
      simp only [List.mem_map] at hx hy
      obtain ⟨p, -, rfl⟩ := hx
      obtain ⟨q, -, hq⟩ := hy
      simp only [I3.mk.injEq] at hq
      exact hab hq.2.1.symm
  · refine (nodup_irange _ _).imp ?_
    intro a b hab x hx hy
    simp only [List.mem_flatMap, List.mem_map] at hx hy
    obtain ⟨_, -, p, -, rfl⟩ := hx
    obtain ⟨_, -, q, -, hq⟩ := hy
    simp only [I3.mk.injEq] at hq
    exact hab hq.2.2.symm

theorem irange_shift (lo hi t : ℤ) : irange (lo + t) (hi + t) = (irange lo hi).map (· + t) := by
  unfold irange
  rw [show hi + t - (lo + t) + 1 = hi - lo + 1 by ring, List.map_map]
  apply List.map_congr_left
  intro n _
  show lo + t + n = lo + n + t
  ring

/-- Translation along one direction. -/
def tr (a : Ax) (t : ℤ) (i : I3) : I3 := upd i a (at_ i a + t)

theorem tr_tr (a : Ax) (t : ℤ) (i : I3) : tr a (-t) (tr a t i) = i := by
  unfold tr
  rw [at_upd, upd_upd, show at_ i a + t + -t = at_ i a by ring, upd_at]

theorem box_shift (lo hi : I3) (a : Ax) (t : ℤ) : box (tr a t lo) (tr a t hi) = (box lo hi).map (tr a t) := by
  cases a
  · unfold box tr upd at_
    simp only [irange_shift, List.map_flatMap, List.map_map]
    rfl
  · unfold box tr upd at_
    simp only [irange_shift, List.map_flatMap, List.flatMap_map, List.map_map]
    rfl
  · unfold box tr upd at_
    simp only [irange_shift, List.map_flatMap, List.flatMap_map, List.map_map]
    rfl

theorem slab_shift {D : Dom} {c c' : I3} {a : Ax} {s s' : ℤ} (h : ∀ b, b ≠ a → at_ c b = at_ c' b) :
    slab D c a s' = (slab D c' a s).map (tr a (s' - s)) := by
  unfold slab
  rw [← box_shift]
  congr 1
  · unfold tr; simp
  · apply i3_ext
    intro b
    by_cases hb : b = a
    · subst hb; unfold tr; simp; ring
    · rw [at_upd_ne _ hb, at_highB]
      unfold tr
      rw [at_upd_ne _ hb, at_upd_ne _ hb, at_highB, h b hb]

theorem mem_slab {D : Dom} {c : I3} {a : Ax} {s : ℤ} {i : I3} :
    i ∈ slab D c a s ↔ (s ≤ at_ i a ∧ at_ i a ≤ s + D.g a) ∧ ∀ b, b ≠ a → InArr1 D b (at_ c b) (at_ i b) := by
  unfold slab
  rw [mem_box, inBox_iff]
  constructor
  · intro h
    refine ⟨by simpa using h a, fun b hb => ?_⟩
    have := h b
    rw [at_upd_ne _ hb, at_upd_ne _ hb, at_lowB, at_highB] at this
    exact this
  · rintro ⟨h1, h2⟩ b
    by_cases hb : b = a
    · subst hb; simpa using h1
    · rw [at_upd_ne _ hb, at_upd_ne _ hb, at_lowB, at_highB]
      exact h2 b hb

theorem unpack_map {τ τ' : I3 → I3} (hτ : ∀ j, τ' (τ j) = j) (f : I3 → ℝ) (i : I3) :
    ∀ (l : List I3) (F : I3 → ℝ), l.Nodup →
      unpack (l.map τ) (l.map f) F i = if i ∈ l.map τ then f (τ' i) else F i
  | [], F, _ => by simp [unpack]
  | j :: l, F, h => by
    obtain ⟨hj, hl⟩ := List.nodup_cons.mp h
    show unpack (τ j :: l.map τ) (f j :: l.map f) F i = _
    unfold unpack
    rw [unpack_map hτ f i l _ hl]
    by_cases hm : i ∈ l.map τ
    · rw [if_pos hm, if_pos (by simp only [List.map_cons, List.mem_cons]; exact Or.inr hm)]
    · rw [if_neg hm]
      by_cases hi : i = τ j
      · subst hi; simp [hτ]
      · rw [Function.update_of_ne hi, if_neg (by simp only [List.map_cons, List.mem_cons]; tauto)]

theorem addUnpack_map {τ τ' : I3 → I3} (hτ : ∀ j, τ' (τ j) = j) (f : I3 → ℝ) (i : I3) :
    ∀ (l : List I3) (F : I3 → ℝ), l.Nodup →
      addUnpack (l.map τ) (l.map f) F i = F i + if i ∈ l.map τ then f (τ' i) else 0
  | [], F, _ => by simp [addUnpack]
  | j :: l, F, h => by
    obtain ⟨hj, hl⟩ := List.nodup_cons.mp h
    show addUnpack (τ j :: l.map τ) (f j :: l.map f) F i = _
    unfold addUnpack
    rw [addUnpack_map hτ f i l _ hl]
    by_cases hm : i ∈ l.map τ
    · have hne : i ≠ τ j := by
        rintro rfl
        obtain ⟨k, hk, e⟩ := List.mem_map.mp hm
        have := hτ k
        rw [e, hτ] at this
        exact hj (this ▸ hk)
      rw [if_pos hm, if_pos (by simp only [List.map_cons, List.mem_cons]; exact Or.inr hm), Function.update_of_ne hne]
    · rw [if_neg hm]
      by_cases hi : i = τ j
      · subst hi; simp [hτ]
      · rw [Function.update_of_ne hi, if_neg (by simp only [List.map_cons, List.mem_cons]; tauto)]

/-- Storing a slab of another process. -/
theorem unpack_slab {D : Dom} {c c' : I3} {a : Ax} {s s' : ℤ} (h : ∀ b, b ≠ a → at_ c b = at_ c' b) (f F : I3 → ℝ) (i : I3) :
    unpack (slab D c a s') (pack f (slab D c' a s)) F i =
      if i ∈ slab D c a s' then f (upd i a (at_ i a - s' + s)) else F i := by
  rw [slab_shift h (s := s) (s' := s')]
  unfold pack
  rw [unpack_map (τ' := tr a (-(s' - s))) (fun j => tr_tr a _ j) f i _ F (show (slab D c' a s).Nodup from nodup_box _ _)]
  unfold tr
  rw [show at_ i a + -(s' - s) = at_ i a - s' + s by ring]

theorem addUnpack_slab {D : Dom} {c c' : I3} {a : Ax} {s s' : ℤ} (h : ∀ b, b ≠ a → at_ c b = at_ c' b) (f F : I3 → ℝ) (i : I3) :
    addUnpack (slab D c a s') (pack f (slab D c' a s)) F i =
      F i + if i ∈ slab D c a s' then f (upd i a (at_ i a - s' + s)) else 0 := by
  rw [slab_shift h (s := s) (s' := s')]
  unfold pack
  rw [addUnpack_map (τ' := tr a (-(s' - s))) (fun j => tr_tr a _ j) f i _ F (show (slab D c' a s).Nodup from nodup_box _ _)]
  unfold tr
  rw [show at_ i a + -(s' - s) = at_ i a - s' + s by ring]

/-! ### The decomposition in one direction -/

theorem lo_mono {D : Dom} (h : D.Ok) (a : Ax) {c c' : ℤ} (h0 : 0 ≤ c) (hc : c ≤ c') (h1 : c' ≤ D.P a) : D.lo a c ≤ D.lo a c' := by
  induction c', hc using Int.leInduction with
  | base => exact le_rfl
  | succ k hk ih =>
    have := h.wide a k (by omega) (by omega)
    have := h.guard a
    have := ih (by omega)
    unfold Dom.n at *
    omega

theorem lo_gap {D : Dom} (h : D.Ok) (a : Ax) {c c' : ℤ} (h0 : 0 ≤ c) (hc : c < c') (h1 : c' ≤ D.P a) :
    D.lo a c + D.g a < D.lo a c' := by
  have := lo_mono h a (show 0 ≤ c + 1 by omega) (show c + 1 ≤ c' by omega) h1
  have := h.wide a c h0 (by omega)
  unfold Dom.n at *
  omega

theorem procMax_iff {D : Dom} {a : Ax} {c r : ℤ} (h0 : 0 ≤ c) (h1 : c < D.P a) :
    procMax D a c = some r ↔ (c + 1 < D.P a ∧ r = c + 1) ∨ (D.per a = true ∧ c = D.P a - 1 ∧ r = 0) := by
  unfold procMax Topology.neight
  by_cases hl : c = D.P a - 1
  · cases hp : D.per a
    · simp only [hl, and_self, if_true]
      constructor
      · intro h; cases h
      · rintro (⟨h, -⟩ | ⟨h, -⟩)
        · omega
        · cases h
    · simp only [Bool.true_eq_false, false_and, if_false]
      rw [if_neg (by omega), if_pos (by omega)]
      constructor
      · intro h; right; cases h; refine ⟨trivial, hl, by omega⟩
      · rintro (⟨h, -⟩ | ⟨-, -, h⟩)
        · omega
        · subst h; congr 1; omega
  · rw [if_neg (by tauto), if_neg (by omega), if_neg (by omega)]
    constructor
    · intro h; left; cases h; omega
    · rintro (⟨-, h⟩ | ⟨-, h, -⟩)
      · subst h; rfl
      · omega

theorem procMin_iff {D : Dom} {a : Ax} {c r : ℤ} (h0 : 0 ≤ c) (h1 : c < D.P a) :
    procMin D a c = some r ↔ (1 ≤ c ∧ r = c - 1) ∨ (D.per a = true ∧ c = 0 ∧ r = D.P a - 1) := by
  unfold procMin Topology.neight
  by_cases hl : c = 0
  · cases hp : D.per a
    · simp only [hl, and_self, if_true]
      constructor
      · intro h; cases h
      · rintro (⟨h, -⟩ | ⟨h, -⟩)
        · omega
        · cases h
    · simp only [Bool.true_eq_false, false_and, if_false]
      rw [if_pos (by omega)]
      constructor
      · intro h; right; cases h; refine ⟨trivial, hl, by omega⟩
      · rintro (⟨h, -⟩ | ⟨-, -, h⟩)
        · omega
        · subst h; congr 1; omega
  · rw [if_neg (by tauto), if_neg (by omega), if_neg (by omega)]
    constructor
    · intro h; left; cases h; omega
    · rintro (⟨-, h⟩ | ⟨-, h, -⟩)
      · subst h; rfl
      · omega

theorem procMax_none {D : Dom} {a : Ax} {c : ℤ} : procMax D a c = none ↔ D.per a = false ∧ c = D.P a - 1 := by
  unfold procMax
  split_ifs with h
  · simp [h]
  · simp [h]

theorem procMin_none {D : Dom} {a : Ax} {c : ℤ} : procMin D a c = none ↔ D.per a = false ∧ c = 0 := by
  unfold procMin
  split_ifs with h
  · simp [h]
  · simp [h]

/-- The upper neighbour of the lower neighbour. -/
theorem proc_pair {D : Dom} {a : Ax} {c r : ℤ} (h0 : 0 ≤ c) (h1 : c < D.P a) (r0 : 0 ≤ r) (r1 : r < D.P a) :
    procMax D a c = some r ↔ procMin D a r = some c := by
  rw [procMax_iff h0 h1, procMin_iff r0 r1]
  constructor
  · rintro (⟨h, rfl⟩ | ⟨h, rfl, rfl⟩)
    · left; omega
    · right; exact ⟨h, rfl, rfl⟩
  · rintro (⟨h, rfl⟩ | ⟨h, rfl, rfl⟩)
    · left; omega
    · right; exact ⟨h, rfl, rfl⟩

/-- Where the value of a local index comes from in an exchange along one direction. -/
noncomputable def own1 (D : Dom) (a : Ax) (c i : ℤ) : ℤ × ℤ :=
  if i < 0 then
    match procMin D a c with
    | some l => (l, i + D.n a l)
    | none => (c, i)
  else if D.n a c ≤ i then
    match procMax D a c with
    | some r => (r, i - D.n a c)
    | none => (c, i)
  else (c, i)

theorem same_refl (D : Dom) (a : Ax) (c i : ℤ) : SameNode1 D a c i c i := by
  unfold SameNode1
  split_ifs
  · simp
  · rfl

theorem same_symm {D : Dom} {a : Ax} {c i c' i' : ℤ} (h : SameNode1 D a c i c' i') : SameNode1 D a c' i' c i := by
  unfold SameNode1 at *
  split_ifs at * with hp
  · rw [← neg_sub]; exact (dvd_neg).mpr h
  · exact h.symm

theorem same_trans {D : Dom} {a : Ax} {c i c' i' c'' i'' : ℤ} (h : SameNode1 D a c i c' i') (h' : SameNode1 D a c' i' c'' i'') :
    SameNode1 D a c i c'' i'' := by
  unfold SameNode1 at *
  split_ifs at * with hp
  · have := dvd_add h h'
    rwa [show (D.lo a c' + i' - (D.lo a c + i)) + (D.lo a c'' + i'' - (D.lo a c' + i')) = D.lo a c'' + i'' - (D.lo a c + i) by ring]
      at this
  · rw [h', h]

theorem same_up {D : Dom} (h : D.Ok) {a : Ax} {c r i : ℤ} (h0 : 0 ≤ c) (h1 : c < D.P a) (hr : procMax D a c = some r) :
    SameNode1 D a c i r (i - D.n a c) := by
  rw [procMax_iff h0 h1] at hr
  unfold SameNode1 Dom.n
  rcases hr with ⟨h2, rfl⟩ | ⟨hp, rfl, rfl⟩
  · split_ifs
    · rw [show D.lo a (c + 1) + (i - (D.lo a (c + 1) - D.lo a c)) - (D.lo a c + i) = 0 by ring]
      exact dvd_zero _
    · ring
  · rw [if_pos hp, h.first a, show D.P a - 1 + 1 = D.P a by ring]
    refine ⟨-1, ?_⟩
    unfold Dom.total
    ring

theorem same_down {D : Dom} (h : D.Ok) {a : Ax} {c l i : ℤ} (h0 : 0 ≤ c) (h1 : c < D.P a) (l0 : 0 ≤ l) (l1 : l < D.P a)
    (hl : procMin D a c = some l) : SameNode1 D a c i l (i + D.n a l) := by
  have := same_up h (i := i + D.n a l) l0 l1 ((proc_pair l0 l1 h0 h1).mpr hl)
  rw [add_sub_cancel_right] at this
  exact same_symm this

theorem nb_range {D : Dom} {a : Ax} {c r : ℤ} (h0 : 0 ≤ c) (h1 : c < D.P a) (hr : procMax D a c = some r ∨ procMin D a c = some r) :
    0 ≤ r ∧ r < D.P a := by
  rw [procMax_iff h0 h1, procMin_iff h0 h1] at hr
  omega

theorem own1_ok {D : Dom} (h : D.Ok) {a : Ax} {c i : ℤ} (h0 : 0 ≤ c) (h1 : c < D.P a) (hi : InArr1 D a c i) :
    (0 ≤ (own1 D a c i).1 ∧ (own1 D a c i).1 < D.P a) ∧ InArr1 D a (own1 D a c i).1 (own1 D a c i).2 ∧
    Owns1 D a (own1 D a c i).1 (own1 D a c i).2 ∧ SameNode1 D a c i (own1 D a c i).1 (own1 D a c i).2 := by
  have hw := h.wide a c h0 h1
  have hg := h.guard a
  unfold InArr1 at hi
  unfold own1
  split_ifs with hneg hbig
  · split
    · rename_i l hl
      have hr := nb_range h0 h1 (Or.inr hl)
      have hwl := h.wide a l hr.1 hr.2
      refine ⟨hr, ?_, ⟨Or.inl ?_, Or.inl ?_⟩, same_down h h0 h1 hr.1 hr.2 hl⟩
      · unfold InArr1; simp only; omega
      · simp only; omega
      · simp only; omega
    · rename_i hl
      rw [procMin_none] at hl
      exact ⟨⟨h0, h1⟩, hi, ⟨Or.inr hl, Or.inl (by simp only; omega)⟩, same_refl _ _ _ _⟩
  · split
    · rename_i r hr'
      have hr := nb_range h0 h1 (Or.inl hr')
      have hwr := h.wide a r hr.1 hr.2
      refine ⟨hr, ?_, ⟨Or.inl ?_, Or.inl ?_⟩, same_up h h0 h1 hr'⟩
      · unfold InArr1; simp only; omega
      · simp only; omega
      · simp only; omega
    · rename_i hl
      rw [procMax_none] at hl
      exact ⟨⟨h0, h1⟩, hi, ⟨Or.inl (by simp only; omega), Or.inr hl⟩, same_refl _ _ _ _⟩
  · exact ⟨⟨h0, h1⟩, hi, ⟨Or.inl (by simp only; omega), Or.inl (by simp only; omega)⟩, same_refl _ _ _ _⟩

/-- A node has one owner. -/
theorem owner_unique {D : Dom} (h : D.Ok) {a : Ax} {c i c' i' : ℤ} (h0 : 0 ≤ c) (h1 : c < D.P a) (h0' : 0 ≤ c') (h1' : c' < D.P a)
    (ho : Owns1 D a c i) (ho' : Owns1 D a c' i') (hs : SameNode1 D a c i c' i') : c = c' ∧ i = i' := by
  have hP := h.pos a
  have hf := h.first a
  have key : ∀ p q x y : ℤ, 0 ≤ p → p < D.P a → 0 ≤ q → q < D.P a → D.lo a q + y = D.lo a p + x →
      (x < D.n a p ∨ (D.per a = false ∧ p = D.P a - 1)) → (0 ≤ y ∨ (D.per a = false ∧ q = 0)) → q ≤ p := by
    intro p q x y p0 p1 q0 q1 he hx hy
    by_contra hlt
    have a1 := lo_mono h a (show 0 ≤ p + 1 by omega) (show p + 1 ≤ q by omega) (by omega)
    unfold Dom.n at hx
    omega
  have eq : D.lo a c' + i' = D.lo a c + i := by
    unfold SameNode1 at hs
    cases hp : D.per a
    · rw [hp] at hs; simpa using hs
    · rw [hp] at hs
      simp only [if_true] at hs
      have o1 : 0 ≤ i ∧ i < D.n a c := by unfold Owns1 at ho; rw [hp] at ho; simpa using ho
      have o2 : 0 ≤ i' ∧ i' < D.n a c' := by unfold Owns1 at ho'; rw [hp] at ho'; simpa using ho'
      have b1 := lo_mono h a (show 0 ≤ 0 by omega) h0 h1.le
      have b2 := lo_mono h a (show 0 ≤ c + 1 by omega) (show c + 1 ≤ D.P a by omega) le_rfl
      have b3 := lo_mono h a (show 0 ≤ 0 by omega) h0' h1'.le
      have b4 := lo_mono h a (show 0 ≤ c' + 1 by omega) (show c' + 1 ≤ D.P a by omega) le_rfl
      unfold Dom.n at o1 o2
      unfold Dom.total at hs
      have := Int.eq_zero_of_abs_lt_dvd hs (by rw [abs_lt]; omega)
      omega
  have k1 := key c c' i i' h0 h1 h0' h1' eq ho.2 ho'.1
  have k2 := key c' c i' i h0' h1' h0 h1 eq.symm ho'.2 ho.1
  have : c = c' := le_antisymm k2 k1
  subst this
  exact ⟨rfl, by omega⟩

/-- The copies of an owned node: itself, the upper guard region of the lower neighbour, the lower guard region of the upper one. -/
theorem mem_copies {D : Dom} (h : D.Ok) {a : Ax} {c i : ℤ} (h0 : 0 ≤ c) (h1 : c < D.P a) (hi : InArr1 D a c i)
    (ho : Owns1 D a c i) (p : ℤ × ℤ) : p ∈ copies D a c i ↔ p = (c, i) ∨
      (0 ≤ i ∧ i ≤ D.g a ∧ procMin D a c = some p.1 ∧ p.2 = i + D.n a p.1) ∨
      (D.n a c - D.g a ≤ i ∧ i < D.n a c ∧ procMax D a c = some p.1 ∧ p.2 = i - D.n a c) := by
  obtain ⟨c', i'⟩ := p
  have hg := h.guard a
  have hw := h.wide a c h0 h1
  have hP := h.pos a
  have hf := h.first a
  have hmem : (c', i') ∈ copies D a c i ↔ (0 ≤ c' ∧ c' < D.P a) ∧ InArr1 D a c' i' ∧ SameNode1 D a c i c' i' := by
    unfold copies InArr1
    simp only [Finset.mem_map, Finset.mem_filter, Finset.mem_sigma, Finset.mem_Ico, Finset.mem_Icc,
      Sigma.exists]
    constructor
    · rintro ⟨x, y, ⟨⟨⟨a1, a2⟩, a3, a4⟩, a5⟩, rfl, rfl⟩
      exact ⟨⟨a1, a2⟩, ⟨a3, a4⟩, a5⟩
    · rintro ⟨⟨a1, a2⟩, ⟨a3, a4⟩, a5⟩
      exact ⟨c', i', ⟨⟨⟨a1, a2⟩, a3, a4⟩, a5⟩, rfl⟩
  rw [hmem]
  simp only [Prod.mk.injEq]
  constructor
  · rintro ⟨⟨c0, c1⟩, hi', hs⟩
    unfold InArr1 at hi hi'
    -- same position, no wrap
    have flat : D.lo a c' + i' = D.lo a c + i → (c' = c ∧ i' = i) ∨
        (0 ≤ i ∧ i ≤ D.g a ∧ procMin D a c = some c' ∧ i' = i + D.n a c') ∨
        (D.n a c - D.g a ≤ i ∧ i < D.n a c ∧ procMax D a c = some c' ∧ i' = i - D.n a c) := by
      intro he
      rcases lt_trichotomy c' c with hlt | heq | hgt
      · right; left
        have e1 : c' = c - 1 := by
          by_contra hne
          have m := lo_gap h a (show 0 ≤ c' + 1 by omega) (show c' + 1 < c by omega) (by omega)
          have o := ho.1
          unfold Dom.n at hi'
          omega
        subst e1
        have o := ho.1
        refine ⟨by omega, ?_, (procMin_iff h0 h1).mpr (Or.inl ⟨by omega, rfl⟩), ?_⟩
        · unfold Dom.n at hi'
          rw [show c - 1 + 1 = c by ring] at hi'
          omega
        · unfold Dom.n
          rw [show c - 1 + 1 = c by ring]
          omega
      · left; subst heq; exact ⟨rfl, by omega⟩
      · right; right
        have e1 : c' = c + 1 := by
          by_contra hne
          have m := lo_gap h a (show 0 ≤ c + 1 by omega) (show c + 1 < c' by omega) (by omega)
          have o := ho.2
          unfold Dom.n at *
          omega
        subst e1
        have o := ho.2
        refine ⟨?_, ?_, (procMax_iff h0 h1).mpr (Or.inl ⟨by omega, rfl⟩), ?_⟩
        · unfold Dom.n; omega
        · omega
        · unfold Dom.n; omega
    cases hp : D.per a
    · unfold SameNode1 at hs
      rw [hp] at hs
      exact flat (by simpa using hs)
    · unfold SameNode1 at hs
      rw [hp] at hs
      simp only [if_true] at hs
      have o1 : 0 ≤ i ∧ i < D.n a c := by unfold Owns1 at ho; rw [hp] at ho; simpa using ho
      have b1 := lo_mono h a (show 0 ≤ 0 by omega) h0 h1.le
      have b2 := lo_mono h a (show 0 ≤ c + 1 by omega) (show c + 1 ≤ D.P a by omega) le_rfl
      have b3 := lo_mono h a (show 0 ≤ 0 by omega) c0 c1.le
      have b4 := lo_mono h a (show 0 ≤ c' + 1 by omega) (show c' + 1 ≤ D.P a by omega) le_rfl
      have b5 := lo_gap h a le_rfl (show 0 < D.P a by omega) le_rfl
      obtain ⟨k, hk⟩ := hs
      unfold Dom.total at hk
      have hn : D.n a c' = D.lo a (c' + 1) - D.lo a c' := rfl
      have hnc : D.n a c = D.lo a (c + 1) - D.lo a c := rfl
      have k2 : -2 < k := by by_contra hc; nlinarith
      have k3 : k < 2 := by by_contra hc; nlinarith
      have hk3 : k = -1 ∨ k = 0 ∨ k = 1 := by omega
      rcases hk3 with rfl | rfl | rfl
      · right; right
        have e1 : c' = 0 := by
          by_contra hne
          have := lo_gap h a le_rfl (show 0 < c' by omega) c1.le
          omega
        subst e1
        have e2 : c = D.P a - 1 := by
          by_contra hne
          have := lo_gap h a (show 0 ≤ c + 1 by omega) (show c + 1 < D.P a by omega) le_rfl
          omega
        subst e2
        rw [show D.P a - 1 + 1 = D.P a by ring] at *
        exact ⟨by omega, o1.2, (procMax_iff h0 h1).mpr (Or.inr ⟨hp, rfl, rfl⟩), by omega⟩
      · exact flat (by omega)
      · right; left
        have e1 : c' = D.P a - 1 := by
          by_contra hne
          have := lo_gap h a (show 0 ≤ c' + 1 by omega) (show c' + 1 < D.P a by omega) le_rfl
          omega
        subst e1
        have e2 : c = 0 := by
          by_contra hne
          have := lo_gap h a le_rfl (show 0 < c by omega) h1.le
          rw [show D.P a - 1 + 1 = D.P a by ring] at *
          omega
        subst e2
        rw [show D.P a - 1 + 1 = D.P a by ring] at *
        exact ⟨o1.1, by omega, (procMin_iff h0 h1).mpr (Or.inr ⟨hp, rfl, rfl⟩), by omega⟩
  · rintro (⟨rfl, rfl⟩ | ⟨i0, i1, hl, rfl⟩ | ⟨i0, i1, hr, rfl⟩)
    · exact ⟨⟨h0, h1⟩, hi, same_refl _ _ _ _⟩
    · have hr := nb_range h0 h1 (Or.inr hl)
      refine ⟨hr, ?_, same_down h h0 h1 hr.1 hr.2 hl⟩
      have := h.wide a c' hr.1 hr.2
      unfold InArr1; omega
    · have hr' := nb_range h0 h1 (Or.inl hr)
      refine ⟨hr', ?_, same_up h h0 h1 hr⟩
      have := h.wide a c' hr'.1 hr'.2
      unfold InArr1; omega

/-- The sum over the copies of an owned node. -/
theorem sum_copies {D : Dom} (h : D.Ok) {a : Ax} {c i : ℤ} (h0 : 0 ≤ c) (h1 : c < D.P a) (hi : InArr1 D a c i)
    (ho : Owns1 D a c i) (F : ℤ × ℤ → ℝ) : ∑ p ∈ copies D a c i, F p = F (c, i) +
      (if 0 ≤ i ∧ i ≤ D.g a then match procMin D a c with | some l => F (l, i + D.n a l) | none => 0 else 0) +
      (if D.n a c - D.g a ≤ i ∧ i < D.n a c then match procMax D a c with | some r => F (r, i - D.n a c) | none => 0 else 0) := by
  have hg := h.guard a
  have hw := h.wide a c h0 h1
  have hm := mem_copies h h0 h1 hi ho
  -- explicit set
  have low : ∃ S1 : Finset (ℤ × ℤ), (∀ p, p ∈ S1 ↔ (0 ≤ i ∧ i ≤ D.g a ∧ procMin D a c = some p.1 ∧ p.2 = i + D.n a p.1)) ∧
      ∑ p ∈ S1, F p = if 0 ≤ i ∧ i ≤ D.g a then match procMin D a c with | some l => F (l, i + D.n a l) | none => 0 else 0 := by
    by_cases hc : 0 ≤ i ∧ i ≤ D.g a
    · rcases hl : procMin D a c with _ | l
      · exact ⟨∅, fun p => by simp, by simp [hc]⟩
      · refine ⟨{(l, i + D.n a l)}, fun p => ?_, by simp [hc]⟩
        obtain ⟨p1, p2⟩ := p
        simp only [Finset.mem_singleton, Prod.mk.injEq, Option.some.injEq]
        constructor
        · rintro ⟨rfl, rfl⟩; exact ⟨hc.1, hc.2, rfl, rfl⟩
        · rintro ⟨-, -, rfl, rfl⟩; exact ⟨rfl, rfl⟩
    · exact ⟨∅, fun p => by simp only [Finset.notMem_empty, false_iff]; tauto, by simp [hc]⟩
  have high : ∃ S2 : Finset (ℤ × ℤ), (∀ p, p ∈ S2 ↔ (D.n a c - D.g a ≤ i ∧ i < D.n a c ∧ procMax D a c = some p.1 ∧ p.2 = i - D.n a c)) ∧
      ∑ p ∈ S2, F p =
        if D.n a c - D.g a ≤ i ∧ i < D.n a c then match procMax D a c with | some r => F (r, i - D.n a c) | none => 0 else 0 := by
    by_cases hc : D.n a c - D.g a ≤ i ∧ i < D.n a c
    · rcases hl : procMax D a c with _ | r
      · exact ⟨∅, fun p => by simp, by simp [hc]⟩
      · refine ⟨{(r, i - D.n a c)}, fun p => ?_, by simp [hc]⟩
        obtain ⟨p1, p2⟩ := p
        simp only [Finset.mem_singleton, Prod.mk.injEq, Option.some.injEq]
        constructor
        · rintro ⟨rfl, rfl⟩; exact ⟨hc.1, hc.2, rfl, rfl⟩
        · rintro ⟨-, -, rfl, rfl⟩; exact ⟨rfl, rfl⟩
    · exact ⟨∅, fun p => by simp only [Finset.notMem_empty, false_iff]; tauto, by rw [if_neg hc, Finset.sum_empty]⟩
  obtain ⟨S1, m1, e1⟩ := low
  obtain ⟨S2, m2, e2⟩ := high
  have hset : copies D a c i = ({(c, i)} ∪ S1) ∪ S2 := by
    ext p
    rw [hm p, Finset.mem_union, Finset.mem_union, Finset.mem_singleton, m1, m2, or_assoc]
  have d1 : Disjoint ({(c, i)} : Finset (ℤ × ℤ)) S1 := by
    rw [Finset.disjoint_left]
    intro p hp hq
    rw [Finset.mem_singleton] at hp
    subst hp
    obtain ⟨-, -, -, hq⟩ := (m1 _).mp hq
    simp only at hq
    omega
  have d2 : Disjoint (({(c, i)} : Finset (ℤ × ℤ)) ∪ S1) S2 := by
    rw [Finset.disjoint_left]
    intro p hp hq
    obtain ⟨_, hlt, hr, hq⟩ := (m2 _).mp hq
    rcases Finset.mem_union.mp hp with hp | hp
    · rw [Finset.mem_singleton] at hp
      subst hp
      simp only at hq
      omega
    · obtain ⟨_, _, hl, hq'⟩ := (m1 _).mp hp
      have hrg := nb_range h0 h1 (Or.inr hl)
      have := h.wide a p.1 hrg.1 hrg.2
      omega
  rw [hset, Finset.sum_union d2, Finset.sum_union d1, Finset.sum_singleton, e1, e2]

/-! ### Neighbours -/

theorem move_iff {D : Dom} {c r : Proc D} {a : Ax} {v : Option ℤ} :
    c.move a v = some r ↔ v = some (at_ r.1 a) ∧ ∀ b, b ≠ a → at_ r.1 b = at_ c.1 b := by
  unfold Proc.move
  rcases v with _ | v
  · simp
  · simp only [Option.bind_some]
    split_ifs with h
    · constructor
      · intro e
        cases e
        refine ⟨by simp, fun b hb => at_upd_ne _ hb _⟩
      · rintro ⟨e, hb⟩
        cases e
        congr 1
        apply Subtype.ext
        apply i3_ext
        intro b
        by_cases hh : b = a
        · subst hh; simp
        · rw [at_upd_ne _ hh, hb b hh]
    · constructor
      · intro e; cases e
      · rintro ⟨e, hb⟩
        exfalso
        cases e
        apply h
        intro b
        by_cases hh : b = a
        · subst hh; simpa using r.2 b
        · rw [at_upd_ne _ hh]; exact c.2 b

theorem move_isSome {D : Dom} {c : Proc D} {a : Ax} {v : ℤ} (h0 : 0 ≤ v) (h1 : v < D.P a) : ∃ r, c.move a (some v) = some r := by
  refine ⟨⟨upd c.1 a v, fun b => ?_⟩, ?_⟩
  · by_cases hh : b = a
    · subst hh; simpa using ⟨h0, h1⟩
    · rw [at_upd_ne _ hh]; exact c.2 b
  · exact move_iff.mpr ⟨congrArg some (at_upd c.1 a v).symm, fun b hb => at_upd_ne _ hb _⟩

theorem up_iff {D : Dom} {a : Ax} {c r : Proc D} :
    up a c = some r ↔ procMax D a (at_ c.1 a) = some (at_ r.1 a) ∧ ∀ b, b ≠ a → at_ r.1 b = at_ c.1 b := move_iff
theorem down_iff {D : Dom} {a : Ax} {c r : Proc D} :
    down a c = some r ↔ procMin D a (at_ c.1 a) = some (at_ r.1 a) ∧ ∀ b, b ≠ a → at_ r.1 b = at_ c.1 b := move_iff

theorem up_none {D : Dom} {a : Ax} {c : Proc D} : up a c = none ↔ procMax D a (at_ c.1 a) = none := by
  unfold up
  constructor
  · intro h
    rcases e : procMax D a (at_ c.1 a) with _ | v
    · rfl
    · have hr := nb_range (c.2 a).1 (c.2 a).2 (Or.inl e)
      obtain ⟨r, hr⟩ := move_isSome (c := c) hr.1 hr.2
      rw [e, hr] at h
      cases h
  · intro h; rw [h]; rfl

theorem down_none {D : Dom} {a : Ax} {c : Proc D} : down a c = none ↔ procMin D a (at_ c.1 a) = none := by
  unfold down
  constructor
  · intro h
    rcases e : procMin D a (at_ c.1 a) with _ | v
    · rfl
    · have hr := nb_range (c.2 a).1 (c.2 a).2 (Or.inr e)
      obtain ⟨r, hr⟩ := move_isSome (c := c) hr.1 hr.2
      rw [e, hr] at h
      cases h
  · intro h; rw [h]; rfl

theorem up_down {D : Dom} {a : Ax} {c r : Proc D} : up a c = some r ↔ down a r = some c := by
  rw [up_iff, down_iff, proc_pair (c.2 a).1 (c.2 a).2 (r.2 a).1 (r.2 a).2]
  exact and_congr_right fun _ => forall_congr' fun b => forall_congr' fun _ => eq_comm

/-- All directions periodic. -/
def Dom.peri (D : Dom) : Dom := ⟨D.P, D.lo, D.g, fun _ => true⟩

theorem peri_ok {D : Dom} (h : D.Ok) : D.peri.Ok := ⟨h.pos, h.first, h.guard, h.wide⟩

theorem upPer_eq {D : Dom} {a : Ax} {c : Proc D} : upPer a c = up (D := D.peri) a c := by
  unfold upPer up procMax
  rw [if_neg (by simp [Dom.peri])]
  rfl

theorem downPer_eq {D : Dom} {a : Ax} {c : Proc D} : downPer a c = down (D := D.peri) a c := by
  unfold downPer down procMin
  rw [if_neg (by simp [Dom.peri])]
  rfl

/-! ### Values by coordinates -/

/-- Value on the process with coordinates `c`. -/
noncomputable def st {D : Dom} (F : Proc D → I3 → ℝ) (c i : I3) : ℝ := by
  classical exact if h : ∀ a, 0 ≤ at_ c a ∧ at_ c a < D.P a then F ⟨c, h⟩ i else 0

theorem stored_st {D : Dom} (m : Proc D → Loc) (c i : I3) : stored m c i = st (fun c => (m c).f) c i := rfl

theorem st_of {D : Dom} (F : Proc D → I3 → ℝ) (c : Proc D) (i : I3) : st F c.1 i = F c i := by
  unfold st
  rw [dif_pos c.2]
  rfl

theorem st_pos {D : Dom} (F : Proc D → I3 → ℝ) {c : I3} (h : ∀ a, 0 ≤ at_ c a ∧ at_ c a < D.P a) (i : I3) :
    st F c i = F ⟨c, h⟩ i := by
  unfold st
  rw [dif_pos h]

theorem upd_proc {D : Dom} {c r : Proc D} {a : Ax} (h : ∀ b, b ≠ a → at_ r.1 b = at_ c.1 b) : upd c.1 a (at_ r.1 a) = r.1 := by
  apply i3_ext
  intro b
  by_cases hb : b = a
  · subst hb; simp
  · rw [at_upd_ne _ hb, h b hb]

theorem st_move {D : Dom} (F : Proc D → I3 → ℝ) {c r : Proc D} {a : Ax} (h : ∀ b, b ≠ a → at_ r.1 b = at_ c.1 b) (i : I3) :
    st F (upd c.1 a (at_ r.1 a)) i = F r i := by rw [upd_proc h, st_of]

theorem inArr_upd {D : Dom} {c i : I3} (h : InArr D c i) {a : Ax} {v w : ℤ} (hw : InArr1 D a v w) :
    InArr D (upd c a v) (upd i a w) := by
  intro b
  by_cases hb : b = a
  · subst hb; simpa using hw
  · rw [at_upd_ne _ hb, at_upd_ne _ hb]; exact h b

/-! ### The exchange along one direction -/

/-- A value that is received replaces the slab. -/
theorem unpack_in {D : Dom} {c r : Proc D} {a : Ax} {s s' : ℤ} (h : ∀ b, b ≠ a → at_ r.1 b = at_ c.1 b) (f F : I3 → ℝ) {i : I3}
    (hi : InArr D c.1 i) : unpack (slab D c.1 a s') (pack f (slab D r.1 a s)) F i =
      if s' ≤ at_ i a ∧ at_ i a ≤ s' + D.g a then f (upd i a (at_ i a - s' + s)) else F i := by
  rw [unpack_slab (fun b hb => (h b hb).symm)]
  congr 1
  rw [mem_slab]
  exact propext ⟨fun x => x.1, fun x => ⟨x, fun b _ => hi b⟩⟩

theorem addUnpack_in {D : Dom} {c r : Proc D} {a : Ax} {s s' : ℤ} (h : ∀ b, b ≠ a → at_ r.1 b = at_ c.1 b) (f F : I3 → ℝ) {i : I3}
    (hi : InArr D c.1 i) : addUnpack (slab D c.1 a s') (pack f (slab D r.1 a s)) F i =
      F i + if s' ≤ at_ i a ∧ at_ i a ≤ s' + D.g a then f (upd i a (at_ i a - s' + s)) else 0 := by
  rw [addUnpack_slab (fun b hb => (h b hb).symm)]
  congr 2
  rw [mem_slab]
  exact propext ⟨fun x => x.1, fun x => ⟨x, fun b _ => hi b⟩⟩

theorem ex_axis {D : Dom} (h : D.Ok) (a : Ax) {F F1 F2 : Proc D → I3 → ℝ}
    (h1 : ∀ c, F1 c = match up a c with
      | some r => unpack (slab D c.1 a (D.n a (at_ c.1 a))) (pack (F r) (slab D r.1 a 0)) (F c)
      | none => F c)
    (h2 : ∀ c, F2 c = match down a c with
      | some l => unpack (slab D c.1 a (-D.g a)) (pack (F1 l) (slab D l.1 a (D.n a (at_ l.1 a) - D.g a))) (F1 c)
      | none => F1 c) (c : Proc D) (i : I3) (hi : InArr D c.1 i) :
    F2 c i = st F (upd c.1 a (own1 D a (at_ c.1 a) (at_ i a)).1) (upd i a (own1 D a (at_ c.1 a) (at_ i a)).2) := by
  have hg := h.guard a
  have hw : ∀ c : Proc D, D.g a < D.n a (at_ c.1 a) := fun c => h.wide a _ (c.2 a).1 (c.2 a).2
  have hin := hi a
  unfold InArr1 at hin
  -- after the first communication
  have v1 : ∀ (c : Proc D) (i : I3), InArr D c.1 i → at_ i a < D.n a (at_ c.1 a) → F1 c i = F c i := by
    intro c i hi hlt
    rw [h1 c]
    rcases e : up a c with _ | r
    · rfl
    · simp only
      rw [unpack_in (up_iff.mp e).2 _ _ hi, if_neg (by omega)]
  have v2 : ∀ (c r : Proc D) (i : I3), InArr D c.1 i → up a c = some r → D.n a (at_ c.1 a) ≤ at_ i a →
      F1 c i = F r (upd i a (at_ i a - D.n a (at_ c.1 a))) := by
    intro c r i hi e hle
    rw [h1 c, e]
    simp only
    have := hi a
    unfold InArr1 at this
    rw [unpack_in (up_iff.mp e).2 _ _ hi, if_pos (by omega), add_zero]
  have v3 : ∀ (c : Proc D) (i : I3), up a c = none → F1 c i = F c i := by
    intro c i e; rw [h1 c, e]
  unfold own1
  by_cases hneg : at_ i a < 0
  · rw [if_pos hneg]
    rcases e : down a c with _ | l
    · have e' := down_none.mp e
      rw [h2 c, e, e']
      simp only
      rw [v1 c i hi (by have := hw c; omega), upd_at, upd_at, st_of]
    · have e' := (down_iff.mp e)
      rw [h2 c, e, e'.1]
      simp only
      rw [unpack_in e'.2 _ _ hi, if_pos (by omega), st_move F e'.2]
      rw [show at_ i a - -D.g a + (D.n a (at_ l.1 a) - D.g a) = at_ i a + D.n a (at_ l.1 a) by ring]
      apply v1
      · have := inArr_upd (v := at_ l.1 a) (w := at_ i a + D.n a (at_ l.1 a)) hi (a := a) (by
          have := hw l; unfold InArr1; omega)
        rwa [upd_proc e'.2] at this
      · rw [at_upd]; omega
  · rw [if_neg hneg]
    -- the second communication does not change anything here, except index 0, which comes back
    have back : F2 c i = F1 c i := by
      rw [h2 c]
      rcases e : down a c with _ | l
      · rfl
      · simp only
        rw [unpack_in (down_iff.mp e).2 _ _ hi]
        split_ifs with hz
        · have hz0 : at_ i a = 0 := by omega
          have el : up a l = some c := up_down.mpr e
          have hb := (down_iff.mp e).2
          have hin' : InArr D l.1 (upd i a (at_ i a - -D.g a + (D.n a (at_ l.1 a) - D.g a))) := by
            have := inArr_upd (v := at_ l.1 a) (w := at_ i a - -D.g a + (D.n a (at_ l.1 a) - D.g a)) hi (a := a) (by
              have := hw l; unfold InArr1; omega)
            rwa [upd_proc hb] at this
          rw [v2 l c _ hin' el (by rw [at_upd]; omega), v1 c i hi (by have := hw c; omega), at_upd, upd_upd]
          congr 1
          rw [show at_ i a - -D.g a + (D.n a (at_ l.1 a) - D.g a) - D.n a (at_ l.1 a) = at_ i a by ring, upd_at]
        · rfl
    rw [back]
    by_cases hbig : D.n a (at_ c.1 a) ≤ at_ i a
    · rw [if_pos hbig]
      rcases e : up a c with _ | r
      · rw [up_none.mp e]
        simp only
        rw [v3 c i e, upd_at, upd_at, st_of]
      · rw [(up_iff.mp e).1]
        simp only
        rw [v2 c r i hi e hbig, st_move F (up_iff.mp e).2]
    · rw [if_neg hbig]
      simp only
      rw [v1 c i hi (by omega), upd_at, upd_at, st_of]

/-! ### The summation along one direction -/

/-- The sum over the copies in one direction. -/
noncomputable def axSum {D : Dom} (a : Ax) (F : Proc D → I3 → ℝ) (c i : I3) : ℝ :=
  ∑ p ∈ copies D a (at_ c a) (at_ i a), st F (upd c a p.1) (upd i a p.2)

theorem axSum_eq {D : Dom} (h : D.Ok) (a : Ax) (F : Proc D → I3 → ℝ) (c : Proc D) (i : I3) (hi : InArr D c.1 i)
    (ho : Owns1 D a (at_ c.1 a) (at_ i a)) : axSum a F c.1 i = F c i +
      (match down a c with
        | some l => if 0 ≤ at_ i a ∧ at_ i a ≤ D.g a then F l (upd i a (at_ i a + D.n a (at_ l.1 a))) else 0
        | none => 0) +
      (match up a c with
        | some r => if D.n a (at_ c.1 a) - D.g a ≤ at_ i a ∧ at_ i a < D.n a (at_ c.1 a) then
            F r (upd i a (at_ i a - D.n a (at_ c.1 a))) else 0
        | none => 0) := by
  unfold axSum
  rw [sum_copies h (c.2 a).1 (c.2 a).2 (hi a) ho]
  simp only [upd_at]
  rw [st_of]
  congr 1
  · congr 1
    rcases e : down a c with _ | l
    · rw [down_none.mp e]; simp
    · rw [(down_iff.mp e).1]
      simp only
      rw [st_move F (down_iff.mp e).2]
  · rcases e : up a c with _ | r
    · rw [up_none.mp e]; simp
    · rw [(up_iff.mp e).1]
      simp only
      rw [st_move F (up_iff.mp e).2]

/-- Owned nodes are below the last plane wherever there is an upper neighbour. -/
theorem owns_lt {D : Dom} {a : Ax} {c r : Proc D} {i : ℤ} (ho : Owns1 D a (at_ c.1 a) i) (e : up a c = some r) :
    i < D.n a (at_ c.1 a) := by
  rcases ho.2 with h | ⟨h1, h2⟩
  · exact h
  · have e' := (up_iff.mp e).1
    rw [procMax_none.mpr ⟨h1, h2⟩] at e'
    cases e'

/-- Blocking: first the lower guard region is received and added, then the upper one. -/
theorem sum_axis_blocking {D : Dom} (h : D.Ok) (a : Ax) {F F1 F2 : Proc D → I3 → ℝ}
    (h1 : ∀ c, F1 c = match down a c with
      | some l => addUnpack (slab D c.1 a 0) (pack (F l) (slab D l.1 a (D.n a (at_ l.1 a)))) (F c)
      | none => F c)
    (h2 : ∀ c, F2 c = match up a c with
      | some r => addUnpack (slab D c.1 a (D.n a (at_ c.1 a) - D.g a)) (pack (F1 r) (slab D r.1 a (-D.g a))) (F1 c)
      | none => F1 c) (c : Proc D) (i : I3) (hi : InArr D c.1 i) (ho : Owns1 D a (at_ c.1 a) (at_ i a)) :
    F2 c i = axSum a F c.1 i := by
  have hg := h.guard a
  have hw : ∀ c : Proc D, D.g a < D.n a (at_ c.1 a) := fun c => h.wide a _ (c.2 a).1 (c.2 a).2
  rw [axSum_eq h a F c i hi ho]
  have v1 : F1 c i = F c i + match down a c with
        | some l => if 0 ≤ at_ i a ∧ at_ i a ≤ D.g a then F l (upd i a (at_ i a + D.n a (at_ l.1 a))) else 0
        | none => 0 := by
    rw [h1 c]
    rcases e : down a c with _ | l
    · simp
    · simp only
      rw [addUnpack_in (down_iff.mp e).2 _ _ hi]
      congr 1
      rw [sub_zero, zero_add]
  rw [h2 c]
  rcases e : up a c with _ | r
  · simp only [add_zero]; exact v1
  · simp only
    rw [addUnpack_in (up_iff.mp e).2 _ _ hi, v1]
    congr 1
    have hlt := owns_lt ho e
    by_cases hc : D.n a (at_ c.1 a) - D.g a ≤ at_ i a
    · rw [if_pos (by omega), if_pos (by omega)]
      rw [show at_ i a - (D.n a (at_ c.1 a) - D.g a) + -D.g a = at_ i a - D.n a (at_ c.1 a) by ring]
      -- the plane received lies below zero on the neighbour
      rw [h1 r, up_down.mp e]
      simp only
      have hin' : InArr D r.1 (upd i a (at_ i a - D.n a (at_ c.1 a))) := by
        have := inArr_upd (v := at_ r.1 a) (w := at_ i a - D.n a (at_ c.1 a)) hi (a := a) (by
          have := hw r; unfold InArr1; omega)
        rwa [upd_proc (up_iff.mp e).2] at this
      rw [addUnpack_in (down_iff.mp (up_down.mp e)).2 _ _ hin', at_upd, if_neg (by omega), add_zero]
    · rw [if_neg (by omega), if_neg (by omega)]

/-- Nonblocking: both guard regions are received, then added. -/
theorem sum_axis_nonblocking {D : Dom} (h : D.Ok) (a : Ax) {F F2 : Proc D → I3 → ℝ}
    (h2 : ∀ c, F2 c = addUnpack (slab D c.1 a (D.n a (at_ c.1 a) - D.g a))
        (match up a c with | some r => pack (F r) (slab D r.1 a (-D.g a)) | none => [])
      (addUnpack (slab D c.1 a 0)
        (match down a c with | some l => pack (F l) (slab D l.1 a (D.n a (at_ l.1 a))) | none => []) (F c)))
    (c : Proc D) (i : I3) (hi : InArr D c.1 i) (ho : Owns1 D a (at_ c.1 a) (at_ i a)) : F2 c i = axSum a F c.1 i := by
  have nil : ∀ (l : List I3) (f : I3 → ℝ), addUnpack l [] f = f := by
    intro l f; cases l <;> rfl
  rw [axSum_eq h a F c i hi ho, h2 c]
  have v1 : addUnpack (slab D c.1 a 0)
        (match down a c with | some l => pack (F l) (slab D l.1 a (D.n a (at_ l.1 a))) | none => []) (F c) i =
      F c i + match down a c with
        | some l => if 0 ≤ at_ i a ∧ at_ i a ≤ D.g a then F l (upd i a (at_ i a + D.n a (at_ l.1 a))) else 0
        | none => 0 := by
    rcases e : down a c with _ | l
    · simp only [add_zero]; rw [nil]
    · simp only
      rw [addUnpack_in (down_iff.mp e).2 _ _ hi]
      congr 1
      rw [sub_zero, zero_add]
  rcases e : up a c with _ | r
  · simp only [add_zero]
    rw [nil]; exact v1
  · simp only
    rw [addUnpack_in (up_iff.mp e).2 _ _ hi, v1]
    congr 1
    have hlt := owns_lt ho e
    by_cases hc : D.n a (at_ c.1 a) - D.g a ≤ at_ i a
    · rw [if_pos (by omega), if_pos (by omega)]
      rw [show at_ i a - (D.n a (at_ c.1 a) - D.g a) + -D.g a = at_ i a - D.n a (at_ c.1 a) by ring]
    · rw [if_neg (by omega), if_neg (by omega)]

/-! ### The programs -/

theorem unpack_notMem {i : I3} : ∀ (l : List I3) (v : List ℝ) (f : I3 → ℝ), i ∉ l → unpack l v f i = f i
  | [], v, f, _ => by unfold unpack; rfl
  | j :: l, [], f, _ => by unfold unpack; rfl
  | j :: l, w :: v, f, h => by
    unfold unpack
    rw [unpack_notMem l v _ (fun x => h (List.mem_cons_of_mem _ x)), Function.update_of_ne (by rintro rfl; exact h List.mem_cons_self)]

theorem exchBlocking_ok (D : Dom) : (exchBlocking D).Ok where
  off0 := rfl
  mono g := Nat.le_succ g
  pair k s d := by
    show (if k % 2 = 0 then down (axOf k) s else up (axOf k) s) = some d ↔ (if k % 2 = 0 then up (axOf k) d else down (axOf k) d) = some s
    split_ifs
    · exact up_down.symm
    · exact up_down
  apart g k i r x m _ _ _ _ := rfl

theorem exchNonblocking_ok {D : Dom} (h : D.Ok) : (exchNonblocking D).Ok where
  off0 := rfl
  mono g := Nat.le_succ g
  pair k s d := by
    show (if k % 2 = 0 then down (axOf k) s else up (axOf k) s) = some d ↔ (if k % 2 = 0 then up (axOf k) d else down (axOf k) d) = some s
    split_ifs
    · exact up_down.symm
    · exact up_down
  apart g k i r x m h1 h2 h3 h4 := by
    have e1 : k = g := by
      have a : g ≤ k := h1
      have b : k < g + 1 := h2
      omega
    have e2 : i = g := by
      have a : g ≤ i := h3
      have b : i < g + 1 := h4
      omega
    subst e1; subst e2
    show pack (unpack (slab D r.1 (axOf i) (exRecv D i r.1)) m x.f) (slab D r.1 (axOf i) (exSend D i r.1)) =
      pack x.f (slab D r.1 (axOf i) (exSend D i r.1))
    unfold pack
    apply List.map_congr_left
    intro j hj
    apply unpack_notMem
    intro hj'
    have hg := h.guard (axOf i)
    have hw := h.wide (axOf i) _ (r.2 (axOf i)).1 (r.2 (axOf i)).2
    have a := (mem_slab.mp hj).1
    have b := (mem_slab.mp hj').1
    unfold exSend at a
    unfold exRecv at b
    split_ifs at a b <;> omega

theorem absorb_one_some {R σ μ : Type} {P : Prog R σ μ} {m : R → σ} {r s : R} {a : ℕ} (e : P.src a r = some s) :
    absorb P m r a 1 = P.put a r (m r) (P.pay a s (m s)) := by
  have e' : P.src (a + 0) r = some s := e
  unfold absorb
  rw [e']
  rfl

theorem absorb_one_none {R σ μ : Type} {P : Prog R σ μ} {m : R → σ} {r : R} {a : ℕ} (e : P.src a r = none) :
    absorb P m r a 1 = m r := by
  have e' : P.src (a + 0) r = none := e
  unfold absorb
  rw [e']
  rfl

theorem exchBlocking_step (D : Dom) (m0 : Proc D → Loc) (k : ℕ) (c : Proc D) : (sync (exchBlocking D) m0 (k + 1) c).f =
    match if k % 2 = 0 then up (axOf k) c else down (axOf k) c with
    | some s => unpack (slab D c.1 (axOf k) (exRecv D k c.1))
        (pack (sync (exchBlocking D) m0 k s).f (slab D s.1 (axOf k) (exSend D k s.1))) (sync (exchBlocking D) m0 k c).f
    | none => (sync (exchBlocking D) m0 k c).f := by
  show ((exchBlocking D).fin k c (absorb (exchBlocking D) (sync (exchBlocking D) m0 k) c k (k + 1 - k))).f = _
  rw [Nat.add_sub_cancel_left]
  rcases e : (if k % 2 = 0 then up (axOf k) c else down (axOf k) c) with _ | s
  · rw [absorb_one_none (show (exchBlocking D).src k c = none from e)]
    show (if (if k % 2 = 0 then up (axOf k) c else down (axOf k) c).isSome then _ else _ : Loc).f = _
    rw [e]
    rfl
  · rw [absorb_one_some (show (exchBlocking D).src k c = some s from e)]
    show (if (if k % 2 = 0 then up (axOf k) c else down (axOf k) c).isSome then _ else _ : Loc).f = _
    rw [e]
    rfl

theorem exchNonblocking_step (D : Dom) (m0 : Proc D → Loc) (k : ℕ) (c : Proc D) : (sync (exchNonblocking D) m0 (k + 1) c).f =
    match if k % 2 = 0 then up (axOf k) c else down (axOf k) c with
    | some s => unpack (slab D c.1 (axOf k) (exRecv D k c.1))
        (pack (sync (exchNonblocking D) m0 k s).f (slab D s.1 (axOf k) (exSend D k s.1))) (sync (exchNonblocking D) m0 k c).f
    | none => (sync (exchNonblocking D) m0 k c).f := by
  show (absorb (exchNonblocking D) (sync (exchNonblocking D) m0 k) c k (k + 1 - k)).f = _
  rw [Nat.add_sub_cancel_left]
  rcases e : (if k % 2 = 0 then up (axOf k) c else down (axOf k) c) with _ | s
  · rw [absorb_one_none (show (exchNonblocking D).src k c = none from e)]
  · rw [absorb_one_some (show (exchNonblocking D).src k c = some s from e)]
    rfl

/-- The owner of a node, in all directions. -/
theorem exch_all {D : Dom} (h : D.Ok) {F : ℕ → Proc D → I3 → ℝ}
    (hs : ∀ k, k < 6 → ∀ c, F (k + 1) c = match if k % 2 = 0 then up (axOf k) c else down (axOf k) c with
      | some s => unpack (slab D c.1 (axOf k) (exRecv D k c.1)) (pack (F k s) (slab D s.1 (axOf k) (exSend D k s.1))) (F k c)
      | none => F k c) (c : Proc D) (i : I3) (hi : InArr D c.1 i) (o : Proc D) (i' : I3) (hio : InArr D o.1 i')
    (ho : Owns D o.1 i') (hsame : SameNode D c.1 i o.1 i') : F 6 c i = F 0 o i' := by
  have X := ex_axis h .x (F := F 0) (F1 := F 1) (F2 := F 2) (hs 0 (by omega)) (hs 1 (by omega))
  have Y := ex_axis h .y (F := F 2) (F1 := F 3) (F2 := F 4) (hs 2 (by omega)) (hs 3 (by omega))
  have Z := ex_axis h .z (F := F 4) (F1 := F 5) (F2 := F 6) (hs 4 (by omega)) (hs 5 (by omega))
  -- the owner along each direction
  have own : ∀ a, own1 D a (at_ c.1 a) (at_ i a) = (at_ o.1 a, at_ i' a) := by
    intro a
    obtain ⟨r, -, w, s⟩ := own1_ok h (c.2 a).1 (c.2 a).2 (hi a)
    obtain ⟨e1, e2⟩ := owner_unique h r.1 r.2 (o.2 a).1 (o.2 a).2 w (ho a) (same_trans (same_symm s) (hsame a))
    exact Prod.ext e1 e2
  have key : ∀ (a : Ax) (G G' : Proc D → I3 → ℝ),
      (∀ (c : Proc D) (i : I3), InArr D c.1 i →
        G' c i = st G (upd c.1 a (own1 D a (at_ c.1 a) (at_ i a)).1) (upd i a (own1 D a (at_ c.1 a) (at_ i a)).2)) →
      ∀ (p : Proc D) (j : I3), InArr D p.1 j → at_ p.1 a = at_ c.1 a → at_ j a = at_ i a →
      ∃ (p' : Proc D) (j' : I3), InArr D p'.1 j' ∧ G' p j = G p' j' ∧ p'.1 = upd p.1 a (at_ o.1 a) ∧ j' = upd j a (at_ i' a) := by
    intro a G G' hG p j hj hp hj'
    obtain ⟨p', e⟩ := move_isSome (c := p) (o.2 a).1 (o.2 a).2
    obtain ⟨e1, e2⟩ := move_iff.mp e
    have e3 : at_ o.1 a = at_ p'.1 a := by injection e1
    refine ⟨p', upd j a (at_ i' a), ?_, ?_, ?_, rfl⟩
    · rw [← upd_proc e2, ← e3]; exact inArr_upd hj (hio a)
    · rw [hG p j hj, hp, hj', own a]
      simp only
      rw [e3, st_move G e2]
    · rw [e3, upd_proc e2]
  obtain ⟨p1, j1, a1, b1, c1, d1⟩ := key .z _ _ Z c i hi rfl rfl
  obtain ⟨p2, j2, a2, b2, c2, d2⟩ := key .y _ _ Y p1 j1 a1 (by rw [c1]; rfl) (by rw [d1]; rfl)
  obtain ⟨p3, j3, a3, b3, c3, d3⟩ := key .x _ _ X p2 j2 a2 (by rw [c2, c1]; rfl) (by rw [d2, d1]; rfl)
  rw [b1, b2, b3]
  have ep : p3 = o := by
    apply Subtype.ext
    rw [c3, c2, c1]
    exact i3_ext (fun a => by cases a <;> rfl)
  have ej : j3 = i' := by
    rw [d3, d2, d1]
    exact i3_ext (fun a => by cases a <;> rfl)
  rw [ep, ej]

/-- Every node has an owner. -/
theorem owner_exists {D : Dom} (h : D.Ok) (c : Proc D) (i : I3) (hi : InArr D c.1 i) :
    ∃ (o : Proc D) (i' : I3), InArr D o.1 i' ∧ Owns D o.1 i' ∧ SameNode D c.1 i o.1 i' := by
  have H := fun a => own1_ok h (c.2 a).1 (c.2 a).2 (hi a)
  refine ⟨⟨⟨(own1 D .x c.1.j i.j).1, (own1 D .y c.1.k i.k).1, (own1 D .z c.1.l i.l).1⟩, fun a => ?_⟩,
    ⟨(own1 D .x c.1.j i.j).2, (own1 D .y c.1.k i.k).2, (own1 D .z c.1.l i.l).2⟩, fun a => ?_, fun a => ?_, fun a => ?_⟩
  · have := (H a).1; cases a <;> exact this
  · have := (H a).2.1; cases a <;> exact this
  · have := (H a).2.2.1; cases a <;> exact this
  · have := (H a).2.2.2; cases a <;> exact this

theorem owner_eq {D : Dom} (h : D.Ok) {o p : Proc D} {i j : I3} (ho : Owns D o.1 i) (hp : Owns D p.1 j) (hs : SameNode D o.1 i p.1 j) :
    o = p ∧ i = j := by
  have H := fun a => owner_unique h (o.2 a).1 (o.2 a).2 (p.2 a).1 (p.2 a).2 (ho a) (hp a) (hs a)
  exact ⟨Subtype.ext (i3_ext fun a => (H a).1), i3_ext fun a => (H a).2⟩

instance (D : Dom) : Finite (Proc D) := by
  refine Finite.of_injective (β := (Finset.Ico (0 : ℤ) (D.P .x)) × (Finset.Ico (0 : ℤ) (D.P .y)) × (Finset.Ico (0 : ℤ) (D.P .z)))
    (fun c => (⟨c.1.j, Finset.mem_Ico.mpr (c.2 .x)⟩, ⟨c.1.k, Finset.mem_Ico.mpr (c.2 .y)⟩, ⟨c.1.l, Finset.mem_Ico.mpr (c.2 .z)⟩)) ?_
  intro c c' e
  simp only [Prod.mk.injEq, Subtype.mk.injEq] at e
  apply Subtype.ext
  apply i3_ext
  intro a
  cases a
  · exact e.1
  · exact e.2.1
  · exact e.2.2

theorem exec_bound {D : Dom} {P : Prog (Proc D) Loc (List ℝ)} (h : P.Ok) : ∃ B, ∀ (m0 : Proc D → Loc) (n : ℕ) (b : Conf (Proc D) Loc (List ℝ)),
    Exec P n (start m0) b → n ≤ B := by
  have := Fintype.ofFinite (Proc D)
  exact ⟨_, fun m0 n b e => exec_bounded h e⟩

/-! ### Summation programs -/

theorem upPer_iff {D : Dom} {a : Ax} {s d : Proc D} : upPer a s = some d ↔ downPer a d = some s := by
  rw [upPer_eq, downPer_eq]
  exact up_down (D := D.peri)

theorem sumBlocking_ok (D : Dom) : (sumBlocking D).Ok where
  off0 := rfl
  mono g := Nat.le_succ g
  pair k s d := by
    show (if k % 2 = 0 then upPer (axOf k) s else downPer (axOf k) s) = some d ↔
      (if k % 2 = 0 then downPer (axOf k) d else upPer (axOf k) d) = some s
    split_ifs
    · exact upPer_iff
    · exact upPer_iff.symm
  apart g k i r x m _ _ _ _ := rfl

theorem sumNonblocking_ok (D : Dom) : (sumNonblocking D).Ok where
  off0 := rfl
  mono g := by show 2 * g ≤ 2 * (g + 1); omega
  pair k s d := by
    show (if k % 2 = 0 then up (axOf k) s else down (axOf k) s) = some d ↔ (if k % 2 = 0 then down (axOf k) d else up (axOf k) d) = some s
    split_ifs
    · exact up_down
    · exact up_down.symm
  apart g k i r x m _ _ _ _ := by
    show pack (if i % 2 = 0 then Loc.mk x.f m x.t2 else Loc.mk x.f x.t1 m).f _ = pack x.f _
    split_ifs <;> rfl

theorem sumBlocking_step (D : Dom) (m0 : Proc D → Loc) (k : ℕ) (c : Proc D) (hnil : ∀ c, (m0 c).t1 = []) :
    (sync (sumBlocking D) m0 k c).t1 = [] ∧ (sync (sumBlocking D) m0 (k + 1) c).f =
    match if k % 2 = 0 then downPer (axOf k) c else upPer (axOf k) c with
    | some s => addUnpack (slab D c.1 (axOf k) (smRecv D k c.1))
        (pack (sync (sumBlocking D) m0 k s).f (slab D s.1 (axOf k) (smSend D k s.1))) (sync (sumBlocking D) m0 k c).f
    | none => (sync (sumBlocking D) m0 k c).f := by
  have ht : (sync (sumBlocking D) m0 k c).t1 = [] := by
    cases k with
    | zero => exact hnil c
    | succ k => rfl
  refine ⟨ht, ?_⟩
  show ((sumBlocking D).fin k c (absorb (sumBlocking D) (sync (sumBlocking D) m0 k) c k (k + 1 - k))).f = _
  rw [Nat.add_sub_cancel_left]
  rcases e : (if k % 2 = 0 then downPer (axOf k) c else upPer (axOf k) c) with _ | s
  · rw [absorb_one_none (show (sumBlocking D).src k c = none from e)]
    show addUnpack (slab D c.1 (axOf k) (smRecv D k c.1)) (sync (sumBlocking D) m0 k c).t1 (sync (sumBlocking D) m0 k c).f = _
    rw [ht]
    cases slab D c.1 (axOf k) (smRecv D k c.1) <;> rfl
  · rw [absorb_one_some (show (sumBlocking D).src k c = some s from e)]
    rfl

theorem sumNonblocking_step (D : Dom) (m0 : Proc D → Loc) (k : ℕ) (c : Proc D) (hnil : ∀ c, (m0 c).t1 = [] ∧ (m0 c).t2 = []) :
    (sync (sumNonblocking D) m0 (k + 1) c).f = addUnpack (slab D c.1 (axOf (2 * k)) (smRecv D (2 * k + 1) c.1))
        (match up (axOf (2 * k)) c with
          | some r => pack (sync (sumNonblocking D) m0 k r).f (slab D r.1 (axOf (2 * k)) (smSend D (2 * k + 1) r.1)) | none => [])
      (addUnpack (slab D c.1 (axOf (2 * k)) (smRecv D (2 * k) c.1))
        (match down (axOf (2 * k)) c with
          | some l => pack (sync (sumNonblocking D) m0 k l).f (slab D l.1 (axOf (2 * k)) (smSend D (2 * k) l.1)) | none => [])
        (sync (sumNonblocking D) m0 k c).f) := by
  have ht : (sync (sumNonblocking D) m0 k c).t1 = [] ∧ (sync (sumNonblocking D) m0 k c).t2 = [] := by
    cases k with
    | zero => exact hnil c
    | succ k => exact ⟨rfl, rfl⟩
  have ax : axOf (2 * k + 1) = axOf (2 * k) := by
    unfold axOf
    rw [show (2 * k + 1) / 2 = k by omega, show 2 * k / 2 = k by omega]
  have hmem : absorb (sumNonblocking D) (sync (sumNonblocking D) m0 k) c (2 * k) 2 = ⟨(sync (sumNonblocking D) m0 k c).f,
      (match down (axOf (2 * k)) c with
          | some l => pack (sync (sumNonblocking D) m0 k l).f (slab D l.1 (axOf (2 * k)) (smSend D (2 * k) l.1)) | none => []),
      (match up (axOf (2 * k)) c with
          | some r => pack (sync (sumNonblocking D) m0 k r).f (slab D r.1 (axOf (2 * k)) (smSend D (2 * k + 1) r.1)) | none => [])⟩ := by
    have s0 : (sumNonblocking D).src (2 * k + 0) c = down (axOf (2 * k)) c := if_pos (by omega)
    have s1 : (sumNonblocking D).src (2 * k + 1) c = up (axOf (2 * k)) c := by
      rw [← ax]
      exact if_neg (by omega)
    have p0 : ∀ m v, (sumNonblocking D).put (2 * k + 0) c m v = ⟨m.f, v, m.t2⟩ := fun m v => if_pos (by omega)
    have p1 : ∀ m v, (sumNonblocking D).put (2 * k + 1) c m v = ⟨m.f, m.t1, v⟩ := fun m v => if_neg (by omega)
    have y0 : ∀ (s : Proc D) m, (sumNonblocking D).pay (2 * k + 0) s m = pack m.f (slab D s.1 (axOf (2 * k)) (smSend D (2 * k) s.1)) :=
      fun s m => rfl
    have y1 : ∀ (s : Proc D) m, (sumNonblocking D).pay (2 * k + 1) s m = pack m.f (slab D s.1 (axOf (2 * k)) (smSend D (2 * k + 1) s.1)) := by
      intro s m
      rw [← ax]
      rfl
    have q : absorb (sumNonblocking D) (sync (sumNonblocking D) m0 k) c (2 * k) 1 = ⟨(sync (sumNonblocking D) m0 k c).f,
      (match down (axOf (2 * k)) c with
          | some l => pack (sync (sumNonblocking D) m0 k l).f (slab D l.1 (axOf (2 * k)) (smSend D (2 * k) l.1)) | none => []), []⟩ := by
      unfold absorb
      rw [s0]
      rcases down (axOf (2 * k)) c with _ | l
      · show sync (sumNonblocking D) m0 k c = _
        obtain ⟨t1, t2⟩ := ht
        generalize sync (sumNonblocking D) m0 k c = z at *
        obtain ⟨zf, z1, z2⟩ := z
        simp only at t1 t2 ⊢
        rw [t1, t2]
      · simp only
        rw [p0, y0]
        show Loc.mk (sync (sumNonblocking D) m0 k c).f _ (sync (sumNonblocking D) m0 k c).t2 = _
        rw [ht.2]
    unfold absorb
    rw [s1, q]
    rcases up (axOf (2 * k)) c with _ | r
    · rfl
    · simp only
      rw [p1, y1]
  show ((sumNonblocking D).fin k c (absorb (sumNonblocking D) (sync (sumNonblocking D) m0 k) c (2 * k) (2 * (k + 1) - 2 * k))).f = _
  rw [show 2 * (k + 1) - 2 * k = 2 by omega, hmem]
  rfl

/-- The three directions of a summation, one after the other. -/
theorem sum_all {D : Dom} {F F2 F4 F6 : Proc D → I3 → ℝ}
    (X : ∀ (c : Proc D) (i : I3), InArr D c.1 i → Owns1 D .x (at_ c.1 .x) (at_ i .x) → F2 c i = axSum .x F c.1 i)
    (Y : ∀ (c : Proc D) (i : I3), InArr D c.1 i → Owns1 D .y (at_ c.1 .y) (at_ i .y) → F4 c i = axSum .y F2 c.1 i)
    (Z : ∀ (c : Proc D) (i : I3), InArr D c.1 i → Owns1 D .z (at_ c.1 .z) (at_ i .z) → F6 c i = axSum .z F4 c.1 i)
    (c : Proc D) (i : I3) (hi : InArr D c.1 i) (ho : Owns D c.1 i) :
    F6 c i = ∑ r ∈ copies D .z c.1.l i.l, ∑ q ∈ copies D .y c.1.k i.k, ∑ p ∈ copies D .x c.1.j i.j,
      st F ⟨p.1, q.1, r.1⟩ ⟨p.2, q.2, r.2⟩ := by
  have mem : ∀ (a : Ax) (c i : ℤ) (p : ℤ × ℤ), p ∈ copies D a c i → (0 ≤ p.1 ∧ p.1 < D.P a) ∧ InArr1 D a p.1 p.2 := by
    intro a c i p hp
    unfold copies at hp
    simp only [Finset.mem_map, Finset.mem_filter, Finset.mem_sigma, Finset.mem_Ico, Finset.mem_Icc, Sigma.exists] at hp
    obtain ⟨x, y, ⟨⟨a1, a2⟩, -⟩, rfl⟩ := hp
    exact ⟨a1, a2⟩
  rw [Z c i hi (ho .z)]
  unfold axSum
  apply Finset.sum_congr rfl
  intro r hr
  obtain ⟨r1, r2⟩ := mem _ _ _ _ hr
  have hp1 : ∀ a, 0 ≤ at_ (upd c.1 .z r.1) a ∧ at_ (upd c.1 .z r.1) a < D.P a := by
    intro b
    by_cases hb : b = .z
    · subst hb; simpa using r1
    · rw [at_upd_ne _ hb]; exact c.2 b
  have hi1 : InArr D (upd c.1 .z r.1) (upd i .z r.2) := inArr_upd hi r2
  rw [st_pos F4 hp1, Y ⟨upd c.1 .z r.1, hp1⟩ (upd i .z r.2) hi1 (ho .y)]
  unfold axSum
  apply Finset.sum_congr rfl
  intro q hq
  obtain ⟨q1, q2⟩ := mem _ _ _ _ hq
  have hp2 : ∀ a, 0 ≤ at_ (upd (upd c.1 .z r.1) .y q.1) a ∧ at_ (upd (upd c.1 .z r.1) .y q.1) a < D.P a := by
    intro b
    by_cases hb : b = .y
    · subst hb; simpa using q1
    · rw [at_upd_ne _ hb]; exact hp1 b
  have hi2 : InArr D (upd (upd c.1 .z r.1) .y q.1) (upd (upd i .z r.2) .y q.2) := inArr_upd hi1 q2
  show st F2 (upd (upd c.1 .z r.1) .y q.1) _ = _
  rw [st_pos F2 hp2, X ⟨upd (upd c.1 .z r.1) .y q.1, hp2⟩ _ hi2 (ho .x)]
  rfl

theorem sumNonblocking_result {D : Dom} (h : D.Ok) (m0 : Proc D → Loc) (hnil : ∀ c, (m0 c).t1 = [] ∧ (m0 c).t2 = []) (c : Proc D)
    (i : I3) (hi : InArr D c.1 i) (ho : Owns D c.1 i) : (sync (sumNonblocking D) m0 3 c).f i = nodeSum m0 c.1 i :=
  sum_all (F := fun c => (m0 c).f) (F2 := fun c => (sync (sumNonblocking D) m0 1 c).f)
    (F4 := fun c => (sync (sumNonblocking D) m0 2 c).f) (F6 := fun c => (sync (sumNonblocking D) m0 3 c).f)
    (sum_axis_nonblocking h .x fun c => sumNonblocking_step D m0 0 c hnil)
    (sum_axis_nonblocking h .y fun c => sumNonblocking_step D m0 1 c hnil)
    (sum_axis_nonblocking h .z fun c => sumNonblocking_step D m0 2 c hnil) c i hi ho

theorem upPer_up {D : Dom} (hp : ∀ a, D.per a = true) (a : Ax) (c : Proc D) : upPer a c = up a c := by
  unfold upPer up procMax
  rw [if_neg (by simp [hp])]

theorem downPer_down {D : Dom} (hp : ∀ a, D.per a = true) (a : Ax) (c : Proc D) : downPer a c = down a c := by
  unfold downPer down procMin
  rw [if_neg (by simp [hp])]

theorem sumBlocking_per {D : Dom} (h : D.Ok) (hp : ∀ a, D.per a = true) (m0 : Proc D → Loc) (hnil : ∀ c, (m0 c).t1 = []) (c : Proc D)
    (i : I3) (hi : InArr D c.1 i) (ho : Owns D c.1 i) : (sync (sumBlocking D) m0 6 c).f i = nodeSum m0 c.1 i := by
  have hs : ∀ k c, (sync (sumBlocking D) m0 (k + 1) c).f = match if k % 2 = 0 then down (axOf k) c else up (axOf k) c with
    | some s => addUnpack (slab D c.1 (axOf k) (smRecv D k c.1))
        (pack (sync (sumBlocking D) m0 k s).f (slab D s.1 (axOf k) (smSend D k s.1))) (sync (sumBlocking D) m0 k c).f
    | none => (sync (sumBlocking D) m0 k c).f := by
    intro k c
    rw [← upPer_up hp, ← downPer_down hp]
    exact (sumBlocking_step D m0 k c hnil).2
  exact sum_all (F := fun c => (m0 c).f) (F2 := fun c => (sync (sumBlocking D) m0 2 c).f)
    (F4 := fun c => (sync (sumBlocking D) m0 4 c).f) (F6 := fun c => (sync (sumBlocking D) m0 6 c).f)
    (sum_axis_blocking (F1 := fun c => (sync (sumBlocking D) m0 1 c).f) h .x (hs 0) (hs 1))
    (sum_axis_blocking (F1 := fun c => (sync (sumBlocking D) m0 3 c).f) h .y (hs 2) (hs 3))
    (sum_axis_blocking (F1 := fun c => (sync (sumBlocking D) m0 5 c).f) h .z (hs 4) (hs 5)) c i hi ho

/-- The blocking summation always adds as if every direction were periodic. -/
theorem sumBlocking_result {D : Dom} (h : D.Ok) (m0 : Proc D → Loc) (hnil : ∀ c, (m0 c).t1 = []) (c : Proc D)
    (i : I3) (hi : InArr D c.1 i) (ho : Owns D.peri c.1 i) : (sync (sumBlocking D) m0 6 c).f i = nodeSum (D := D.peri) m0 c.1 i :=
  sumBlocking_per (D := D.peri) (peri_ok h) (fun _ => rfl) m0 hnil c i hi ho

theorem copies_same {D : Dom} {a : Ax} {c i c' i' : ℤ} (h : SameNode1 D a c i c' i') : copies D a c i = copies D a c' i' := by
  unfold copies
  congr 1
  apply Finset.filter_congr
  intro p _
  exact ⟨fun x => same_trans (same_symm h) x, fun x => same_trans h x⟩

theorem nodeSum_same {D : Dom} (m : Proc D → Loc) {c i c' i' : I3} (h : SameNode D c i c' i') : nodeSum m c i = nodeSum m c' i' := by
  have hx : copies D .x c.j i.j = copies D .x c'.j i'.j := copies_same (h .x)
  have hy : copies D .y c.k i.k = copies D .y c'.k i'.k := copies_same (h .y)
  have hz : copies D .z c.l i.l = copies D .z c'.l i'.l := copies_same (h .z)
  unfold nodeSum
  rw [hx, hy, hz]

end Picsar.Exchange
