import Verif.Lemmas.TileRun
import Verif.Lemmas.EsirkClosed
import Verif.Spec.TileReduce

namespace Picsar.TileReduce
open Picsar Picsar.Grid Picsar.Deposition Picsar.Spec

/-! ### Array sections -/

/-- Index of a node in the tile arrays. -/
def rel (t : GTile) (i : I3) : I3 := ⟨i.j - t.lo.j, i.k - t.lo.k, i.l - t.lo.l⟩

theorem mapM_ok {α β : Type} {f : α → Res β} {h : α → β} : ∀ {l : List α}, (∀ a ∈ l, f a = .ok (h a)) → l.mapM f = .ok (l.map h)
  | [], _ => rfl
  | a :: l, H => by
    rw [List.mapM_cons, H a (by simp)]
    simp only [except_bind_ok]
    rw [mapM_ok (l := l) fun b hb => H b (by simp [hb])]
    rfl

/-- A section of a tile that stands for the nodes `alo..ahi` of the grid. -/
structure Good (t : GTile) (τ : Mem) (s : Sec) : Prop where
  j0 : s.blo.j = s.alo.j - t.lo.j
  k0 : s.blo.k = s.alo.k - t.lo.k
  l0 : s.blo.l = s.alo.l - t.lo.l
  j1 : s.bhi.j = s.ahi.j - t.lo.j
  k1 : s.bhi.k = s.ahi.k - t.lo.k
  l1 : s.bhi.l = s.ahi.l - t.lo.l
  box : ∀ i, InBox s.alo s.ahi i → InBox (τ s.c).lo (τ s.c).hi (rel t i)

/-- The additions of a section. -/
noncomputable def secList (t : GTile) (τ : Mem) (s : Sec) : List Add := (box s.alo s.ahi).map fun i => ⟨s.c, i, (τ s.c).val (rel t i)⟩

theorem sec_ok {t : GTile} {τ : Mem} {s : Sec} (h : Good t τ s) : s.adds τ = .ok (secList t τ s) := by
  unfold Sec.adds
  rw [if_pos ⟨by rw [h.j0, h.j1]; ring, by rw [h.k0, h.k1]; ring, by rw [h.l0, h.l1]; ring⟩]
  apply mapM_ok
  intro i hi
  have e : (⟨s.blo.j + (i.j - s.alo.j), s.blo.k + (i.k - s.alo.k), s.blo.l + (i.l - s.alo.l)⟩ : I3) = rel t i := by
    unfold rel
    rw [h.j0, h.k0, h.l0]
    congr 1 <;> ring
  rw [e]
  have : (τ s.c).get (rel t i) = .ok ((τ s.c).val (rel t i)) := if_pos (h.box i (mem_box.mp hi))
  rw [this]
  rfl

theorem adds_ok {t : GTile} {τ : Mem} {ss : List Sec} (h : ∀ s ∈ ss, Good t τ s) :
    adds τ ss = .ok (ss.map (secList t τ)).flatten := by
  unfold adds
  rw [mapM_ok (h := secList t τ) fun s hs => sec_ok (h s hs)]
  rfl

theorem sum_ite_nodup {l : List I3} (hn : l.Nodup) (i : I3) (f : I3 → ℝ) :
    (l.map fun a => if i = a then f a else 0).sum = if i ∈ l then f i else 0 := by
  induction l with
  | nil => simp
  | cons a l ih =>
    rw [List.nodup_cons] at hn
    simp only [List.map_cons, List.sum_cons, ih hn.2, List.mem_cons]
    by_cases h : i = a
    · subst h
      simp [hn.1]
    · simp [h]

theorem con_sec (t : GTile) (τ : Mem) (s : Sec) (c : Comp) (i : I3) :
    con (secList t τ s) c i = if c = s.c ∧ InBox s.alo s.ahi i then (τ c).val (rel t i) else 0 := by
  unfold con secList
  rw [List.map_map]
  by_cases hc : c = s.c
  · subst hc
    have : ((box s.alo s.ahi).map ((fun a : Add => if s.c = a.c ∧ i = a.i then a.v else 0) ∘
        fun i => (⟨s.c, i, (τ s.c).val (rel t i)⟩ : Add))) =
        (box s.alo s.ahi).map fun a => if i = a then (τ s.c).val (rel t a) else 0 := by
      apply List.map_congr_left
      intro a _
      simp
    rw [this, sum_ite_nodup (nodup_box _ _)]
    simp only [mem_box, true_and]
  · rw [if_neg (by tauto)]
    apply List.sum_eq_zero
    intro x hx
    obtain ⟨a, _, rfl⟩ := List.mem_map.mp hx
    simp [hc]

theorem con_flatten (ls : List (List Add)) (c : Comp) (i : I3) : con ls.flatten c i = (ls.map fun l => con l c i).sum := by
  induction ls with
  | nil => simp [con]
  | cons l ls ih => rw [List.flatten_cons, con_append, ih]; simp

/-- Sum over the arrays. -/
theorem sum_comp {cs : List Comp} (hn : cs.Nodup) (c : Comp) (f : Comp → ℝ) (h : ∀ c', c' ≠ c → f c' = 0) :
    (cs.map f).sum = if c ∈ cs then f c else 0 := by
  induction cs with
  | nil => simp
  | cons a l ih =>
    rw [List.nodup_cons] at hn
    simp only [List.map_cons, List.sum_cons, ih hn.2, List.mem_cons]
    by_cases h' : c = a
    · subst h'
      simp [hn.1]
    · rw [h a (fun e => h' e.symm)]
      simp [h']

theorem con_one {cs : List Comp} (hn : cs.Nodup) (t : GTile) (τ : Mem) (S : Comp → Sec) (hS : ∀ c, (S c).c = c) (c : Comp) (i : I3) :
    con ((cs.map S).map (secList t τ)).flatten c i = if c ∈ cs ∧ InBox (S c).alo (S c).ahi i then (τ c).val (rel t i) else 0 := by
  rw [con_flatten, List.map_map, List.map_map]
  have h := sum_comp hn c (fun c' => con (secList t τ (S c')) c i) (fun c' hc' => by
    rw [con_sec, if_neg]
    rintro ⟨e, _⟩
    exact hc' (by rw [e, hS]))
  refine Eq.trans h ?_
  rw [con_sec, hS]
  by_cases h1 : c ∈ cs <;> simp [h1]

theorem con_two {cs : List Comp} (hn : cs.Nodup) (t : GTile) (τ : Mem) (S T : Comp → Sec) (hS : ∀ c, (S c).c = c) (hT : ∀ c, (T c).c = c)
    (c : Comp) (i : I3) :
    con ((cs.flatMap fun c => [S c, T c]).map (secList t τ)).flatten c i =
      (if c ∈ cs ∧ InBox (S c).alo (S c).ahi i then (τ c).val (rel t i) else 0) +
        if c ∈ cs ∧ InBox (T c).alo (T c).ahi i then (τ c).val (rel t i) else 0 := by
  rw [← con_one hn t τ S hS, ← con_one hn t τ T hT]
  clear hn
  induction cs with
  | nil => simp [con]
  | cons a l ih =>
    simp only [List.flatMap_cons, List.map_append, List.flatten_append, con_append, List.map_cons, List.flatten_cons, List.map_nil,
      List.flatten_nil] at ih ⊢
    rw [ih]
    simp only [con, List.map_nil, List.sum_nil]
    ring

/-! ### The four loops of a tile -/

/-- Slabs of guard cells. -/
def InX (t : GTile) (i : I3) : Prop := InBox (GTile.elo t) (GTile.ehi t) i ∧ (i.j < t.lo.j ∨ t.hi.j < i.j)
def InY (t : GTile) (i : I3) : Prop := InBox (GTile.elo t) (GTile.ehi t) i ∧ t.lo.j ≤ i.j ∧ i.j ≤ t.hi.j ∧ (i.k < t.lo.k ∨ t.hi.k < i.k)
def InZ (t : GTile) (i : I3) : Prop :=
  InBox (GTile.elo t) (GTile.ehi t) i ∧ t.lo.j ≤ i.j ∧ i.j ≤ t.hi.j ∧ t.lo.k ≤ i.k ∧ i.k ≤ t.hi.k ∧ (i.l < t.lo.l ∨ t.hi.l < i.l)

instance (t : GTile) (i : I3) : Decidable (InX t i) := by unfold InX; infer_instance
instance (t : GTile) (i : I3) : Decidable (InY t i) := by unfold InY; infer_instance
instance (t : GTile) (i : I3) : Decidable (InZ t i) := by unfold InZ; infer_instance

/-- Widths and guards of a tile. -/
structure Shape (t : GTile) : Prop where
  wj : t.lo.j ≤ t.hi.j
  wk : t.lo.k ≤ t.hi.k
  wl : t.lo.l ≤ t.hi.l
  gj : 0 ≤ t.g.j
  gk : 0 ≤ t.g.k
  gl : 0 ≤ t.g.l

variable {t : GTile} {τ : Mem} {cs : List Comp}

theorem good_of (hb : ∀ c, (τ c).lo = t.alo ∧ (τ c).hi = t.ahi) {s : Sec} (h1 : s.blo = rel t s.alo) (h2 : s.bhi = rel t s.ahi)
    (h3 : ∀ i, InBox s.alo s.ahi i → InBox (GTile.elo t) (GTile.ehi t) i) : Good t τ s := by
  refine ⟨by rw [h1]; rfl, by rw [h1]; rfl, by rw [h1]; rfl, by rw [h2]; rfl, by rw [h2]; rfl, by rw [h2]; rfl, fun i hi => ?_⟩
  have := h3 i hi
  rw [(hb s.c).1, (hb s.c).2]
  simp only [InBox, GTile.elo, GTile.ehi, GTile.alo, GTile.ahi, GTile.cells, rel] at this ⊢
  omega

theorem good_own (H : Shape t) (hb : ∀ c, (τ c).lo = t.alo ∧ (τ c).hi = t.ahi) : ∀ s ∈ secOwn cs t, Good t τ s := by
  intro s hs
  obtain ⟨c, _, rfl⟩ := List.mem_map.mp hs
  refine good_of hb (by simp [rel]) (by simp [rel, GTile.cells]) (fun i hi => ?_)
  obtain ⟨h1, h2, h3, h4, h5, h6⟩ := H
  simp only [InBox, GTile.elo, GTile.ehi] at hi ⊢
  omega

theorem good_x (H : Shape t) (hb : ∀ c, (τ c).lo = t.alo ∧ (τ c).hi = t.ahi) : ∀ s ∈ secX cs t, Good t τ s := by
  intro s hs
  obtain ⟨c, _, hs⟩ := List.mem_flatMap.mp hs
  obtain ⟨h1, h2, h3, h4, h5, h6⟩ := H
  simp only [List.mem_cons, List.not_mem_nil, or_false] at hs
  rcases hs with rfl | rfl
  · refine good_of hb ?_ ?_ (fun i hi => ?_)
    · simp only [rel, I3.mk.injEq]; refine ⟨?_, ?_, ?_⟩ <;> omega
    · simp only [rel, I3.mk.injEq, GTile.cells]; refine ⟨?_, ?_, ?_⟩ <;> omega
    · simp only [InBox, GTile.elo, GTile.ehi] at hi ⊢; omega
  · refine good_of hb ?_ ?_ (fun i hi => ?_)
    · simp only [rel, I3.mk.injEq, GTile.cells]; refine ⟨?_, ?_, ?_⟩ <;> omega
    · simp only [rel, I3.mk.injEq, GTile.cells]; refine ⟨?_, ?_, ?_⟩ <;> omega
    · simp only [InBox, GTile.elo, GTile.ehi] at hi ⊢; omega

theorem good_y (H : Shape t) (hb : ∀ c, (τ c).lo = t.alo ∧ (τ c).hi = t.ahi) : ∀ s ∈ secY cs t, Good t τ s := by
  intro s hs
  obtain ⟨c, _, hs⟩ := List.mem_flatMap.mp hs
  obtain ⟨h1, h2, h3, h4, h5, h6⟩ := H
  simp only [List.mem_cons, List.not_mem_nil, or_false] at hs
  rcases hs with rfl | rfl
  · refine good_of hb ?_ ?_ (fun i hi => ?_)
    · simp only [rel, I3.mk.injEq]; refine ⟨?_, ?_, ?_⟩ <;> omega
    · simp only [rel, I3.mk.injEq, GTile.cells]; refine ⟨?_, ?_, ?_⟩ <;> first | omega | trivial
    · simp only [InBox, GTile.elo, GTile.ehi] at hi ⊢; omega
  · refine good_of hb ?_ ?_ (fun i hi => ?_)
    · simp only [rel, I3.mk.injEq, GTile.cells]; refine ⟨?_, ?_, ?_⟩ <;> omega
    · simp only [rel, I3.mk.injEq, GTile.cells]; refine ⟨?_, ?_, ?_⟩ <;> first | omega | trivial
    · simp only [InBox, GTile.elo, GTile.ehi] at hi ⊢; omega

theorem good_z (H : Shape t) (hb : ∀ c, (τ c).lo = t.alo ∧ (τ c).hi = t.ahi) : ∀ s ∈ secZ cs t, Good t τ s := by
  intro s hs
  obtain ⟨c, _, hs⟩ := List.mem_flatMap.mp hs
  obtain ⟨h1, h2, h3, h4, h5, h6⟩ := H
  simp only [List.mem_cons, List.not_mem_nil, or_false] at hs
  rcases hs with rfl | rfl
  · refine good_of hb ?_ ?_ (fun i hi => ?_)
    · simp only [rel, I3.mk.injEq]; refine ⟨?_, ?_, ?_⟩ <;> omega
    · simp only [rel, I3.mk.injEq, GTile.cells]; refine ⟨?_, ?_, ?_⟩ <;> first | omega | trivial
    · simp only [InBox, GTile.elo, GTile.ehi] at hi ⊢; omega
  · refine good_of hb ?_ ?_ (fun i hi => ?_)
    · simp only [rel, I3.mk.injEq, GTile.cells]; refine ⟨?_, ?_, ?_⟩ <;> omega
    · simp only [rel, I3.mk.injEq, GTile.cells]; refine ⟨?_, ?_, ?_⟩ <;> first | omega | trivial
    · simp only [InBox, GTile.elo, GTile.ehi] at hi ⊢; omega

theorem good_all (hb : ∀ c, (τ c).lo = t.alo ∧ (τ c).hi = t.ahi) : ∀ s ∈ secAll cs t, Good t τ s := by
  intro s hs
  obtain ⟨c, _, rfl⟩ := List.mem_map.mp hs
  refine good_of hb ?_ ?_ (fun i hi => hi)
  · simp only [rel, GTile.alo, I3.mk.injEq]; omega
  · simp only [rel, GTile.ahi, GTile.cells, I3.mk.injEq]; omega

theorem con_own (hn : cs.Nodup) (c : Comp) (i : I3) : con ((secOwn cs t).map (secList t τ)).flatten c i =
    if c ∈ cs ∧ InBox t.lo t.hi i then (τ c).val (rel t i) else 0 :=
  con_one hn t τ _ (fun _ => rfl) c i

theorem con_all (hn : cs.Nodup) (c : Comp) (i : I3) : con ((secAll cs t).map (secList t τ)).flatten c i =
    if c ∈ cs ∧ InBox (GTile.elo t) (GTile.ehi t) i then (τ c).val (rel t i) else 0 :=
  con_one hn t τ _ (fun _ => rfl) c i

theorem two_ite {P Q R : Prop} [Decidable P] [Decidable Q] [Decidable R] {v : ℝ} (h : R ↔ P ∨ Q) (h' : ¬ (P ∧ Q)) :
    (if P then v else 0) + (if Q then v else 0) = if R then v else 0 := by
  by_cases hP : P <;> by_cases hQ : Q <;> simp_all

theorem con_x (H : Shape t) (hn : cs.Nodup) (c : Comp) (i : I3) : con ((secX cs t).map (secList t τ)).flatten c i =
    if c ∈ cs ∧ InX t i then (τ c).val (rel t i) else 0 := by
  unfold secX
  rw [con_two hn t τ _ _ (fun _ => rfl) (fun _ => rfl) c i]
  obtain ⟨h1, h2, h3, h4, h5, h6⟩ := H
  apply two_ite
  · simp only [InX, InBox, GTile.elo, GTile.ehi]
    constructor
    · rintro ⟨hc, h, h'⟩
      rcases h' with h' | h'
      · left; refine ⟨hc, ?_⟩; omega
      · right; refine ⟨hc, ?_⟩; omega
    · rintro (⟨hc, h⟩ | ⟨hc, h⟩)
      · refine ⟨hc, ?_⟩; omega
      · refine ⟨hc, ?_⟩; omega
  · simp only [InBox]
    rintro ⟨⟨_, h⟩, ⟨_, h'⟩⟩
    omega

theorem con_y (H : Shape t) (hn : cs.Nodup) (c : Comp) (i : I3) : con ((secY cs t).map (secList t τ)).flatten c i =
    if c ∈ cs ∧ InY t i then (τ c).val (rel t i) else 0 := by
  unfold secY
  rw [con_two hn t τ _ _ (fun _ => rfl) (fun _ => rfl) c i]
  obtain ⟨h1, h2, h3, h4, h5, h6⟩ := H
  apply two_ite
  · simp only [InY, InBox, GTile.elo, GTile.ehi]
    constructor
    · rintro ⟨hc, h, h', h'', h'''⟩
      rcases h''' with h''' | h'''
      · left; refine ⟨hc, ?_⟩; omega
      · right; refine ⟨hc, ?_⟩; omega
    · rintro (⟨hc, h⟩ | ⟨hc, h⟩)
      · refine ⟨hc, ?_⟩; omega
      · refine ⟨hc, ?_⟩; omega
  · simp only [InBox]
    rintro ⟨⟨_, h⟩, ⟨_, h'⟩⟩
    omega

theorem con_z (H : Shape t) (hn : cs.Nodup) (c : Comp) (i : I3) : con ((secZ cs t).map (secList t τ)).flatten c i =
    if c ∈ cs ∧ InZ t i then (τ c).val (rel t i) else 0 := by
  unfold secZ
  rw [con_two hn t τ _ _ (fun _ => rfl) (fun _ => rfl) c i]
  obtain ⟨h1, h2, h3, h4, h5, h6⟩ := H
  apply two_ite
  · simp only [InZ, InBox, GTile.elo, GTile.ehi]
    constructor
    · rintro ⟨hc, h, h', h'', h4, h5, h6⟩
      rcases h6 with h6 | h6
      · left; refine ⟨hc, ?_⟩; omega
      · right; refine ⟨hc, ?_⟩; omega
    · rintro (⟨hc, h⟩ | ⟨hc, h⟩)
      · refine ⟨hc, ?_⟩; omega
      · refine ⟨hc, ?_⟩; omega
  · simp only [InBox]
    rintro ⟨⟨_, h⟩, ⟨_, h'⟩⟩
    omega

/-- Own cells and slabs make up the tile with its guard cells. -/
theorem parts (H : Shape t) (c : Comp) (i : I3) (v : ℝ) :
    (if c ∈ cs ∧ InBox t.lo t.hi i then v else 0) + (if c ∈ cs ∧ InX t i then v else 0) + (if c ∈ cs ∧ InY t i then v else 0) +
      (if c ∈ cs ∧ InZ t i then v else 0) = if c ∈ cs ∧ InBox (GTile.elo t) (GTile.ehi t) i then v else 0 := by
  obtain ⟨h1, h2, h3, h4, h5, h6⟩ := H
  by_cases hc : c ∈ cs
  swap
  · simp [hc]
  simp only [hc, true_and]
  by_cases e : InBox (GTile.elo t) (GTile.ehi t) i
  · rw [if_pos e]
    by_cases a : i.j < t.lo.j ∨ t.hi.j < i.j
    · rw [if_neg (by unfold InBox; omega), if_pos ⟨e, a⟩, if_neg (by unfold InY; omega), if_neg (by unfold InZ; omega)]; ring
    · by_cases b : i.k < t.lo.k ∨ t.hi.k < i.k
      · rw [if_neg (by unfold InBox; omega), if_neg (by unfold InX; tauto), if_pos ⟨e, by omega, by omega, b⟩, if_neg (by unfold InZ; omega)]; ring
      · by_cases d : i.l < t.lo.l ∨ t.hi.l < i.l
        · rw [if_neg (by unfold InBox; omega), if_neg (by unfold InX; tauto), if_neg (by unfold InY; omega),
            if_pos ⟨e, by omega, by omega, by omega, by omega, d⟩]; ring
        · rw [if_pos (by unfold InBox; omega), if_neg (by unfold InX; tauto), if_neg (by unfold InY; omega), if_neg (by unfold InZ; omega)]; ring
  · have e' : ¬ InBox t.lo t.hi i := by
      intro h
      apply e
      simp only [InBox, GTile.elo, GTile.ehi] at h ⊢
      omega
    rw [if_neg e, if_neg e', if_neg (by unfold InX; tauto), if_neg (by unfold InY; tauto), if_neg (by unfold InZ; tauto)]
    ring

theorem mem_secList {ss : List Sec} {a : Add} (h : a ∈ (ss.map (secList t τ)).flatten) : ∃ s ∈ ss, a.c = s.c ∧ InBox s.alo s.ahi a.i ∧
    a.v = (τ a.c).val (rel t a.i) := by
  obtain ⟨l, hl, ha⟩ := List.mem_flatten.mp h
  obtain ⟨s, hs, rfl⟩ := List.mem_map.mp hl
  obtain ⟨i, hi, rfl⟩ := List.mem_map.mp ha
  exact ⟨s, hs, rfl, mem_box.mp hi, rfl⟩

theorem mem_own {a : Add} (h : a ∈ ((secOwn cs t).map (secList t τ)).flatten) : a.c ∈ cs ∧ InBox t.lo t.hi a.i := by
  obtain ⟨s, hs, h1, h2, _⟩ := mem_secList h
  obtain ⟨c, hc, rfl⟩ := List.mem_map.mp hs
  exact ⟨h1 ▸ hc, h2⟩

theorem mem_all {a : Add} (h : a ∈ ((secAll cs t).map (secList t τ)).flatten) : a.c ∈ cs ∧ InBox (GTile.elo t) (GTile.ehi t) a.i := by
  obtain ⟨s, hs, h1, h2, _⟩ := mem_secList h
  obtain ⟨c, hc, rfl⟩ := List.mem_map.mp hs
  exact ⟨h1 ▸ hc, h2⟩

theorem mem_x (H : Shape t) {a : Add} (h : a ∈ ((secX cs t).map (secList t τ)).flatten) : a.c ∈ cs ∧ InX t a.i := by
  obtain ⟨s, hs, h1, h2, _⟩ := mem_secList h
  obtain ⟨c, hc, hs⟩ := List.mem_flatMap.mp hs
  obtain ⟨h1', h2', h3', h4', h5', h6'⟩ := H
  simp only [List.mem_cons, List.not_mem_nil, or_false] at hs
  rcases hs with rfl | rfl
  · refine ⟨h1 ▸ hc, ?_⟩
    simp only [InX, InBox, GTile.elo, GTile.ehi] at h2 ⊢; omega
  · refine ⟨h1 ▸ hc, ?_⟩
    simp only [InX, InBox, GTile.elo, GTile.ehi] at h2 ⊢; omega

theorem mem_y (H : Shape t) {a : Add} (h : a ∈ ((secY cs t).map (secList t τ)).flatten) : a.c ∈ cs ∧ InY t a.i := by
  obtain ⟨s, hs, h1, h2, _⟩ := mem_secList h
  obtain ⟨c, hc, hs⟩ := List.mem_flatMap.mp hs
  obtain ⟨h1', h2', h3', h4', h5', h6'⟩ := H
  simp only [List.mem_cons, List.not_mem_nil, or_false] at hs
  rcases hs with rfl | rfl
  · refine ⟨h1 ▸ hc, ?_⟩
    simp only [InY, InBox, GTile.elo, GTile.ehi] at h2 ⊢; omega
  · refine ⟨h1 ▸ hc, ?_⟩
    simp only [InY, InBox, GTile.elo, GTile.ehi] at h2 ⊢; omega

theorem mem_z (H : Shape t) {a : Add} (h : a ∈ ((secZ cs t).map (secList t τ)).flatten) : a.c ∈ cs ∧ InZ t a.i := by
  obtain ⟨s, hs, h1, h2, _⟩ := mem_secList h
  obtain ⟨c, hc, hs⟩ := List.mem_flatMap.mp hs
  obtain ⟨h1', h2', h3', h4', h5', h6'⟩ := H
  simp only [List.mem_cons, List.not_mem_nil, or_false] at hs
  rcases hs with rfl | rfl
  · refine ⟨h1 ▸ hc, ?_⟩
    simp only [InZ, InBox, GTile.elo, GTile.ehi] at h2 ⊢; omega
  · refine ⟨h1 ▸ hc, ?_⟩
    simp only [InZ, InBox, GTile.elo, GTile.ehi] at h2 ⊢; omega

theorem mem_x_of {c : Comp} {i : I3} (hc : c ∈ cs) (hi : InX t i) : ∃ a ∈ ((secX cs t).map (secList t τ)).flatten, a.c = c ∧ a.i = i := by
  have : ∃ s ∈ secX cs t, s.c = c ∧ InBox s.alo s.ahi i := by
    obtain ⟨h1, h2⟩ := hi
    simp only [InBox, GTile.elo, GTile.ehi] at h1
    rcases h2 with h2 | h2
    · refine ⟨_, List.mem_flatMap.mpr ⟨c, hc, List.mem_cons_self⟩, rfl, ?_⟩
      simp only [InBox]; omega
    · refine ⟨_, List.mem_flatMap.mpr ⟨c, hc, List.mem_cons_of_mem _ List.mem_cons_self⟩, rfl, ?_⟩
      simp only [InBox]; omega
  obtain ⟨s, hs, rfl, hb⟩ := this
  exact ⟨⟨s.c, i, (τ s.c).val (rel t i)⟩, List.mem_flatten.mpr ⟨_, List.mem_map.mpr ⟨s, hs, rfl⟩,
    List.mem_map.mpr ⟨i, mem_box.mpr hb, rfl⟩⟩, rfl, rfl⟩

/-- The four lists of a tile. -/
structure Four (work : GTile → Res Mem) (cs : List Comp) (t : GTile) (o x y z : List Add) (τ : Mem) : Prop where
  eq : phases work cs t = .ok [o, x, y, z]
  co : ∀ c i, con o c i = if c ∈ cs ∧ InBox t.lo t.hi i then (τ c).val (rel t i) else 0
  cx : ∀ c i, con x c i = if c ∈ cs ∧ InX t i then (τ c).val (rel t i) else 0
  cy : ∀ c i, con y c i = if c ∈ cs ∧ InY t i then (τ c).val (rel t i) else 0
  cz : ∀ c i, con z c i = if c ∈ cs ∧ InZ t i then (τ c).val (rel t i) else 0
  mo : ∀ a ∈ o, a.c ∈ cs ∧ InBox t.lo t.hi a.i
  mx : ∀ a ∈ x, a.c ∈ cs ∧ InX t a.i
  my : ∀ a ∈ y, a.c ∈ cs ∧ InY t a.i
  mz : ∀ a ∈ z, a.c ∈ cs ∧ InZ t a.i
  all : t.deposited = true → ∀ c i, c ∈ cs → InX t i → ∃ a ∈ x, a.c = c ∧ a.i = i

theorem four_ok {work : GTile → Res Mem} (H : Shape t) (hn : cs.Nodup) (hw : work t = .ok τ)
    (hb : ∀ c, (τ c).lo = t.alo ∧ (τ c).hi = t.ahi) (h0 : t.deposited = false → ∀ c i, (τ c).val i = 0) :
    ∃ o x y z, Four work cs t o x y z τ := by
  by_cases hd : t.deposited = true
  · refine ⟨_, _, _, _, ?_, con_own hn, con_x H hn, con_y H hn, con_z H hn, fun a => mem_own, fun a => mem_x H, fun a => mem_y H,
      fun a => mem_z H, fun _ c i hc hi => mem_x_of hc hi⟩
    unfold phases
    rw [hw]
    simp only [except_bind_ok]
    rw [if_pos hd, adds_ok (good_own H hb), adds_ok (good_x H hb), adds_ok (good_y H hb), adds_ok (good_z H hb)]
    rfl
  · rw [Bool.not_eq_true] at hd
    refine ⟨[], [], [], [], ?_, ?_, ?_, ?_, ?_, by simp, by simp, by simp, by simp, fun h => absurd h (by simp [hd])⟩
    · unfold phases
      rw [hw]
      simp only [except_bind_ok]
      rw [if_neg (by simp [hd])]
      rfl
    all_goals
      intro c i
      rw [h0 hd]
      simp [con]

end Picsar.TileReduce
