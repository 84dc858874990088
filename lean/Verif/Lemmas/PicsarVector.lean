import Verif.Spec.PicsarVector

namespace Picsar.PV
variable {α : Type}

theorem getObj_live {s : State α} {v : Nat} {o : Obj} (h : Live s v o) : getObj s v = .ok o := by
  unfold Live at h
  simp [getObj, h]

theorem load_ok {s : State α} {b i : Nat} {blk : Block α} (h : s.heap[b]? = some blk)
    (ha : blk.alive = true) (hi : i < blk.cells.length) : load s (some b) i = .ok blk.cells[i] := by
  simp [load, h, ha, rd_ok hi]

theorem store_ok {s : State α} {b i : Nat} {blk : Block α} {x : Option α}
    (h : s.heap[b]? = some blk) (ha : blk.alive = true) (hi : i < blk.cells.length) :
    store s (some b) i x
      = .ok { s with heap := s.heap.set b { blk with cells := blk.cells.set i x } } := by
  simp [store, h, ha, wr_ok hi]

theorem copyLoop_spec : ∀ (k i : Nat) (s : State α) (a b : Nat) (ba bb : Block α), a ≠ b →
    s.heap[a]? = some ba → s.heap[b]? = some bb → ba.alive = true → bb.alive = true →
    i + k ≤ ba.cells.length → i + k ≤ bb.cells.length →
    copyLoop s (some a) (some b) k i = .ok { s with heap := s.heap.set b { bb with
      cells := bb.cells.take i ++ (ba.cells.drop i).take k ++ bb.cells.drop (i + k) } } := by
  intro k
  induction k with
  | zero =>
    intro i s a b ba bb _ _ hb _ _ _ _
    have hlt : b < s.heap.length := (List.getElem?_eq_some_iff.mp hb).1
    have he : s.heap[b] = bb := (List.getElem?_eq_some_iff.mp hb).2
    have : s.heap.set b { bb with cells := bb.cells } = s.heap := by rw [← he]; simp
    simp only [copyLoop, Nat.add_zero, List.take_zero, List.append_nil, List.take_append_drop, this]
  | succ k ih =>
    intro i s a b ba bb hne ha hb haa hba hla hlb
    have hlt : b < s.heap.length := (List.getElem?_eq_some_iff.mp hb).1
    rw [copyLoop, load_ok ha haa (by omega)]
    simp only [except_bind_ok]
    rw [store_ok hb hba (by omega)]
    simp only [except_bind_ok]
    rw [ih (i + 1) _ a b ba { bb with cells := bb.cells.set i ba.cells[i] } hne]
    · simp only [List.set_set, Except.ok.injEq, State.mk.injEq, and_true]
      congr 2
      apply List.ext_getElem
      · simp; omega
      · intro n h1 h2
        simp only [List.getElem_append, List.getElem_take, List.getElem_drop, List.getElem_set,
          List.length_take, List.length_drop, List.length_append, List.length_set]
        grind
    · simp [List.getElem?_set_ne (Ne.symm hne), ha]
    · simp [hlt]
    · exact haa
    · exact hba
    · omega
    · simp; omega

theorem copyLoop_self : ∀ (k i : Nat) (s : State α) (b : Nat) (bb : Block α),
    s.heap[b]? = some bb → bb.alive = true → i + k ≤ bb.cells.length →
    copyLoop s (some b) (some b) k i = .ok s := by
  intro k
  induction k with
  | zero => intros; rfl
  | succ k ih =>
    intro i s b bb hb hba hl
    obtain ⟨hlt, he⟩ := List.getElem?_eq_some_iff.mp hb
    rw [copyLoop, load_ok hb hba (by omega)]
    simp only [except_bind_ok]
    rw [store_ok hb hba (by omega)]
    simp only [except_bind_ok, List.set_getElem_self]
    have : s.heap.set b { bb with cells := bb.cells } = s.heap := by
      rw [← he]; simp
    rw [this]
    exact ih (i + 1) s b bb hb hba (by omega)

theorem storeList_spec : ∀ (l : List α) (i : Nat) (s : State α) (b : Nat) (bb : Block α),
    s.heap[b]? = some bb → bb.alive = true → i + l.length ≤ bb.cells.length →
    storeList s (some b) l i = .ok { s with heap := s.heap.set b { bb with
      cells := bb.cells.take i ++ l.map some ++ bb.cells.drop (i + l.length) } } := by
  intro l
  induction l with
  | nil =>
    intro i s b bb hb _ _
    obtain ⟨hlt, he⟩ := List.getElem?_eq_some_iff.mp hb
    have : s.heap.set b { bb with cells := bb.cells } = s.heap := by rw [← he]; simp
    simp only [storeList, List.length_nil, Nat.add_zero, List.map_nil, List.append_nil,
      List.take_append_drop, this]
  | cons x l ih =>
    intro i s b bb hb hba hl
    obtain ⟨hlt, he⟩ := List.getElem?_eq_some_iff.mp hb
    simp only [List.length_cons] at hl
    rw [storeList, store_ok hb hba (by omega)]
    simp only [except_bind_ok]
    rw [ih (i + 1) _ b { bb with cells := bb.cells.set i (some x) } (by simp [hlt]) hba
      (by simp; omega)]
    simp only [List.set_set, Except.ok.injEq, State.mk.injEq, and_true]
    congr 2
    apply List.ext_getElem
    · simp; omega
    · intro n h1 h2
      simp only [List.getElem_append, List.getElem_take, List.getElem_drop, List.getElem_set,
        List.length_take, List.length_set, List.length_append, List.length_map]
      grind

/-- Content of the memory an object refers to. -/
def content (s : State α) (o : Obj) : List (Option α) :=
  match o.ptr with
  | none => []
  | some b =>
    match s.heap[b]? with
    | none => []
    | some blk => blk.cells.take o.size

/-- The pointer of an object is usable for its `size` elements. -/
def Valid (s : State α) (o : Obj) : Prop :=
  match o.ptr with
  | none => o.size = 0
  | some b => ∃ blk, s.heap[b]? = some blk ∧ blk.alive = true ∧ o.size ≤ blk.cells.length ∧
      (o.manage = true → blk.ext = false)

theorem content_length {s : State α} {o : Obj} (h : Valid s o) : (content s o).length = o.size := by
  unfold content Valid at *
  split at h
  · rename_i h'; simp [h]
  · rename_i b h'
    obtain ⟨blk, h1, _, h3, _⟩ := h
    simp [h1, h3]

theorem ctorList_eq (s : State α) (l : List α) :
    ctorList s l = .ok ⟨s.heap ++ [⟨l.map some, true, false⟩],
      s.objs ++ [some ⟨some s.heap.length, l.length, true⟩]⟩ := by
  unfold ctorList alloc
  simp only
  rw [storeList_spec l 0 _ _ ⟨List.replicate l.length none, true, false⟩ (by simp) rfl (by simp)]
  simp [newObj]

/-- Copying `k ≤ size` elements from a valid object into a freshly allocated block. -/
theorem copyLoop_fresh {s s' : State α} {o : Obj} {n k : Nat} (hv : Valid s o) (hk : k ≤ o.size)
    (hn : k ≤ n)
    (hs : s'.heap = s.heap ++ [⟨List.replicate n none, true, false⟩]) :
    copyLoop s' o.ptr (some s.heap.length) k 0 = .ok { s' with heap :=
      s.heap ++ [⟨(content s o).take k ++ List.replicate (n - k) none, true, false⟩] } := by
  have hfresh : s'.heap[s.heap.length]? = some ⟨List.replicate n none, true, false⟩ := by
    rw [hs]; simp
  unfold Valid at hv
  split at hv
  · rename_i h
    have : k = 0 := by omega
    subst this
    simp [copyLoop, content, h, ← hs]
  · rename_i b h
    obtain ⟨blk, h1, h2, h3, _⟩ := hv
    have hb : b < s.heap.length := (List.getElem?_eq_some_iff.mp h1).1
    have h1' : s'.heap[b]? = some blk := by
      rw [hs, List.getElem?_append_left hb, h1]
    rw [h, copyLoop_spec k 0 s' b s.heap.length blk _ (by omega) h1' hfresh h2 rfl (by omega)
      (by simp; omega)]
    simp only [content, h, h1, hs]
    congr 2
    rw [List.set_append_right _ _ (by omega)]
    simp [List.take_take, Nat.min_eq_left hk]

theorem ctorCopy_eq {s : State α} {v : Nat} {o : Obj} (hl : Live s v o) (hv : Valid s o) :
    ctorCopy s v = .ok ⟨s.heap ++ [⟨content s o, true, false⟩],
      s.objs ++ [some ⟨some s.heap.length, o.size, true⟩]⟩ := by
  unfold ctorCopy
  rw [getObj_live hl]
  simp only [except_bind_ok, alloc]
  rw [copyLoop_fresh hv (Nat.le_refl _) (Nat.le_refl _) rfl]
  simp [newObj, ← content_length hv]

theorem live_lt {s : State α} {v : Nat} {o : Obj} (h : Live s v o) : v < s.objs.length :=
  (List.getElem?_eq_some_iff.mp h).1

theorem assignCopy_eq {s : State α} {t v : Nat} {o a : Obj} (hne : t ≠ v) (ht : Live s t a)
    (hl : Live s v o) (hv : Valid s o) :
    assignCopy s t v = .ok ⟨s.heap ++ [⟨content s o, true, false⟩],
      s.objs.set t (some ⟨some s.heap.length, o.size, true⟩)⟩ := by
  have htl := live_lt ht
  have hvl := live_lt hl
  unfold assignCopy
  rw [getObj_live hl, getObj_live ht]
  simp only [except_bind_ok, setObj, alloc]
  have e1 : ∀ (s' : State α) x, s'.objs = s.objs.set t x → getObj s' v = .ok o := by
    intro s' x h
    apply getObj_live
    unfold Live
    rw [h, List.getElem?_set_ne hne]
    exact hl
  rw [e1 _ _ rfl]
  simp only [except_bind_ok]
  have e2 : ∀ (s' : State α) x, s'.objs = s.objs.set t (some x) → getObj s' t = .ok x := by
    intro s' x h
    apply getObj_live
    unfold Live
    rw [h]
    simp [htl]
  rw [e2 _ _ rfl]
  simp only [except_bind_ok, List.set_set]
  rw [e2 _ _ rfl, e1 _ _ rfl]
  simp only [except_bind_ok]
  rw [copyLoop_fresh hv (Nat.le_refl _) (Nat.le_refl _) rfl]
  simp only [except_bind_ok]
  rw [e2 _ _ rfl]
  simp [← content_length hv]

theorem assignCopy_self_eq {s : State α} {t : Nat} {a : Obj} (ht : Live s t a) :
    assignCopy s t t = .ok ⟨s.heap ++ [⟨List.replicate a.size none, true, false⟩],
      s.objs.set t (some ⟨some s.heap.length, a.size, true⟩)⟩ := by
  have htl := live_lt ht
  have e2 : ∀ (s' : State α) x, s'.objs = s.objs.set t (some x) → getObj s' t = .ok x := by
    intro s' x h
    apply getObj_live
    unfold Live
    rw [h]
    simp [htl]
  unfold assignCopy
  rw [getObj_live ht]
  simp only [except_bind_ok, setObj, alloc]
  rw [e2 _ _ rfl]
  simp only [except_bind_ok]
  rw [e2 _ _ rfl]
  simp only [except_bind_ok, List.set_set]
  rw [e2 _ _ rfl]
  simp only [except_bind_ok]
  rw [copyLoop_self _ _ _ _ ⟨List.replicate a.size none, true, false⟩ (by simp) rfl (by simp)]
  simp only [except_bind_ok]
  rw [e2 _ _ rfl]
  simp

theorem free_ok {s : State α} {b : Nat} {blk : Block α} (h : s.heap[b]? = some blk)
    (ha : blk.alive = true) (he : blk.ext = false) :
    free s (some b) = .ok { s with heap := s.heap.set b { blk with alive := false } } := by
  simp [free, h, ha, he]

/-- Heap after `delete[]` of a valid owning pointer. -/
def freed (h : List (Block α)) (p : Option Nat) : List (Block α) :=
  match p with
  | none => h
  | some b =>
    match h[b]? with
    | none => h
    | some blk => h.set b { blk with alive := false }

theorem free_valid {s : State α} {o : Obj} (hv : Valid s o) (hm : o.manage = true) :
    free s o.ptr = .ok { s with heap := freed s.heap o.ptr } := by
  unfold Valid at hv
  split at hv
  · rename_i h; simp [h, free, freed]
  · rename_i b h
    obtain ⟨blk, h1, h2, _, h4⟩ := hv
    rw [h, free_ok h1 h2 (h4 hm)]
    simp [freed, h1]

theorem resize_eq {s : State α} {v n : Nat} {o : Obj} (hl : Live s v o) (hv : Valid s o)
    (hm : o.manage = true) :
    resize s v n = .ok ⟨freed s.heap o.ptr ++
        [⟨(content s o).take n ++ List.replicate (n - o.size) none, true, false⟩],
      s.objs.set v (some ⟨some s.heap.length, n, true⟩)⟩ := by
  unfold resize
  rw [getObj_live hl]
  simp only [except_bind_ok, hm, Bool.not_true, Bool.false_eq_true, if_false, alloc]
  have hmin : (if o.size > n then n else o.size) ≤ o.size := by split <;> omega
  have hmin' : (if o.size > n then n else o.size) ≤ n := by split <;> omega
  rw [copyLoop_fresh hv hmin hmin' rfl]
  simp only [except_bind_ok]
  have hc : (content s o).take (if o.size > n then n else o.size)
      ++ List.replicate (n - (if o.size > n then n else o.size)) none
      = (content s o).take n ++ List.replicate (n - o.size) none := by
    split
    · rename_i h
      rw [Nat.sub_self, show n - o.size = 0 by omega]
    · rename_i h
      rw [List.take_of_length_le (by rw [content_length hv]; exact Nat.le_refl _), List.take_of_length_le]
      rw [content_length hv]; omega
  rw [hc]
  unfold Valid at hv
  split at hv
  · rename_i h; simp [h, free, freed, setObj]
  · rename_i b h
    obtain ⟨blk, h1, h2, _, h4⟩ := hv
    have hb : b < s.heap.length := (List.getElem?_eq_some_iff.mp h1).1
    rw [h, free_ok (blk := blk) (by simp [List.getElem?_append_left hb, h1]) h2 (h4 hm)]
    simp only [except_bind_ok, freed, h1, setObj, except_pure]
    rw [List.set_append_left _ _ hb]

theorem resize_refused {s : State α} {v n : Nat} {o : Obj} (hl : Live s v o)
    (hm : o.manage = false) : resize s v n = .error .exception := by
  unfold resize
  rw [getObj_live hl]
  simp [hm]

theorem ctorMove_eq {s : State α} {v : Nat} {o : Obj} (hl : Live s v o) :
    ctorMove s v = .ok ⟨s.heap, s.objs.set v (some ⟨none, 0, false⟩) ++ [some o]⟩ := by
  unfold ctorMove
  rw [getObj_live hl]
  simp [setObj, newObj]

theorem assignMove_eq {s : State α} {t v : Nat} {o a : Obj} (ht : Live s t a) (hl : Live s v o) :
    assignMove s t v
      = .ok ⟨s.heap, (s.objs.set t (some o)).set v (some ⟨none, 0, false⟩)⟩ := by
  unfold assignMove
  rw [getObj_live hl, getObj_live ht]
  simp [setObj]

theorem dtor_eq {s : State α} {v : Nat} {o : Obj} (hl : Live s v o) (hv : Valid s o) :
    dtor s v = .ok ⟨if o.manage then freed s.heap o.ptr else s.heap, s.objs.set v none⟩ := by
  unfold dtor
  rw [getObj_live hl]
  simp only [except_bind_ok]
  cases hm : o.manage
  · simp
  · simp [free_valid hv hm]

theorem write_eq {s : State α} {v i : Nat} {o : Obj} {x : α} (hl : Live s v o) (hv : Valid s o)
    (hi : i < o.size) : ∃ b blk, o.ptr = some b ∧ s.heap[b]? = some blk ∧ i < blk.cells.length ∧
      write s v i x = .ok ⟨s.heap.set b { blk with cells := blk.cells.set i (some x) }, s.objs⟩ := by
  unfold Valid at hv
  split at hv
  · omega
  · rename_i b h
    obtain ⟨blk, h1, h2, h3, _⟩ := hv
    refine ⟨b, blk, h, h1, by omega, ?_⟩
    unfold write
    rw [getObj_live hl]
    simp only [except_bind_ok, h]
    rw [store_ok h1 h2 (by omega)]

theorem read_eq {s : State α} {v i : Nat} {o : Obj} (hl : Live s v o) (hv : Valid s o)
    (hi : i < o.size) : ∃ x, (content s o)[i]? = some x ∧
      read s v i = (match x with | some y => .ok y | none => .error .uninitialised) := by
  unfold Valid at hv
  split at hv
  · omega
  · rename_i b h
    obtain ⟨blk, h1, h2, h3, _⟩ := hv
    refine ⟨blk.cells[i], ?_, ?_⟩
    · simp [content, h, h1, hi]
    · unfold read
      rw [getObj_live hl]
      simp only [except_bind_ok, h]
      rw [load_ok h1 h2 (by omega)]
      simp only [except_bind_ok]
      cases blk.cells[i] <;> rfl

/-- The invariant of every disciplined history. -/
structure Good (s : State α) : Prop where
  valid : ∀ v o, Live s v o → Valid s o
  uniq : ∀ v w o o' b, Live s v o → Live s w o' → o.manage = true → o'.manage = true →
    o.ptr = some b → o'.ptr = some b → v = w

theorem live_append {h : List (Block α)} {objs : List (Option Obj)} {o x : Obj} {w : Nat} :
    Live ⟨h, objs ++ [some o]⟩ w x ↔
      (objs[w]? = some (some x)) ∨ (w = objs.length ∧ x = o) := by
  unfold Live
  simp only
  rcases Nat.lt_trichotomy w objs.length with hlt | heq | hgt
  · rw [List.getElem?_append_left hlt]
    constructor
    · exact .inl
    · rintro (h | h)
      · exact h
      · omega
  · subst heq
    simp [eq_comm]
  · rw [List.getElem?_append_right (by omega), List.getElem?_eq_none (by simp; omega),
      List.getElem?_eq_none (by omega)]
    simp
    omega

theorem live_set {h : List (Block α)} {objs : List (Option Obj)} {y : Option Obj} {x : Obj}
    {t w : Nat} : Live ⟨h, objs.set t y⟩ w x ↔
      (w = t ∧ t < objs.length ∧ y = some x) ∨ (w ≠ t ∧ objs[w]? = some (some x)) := by
  unfold Live
  simp only [List.getElem?_set]
  by_cases h : t = w
  · subst h
    by_cases hl : t < objs.length
    · simp [hl]
    · simp [hl]
  · simp [h, Ne.symm h, eq_comm]

theorem valid_append {s : State α} {o : Obj} {e : List (Block α)} {objs : List (Option Obj)}
    (hv : Valid s o) : Valid ⟨s.heap ++ e, objs⟩ o := by
  unfold Valid at *
  split at hv
  · exact hv
  · obtain ⟨blk, h1, h2⟩ := hv
    exact ⟨blk, by rw [List.getElem?_append_left (List.getElem?_eq_some_iff.mp h1).1]; exact h1, h2⟩

theorem valid_congr {s s' : State α} {o : Obj} (h : s'.heap = s.heap) (hv : Valid s o) :
    Valid s' o := by
  unfold Valid at *
  rw [h]
  exact hv

theorem valid_new {s : State α} {n : Nat} {c : List (Option α)} {h : List (Block α)}
    {objs : List (Option Obj)} (hl : h.length = s.heap.length) (hn : n = c.length) :
    Valid ⟨h ++ [⟨c, true, false⟩], objs⟩ ⟨some s.heap.length, n, true⟩ := by
  refine ⟨⟨c, true, false⟩, ?_, rfl, by simp [hn], fun _ => rfl⟩
  simp [← hl]

theorem freed_length (h : List (Block α)) (p : Option Nat) : (freed h p).length = h.length := by
  unfold freed
  split
  · rfl
  · split <;> simp

theorem freed_ne {h : List (Block α)} {p : Option Nat} {b : Nat} (hne : p ≠ some b) :
    (freed h p)[b]? = h[b]? := by
  unfold freed
  split
  · rfl
  · rename_i c
    split
    · rfl
    · rw [List.getElem?_set_ne]
      rintro rfl
      exact hne rfl

theorem valid_freed {s : State α} {o : Obj} {p : Option Nat} {objs : List (Option Obj)}
    (hv : Valid s o) (hne : ∀ b, o.ptr = some b → p ≠ some b) : Valid ⟨freed s.heap p, objs⟩ o := by
  unfold Valid at *
  split at hv
  · exact hv
  · rename_i b h
    obtain ⟨blk, h1, h2⟩ := hv
    exact ⟨blk, by rw [freed_ne (hne b h)]; exact h1, h2⟩

theorem ptr_lt {s : State α} {o : Obj} {b : Nat} (hv : Valid s o) (h : o.ptr = some b) :
    b < s.heap.length := by
  unfold Valid at hv
  rw [h] at hv
  obtain ⟨blk, h1, _⟩ := hv
  exact (List.getElem?_eq_some_iff.mp h1).1

theorem good_init : Good (State.init : State α) :=
  ⟨fun v o h => by simp [Live, State.init] at h, fun v w o o' b h => by simp [Live, State.init] at h⟩

/-- A new object owning a fresh block. -/
theorem good_new {s : State α} (g : Good s) (c : List (Option α)) (n : Nat) (hn : n = c.length) :
    Good ⟨s.heap ++ [⟨c, true, false⟩], s.objs ++ [some ⟨some s.heap.length, n, true⟩]⟩ := by
  constructor
  · intro v o h
    rcases live_append.mp h with h | ⟨_, rfl⟩
    · exact valid_append (g.valid v o h)
    · exact valid_new rfl hn
  · intro v w o o' b h h' m m' p p'
    rcases live_append.mp h with h | ⟨rfl, rfl⟩ <;> rcases live_append.mp h' with h' | ⟨rfl, rfl⟩
    · exact g.uniq v w o o' b h h' m m' p p'
    · have := ptr_lt (g.valid v o h) p
      cases p'; omega
    · have := ptr_lt (g.valid w o' h') p'
      cases p; omega
    · rfl

/-- An existing object is given a fresh block (its old one is dropped). -/
theorem good_set_new {s : State α} (g : Good s) (t : Nat) (c : List (Option α)) (n : Nat)
    (hn : n = c.length) :
    Good ⟨s.heap ++ [⟨c, true, false⟩], s.objs.set t (some ⟨some s.heap.length, n, true⟩)⟩ := by
  constructor
  · intro v o h
    rcases live_set.mp h with ⟨_, _, h⟩ | ⟨_, h⟩
    · cases h; exact valid_new rfl hn
    · exact valid_append (g.valid v o h)
  · intro v w o o' b h h' m m' p p'
    rcases live_set.mp h with ⟨e, _, h⟩ | ⟨e, h⟩ <;> rcases live_set.mp h' with ⟨e', _, h'⟩ | ⟨e', h'⟩
    · omega
    · cases h; cases p
      have := ptr_lt (g.valid w o' h') p'; omega
    · cases h'; cases p'
      have := ptr_lt (g.valid v o h) p; omega
    · exact g.uniq v w o o' b h h' m m' p p'

theorem good_weaken {s : State α} (g : Good s) (e : Block α) : Good ⟨s.heap ++ [e], s.objs⟩ :=
  ⟨fun v o h => valid_append (g.valid v o h), g.uniq⟩

/-- One disciplined operation preserves the invariant and can fault only by reading an element that was never
written, or by a refused resize. -/
theorem step_good {s : State α} (g : Good s) (op : Op α) (hl : Legal s op) :
    (∃ s', step s op = .ok s' ∧ Good s') ∨ step s op = .error .exception ∨
      step s op = .error .uninitialised := by
  cases op with
  | ctorSize n =>
    left
    exact ⟨_, rfl, good_new g _ n (by simp)⟩
  | ctorList l =>
    left
    exact ⟨_, ctorList_eq s l, good_new g _ _ (by simp)⟩
  | ctorEmpty =>
    left
    refine ⟨_, rfl, ?_⟩
    constructor
    · intro v o h
      rcases live_append.mp h with h | ⟨_, rfl⟩
      · exact valid_congr rfl (g.valid v o h)
      · rfl
    · intro v w o o' b h h' m m' p p'
      rcases live_append.mp h with h | ⟨rfl, rfl⟩ <;> rcases live_append.mp h' with h' | ⟨rfl, rfl⟩
      · exact g.uniq v w o o' b h h' m m' p p'
      · cases p'
      · cases p
      · rfl
  | ctorCopy v =>
    left
    obtain ⟨o, ho⟩ := hl
    have hv := g.valid v o ho
    exact ⟨_, ctorCopy_eq ho hv, good_new g _ _ (content_length hv).symm⟩
  | ctorMove v =>
    left
    obtain ⟨o, ho⟩ := hl
    refine ⟨_, ctorMove_eq ho, ?_⟩
    constructor
    · intro w o' h
      rcases live_append.mp h with h | ⟨_, rfl⟩
      · rcases (live_set (h := s.heap)).mp h with ⟨_, _, h⟩ | ⟨_, h⟩
        · cases h; rfl
        · exact valid_congr rfl (g.valid w o' h)
      · exact valid_congr rfl (g.valid v _ ho)
    · intro w w' x x' b h h' m m' p p'
      have key : ∀ (w : Nat) (x : Obj), Live (⟨s.heap, s.objs.set v (some ⟨none, 0, false⟩) ++ [some o]⟩ : State α) w x →
          x.manage = true → (w ≠ v ∧ Live s w x) ∨ (w = s.objs.length ∧ x = o) := by
        intro w x h m
        rcases live_append.mp h with h | ⟨h1, h2⟩
        · rcases (live_set (h := s.heap)).mp h with ⟨_, _, h⟩ | ⟨h1, h⟩
          · cases h; cases m
          · exact .inl ⟨h1, h⟩
        · exact .inr ⟨by simpa using h1, h2⟩
      rcases key w x h m with ⟨n1, h1⟩ | ⟨n1, rfl⟩ <;> rcases key w' x' h' m' with ⟨n2, h2⟩ | ⟨n2, h2⟩
      · exact g.uniq w w' x x' b h1 h2 m m' p p'
      · subst h2
        exact absurd (g.uniq w v x x' b h1 ho m m' p p') n1
      · exact absurd (g.uniq w' v x' x b h2 ho m' m p' p) n2
      · omega
  | wrapExt n b =>
    left
    obtain ⟨blk, h1, h2, h3, h4⟩ := hl
    refine ⟨_, rfl, ?_⟩
    constructor
    · intro w o' h
      rcases live_append.mp h with h | ⟨_, rfl⟩
      · exact valid_congr rfl (g.valid w o' h)
      · exact ⟨blk, h1, h3, h4, fun h => by cases h⟩
    · intro w w' x x' b h h' m m' p p'
      rcases live_append.mp h with h | ⟨rfl, rfl⟩ <;> rcases live_append.mp h' with h' | ⟨rfl, rfl⟩
      · exact g.uniq w w' x x' b h h' m m' p p'
      · cases m'
      · cases m
      · rfl
  | wrapVec v =>
    left
    obtain ⟨o, ho⟩ := hl
    refine ⟨newObj s ⟨o.ptr, o.size, false⟩, ?_, ?_⟩
    · simp [step, getObj_live ho, ctorRaw]
    · constructor
      · intro w o' h
        rcases live_append.mp h with h | ⟨_, rfl⟩
        · exact valid_congr rfl (g.valid w o' h)
        · have hv := g.valid v o ho
          unfold Valid at *
          simp only [newObj]
          split at hv
          · exact hv
          · obtain ⟨blk, q1, q2, q3, _⟩ := hv
            exact ⟨blk, q1, q2, q3, fun h => by cases h⟩
      · intro w w' x x' b h h' m m' p p'
        rcases live_append.mp h with h | ⟨rfl, rfl⟩ <;> rcases live_append.mp h' with h' | ⟨rfl, rfl⟩
        · exact g.uniq w w' x x' b h h' m m' p p'
        · cases m'
        · cases m
        · rfl
  | assignCopy t v =>
    left
    obtain ⟨⟨a, ha⟩, o, ho⟩ := hl
    by_cases hne : t = v
    · subst hne
      exact ⟨_, assignCopy_self_eq ha, good_set_new g _ _ _ (by simp)⟩
    · have hv := g.valid v o ho
      exact ⟨_, assignCopy_eq hne ha ho hv, good_set_new g _ _ _ (content_length hv).symm⟩
  | assignMove t v =>
    left
    obtain ⟨⟨a, ha⟩, o, ho⟩ := hl
    refine ⟨_, assignMove_eq ha ho, ?_⟩
    have key : ∀ (w : Nat) (x : Obj),
        Live (⟨s.heap, (s.objs.set t (some o)).set v (some ⟨none, 0, false⟩)⟩ : State α) w x →
        (x = ⟨none, 0, false⟩) ∨ (w ≠ v ∧ w = t ∧ x = o) ∨ (w ≠ v ∧ w ≠ t ∧ Live s w x) := by
      intro w x h
      rcases live_set.mp h with ⟨_, _, h⟩ | ⟨h1, h⟩
      · cases h; exact .inl rfl
      · rcases (live_set (h := s.heap)).mp h with ⟨h2, _, h⟩ | ⟨h2, h⟩
        · cases h; exact .inr (.inl ⟨h1, h2, rfl⟩)
        · exact .inr (.inr ⟨h1, h2, h⟩)
    constructor
    · intro w x h
      rcases key w x h with rfl | ⟨_, _, rfl⟩ | ⟨_, _, h⟩
      · rfl
      · exact valid_congr rfl (g.valid v _ ho)
      · exact valid_congr rfl (g.valid w x h)
    · intro w w' x x' b h h' m m' p p'
      rcases key w x h with rfl | ⟨n1, e1, rfl⟩ | ⟨n1, e1, h1⟩
      · cases m
      · rcases key w' x' h' with rfl | ⟨n2, e2, h2⟩ | ⟨n2, e2, h2⟩
        · cases m'
        · omega
        · exact absurd (g.uniq w' v x' x b h2 ho m' m p' p) n2
      · rcases key w' x' h' with rfl | ⟨n2, e2, rfl⟩ | ⟨n2, e2, h2⟩
        · cases m'
        · exact absurd (g.uniq w v x x' b h1 ho m m' p p') n1
        · exact g.uniq w w' x x' b h1 h2 m m' p p'
  | dtor v =>
    left
    obtain ⟨o, ho, hw⟩ := hl
    have hv := g.valid v o ho
    refine ⟨_, dtor_eq ho hv, ?_⟩
    constructor
    · intro w x h
      rcases live_set.mp h with ⟨_, _, h⟩ | ⟨hne, h⟩
      · cases h
      · cases hm : o.manage
        · exact valid_congr rfl (g.valid w x h)
        · refine valid_freed (g.valid w x h) ?_
          intro b hb hb'
          cases hx : x.manage
          · exact hne (hw hm b w x hb' h hx hb)
          · exact hne (g.uniq w v x o b h ho hx hm hb hb')
    · intro w w' x x' b h h' m m' p p'
      rcases live_set.mp h with ⟨_, _, h⟩ | ⟨hne, h⟩
      · cases h
      · rcases live_set.mp h' with ⟨_, _, h'⟩ | ⟨hne', h'⟩
        · cases h'
        · exact g.uniq w w' x x' b h h' m m' p p'
  | resize v n =>
    obtain ⟨o, ho, hw⟩ := hl
    have hv := g.valid v o ho
    cases hm : o.manage
    · right; left
      exact resize_refused ho hm
    · left
      refine ⟨_, resize_eq ho hv hm, ?_⟩
      have hc : n = ((content s o).take n ++ List.replicate (n - o.size) none).length := by
        simp [content_length hv]; omega
      constructor
      · intro w x h
        rcases live_set.mp h with ⟨_, _, h⟩ | ⟨hne, h⟩
        · cases h
          exact valid_new (freed_length _ _) hc
        · refine valid_append (s := ⟨freed s.heap o.ptr, s.objs⟩) (valid_freed (g.valid w x h) ?_)
          intro b hb hb'
          cases hx : x.manage
          · exact hne (hw hm b w x hb' h hx hb)
          · exact hne (g.uniq w v x o b h ho hx hm hb hb')
      · intro w w' x x' b h h' m m' p p'
        rcases live_set.mp h with ⟨e, _, h⟩ | ⟨e, h⟩ <;>
          rcases live_set.mp h' with ⟨e', _, h'⟩ | ⟨e', h'⟩
        · omega
        · cases h; cases p
          have := ptr_lt (g.valid w' x' h') p'; omega
        · cases h'; cases p'
          have := ptr_lt (g.valid w x h) p; omega
        · exact g.uniq w w' x x' b h h' m m' p p'
  | read v i =>
    obtain ⟨o, ho, hi⟩ := hl
    obtain ⟨x, _, hx⟩ := read_eq ho (g.valid v o ho) hi
    cases x with
    | none => right; right; simp [step, hx]
    | some y => left; exact ⟨s, by simp [step, hx], g⟩
  | write v i x =>
    left
    obtain ⟨o, ho, hi⟩ := hl
    obtain ⟨b, blk, h1, h2, h3, h4⟩ := write_eq (x := x) ho (g.valid v o ho) hi
    refine ⟨_, h4, ?_, g.uniq⟩
    intro w y h
    have hy := g.valid w y h
    have hb := (List.getElem?_eq_some_iff.mp h2).1
    unfold Valid at *
    split at hy
    · exact hy
    · rename_i c _
      obtain ⟨blk', q1, q2, q3, q4⟩ := hy
      by_cases hc : b = c
      · subst hc
        rw [h2] at q1; cases q1
        exact ⟨{ blk with cells := blk.cells.set i (some x) }, by simp [hb], q2, by simpa using q3, q4⟩
      · exact ⟨blk', by simp only; rw [List.getElem?_set_ne hc]; exact q1, q2, q3, q4⟩
  | extAlloc l =>
    left
    exact ⟨_, rfl, good_weaken g _⟩
  | extFree b =>
    left
    obtain ⟨⟨blk, h1, h2, h3⟩, h4⟩ := hl
    refine ⟨⟨freed s.heap (some b), s.objs⟩, by simp [step, h1, h3, freed], ?_, g.uniq⟩
    intro w x h
    refine valid_freed (g.valid w x h) ?_
    intro c hc hc'
    cases hc'
    exact h4 w x h hc

theorem run_good : ∀ (ops : List (Op α)) (s : State α), Good s → LegalRun s ops →
    (∃ s', run s ops = .ok s' ∧ Good s') ∨ run s ops = .error .uninitialised := by
  intro ops
  induction ops with
  | nil => intro s g _; exact .inl ⟨s, rfl, g⟩
  | cons op ops ih =>
    intro s g hl
    obtain ⟨h1, h2⟩ := hl
    unfold run
    rcases step_good g op h1 with ⟨s', h, g'⟩ | h | h
    · rw [h] at h2 ⊢; exact ih s' g' h2
    · rw [h] at h2 ⊢; exact ih s g h2
    · rw [h]; exact .inr rfl

theorem Reachable.good {s : State α} (h : Reachable s) : Good s := by
  obtain ⟨ops, hl, hr⟩ := h
  rcases run_good ops _ good_init hl with ⟨s', h, g⟩ | h
  · rw [hr] at h; cases h; exact g
  · rw [hr] at h; cases h

theorem holds_content {s : State α} {v : Nat} {l : List (Option α)} (h : Holds s v l) :
    ∃ o, Live s v o ∧ content s o = l ∧ o.size = l.length := by
  obtain ⟨o, h1, h2, h3⟩ := h
  refine ⟨o, h1, ?_, h2⟩
  unfold content
  cases hp : o.ptr with
  | none => rw [hp] at h3; simp only at h3 ⊢; exact h3.symm
  | some b =>
    rw [hp] at h3
    obtain ⟨blk, q1, _, q3⟩ := h3
    simp only [q1, h2]
    exact (List.prefix_iff_eq_take.mp q3).symm

theorem content_holds {s : State α} {v : Nat} {o : Obj} (hl : Live s v o) (hv : Valid s o) :
    Holds s v (content s o) := by
  refine ⟨o, hl, (content_length hv).symm, ?_⟩
  unfold Valid at hv
  unfold content
  cases hp : o.ptr with
  | none => rfl
  | some b =>
    rw [hp] at hv
    obtain ⟨blk, q1, q2, q3, _⟩ := hv
    exact ⟨blk, q1, q2, by simp [q1, List.take_prefix]⟩

theorem live_inj {s : State α} {v : Nat} {a b : Obj} (h : Live s v a) (h' : Live s v b) : a = b := by
  unfold Live at *
  rw [h] at h'
  cases h'
  rfl

theorem Good.holds_unique {s : State α} {v : Nat} {l l' : List (Option α)} (h : Holds s v l)
    (h' : Holds s v l') : l = l' := by
  obtain ⟨o, h1, h2, _⟩ := holds_content h
  obtain ⟨o', h1', h2', _⟩ := holds_content h'
  unfold Live at *
  rw [h1] at h1'
  cases h1'
  rw [← h2, ← h2']

/-- Appending blocks and changing other objects does not change what a vector holds. -/
theorem holds_frame {s s' : State α} {v : Nat} {l : List (Option α)} (h : Holds s v l)
    (ho : s'.objs[v]? = s.objs[v]?)
    (hh : ∀ (o : Obj) (b : Nat), Live s v o → o.ptr = some b → s'.heap[b]? = s.heap[b]?) :
    Holds s' v l := by
  obtain ⟨o, h1, h2, h3⟩ := h
  refine ⟨o, by unfold Live; rw [ho]; exact h1, h2, ?_⟩
  split at h3
  · exact h3
  · rename_i b e
    obtain ⟨blk, q1, q2⟩ := h3
    exact ⟨blk, by rw [hh o b h1 e]; exact q1, q2⟩

/-- Writes through vectors that do not share `d`'s block leave `d`'s content unchanged. -/
theorem writes_frame : ∀ (ws : List (Nat × Nat × α)) (s s' : State α) (d : Nat)
    (l : List (Option α)),
    Holds s d l →
    (∀ w ∈ ws, ∀ o o' b, Live s d o → Live s w.1 o' → o.ptr = some b → o'.ptr ≠ some b) →
    run s (writeOps ws) = .ok s' → Holds s' d l := by
  intro ws
  induction ws with
  | nil => intro s s' d l h _ hr; cases hr; exact h
  | cons w ws ih =>
    intro s s' d l h hsep hr
    simp only [writeOps, List.map_cons, run, step] at hr
    have hobjs : ∀ s1, write s w.1 w.2.1 w.2.2 = .ok s1 → s1.objs = s.objs ∧
        ∀ o b, Live s d o → o.ptr = some b → s1.heap[b]? = s.heap[b]? := by
      intro s1 h1
      unfold write at h1
      cases hg : getObj s w.1 with
      | error e => rw [hg] at h1; cases h1
      | ok o' =>
        have hlive : Live s w.1 o' := by
          unfold getObj at hg
          unfold Live
          split at hg
          · rename_i e; cases hg; exact e
          · cases hg
        rw [hg] at h1
        simp only [except_bind_ok] at h1
        unfold store at h1
        split at h1
        · cases h1
        · rename_i c hc
          split at h1
          · cases h1
          · rename_i blk hb
            split at h1
            · cases hw : wr blk.cells w.2.1 (some w.2.2) with
              | error e => rw [hw] at h1; cases h1
              | ok cs =>
                rw [hw] at h1
                cases h1
                refine ⟨rfl, ?_⟩
                intro o b ho hb'
                simp only
                rw [List.getElem?_set_ne]
                rintro rfl
                exact hsep w (by simp) o o' _ ho hlive hb' hc
            · cases h1
    cases hw : write s w.1 w.2.1 w.2.2 with
    | error e =>
      rw [hw] at hr
      cases e
      case exception => exact ih s s' d l h (fun w' hw' => hsep w' (by simp [hw'])) hr
      all_goals cases hr
    | ok s1 =>
      rw [hw] at hr
      obtain ⟨e1, e2⟩ := hobjs s1 hw
      refine ih s1 s' d l (holds_frame h (by rw [e1]) e2) ?_ hr
      intro w' hw' o o' b ho ho'
      unfold Live at ho ho'
      rw [e1] at ho ho'
      exact hsep w' (by simp [hw']) o o' b ho ho'

/-- Every live library block is owned by a live vector. -/
def Owned (s : State α) : Prop :=
  ∀ (b : Nat) (blk : Block α), s.heap[b]? = some blk → blk.alive = true → blk.ext = false →
    ∃ v o, Live s v o ∧ o.manage = true ∧ o.ptr = some b

theorem owned_heap_append {h : List (Block α)} {c : Block α} {b : Nat} {blk : Block α}
    (hb : (h ++ [c])[b]? = some blk) : h[b]? = some blk ∨ (b = h.length ∧ blk = c) := by
  rcases Nat.lt_trichotomy b h.length with hlt | heq | hgt
  · left; rwa [List.getElem?_append_left hlt] at hb
  · subst heq; right; simp at hb; exact ⟨rfl, hb.symm⟩
  · rw [List.getElem?_append_right (by omega), List.getElem?_eq_none (by simp; omega)] at hb
    cases hb

theorem freed_alive {h : List (Block α)} {p : Option Nat} {b : Nat} {blk : Block α}
    (hb : (freed h p)[b]? = some blk) (ha : blk.alive = true) :
    h[b]? = some blk ∧ p ≠ some b := by
  by_cases hp : p = some b
  · subst hp
    unfold freed at hb
    simp only at hb
    split at hb
    · rename_i hn; rw [hn] at hb; cases hb
    · rename_i blk' hb'
      have hlt := (List.getElem?_eq_some_iff.mp hb').1
      simp [hlt] at hb
      subst hb
      cases ha
  · rw [freed_ne hp] at hb
    exact ⟨hb, hp⟩

theorem step_owned {s s' : State α} (g : Good s) (hO : Owned s) (op : Op α) (hl : Legal s op)
    (hn : NoOverwrite s op) (hst : step s op = .ok s') : Owned s' := by
  cases op with
  | ctorSize n =>
    cases hst
    intro b blk hb ha he
    rcases owned_heap_append hb with h | ⟨h, rfl⟩
    · obtain ⟨v, o, h1, h2, h3⟩ := hO b blk h ha he
      exact ⟨v, o, live_append.mpr (.inl h1), h2, h3⟩
    · exact ⟨_, _, live_append.mpr (.inr ⟨rfl, rfl⟩), rfl, by rw [h]⟩
  | ctorList l =>
    rw [step, ctorList_eq] at hst
    cases hst
    intro b blk hb ha he
    rcases owned_heap_append hb with h | ⟨h, rfl⟩
    · obtain ⟨v, o, h1, h2, h3⟩ := hO b blk h ha he
      exact ⟨v, o, live_append.mpr (.inl h1), h2, h3⟩
    · exact ⟨_, _, live_append.mpr (.inr ⟨rfl, rfl⟩), rfl, by rw [h]⟩
  | ctorEmpty =>
    cases hst
    intro b blk hb ha he
    obtain ⟨v, o, h1, h2, h3⟩ := hO b blk hb ha he
    exact ⟨v, o, live_append.mpr (.inl h1), h2, h3⟩
  | ctorCopy v =>
    obtain ⟨o, ho⟩ := hl
    rw [step, ctorCopy_eq ho (g.valid v o ho)] at hst
    cases hst
    intro b blk hb ha he
    rcases owned_heap_append hb with h | ⟨h, rfl⟩
    · obtain ⟨v, o, h1, h2, h3⟩ := hO b blk h ha he
      exact ⟨v, o, live_append.mpr (.inl h1), h2, h3⟩
    · exact ⟨_, _, live_append.mpr (.inr ⟨rfl, rfl⟩), rfl, by rw [h]⟩
  | ctorMove v =>
    obtain ⟨o, ho⟩ := hl
    rw [step, ctorMove_eq ho] at hst
    cases hst
    intro b blk hb ha he
    obtain ⟨w, x, h1, h2, h3⟩ := hO b blk hb ha he
    by_cases hw : w = v
    · subst hw
      obtain rfl := live_inj h1 ho
      exact ⟨_, _, live_append.mpr (.inr ⟨rfl, rfl⟩), h2, h3⟩
    · exact ⟨w, x, live_append.mpr (.inl ((live_set (h := s.heap)).mpr (.inr ⟨hw, h1⟩))), h2, h3⟩
  | wrapExt n b =>
    cases hst
    intro b blk hb ha he
    obtain ⟨v, o, h1, h2, h3⟩ := hO b blk hb ha he
    exact ⟨v, o, live_append.mpr (.inl h1), h2, h3⟩
  | wrapVec v =>
    obtain ⟨o, ho⟩ := hl
    simp only [step, getObj_live ho, except_bind_ok, ctorRaw] at hst
    cases hst
    intro b blk hb ha he
    obtain ⟨v, o, h1, h2, h3⟩ := hO b blk hb ha he
    exact ⟨v, o, live_append.mpr (.inl h1), h2, h3⟩
  | assignCopy t v =>
    obtain ⟨⟨a, ha'⟩, o, ho⟩ := hl
    obtain ⟨hne, hov⟩ := hn
    rw [step, assignCopy_eq hne ha' ho (g.valid v o ho)] at hst
    cases hst
    intro b blk hb ha he
    rcases owned_heap_append hb with h | ⟨h, rfl⟩
    · obtain ⟨w, x, h1, h2, h3⟩ := hO b blk h ha he
      have hw : w ≠ t := by
        rintro rfl
        rcases hov x h1 with h | h
        · rw [h] at h2; cases h2
        · rw [h] at h3; cases h3
      exact ⟨w, x, live_set.mpr (.inr ⟨hw, h1⟩), h2, h3⟩
    · exact ⟨t, _, live_set.mpr (.inl ⟨rfl, live_lt ha', rfl⟩), rfl, by rw [h]⟩
  | assignMove t v =>
    obtain ⟨⟨a, ha'⟩, o, ho⟩ := hl
    obtain ⟨hne, hov⟩ := hn
    rw [step, assignMove_eq ha' ho] at hst
    cases hst
    intro b blk hb ha he
    obtain ⟨w, x, h1, h2, h3⟩ := hO b blk hb ha he
    have hw : w ≠ t := by
      rintro rfl
      rcases hov x h1 with h | h
      · rw [h] at h2; cases h2
      · rw [h] at h3; cases h3
    by_cases hwv : w = v
    · subst hwv
      obtain rfl := live_inj h1 ho
      exact ⟨t, _, live_set.mpr (.inr ⟨hne, (live_set (h := s.heap)).mpr
        (.inl ⟨rfl, live_lt ha', rfl⟩)⟩), h2, h3⟩
    · exact ⟨w, x, live_set.mpr (.inr ⟨hwv, (live_set (h := s.heap)).mpr
        (.inr ⟨hw, h1⟩)⟩), h2, h3⟩
  | dtor v =>
    obtain ⟨o, ho, _⟩ := hl
    rw [step, dtor_eq ho (g.valid v o ho)] at hst
    cases hst
    intro b blk hb ha he
    cases hm : o.manage
    · simp only [hm, Bool.false_eq_true, if_false] at hb
      obtain ⟨w, x, h1, h2, h3⟩ := hO b blk hb ha he
      have hw : w ≠ v := by
        rintro rfl
        unfold Live at h1 ho
        rw [h1] at ho; cases ho
        rw [hm] at h2; cases h2
      exact ⟨w, x, live_set.mpr (.inr ⟨hw, h1⟩), h2, h3⟩
    · simp only [hm, if_true] at hb
      obtain ⟨hb1, hb2⟩ := freed_alive hb ha
      obtain ⟨w, x, h1, h2, h3⟩ := hO b blk hb1 ha he
      have hw : w ≠ v := by
        rintro rfl
        unfold Live at h1 ho
        rw [h1] at ho; cases ho
        exact hb2 h3
      exact ⟨w, x, live_set.mpr (.inr ⟨hw, h1⟩), h2, h3⟩
  | resize v n =>
    obtain ⟨o, ho, _⟩ := hl
    cases hm : o.manage
    · rw [step, resize_refused ho hm] at hst; cases hst
    · rw [step, resize_eq ho (g.valid v o ho) hm] at hst
      cases hst
      intro b blk hb ha he
      rcases owned_heap_append hb with h | ⟨h, rfl⟩
      · obtain ⟨hb1, hb2⟩ := freed_alive h ha
        obtain ⟨w, x, h1, h2, h3⟩ := hO b blk hb1 ha he
        have hw : w ≠ v := by
          rintro rfl
          unfold Live at h1 ho
          rw [h1] at ho; cases ho
          exact hb2 h3
        exact ⟨w, x, live_set.mpr (.inr ⟨hw, h1⟩), h2, h3⟩
      · exact ⟨v, _, live_set.mpr (.inl ⟨rfl, live_lt ho, rfl⟩), rfl, by
          rw [h, freed_length]⟩
  | read v i =>
    simp only [step] at hst
    cases hr : read s v i with
    | error e => rw [hr] at hst; cases hst
    | ok x => rw [hr] at hst; cases hst; exact hO
  | write v i x =>
    obtain ⟨o, ho, hi⟩ := hl
    obtain ⟨c, blk', h1, h2, h3, h4⟩ := write_eq (x := x) ho (g.valid v o ho) hi
    rw [step, h4] at hst
    cases hst
    intro b blk hb ha he
    simp only at hb
    by_cases hbc : c = b
    · subst hbc
      have hlt := (List.getElem?_eq_some_iff.mp h2).1
      simp [hlt] at hb
      subst hb
      exact hO c blk' h2 ha he
    · rw [List.getElem?_set_ne hbc] at hb
      exact hO b blk hb ha he
  | extAlloc l =>
    cases hst
    intro b blk hb ha he
    rcases owned_heap_append hb with h | ⟨h, rfl⟩
    · exact hO b blk h ha he
    · cases he
  | extFree c =>
    obtain ⟨⟨blk', h1, h2, h3⟩, h4⟩ := hl
    simp only [step, h1, h3, if_true] at hst
    cases hst
    intro b blk hb ha he
    simp only at hb
    by_cases hbc : c = b
    · subst hbc
      have hlt := (List.getElem?_eq_some_iff.mp h1).1
      simp [hlt] at hb
      subst hb
      cases ha
    · rw [List.getElem?_set_ne hbc] at hb
      exact hO b blk hb ha he

theorem run_owned : ∀ (ops : List (Op α)) (s s' : State α), Good s → Owned s → LegalRun s ops →
    NoOverwriteRun s ops → run s ops = .ok s' → Owned s' := by
  intro ops
  induction ops with
  | nil => intro s s' _ h _ _ hr; cases hr; exact h
  | cons op ops ih =>
    intro s s' g hO hl hn hr
    obtain ⟨l1, l2⟩ := hl
    obtain ⟨n1, n2⟩ := hn
    unfold run at hr
    rcases step_good g op l1 with ⟨s1, h, g1⟩ | h | h
    · rw [h] at hr l2 n2
      exact ih s1 s' g1 (step_owned g hO op l1 n1 h) l2 n2 hr
    · rw [h] at hr l2 n2
      exact ih s s' g hO l2 n2 hr
    · rw [h] at hr; cases hr

/-! An executable check of the discipline, for the concrete examples. -/

/-- Members of a live object. -/
def liveO (s : State α) (v : Nat) : Option Obj := (s.objs[v]?).join

theorem liveO_iff {s : State α} {v : Nat} {o : Obj} : liveO s v = some o ↔ Live s v o := by
  unfold liveO Live
  cases s.objs[v]? with
  | none => simp
  | some x => cases x <;> simp

/-- Executable version of `NoWrapper`. -/
def noWrapperB (s : State α) (v : Nat) (o : Obj) : Bool :=
  (List.range s.objs.length).all fun w =>
    match liveO s w with
    | none => true
    | some o' => decide (w = v) || o'.manage || decide (o.ptr ≠ o'.ptr) || o.ptr.isNone

theorem noWrapperB_sound {s : State α} {v : Nat} {o : Obj} (h : noWrapperB s v o = true) :
    NoWrapper s v o := by
  intro b w o' hb hl hm hp
  have := List.all_eq_true.mp h w (by simp [live_lt hl])
  rw [liveO_iff.mpr hl] at this
  simpa [hm, hb, hp] using this

/-- Executable version of `Legal` (for the operations used in the examples). -/
def legalB (s : State α) : Op α → Bool
  | .ctorSize _ | .ctorList _ | .ctorEmpty | .extAlloc _ => true
  | .ctorCopy v | .ctorMove v | .wrapVec v => (liveO s v).isSome
  | .wrapExt n b =>
    match s.heap[b]? with
    | none => false
    | some blk => blk.ext && blk.alive && decide (n ≤ blk.cells.length)
  | .assignCopy t o | .assignMove t o => (liveO s t).isSome && (liveO s o).isSome
  | .dtor v | .resize v _ =>
    match liveO s v with
    | none => false
    | some o => !o.manage || noWrapperB s v o
  | .read v i | .write v i _ =>
    match liveO s v with
    | none => false
    | some o => decide (i < o.size)
  | .extFree b =>
    (match s.heap[b]? with
    | none => false
    | some blk => blk.ext && blk.alive) &&
    (List.range s.objs.length).all fun w =>
      match liveO s w with
      | none => true
      | some o => decide (o.ptr ≠ some b)

theorem liveO_isSome {s : State α} {v : Nat} (h : (liveO s v).isSome = true) : ∃ o, Live s v o := by
  obtain ⟨o, ho⟩ := Option.isSome_iff_exists.mp h
  exact ⟨o, liveO_iff.mp ho⟩

theorem legalB_sound {s : State α} {op : Op α} (h : legalB s op = true) : Legal s op := by
  cases op with
  | ctorSize n => trivial
  | ctorList l => trivial
  | ctorEmpty => trivial
  | extAlloc l => trivial
  | ctorCopy v => exact liveO_isSome h
  | ctorMove v => exact liveO_isSome h
  | wrapVec v => exact liveO_isSome h
  | wrapExt n b =>
    simp only [legalB] at h
    split at h
    · cases h
    · rename_i blk hb
      simp only [Bool.and_eq_true, decide_eq_true_eq] at h
      exact ⟨blk, hb, h.1.1, h.1.2, h.2⟩
  | assignCopy t o =>
    simp only [legalB, Bool.and_eq_true] at h
    exact ⟨liveO_isSome h.1, liveO_isSome h.2⟩
  | assignMove t o =>
    simp only [legalB, Bool.and_eq_true] at h
    exact ⟨liveO_isSome h.1, liveO_isSome h.2⟩
  | dtor v =>
    simp only [legalB] at h
    split at h
    · cases h
    · rename_i o ho
      refine ⟨o, liveO_iff.mp ho, fun hm => ?_⟩
      rw [hm] at h
      exact noWrapperB_sound (by simpa using h)
  | resize v n =>
    simp only [legalB] at h
    split at h
    · cases h
    · rename_i o ho
      refine ⟨o, liveO_iff.mp ho, fun hm => ?_⟩
      rw [hm] at h
      exact noWrapperB_sound (by simpa using h)
  | read v i =>
    simp only [legalB] at h
    split at h
    · cases h
    · rename_i o ho
      exact ⟨o, liveO_iff.mp ho, by simpa using h⟩
  | write v i x =>
    simp only [legalB] at h
    split at h
    · cases h
    · rename_i o ho
      exact ⟨o, liveO_iff.mp ho, by simpa using h⟩
  | extFree b =>
    simp only [legalB, Bool.and_eq_true] at h
    obtain ⟨h1, h2⟩ := h
    constructor
    · split at h1
      · cases h1
      · rename_i blk hb
        simp only [Bool.and_eq_true] at h1
        exact ⟨blk, hb, h1.1, h1.2⟩
    · intro w o hl
      have := List.all_eq_true.mp h2 w (by simp [live_lt hl])
      rw [liveO_iff.mpr hl] at this
      simpa using this

/-- Executable version of `LegalRun`. -/
def legalRunB (s : State α) : List (Op α) → Bool
  | [] => true
  | op :: ops => legalB s op &&
    match step s op with
    | .ok s' => legalRunB s' ops
    | .error .exception => legalRunB s ops
    | .error _ => true

theorem legalRunB_sound : ∀ (ops : List (Op α)) (s : State α), legalRunB s ops = true →
    LegalRun s ops := by
  intro ops
  induction ops with
  | nil => intros; trivial
  | cons op ops ih =>
    intro s h
    simp only [legalRunB, Bool.and_eq_true] at h
    refine ⟨legalB_sound h.1, ?_⟩
    have h2 := h.2
    split
    · rename_i s' e; rw [e] at h2; exact ih s' h2
    · rename_i e; rw [e] at h2; exact ih s h2
    · trivial

theorem allDestroyed_of {s : State α} (h : s.objs.all Option.isNone = true) : AllDestroyed s := by
  intro v o hl
  have := List.all_eq_true.mp h (some o) (List.mem_of_getElem? hl)
  simp at this

end Picsar.PV
