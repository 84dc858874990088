import Verif.Lemmas.PicsarVector

/-
Property theorems C14–C19 (src/multi_physics/QED/src/picsar_vector.hpp).
-/
namespace Picsar.Props
open Picsar Picsar.PV
variable {α : Type}

/-! ### C14 -/

/-- C14: in every history in which the program names live objects, indexes inside `size()` and lets raw
memory outlive its wrappers, the only fault that can end the history is the program's own read of an element
that was never written: no double free, no use after free, no bad free, no null dereference. -/
theorem C14_memory_safe (ops : List (Op α)) (hl : LegalRun State.init ops) :
    (∃ s, run State.init ops = .ok s) ∨ run (State.init : State α) ops = .error .uninitialised := by
  rcases run_good ops _ good_init hl with ⟨s, h, _⟩ | h
  · exact .inl ⟨s, h⟩
  · exact .inr h

/-- C14 in the words of the property. -/
theorem C14_no_double_free_no_use_after_free (ops : List (Op α)) (hl : LegalRun State.init ops) :
    run (State.init : State α) ops ≠ .error .doubleFree ∧
    run (State.init : State α) ops ≠ .error .useAfterFree ∧
    run (State.init : State α) ops ≠ .error .badFree := by
  rcases C14_memory_safe ops hl with ⟨s, h⟩ | h <;> rw [h] <;> simp

/-- A history that meets the hypotheses and uses copies, moves, wrapping, resizing and destruction. -/
def exHistory : List (Op Nat) :=
  [.ctorList [1, 2, 3], .ctorCopy 0, .ctorMove 0, .assignCopy 0 1, .resize 2 5, .wrapVec 1,
   .write 3 0 9, .read 1 0, .dtor 3, .dtor 1, .dtor 2, .dtor 0]

example : LegalRun State.init exHistory := legalRunB_sound _ _ (by decide)

/-- A reachable state with two vectors, used below. -/
def exState : State Nat :=
  ⟨[⟨[some 1, some 2, some 3], true, false⟩, ⟨[some 7], true, false⟩],
   [some ⟨some 0, 3, true⟩, some ⟨some 1, 1, true⟩]⟩

theorem exState_reachable : Reachable exState :=
  ⟨[.ctorList [1, 2, 3], .ctorList [7]], legalRunB_sound _ _ (by decide), by rfl⟩

theorem exState_holds : Holds exState 0 [some 1, some 2, some 3] :=
  ⟨⟨some 0, 3, true⟩, rfl, rfl, ⟨[some 1, some 2, some 3], true, false⟩, rfl, rfl, List.prefix_refl _⟩

/-! ### C15 -/

/-- The common consequence of both kinds of copy: the destination has its own block. -/
theorem copy_independent {s' : State α} (d b : Nat) (n : Nat)
    (hd : Live s' d ⟨some b, n, true⟩)
    (hown : ∀ u o, u ≠ d → Live s' u o → o.ptr ≠ some b) (l : List (Option α))
    (hl : Holds s' d l) :
    (∀ ws s'', (∀ w ∈ ws, w.1 ≠ d) → run s' (writeOps ws) = .ok s'' → Holds s'' d l) ∧
    (∀ ws s'' u lu, (∀ w ∈ ws, w.1 = d) → u ≠ d → Holds s' u lu →
        run s' (writeOps ws) = .ok s'' → Holds s'' u lu) := by
  constructor
  · intro ws s'' hw hr
    refine writes_frame ws s' s'' d l hl ?_ hr
    intro w hw' o o' c ho ho' hc
    obtain rfl := live_inj hd ho
    cases hc
    exact hown w.1 o' (hw w hw') ho'
  · intro ws s'' u lu hw hne hu hr
    refine writes_frame ws s' s'' u lu hu ?_ hr
    intro w hw' o o' c ho ho' hc hc'
    rw [hw w hw'] at ho'
    obtain rfl := live_inj hd ho'
    cases hc'
    exact hown u o hne ho hc

/-- C15, copy construction: the new vector holds the source's elements; later writes through any other
vector are not visible through it, and later writes through it are not visible through any other.
(`_partial`: self-assignment, also part of C15, is false of the code, see below.) -/
theorem C15_copy_ctor_partial (s : State α) (hr : Reachable s) (v : Nat) (l : List (Option α))
    (hv : Holds s v l) :
    ∃ s', step s (.ctorCopy v) = .ok s' ∧ Holds s' s.objs.length l ∧ Holds s' v l ∧
      (∀ ws s'', (∀ w ∈ ws, w.1 ≠ s.objs.length) → run s' (writeOps ws) = .ok s'' →
        Holds s'' s.objs.length l) ∧
      (∀ ws s'' u lu, (∀ w ∈ ws, w.1 = s.objs.length) → u ≠ s.objs.length → Holds s' u lu →
        run s' (writeOps ws) = .ok s'' → Holds s'' u lu) := by
  have g := hr.good
  obtain ⟨o, ho, hc, hsz⟩ := holds_content hv
  have hval := g.valid v o ho
  have hg' := good_new g (content s o) o.size (content_length hval).symm
  have hnew : Live (⟨s.heap ++ [⟨content s o, true, false⟩],
      s.objs ++ [some ⟨some s.heap.length, o.size, true⟩]⟩ : State α) s.objs.length
      ⟨some s.heap.length, o.size, true⟩ := live_append.mpr (.inr ⟨rfl, rfl⟩)
  have hvl := live_lt ho
  have hold : Holds (⟨s.heap ++ [⟨content s o, true, false⟩],
      s.objs ++ [some ⟨some s.heap.length, o.size, true⟩]⟩ : State α) s.objs.length l := by
    refine ⟨_, hnew, hsz, ⟨content s o, true, false⟩, by simp, rfl, ?_⟩
    rw [hc]; exact List.prefix_refl _
  refine ⟨_, ctorCopy_eq ho hval, hold, ?_, ?_⟩
  · refine holds_frame hv ?_ ?_
    · simp only; rw [List.getElem?_append_left hvl]
    · intro o' b ho' hb
      have := ptr_lt (g.valid v o' ho') hb
      simp only; rw [List.getElem?_append_left this]
  · refine copy_independent _ _ _ hnew ?_ l hold
    intro u x hne hu hp
    rcases live_append.mp hu with hu | ⟨hu, _⟩
    · have := ptr_lt (g.valid u x hu) hp; omega
    · exact hne hu

/-- C15, copy assignment from another vector. -/
theorem C15_assign_copy_partial (s : State α) (hr : Reachable s) (t v : Nat) (l lt : List (Option α))
    (hne : t ≠ v) (hv : Holds s v l) (ht : Holds s t lt) :
    ∃ s', step s (.assignCopy t v) = .ok s' ∧ Holds s' t l ∧ Holds s' v l ∧
      (∀ ws s'', (∀ w ∈ ws, w.1 ≠ t) → run s' (writeOps ws) = .ok s'' → Holds s'' t l) ∧
      (∀ ws s'' u lu, (∀ w ∈ ws, w.1 = t) → u ≠ t → Holds s' u lu →
        run s' (writeOps ws) = .ok s'' → Holds s'' u lu) := by
  have g := hr.good
  obtain ⟨o, ho, hc, hsz⟩ := holds_content hv
  obtain ⟨a, ha, _, _⟩ := holds_content ht
  have hval := g.valid v o ho
  have hg' := good_set_new g t (content s o) o.size (content_length hval).symm
  have hnew : Live (⟨s.heap ++ [⟨content s o, true, false⟩],
      s.objs.set t (some ⟨some s.heap.length, o.size, true⟩)⟩ : State α) t
      ⟨some s.heap.length, o.size, true⟩ := live_set.mpr (.inl ⟨rfl, live_lt ha, rfl⟩)
  have hold : Holds (⟨s.heap ++ [⟨content s o, true, false⟩],
      s.objs.set t (some ⟨some s.heap.length, o.size, true⟩)⟩ : State α) t l := by
    refine ⟨_, hnew, hsz, ⟨content s o, true, false⟩, by simp, rfl, ?_⟩
    rw [hc]; exact List.prefix_refl _
  refine ⟨_, assignCopy_eq hne ha ho hval, hold, ?_, ?_⟩
  · refine holds_frame hv ?_ ?_
    · simp only; rw [List.getElem?_set_ne hne]
    · intro o' b ho' hb
      have := ptr_lt (g.valid v o' ho') hb
      simp only; rw [List.getElem?_append_left this]
  · refine copy_independent _ _ _ hnew ?_ l hold
    intro u x hne' hu hp
    rcases live_set.mp hu with ⟨hu, _⟩ | ⟨_, hu⟩
    · exact hne' hu
    · have := ptr_lt (g.valid u x hu) hp; omega

example : Reachable exState ∧ Holds exState 0 [some 1, some 2, some 3] ∧
    Holds exState 1 [some 7] :=
  ⟨exState_reachable, exState_holds,
    ⟨⟨some 1, 1, true⟩, rfl, rfl, ⟨[some 7], true, false⟩, rfl, rfl, List.prefix_refl _⟩⟩

/-- C15 is false of the code for self-assignment: every element of the vector is replaced by an
indeterminate value (the loop copies the freshly allocated block onto itself). -/
theorem C15_self_assign_refuted (s : State α) (hr : Reachable s) (v : Nat) (l : List (Option α))
    (hv : Holds s v l) :
    ∃ s', step s (.assignCopy v v) = .ok s' ∧ Holds s' v (List.replicate l.length none) ∧
      ∀ i, i < l.length → read s' v i = .error .uninitialised := by
  have g := hr.good
  obtain ⟨o, ho, hc, hsz⟩ := holds_content hv
  have hnew : Live (⟨s.heap ++ [⟨List.replicate o.size none, true, false⟩],
      s.objs.set v (some ⟨some s.heap.length, o.size, true⟩)⟩ : State α) v
      ⟨some s.heap.length, o.size, true⟩ := live_set.mpr (.inl ⟨rfl, live_lt ho, rfl⟩)
  refine ⟨_, assignCopy_self_eq ho, ⟨_, hnew, by simp [hsz],
    ⟨List.replicate o.size none, true, false⟩, by simp, rfl, by simp [hsz]⟩, ?_⟩
  intro i hi
  have hg' := good_set_new g v (List.replicate o.size (none : Option α)) o.size (by simp)
  obtain ⟨x, h1, h2⟩ := read_eq hnew (hg'.valid _ _ hnew) (by simpa [hsz] using hi)
  simp only [content, List.getElem?_concat_length] at h1
  simp [hsz, hi] at h1
  rw [h2, ← h1]

/-! ### C16 -/

/-- C16: resizing a managing vector keeps the common prefix (new elements are indeterminate), and no other
owning vector changes. -/
theorem C16_resize (s : State α) (hr : Reachable s) (v n : Nat) (o : Obj) (l : List (Option α))
    (ho : Live s v o) (hv : Holds s v l) (hm : o.manage = true) :
    ∃ s', step s (.resize v n) = .ok s' ∧ Holds s' v (l.take n ++ List.replicate (n - l.length) none) ∧
      ∀ u ou lu, u ≠ v → Live s u ou → ou.manage = true → Holds s u lu → Holds s' u lu := by
  have g := hr.good
  obtain ⟨o', ho', hc, hsz⟩ := holds_content hv
  obtain rfl := live_inj ho ho'
  refine ⟨_, resize_eq ho (g.valid v _ ho) hm, ?_, ?_⟩
  · refine ⟨_, live_set.mpr (.inl ⟨rfl, live_lt ho, rfl⟩), by simp; omega,
      ⟨(content s o).take n ++ List.replicate (n - o.size) none, true, false⟩, ?_, rfl, ?_⟩
    · simp only
      rw [List.getElem?_append_right (by rw [freed_length]; exact Nat.le_refl _), freed_length]
      simp
    · rw [hc, hsz]; exact List.prefix_refl _
  · intro u ou lu hne hu hmu hlu
    refine holds_frame hlu ?_ ?_
    · simp only; rw [List.getElem?_set_ne (Ne.symm hne)]
    · intro x b hx hb
      obtain rfl := live_inj hu hx
      have hlt := ptr_lt (g.valid u _ hu) hb
      simp only
      rw [List.getElem?_append_left (by rw [freed_length]; exact hlt), freed_ne]
      intro hp
      exact hne (g.uniq u v _ _ b hu ho hmu hm hb hp)

/-- C16: resizing a vector that wraps external memory is refused with an exception and changes nothing
(the history goes on from the same state). -/
theorem C16_resize_refused (s : State α) (v n : Nat) (o : Obj) (ho : Live s v o)
    (hm : o.manage = false) (ops : List (Op α)) :
    step s (.resize v n) = .error .exception ∧ run s (.resize v n :: ops) = run s ops := by
  have := resize_refused (n := n) ho hm
  refine ⟨this, ?_⟩
  simp only [run, step, this]

example : Live exState 0 ⟨some 0, 3, true⟩ := rfl
example : Live (⟨[⟨[some 1], true, true⟩], [some ⟨some 0, 1, false⟩]⟩ : State Nat) 0
    ⟨some 0, 1, false⟩ := rfl

/-! ### C17 -/

/-- C17 (partial): if assignments are made only to vectors that own no memory, then once all vectors
are destroyed every block allocated by the library has been freed. Missing: assignments to owning
vectors, for which the claim is false (`C17_leak_refuted`). -/
theorem C17_no_leak_partial (ops : List (Op α)) (s : State α) (hl : LegalRun State.init ops)
    (hn : NoOverwriteRun State.init ops) (hr : run State.init ops = .ok s) (hd : AllDestroyed s) :
    AllFreed s := by
  have hO := run_owned ops _ s good_init (fun b blk h => by simp [State.init] at h) hl hn hr
  intro b blk hb he
  cases ha : blk.alive
  · rfl
  · obtain ⟨v, o, h, _⟩ := hO b blk hb ha he
    exact absurd h (hd v o)

/-- A history meeting the hypotheses of `C17_no_leak_partial`. -/
def exNoLeak : List (Op Nat) :=
  [.ctorList [1, 2], .ctorMove 0, .assignCopy 0 1, .resize 1 4, .dtor 1, .dtor 0]

example : LegalRun State.init exNoLeak ∧ NoOverwriteRun State.init exNoLeak ∧
    ∃ s, run State.init exNoLeak = .ok s ∧ AllDestroyed s := by
  refine ⟨legalRunB_sound _ _ (by decide), ?_, _, rfl, ?_⟩
  · refine ⟨trivial, trivial, ⟨by decide, ?_⟩, trivial, trivial, trivial, trivial⟩
    intro a ha
    have : a = ⟨none, 0, false⟩ := by
      change some (some (⟨none, 0, false⟩ : Obj)) = some (some a) at ha
      simpa using ha.symm
    subst this
    exact .inl rfl
  · exact allDestroyed_of (by decide)

/-- C17 is false of the code: copy- or move-assigning to a vector that owns memory drops its old block. -/
theorem C17_leak_refuted :
    (∃ s, run (State.init : State Nat) [.ctorList [1], .ctorList [2], .assignCopy 0 1, .dtor 0, .dtor 1]
        = .ok s ∧ AllDestroyed s ∧ ¬ AllFreed s) ∧
    (∃ s, run (State.init : State Nat) [.ctorList [1], .ctorList [2], .assignMove 0 1, .dtor 0, .dtor 1]
        = .ok s ∧ AllDestroyed s ∧ ¬ AllFreed s) := by
  constructor
  all_goals
    refine ⟨_, rfl, ?_, ?_⟩
    · exact allDestroyed_of (by decide)
    · intro h
      have := h 0 ⟨[some 1], true, false⟩ rfl rfl
      cases this

/-! ### C18 -/

/-- C18 (partial): `front()` (both overloads) and the const `back()` return the end elements. -/
theorem C18_front_back_partial (s : State α) (hr : Reachable s) (v : Nat) (xs : List α) (a z : α)
    (hv : Holds s v (xs.map some)) (ha : xs.head? = some a) (hz : xs.getLast? = some z) :
    front s v = .ok a ∧ backConst s v = .ok z := by
  have g := hr.good
  obtain ⟨o, ho, hc, hsz⟩ := holds_content hv
  have hval := g.valid v o ho
  have hpos : 0 < o.size := by
    rw [hsz]
    cases xs with
    | nil => simp at ha
    | cons => simp
  rw [List.length_map] at hsz
  constructor
  · obtain ⟨x, h1, h2⟩ := read_eq ho hval hpos
    rw [hc, List.getElem?_map, ← List.head?_eq_getElem?, ha] at h1
    simp at h1
    rw [front, h2, ← h1]
  · obtain ⟨x, h1, h2⟩ := read_eq ho hval (i := o.size - 1) (by omega)
    rw [hc, List.getElem?_map, hsz, ← List.getLast?_eq_getElem?, hz] at h1
    simp at h1
    unfold backConst
    rw [getObj_live ho]
    simp only [except_bind_ok]
    have hs : o.size = (o.size - 1) + 1 := by omega
    split
    · omega
    · rename_i n hn
      have : n = o.size - 1 := by omega
      rw [this, h2, ← h1]

/-- C18 is false of the code: the non-const `back()` always returns the *first* element. -/
theorem C18_back_nonconst_refuted (s : State α) (hr : Reachable s) (v : Nat) (xs : List α) (a : α)
    (hv : Holds s v (xs.map some)) (ha : xs.head? = some a) : back s v = .ok a := by
  have g := hr.good
  obtain ⟨o, ho, hc, hsz⟩ := holds_content hv
  have hpos : 0 < o.size := by
    rw [hsz]
    cases xs with
    | nil => simp at ha
    | cons => simp
  obtain ⟨x, h1, h2⟩ := read_eq ho (g.valid v o ho) hpos
  rw [hc, List.getElem?_map, ← List.head?_eq_getElem?, ha] at h1
  simp at h1
  rw [back, h2, ← h1]

example : Reachable exState ∧ Holds exState 0 ([1, 2, 3].map some) := ⟨exState_reachable, exState_holds⟩
example : back exState 0 = .ok 1 ∧ backConst exState 0 = .ok 3 := ⟨rfl, rfl⟩

/-! ### C19 -/

/-- C19 (partial): after a move construction the destination holds the elements, the source is empty, can
be destroyed, and can be assigned to. Missing: giving the source a new size, which is false
(`C19_moved_from_resize_refuted`). -/
theorem C19_moved_from_partial (s : State α) (hr : Reachable s) (v : Nat) (l : List (Option α))
    (hv : Holds s v l) :
    ∃ s', step s (.ctorMove v) = .ok s' ∧ Holds s' s.objs.length l ∧ Holds s' v [] ∧
      (∃ s'', step s' (.dtor v) = .ok s'' ∧ Holds s'' s.objs.length l) ∧
      (∃ s'', step s' (.assignCopy v s.objs.length) = .ok s'' ∧ Holds s'' v l) := by
  have g := hr.good
  obtain ⟨o, ho, hc, hsz⟩ := holds_content hv
  have hvl := live_lt ho
  have hval := g.valid v o ho
  have hd : Live (⟨s.heap, s.objs.set v (some ⟨none, 0, false⟩) ++ [some o]⟩ : State α)
      s.objs.length o := live_append.mpr (.inr ⟨by simp, rfl⟩)
  have hs : Live (⟨s.heap, s.objs.set v (some ⟨none, 0, false⟩) ++ [some o]⟩ : State α)
      v ⟨none, 0, false⟩ :=
    live_append.mpr (.inl ((live_set (h := s.heap)).mpr (.inl ⟨rfl, hvl, rfl⟩)))
  have hval' : Valid (⟨s.heap, s.objs.set v (some ⟨none, 0, false⟩) ++ [some o]⟩ : State α) o :=
    valid_congr rfl hval
  have hdl : Holds (⟨s.heap, s.objs.set v (some ⟨none, 0, false⟩) ++ [some o]⟩ : State α)
      s.objs.length l := by
    have := content_holds hd hval'
    have e : content (⟨s.heap, s.objs.set v (some ⟨none, 0, false⟩) ++ [some o]⟩ : State α) o
        = content s o := rfl
    rwa [e, hc] at this
  refine ⟨_, ctorMove_eq ho, hdl, ⟨_, hs, rfl, rfl⟩, ?_, ?_⟩
  · refine ⟨_, dtor_eq hs rfl, holds_frame hdl ?_ ?_⟩
    · simp only; rw [List.getElem?_set_ne (by omega)]
    · intro _ _ _ _; simp
  · refine ⟨_, assignCopy_eq (by omega) hs hd hval', ?_⟩
    refine ⟨_, live_set.mpr (.inl ⟨rfl, by simp; omega, rfl⟩), hsz, ⟨content s o, true, false⟩, ?_, rfl, ?_⟩
    · simp only [List.getElem?_concat_length]; rfl
    · rw [hc]; exact List.prefix_refl _

/-- C19 is false of the code: after a move construction or move assignment every `resize` of the source
throws. -/
theorem C19_moved_from_resize_refuted (s : State α) (v n : Nat) (o : Obj) (ho : Live s v o) :
    (∃ s', step s (.ctorMove v) = .ok s' ∧ step s' (.resize v n) = .error .exception) ∧
    (∀ t a, Live s t a → ∃ s', step s (.assignMove t v) = .ok s' ∧
      step s' (.resize v n) = .error .exception) := by
  constructor
  · refine ⟨_, ctorMove_eq ho, resize_refused (o := ⟨none, 0, false⟩) ?_ rfl⟩
    exact live_append.mpr (.inl ((live_set (h := s.heap)).mpr (.inl ⟨rfl, live_lt ho, rfl⟩)))
  · intro t a ha
    refine ⟨_, assignMove_eq ha ho, resize_refused (o := ⟨none, 0, false⟩) ?_ rfl⟩
    exact live_set.mpr (.inl ⟨rfl, by simpa using live_lt ho, rfl⟩)

example : Live exState 1 ⟨some 1, 1, true⟩ := rfl

end Picsar.Props
