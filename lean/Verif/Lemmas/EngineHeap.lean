import Verif.Spec.EngineHeap
import Verif.Lemmas.PicsarVector
import Mathlib.Logic.Function.Basic
import Mathlib.Tactic.Linarith
import Mathlib.Tactic.Ring

namespace Picsar.EH
open Picsar.PV

variable {α : Type}

/-- What is seen of a vector: where its memory is, its contents, whether it owns the memory. -/
structure AObj (α : Type) where
  ptr : Option Nat
  cont : List (Option α)
  man : Bool

def view (s : State α) (v : Nat) : Option (AObj α) :=
  (liveO s v).map fun o => ⟨o.ptr, content s o, o.manage⟩

/-- Arrays alive, as an integer. -/
def alv (h : List (Block α)) : ℤ := ((h.filter fun b => b.alive && !b.ext).length : ℤ)

/-- One if the vector owns an array. -/
def own1 : Option (AObj α) → ℤ
  | some ⟨some _, _, true⟩ => 1
  | _ => 0

structure Rep (s : State α) (n h : Nat) (V : Nat → Option (AObj α)) (A : ℤ) : Prop where
  good : Good s
  olen : s.objs.length = n
  hlen : s.heap.length = h
  vw : view s = V
  cnt : alv s.heap = A

theorem view_live {s : State α} {v : Nat} {a : AObj α} (h : view s v = some a) :
    ∃ o, Live s v o ∧ o.ptr = a.ptr ∧ content s o = a.cont ∧ o.manage = a.man := by
  unfold view at h
  cases hl : liveO s v with
  | none => rw [hl] at h; cases h
  | some o =>
    rw [hl] at h
    simp only [Option.map_some, Option.some.injEq] at h
    subst h
    exact ⟨o, liveO_iff.mp hl, rfl, rfl, rfl⟩

theorem live_view {s : State α} {v : Nat} {o : Obj} (h : Live s v o) :
    view s v = some ⟨o.ptr, content s o, o.manage⟩ := by
  unfold view
  rw [liveO_iff.mpr h]
  rfl

theorem content_append {s : State α} {o : Obj} {e : List (Block α)} {objs : List (Option Obj)} (hv : Valid s o) :
    content ⟨s.heap ++ e, objs⟩ o = content s o := by
  unfold content
  cases hp : o.ptr with
  | none => rfl
  | some b =>
    simp only
    rw [List.getElem?_append_left (ptr_lt hv hp)]

theorem content_freed {s : State α} {o : Obj} {p : Option Nat} {objs : List (Option Obj)} :
    content ⟨freed s.heap p, objs⟩ o = content s o := by
  unfold content freed
  cases hp : o.ptr with
  | none => rfl
  | some b =>
    simp only
    cases p with
    | none => rfl
    | some c =>
      simp only
      cases hc : s.heap[c]? with
      | none => rfl
      | some blk =>
        simp only
        by_cases hbc : c = b
        · subst hbc
          have := (List.getElem?_eq_some_iff.mp hc).1
          rw [List.getElem?_set_self this, hc]
        · rw [List.getElem?_set_ne hbc]

theorem view_append {s : State α} (g : Good s) {e : List (Block α)} {x : Option Obj} {a : Option (AObj α)}
    (ha : a = x.map fun o => ⟨o.ptr, content (⟨s.heap ++ e, []⟩ : State α) o, o.manage⟩) :
    view ⟨s.heap ++ e, s.objs ++ [x]⟩ = Function.update (view s) s.objs.length a := by
  funext w
  unfold view liveO
  simp only
  rcases Nat.lt_trichotomy w s.objs.length with h | h | h
  · rw [Function.update_of_ne (by omega), List.getElem?_append_left h]
    cases hx : s.objs[w]? with
    | none => rfl
    | some y =>
      cases y with
      | none => rfl
      | some o =>
        simp only [Option.join_some, Option.map_some]
        rw [content_append (g.valid w o hx)]
  · subst h
    rw [Function.update_self]
    simp only [List.getElem?_concat_length, Option.join_some, ha]
    cases x <;> rfl
  · rw [Function.update_of_ne (by omega), List.getElem?_eq_none (by simp; omega), List.getElem?_eq_none (by omega)]
    rfl

theorem view_set {s : State α} {t : Nat} (ht : t < s.objs.length) {h' : List (Block α)} {x : Option Obj}
    {a : Option (AObj α)}
    (hc : ∀ w o, w ≠ t → Live s w o → content (⟨h', []⟩ : State α) o = content s o)
    (ha : a = x.map fun o => ⟨o.ptr, content (⟨h', []⟩ : State α) o, o.manage⟩) :
    view ⟨h', s.objs.set t x⟩ = Function.update (view s) t a := by
  funext w
  unfold view liveO
  simp only
  by_cases h : w = t
  · subst h
    rw [Function.update_self]
    simp only [List.getElem?_set_self ht, Option.join_some, ha]
    cases x <;> rfl
  · rw [Function.update_of_ne h, List.getElem?_set_ne (Ne.symm h)]
    cases hx : s.objs[w]? with
    | none => rfl
    | some y =>
      cases y with
      | none => rfl
      | some o =>
        simp only [Option.join_some, Option.map_some]
        have := hc w o h hx
        rw [← this]
        rfl

theorem alv_append (h : List (Block α)) (c : List (Option α)) : alv (h ++ [⟨c, true, false⟩]) = alv h + 1 := by
  simp [alv]

theorem alv_set {h : List (Block α)} {b : Nat} {blk : Block α} (hb : h[b]? = some blk) (ha : blk.alive = true)
    (he : blk.ext = false) : alv (h.set b { blk with alive := false }) = alv h - 1 := by
  induction h generalizing b with
  | nil => simp at hb
  | cons x h ih =>
    cases b with
    | zero =>
      simp only [List.getElem?_cons_zero, Option.some.injEq] at hb
      subst hb
      simp [alv, ha, he]
    | succ b =>
      simp only [List.getElem?_cons_succ] at hb
      have := ih hb
      simp only [alv, List.set_cons_succ, List.filter_cons] at this ⊢
      split
      · simp only [List.length_cons] at this ⊢
        push_cast
        omega
      · exact this

theorem alv_freed {s : State α} {o : Obj} (hv : Valid s o) (hm : o.manage = true) (c : List (Option α)) :
    alv (freed s.heap o.ptr) = alv s.heap - own1 (some ⟨o.ptr, c, o.manage⟩) := by
  unfold Valid at hv
  cases hp : o.ptr with
  | none => simp [freed, own1]
  | some b =>
    rw [hp] at hv
    obtain ⟨blk, h1, h2, _, h4⟩ := hv
    simp only [freed, h1]
    rw [alv_set h1 h2 (h4 hm)]
    simp [own1, hm]

variable {s : State α} {n h : Nat} {V : Nat → Option (AObj α)} {A : ℤ}

theorem Rep.ptr_lt (r : Rep s n h V A) {v b : Nat} {c : List (Option α)} {m : Bool} (hv : V v = some ⟨some b, c, m⟩) : b < h := by
  rw [← r.vw] at hv
  obtain ⟨o, h1, h2, _, _⟩ := view_live hv
  rw [← r.hlen]
  exact PV.ptr_lt (r.good.valid v o h1) h2

theorem Rep.lt (r : Rep s n h V A) {v : Nat} {a : AObj α} (hv : V v = some a) : v < n := by
  rw [← r.vw] at hv
  obtain ⟨o, h1, _⟩ := view_live hv
  rw [← r.olen]
  exact live_lt h1

theorem Rep.ge (r : Rep s n h V A) {v : Nat} (hv : n ≤ v) : V v = none := by
  cases hx : V v with
  | none => rfl
  | some a => have := r.lt hx; omega

/-- Two vectors that own their memory own different memory. -/
theorem Rep.uniq (r : Rep s n h V A) {v w b : Nat} {c c' : List (Option α)} (hv : V v = some ⟨some b, c, true⟩)
    (hw : V w = some ⟨some b, c', true⟩) : v = w := by
  rw [← r.vw] at hv hw
  obtain ⟨o, h1, h2, _, h4⟩ := view_live hv
  obtain ⟨o', h1', h2', _, h4'⟩ := view_live hw
  exact r.good.uniq v w o o' b h1 h1' h4 h4' h2 h2'

theorem rep_list (r : Rep s n h V A) (l : List α) :
    ∃ s', ctorList s l = .ok s' ∧ Rep s' (n + 1) (h + 1) (Function.update V n (some ⟨some h, l.map some, true⟩)) (A + 1) := by
  obtain ⟨g, rfl, rfl, rfl, rfl⟩ := r
  refine ⟨_, ctorList_eq s l, good_new g _ _ (by simp), by simp, by simp, ?_, alv_append _ _⟩
  refine view_append g ?_
  simp only [Option.map_some, Option.some.injEq, AObj.mk.injEq, true_and, and_true]
  simp [content]
  exact (List.take_of_length_le (by simp)).symm

theorem rep_empty (r : Rep s n h V A) :
    ∃ s', ctorEmpty s = .ok s' ∧ Rep s' (n + 1) h (Function.update V n (some ⟨none, [], true⟩)) A := by
  obtain ⟨g, rfl, rfl, rfl, rfl⟩ := r
  have hg : Good (newObj s ⟨none, 0, true⟩) := by
    rcases step_good g .ctorEmpty trivial with ⟨s', h1, h2⟩ | h | h
    · cases h1; exact h2
    · cases h
    · cases h
  refine ⟨_, rfl, hg, by simp [newObj], rfl, ?_, rfl⟩
  have := view_append (s := s) g (e := []) (x := some ⟨none, 0, true⟩) rfl
  simp only [List.append_nil] at this
  simpa [newObj, content] using this

theorem rep_copy (r : Rep s n h V A) {v : Nat} {a : AObj α} (hv : V v = some a) :
    ∃ s', ctorCopy s v = .ok s' ∧ Rep s' (n + 1) (h + 1) (Function.update V n (some ⟨some h, a.cont, true⟩)) (A + 1) := by
  obtain ⟨g, rfl, rfl, rfl, rfl⟩ := r
  obtain ⟨o, h1, _, h3, _⟩ := view_live hv
  have hV := g.valid v o h1
  refine ⟨_, ctorCopy_eq h1 hV, good_new g _ _ (content_length hV).symm, by simp, by simp, ?_, alv_append _ _⟩
  refine view_append g ?_
  simp only [Option.map_some, Option.some.injEq, AObj.mk.injEq, true_and, and_true]
  rw [← h3, ← content_length hV]
  simp [content]

theorem rep_move (r : Rep s n h V A) {v : Nat} {a : AObj α} (hv : V v = some a) :
    ∃ s', ctorMove s v = .ok s' ∧
      Rep s' (n + 1) h (Function.update (Function.update V v (some ⟨none, [], false⟩)) n (some a)) A := by
  obtain ⟨g, rfl, rfl, rfl, rfl⟩ := r
  obtain ⟨o, h1, h2, h3, h4⟩ := view_live hv
  have hg : Good (⟨s.heap, s.objs.set v (some ⟨none, 0, false⟩) ++ [some o]⟩ : State α) := by
    rcases step_good g (.ctorMove v) ⟨o, h1⟩ with ⟨s', h5, h6⟩ | h5 | h5
    · simp only [step] at h5; rw [ctorMove_eq h1] at h5; cases h5; exact h6
    · simp only [step] at h5; rw [ctorMove_eq h1] at h5; cases h5
    · simp only [step] at h5; rw [ctorMove_eq h1] at h5; cases h5
  have hlt := live_lt h1
  refine ⟨_, ctorMove_eq h1, hg, by simp, rfl, ?_, rfl⟩
  funext w
  by_cases hw : w = s.objs.length
  · subst hw
    rw [Function.update_self]
    have : Live (⟨s.heap, s.objs.set v (some ⟨none, 0, false⟩) ++ [some o]⟩ : State α) s.objs.length o :=
      live_append.mpr (.inr ⟨by simp, rfl⟩)
    rw [live_view this]
    congr 1
    cases a
    simp only at h2 h3 h4
    simp only [AObj.mk.injEq]
    exact ⟨h2, h3, h4⟩
  · rw [Function.update_of_ne hw]
    have e := view_set (s := s) hlt (h' := s.heap) (x := some ⟨none, 0, false⟩) (fun _ _ _ _ => rfl) rfl
    have e2 : view (⟨s.heap, s.objs.set v (some ⟨none, 0, false⟩) ++ [some o]⟩ : State α) w
        = view (⟨s.heap, s.objs.set v (some ⟨none, 0, false⟩)⟩ : State α) w := by
      unfold view liveO
      simp only
      rcases Nat.lt_or_gt_of_ne hw with h | h
      · rw [List.getElem?_append_left (by simpa using h)]
        rfl
      · rw [List.getElem?_eq_none (by simp; omega), List.getElem?_eq_none (by simp; omega)]
        rfl
    rw [e2, e]
    rfl

theorem rep_raw (r : Rep s n h V A) {v : Nat} {a : AObj α} (hv : V v = some a) {k : Nat} (hk : k ≤ a.cont.length) :
    ∃ s', ctorRaw s k a.ptr = .ok s' ∧ Rep s' (n + 1) h (Function.update V n (some ⟨a.ptr, a.cont.take k, false⟩)) A := by
  obtain ⟨g, rfl, rfl, rfl, rfl⟩ := r
  obtain ⟨o, h1, h2, h3, _⟩ := view_live hv
  have hV := g.valid v o h1
  have hlen := content_length hV
  rw [h3] at hlen
  have hV' : Valid s ⟨a.ptr, k, false⟩ := by
    unfold Valid at *
    rw [h2] at hV
    cases hp : a.ptr with
    | none => rw [hp] at hV; simp only at hV ⊢; omega
    | some b =>
      rw [hp] at hV
      obtain ⟨blk, q1, q2, q3, _⟩ := hV
      exact ⟨blk, q1, q2, by simp only; omega, fun h => by cases h⟩
  refine ⟨_, rfl, ⟨?_, ?_⟩, by simp [newObj], rfl, ?_, rfl⟩
  · intro w x hx
    rcases live_append.mp hx with hx | ⟨_, rfl⟩
    · exact valid_congr rfl (g.valid w x hx)
    · exact valid_congr rfl hV'
  · intro w w' x x' b hx hx' m m' p p'
    rcases live_append.mp hx with hx | ⟨rfl, rfl⟩ <;> rcases live_append.mp hx' with hx' | ⟨rfl, rfl⟩
    · exact g.uniq w w' x x' b hx hx' m m' p p'
    · cases m'
    · cases m
    · rfl
  · have := view_append (s := s) g (e := []) (x := some ⟨a.ptr, k, false⟩) rfl
    simp only [List.append_nil] at this
    unfold newObj
    rw [this]
    congr 1
    simp only [Option.map_some, Option.some.injEq, AObj.mk.injEq, true_and, and_true]
    rw [← h3]
    unfold content
    simp only
    rw [h2]
    cases a.ptr with
    | none => simp
    | some b =>
      simp only
      cases s.heap[b]? with
      | none => simp
      | some blk =>
        simp only [List.take_take]
        congr 1
        rw [← hlen] at *
        omega

theorem rep_assignCopy (r : Rep s n h V A) {t v : Nat} {a b : AObj α} (hne : t ≠ v) (ht : V t = some b)
    (hv : V v = some a) :
    ∃ s', assignCopy s t v = .ok s' ∧ Rep s' n (h + 1) (Function.update V t (some ⟨some h, a.cont, true⟩)) (A + 1) := by
  obtain ⟨g, rfl, rfl, rfl, rfl⟩ := r
  obtain ⟨o, h1, _, h3, _⟩ := view_live hv
  obtain ⟨o', h1', _⟩ := view_live ht
  have hV := g.valid v o h1
  refine ⟨_, assignCopy_eq hne h1' h1 hV, good_set_new g _ _ _ (content_length hV).symm, by simp, by simp, ?_, alv_append _ _⟩
  refine view_set (live_lt h1') ?_ ?_
  · intro w x _ hx
    exact content_append (g.valid w x hx)
  · simp only [Option.map_some, Option.some.injEq, AObj.mk.injEq, true_and, and_true]
    rw [← h3, ← content_length hV]
    simp [content]

theorem rep_assignMove (r : Rep s n h V A) {t v : Nat} {a b : AObj α} (ht : V t = some b)
    (hv : V v = some a) :
    ∃ s', assignMove s t v = .ok s' ∧
      Rep s' n h (Function.update (Function.update V t (some a)) v (some ⟨none, [], false⟩)) A := by
  obtain ⟨g, rfl, rfl, rfl, rfl⟩ := r
  obtain ⟨o, h1, h2, h3, h4⟩ := view_live hv
  obtain ⟨o', h1', _⟩ := view_live ht
  have hg : Good (⟨s.heap, (s.objs.set t (some o)).set v (some ⟨none, 0, false⟩)⟩ : State α) := by
    rcases step_good g (.assignMove t v) ⟨⟨o', h1'⟩, o, h1⟩ with ⟨s', h5, h6⟩ | h5 | h5
    · simp only [step] at h5; rw [assignMove_eq h1' h1] at h5; cases h5; exact h6
    · simp only [step] at h5; rw [assignMove_eq h1' h1] at h5; cases h5
    · simp only [step] at h5; rw [assignMove_eq h1' h1] at h5; cases h5
  refine ⟨_, assignMove_eq h1' h1, hg, by simp, rfl, ?_, rfl⟩
  have e1 := view_set (s := s) (live_lt h1') (h' := s.heap) (x := some o) (fun _ _ _ _ => rfl) rfl
  have e2 := view_set (s := ⟨s.heap, s.objs.set t (some o)⟩) (t := v) (by simpa using live_lt h1) (h' := s.heap)
    (x := some ⟨none, 0, false⟩) (fun _ _ _ _ => rfl) rfl
  rw [e2, e1]
  cases a
  simp only at h2 h3 h4
  subst h2 h3 h4
  rfl

/-- No other vector wraps the memory `b` of vector `v`. -/
def NW (V : Nat → Option (AObj α)) (v : Nat) (a : AObj α) : Prop :=
  a.man = true → ∀ b, a.ptr = some b → ∀ w c, V w = some ⟨some b, c, false⟩ → w = v

theorem NW.noWrapper {s : State α} {v : Nat} {o : Obj} {a : AObj α} (h : NW (view s) v a) (h2 : o.ptr = a.ptr)
    (h4 : o.manage = a.man) : o.manage = true → NoWrapper s v o := by
  intro hm b w o' hb hl hm' hp
  refine h (h4 ▸ hm) b (h2 ▸ hb) w (content s o') ?_
  rw [live_view hl, hp, hm']

theorem nw_of {s : State α} {v : Nat} {o : Obj} {a : AObj α} (h2 : o.ptr = a.ptr)
    (h4 : o.manage = a.man) (h : o.manage = true → NoWrapper s v o) : NW (view s) v a := by
  intro hm b hb w c hw
  obtain ⟨o', q1, q2, q3, q4⟩ := view_live hw
  exact h (h4.trans hm) b w o' (h2.trans hb) q1 q4 q2

theorem rep_dtor (r : Rep s n h V A) {v : Nat} {a : AObj α} (hv : V v = some a) (hw : NW V v a) :
    ∃ s', dtor s v = .ok s' ∧ Rep s' n h (Function.update V v none) (A - own1 (some a)) := by
  obtain ⟨g, rfl, rfl, rfl, rfl⟩ := r
  obtain ⟨o, h1, h2, h3, h4⟩ := view_live hv
  have hV := g.valid v o h1
  have hg : Good (⟨if o.manage then freed s.heap o.ptr else s.heap, s.objs.set v none⟩ : State α) := by
    rcases step_good g (.dtor v) ⟨o, h1, hw.noWrapper h2 h4⟩ with ⟨s', h5, h6⟩ | h5 | h5
    · simp only [step] at h5; rw [dtor_eq h1 hV] at h5; cases h5; exact h6
    · simp only [step] at h5; rw [dtor_eq h1 hV] at h5; cases h5
    · simp only [step] at h5; rw [dtor_eq h1 hV] at h5; cases h5
  refine ⟨_, dtor_eq h1 hV, hg, by simp, ?_, ?_, ?_⟩
  · simp only; split
    · exact freed_length _ _
    · rfl
  · refine view_set (live_lt h1) ?_ rfl
    intro w x _ _
    split
    · exact content_freed
    · rfl
  · simp only
    cases hm : o.manage with
    | true =>
      rw [if_pos rfl, alv_freed hV hm a.cont, h2, h4]
    | false =>
      rw [hm] at h4
      cases a
      simp only at h4
      subst h4
      simp [own1]

theorem alv_cells {h : List (Block α)} {b : Nat} {blk : Block α} (hb : h[b]? = some blk) (c : List (Option α)) :
    alv (h.set b { blk with cells := c }) = alv h := by
  induction h generalizing b with
  | nil => simp at hb
  | cons x h ih =>
    cases b with
    | zero =>
      simp only [List.getElem?_cons_zero, Option.some.injEq] at hb
      subst hb
      simp only [alv, List.set_cons_zero, List.filter_cons]
      split <;> simp
    | succ b =>
      simp only [List.getElem?_cons_succ] at hb
      have := ih hb
      simp only [alv, List.set_cons_succ, List.filter_cons] at this ⊢
      split
      · simp only [List.length_cons]
        push_cast
        omega
      · exact this

theorem rep_write (r : Rep s n h V A) {v i b : Nat} {c : List (Option α)} {x : α} (hv : V v = some ⟨some b, c, true⟩)
    (hi : i < c.length) (hw : NW V v ⟨some b, c, true⟩) :
    ∃ s', write s v i x = .ok s' ∧ Rep s' n h (Function.update V v (some ⟨some b, c.set i (some x), true⟩)) A := by
  obtain ⟨g, rfl, rfl, rfl, rfl⟩ := r
  obtain ⟨o, h1, h2, h3, h4⟩ := view_live hv
  simp only at h2 h3 h4
  have hV := g.valid v o h1
  have hl := content_length hV
  rw [h3] at hl
  obtain ⟨b', blk, q1, q2, q3, q4⟩ := write_eq (x := x) h1 hV (i := i) (by omega)
  rw [h2] at q1
  cases q1
  have hb := (List.getElem?_eq_some_iff.mp q2).1
  have hg : Good (⟨s.heap.set b { blk with cells := blk.cells.set i (some x) }, s.objs⟩ : State α) := by
    rcases step_good g (.write v i x) ⟨o, h1, by omega⟩ with ⟨s', h5, h6⟩ | h5 | h5
    · simp only [step] at h5; rw [q4] at h5; cases h5; exact h6
    · simp only [step] at h5; rw [q4] at h5; cases h5
    · simp only [step] at h5; rw [q4] at h5; cases h5
  refine ⟨_, q4, hg, rfl, by simp, ?_, alv_cells q2 _⟩
  funext w
  by_cases hwv : w = v
  · subst hwv
    rw [Function.update_self]
    have : Live (⟨s.heap.set b { blk with cells := blk.cells.set i (some x) }, s.objs⟩ : State α) w o := h1
    rw [live_view this, h2, h4]
    congr 2
    unfold content at h3 ⊢
    rw [h2] at h3 ⊢
    simp only [q2] at h3
    simp only [List.getElem?_set_self hb]
    rw [← h3, List.take_set]
  · rw [Function.update_of_ne hwv]
    unfold view liveO
    simp only
    cases hx : s.objs[w]? with
    | none => rfl
    | some y =>
      cases y with
      | none => rfl
      | some o' =>
        simp only [Option.join_some, Option.map_some]
        congr 2
        unfold content
        cases hp : o'.ptr with
        | none => rfl
        | some b' =>
          simp only
          rw [List.getElem?_set_ne]
          rintro rfl
          cases hm : o'.manage with
          | true => exact hwv (g.uniq w v o' o b hx h1 hm h4 hp h2)
          | false => exact hwv (hw rfl b rfl w (content s o') (by rw [live_view hx, hp, hm]))

theorem rep_fill : ∀ (xs : List α) (i : Nat) (s : State α) (V : Nat → Option (AObj α)) (c : List (Option α)) (v b : Nat),
    Rep s n h V A → V v = some ⟨some b, c, true⟩ → i + xs.length ≤ c.length → NW V v ⟨some b, c, true⟩ →
    ∃ s', fill s v xs i = .ok s' ∧
      Rep s' n h (Function.update V v (some ⟨some b, c.take i ++ xs.map some ++ c.drop (i + xs.length), true⟩)) A := by
  intro xs
  induction xs with
  | nil =>
    intro i s V c v b r hv _ _
    refine ⟨s, rfl, ?_⟩
    simp only [List.map_nil, List.append_nil, List.length_nil, Nat.add_zero, List.take_append_drop]
    rw [← hv, Function.update_eq_self]
    exact r
  | cons x xs ih =>
    intro i s V c v b r hv hl hw
    simp only [List.length_cons] at hl
    obtain ⟨s1, e1, r1⟩ := rep_write (x := x) r hv (i := i) (by omega) hw
    obtain ⟨s2, e2, r2⟩ := ih (i + 1) s1 _ (c.set i (some x)) v b r1 (Function.update_self ..) (by simp; omega) (by
      intro _ b' hb' w c' hw'
      by_cases hwv : w = v
      · exact hwv
      · rw [Function.update_of_ne hwv] at hw'
        exact hw rfl b' hb' w c' hw')
    refine ⟨s2, ?_, ?_⟩
    · simp only [fill, e1, except_bind_ok, e2]
    · rw [Function.update_idem] at r2
      have q1 : (c.set i (some x)).take (i + 1) = c.take i ++ [some x] := by
        rw [List.take_set, List.take_add_one, List.getElem?_eq_getElem (by omega)]
        rw [List.set_append_right _ _ (by simp)]
        simp [Nat.min_eq_left (show i ≤ c.length by omega)]
      have q2 : (c.set i (some x)).drop (i + 1 + xs.length) = c.drop (i + 1 + xs.length) :=
        List.drop_set_of_lt (by omega)
      rw [q1, q2] at r2
      have q3 : i + 1 + xs.length = i + (xs.length + 1) := by omega
      rw [q3] at r2
      simpa using r2

theorem rep_resize (r : Rep s n h V A) {v : Nat} {a : AObj α} (hv : V v = some a) (hw : NW V v a) (hm : a.man = true)
    (k : Nat) :
    ∃ s' c, resize s v k = .ok s' ∧ c.length = k ∧
      Rep s' n (h + 1) (Function.update V v (some ⟨some h, c, true⟩)) (A + 1 - own1 (some a)) := by
  obtain ⟨g, rfl, rfl, rfl, rfl⟩ := r
  obtain ⟨o, h1, h2, h3, h4⟩ := view_live hv
  have hV := g.valid v o h1
  have hm' := h4.trans hm
  have he := resize_eq (n := k) h1 hV hm'
  have hl := content_length hV
  have hg : Good (⟨freed s.heap o.ptr ++ [⟨(content s o).take k ++ List.replicate (k - o.size) none, true, false⟩],
      s.objs.set v (some ⟨some s.heap.length, k, true⟩)⟩ : State α) := by
    rcases step_good g (.resize v k) ⟨o, h1, hw.noWrapper h2 h4⟩ with ⟨s', h5, h6⟩ | h5 | h5
    · simp only [step] at h5; rw [he] at h5; cases h5; exact h6
    · simp only [step] at h5; rw [he] at h5; cases h5
    · simp only [step] at h5; rw [he] at h5; cases h5
  have hck : ((content s o).take k ++ List.replicate (k - o.size) none).length = k := by
    simp [hl]; omega
  refine ⟨_, (content s o).take k ++ List.replicate (k - o.size) none, he, hck, hg, by simp, by simp [freed_length], ?_, ?_⟩
  · refine view_set (live_lt h1) ?_ ?_
    · intro w x hne hx
      have hvx := g.valid w x hx
      unfold content
      cases hp : x.ptr with
      | none => rfl
      | some b =>
        have hlt := PV.ptr_lt hvx hp
        simp only
        rw [List.getElem?_append_left (by rw [freed_length]; exact hlt), freed_ne]
        intro hob
        cases hmx : x.manage with
        | true => exact hne (g.uniq w v x o b hx h1 hmx hm' hp hob)
        | false => exact hne (hw hm b (h2 ▸ hob) w (content s x) (by rw [live_view hx, hp, hmx]))
    · simp only [Option.map_some, Option.some.injEq, AObj.mk.injEq, true_and, and_true]
      have key : ∀ d : List (Option α), d.length = k →
          d = content (⟨freed s.heap o.ptr ++ [⟨d, true, false⟩], []⟩ : State α) ⟨some s.heap.length, k, true⟩ := by
        intro d hd
        unfold content
        simp only
        rw [List.getElem?_append_right (by rw [freed_length]), freed_length]
        simp only [Nat.sub_self, List.getElem?_cons_zero]
        exact (List.take_of_length_le hd.le).symm
      exact key _ hck
  · simp only
    rw [alv_append, alv_freed hV hm' a.cont, h2, h4]
    cases a
    ring

theorem rep_readVec (r : Rep s n h V A) {v : Nat} {a : AObj α} (hv : V v = some a) (hw : NW V v a) (hm : a.man = true)
    (xs : List α) :
    ∃ s', readVec s v xs = .ok (s', false) ∧
      Rep s' n (h + 1) (Function.update V v (some ⟨some h, xs.map some, true⟩)) (A + 1 - own1 (some a)) := by
  obtain ⟨s1, c, e1, hc, r1⟩ := rep_resize r hv hw hm xs.length
  obtain ⟨s2, e2, r2⟩ := rep_fill xs 0 s1 _ c v h r1 (Function.update_self ..) (by omega) (by
    intro _ b' hb' w c' hw'
    simp only [Option.some.injEq] at hb'
    subst hb'
    by_cases hwv : w = v
    · exact hwv
    · rw [Function.update_of_ne hwv] at hw'
      have := r.ptr_lt hw'
      omega)
  refine ⟨s2, ?_, ?_⟩
  · simp only [readVec, e1, e2, except_bind_ok]
    rfl
  · rw [Function.update_idem] at r2
    rw [List.drop_of_length_le (by omega)] at r2
    simpa using r2

theorem rep_refused (r : Rep s n h V A) {v : Nat} {a : AObj α} (hv : V v = some a) (hm : a.man = false)
    (xs : List α) : readVec s v xs = .ok (s, true) := by
  obtain ⟨g, rfl, rfl, rfl, rfl⟩ := r
  obtain ⟨o, h1, h2, h3, h4⟩ := view_live hv
  unfold readVec
  rw [resize_refused h1 (h4.trans hm)]

end Picsar.EH
