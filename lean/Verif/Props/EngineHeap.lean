import Verif.Lemmas.EngineHeapInv

/-
C154-C158: engines are values; what the code does with their memory.
-/
namespace Picsar.Props
open Picsar.EH Picsar.EHSpec

variable {α : Type}

/-- **C154.** A disciplined program that creates, copies, moves, assigns, rebuilds, recomputes, reads and destroys engines in
any order never performs an access outside of live memory, a double free or a read of a cell not written; it throws exactly
where the description says, and every engine holds the tables the description gives. -/
theorem C154_engines_are_values (ops : List (EOp α)) (hd : DisciplinedRun EState.init ops) :
    ∃ s w ts, erun EState.init ops = .ok (s, ts) ∧ wrun World.init ops = some (w, ts) ∧ Agrees s w := by
  obtain ⟨s, w, ts, h1, h2, h3⟩ := inv_run ops _ _ inv_init hd
  exact ⟨s, w, ts, h1, h2, inv_agrees h3⟩

/-- **C154**, programs without innards: nothing but naming engines that exist is asked of the program. -/
theorem C154_without_innards (ops : List (EOp α)) (hp : ∀ op ∈ ops, Plain op) (hw : (wrun World.init ops).isSome) :
    ∃ s w ts, erun EState.init ops = .ok (s, ts) ∧ wrun World.init ops = some (w, ts) ∧ Agrees s w :=
  C154_engines_are_values ops (plain_run ops _ _ inv_init noW_init hp hw)

/-- A history with every operation, an engine rebuilt from innards which is used, copied and destroyed before its original, and
two exceptions. -/
def heapStory : List (EOp ℕ) :=
  [.create, .computeRate 0 [1, 2] [3, 4], .readCum 0 [1, 2] [0, 1] [5, 6, 7, 8], .fromInnards 0, .readRate 1 [9] [9], .copy 1,
   .computeCum 0 [1] [0] [5], .destroy 1, .readRate 0 [7, 8, 9] [1, 2, 3], .move 2, .readCum 2 [1] [1] [1], .assign 0 3,
   .destroy 0, .destroy 2, .destroy 3]

example : DisciplinedRun EState.init heapStory := disciplinedRunB_sound _ _ (by decide)

example : (wrun World.init heapStory).map Prod.snd =
    some [false, false, false, false, true, false, false, false, false, false, true, false, false, false, false] := by decide

example : (∀ op ∈ ([.create, .computeRate 0 [1] [2], .copy 0, .move 1, .assign 0 2, .destroy 1, .destroy 0] : List (EOp ℕ)), Plain op) ∧
    (wrun World.init ([.create, .computeRate 0 [1] [2], .copy 0, .move 1, .assign 0 2, .destroy 1, .destroy 0] : List (EOp ℕ))).isSome :=
  ⟨by simp [Plain], by decide⟩

/-- **C155.** One more disciplined operation leaves every engine it does not touch alive, with the same tables and flags: also an
engine rebuilt from the innards of the engine that is recomputed, assigned or moved. -/
theorem C155_others_unchanged (ops : List (EOp α)) (hd : DisciplinedRun EState.init ops) {s : EState α} {ts : List Bool}
    (hr : erun EState.init ops = .ok (s, ts)) (op : EOp α) (ho : Disciplined s op) {e : ℕ} {g : Eng} {t : Tables α}
    (ha : Alive s e g) (hs : Shows s g t) (hn : ¬ Touches op e) :
    ∃ s' th g', estep s op = .ok (s', th) ∧ Alive s' e g' ∧ Shows s' g' t := by
  obtain ⟨w, _, hi⟩ := inv_of_run hd hr
  obtain ⟨s', w', th, h1, h2, hi', _⟩ := inv_step hi op ho
  obtain ⟨_, hag⟩ := inv_agrees hi
  obtain ⟨_, hag'⟩ := inv_agrees hi'
  rcases hag e with ⟨_, hno⟩ | ⟨g0, t0, ha0, hg0, hs0⟩
  · exact absurd ha (hno g)
  · have hgg : g0 = g := by unfold Alive at ha ha0; rw [ha0] at ha; cases ha; rfl
    subst hgg
    have hg' := wstep_frame h2 hg0 hn
    rcases hag' e with ⟨hno, _⟩ | ⟨g', t', ha', hg'', hs'⟩
    · rw [hg'] at hno; cases hno
    · rw [hg'] at hg''
      cases hg''
      exact ⟨s', th, g', h1, ha', shows_same hs hs0 hs'⟩

example : ∃ s ts, erun EState.init ([.create, .computeRate 0 [1, 2] [3, 4], .fromInnards 0] : List (EOp ℕ)) = .ok (s, ts) ∧
    DisciplinedRun EState.init ([.create, .computeRate 0 [1, 2] [3, 4], .fromInnards 0] : List (EOp ℕ)) ∧
    Disciplined s (.computeRate 0 [5] [6]) ∧ (∃ g, Alive s 1 g) ∧ ¬ Touches (EOp.computeRate 0 [5] [6]) 1 := by
  refine ⟨_, _, rfl, disciplinedRunB_sound _ _ (by decide), disciplinedB_sound (by decide), ⟨_, rfl⟩, by simp [Touches]⟩

/-- **C156**, the balance of every history: the arrays not freed are those of the live engines and those lost when an owned table
was computed or assigned anew. -/
theorem C156_balance (ops : List (EOp α)) (hd : DisciplinedRun EState.init ops) {s : EState α} {ts : List Bool}
    (hr : erun EState.init ops = .ok (s, ts)) :
    ∃ w, wrun World.init ops = some (w, ts) ∧ arraysAlive s = w.lost + arraysOwned w := by
  obtain ⟨w, h1, hi⟩ := inv_of_run hd hr
  exact ⟨w, h1, inv_count hi⟩

/-- **C156**, where it holds: if no table in memory of its engine is computed or assigned anew, and all engines are destroyed,
every array is freed. Missing: programs that compute a table twice (`C156_refuted`). -/
theorem C156_no_leak_partial (ops : List (EOp α)) (hd : DisciplinedRun EState.init ops) (hn : NoReplaceRun World.init ops)
    {s : EState α} {ts : List Bool} (hr : erun EState.init ops = .ok (s, ts)) (hl : NoneLeft s) : arraysAlive s = 0 := by
  obtain ⟨w, h1, hi⟩ := inv_of_run hd hr
  rw [inv_count hi, lost_zero ops _ _ _ rfl hn h1, Nat.zero_add]
  unfold arraysOwned
  rw [List.sum_eq_zero_iff_forall_eq_nat]
  intro x hx
  obtain ⟨o, ho, rfl⟩ := List.mem_map.mp hx
  obtain ⟨e, he⟩ := List.mem_iff_getElem?.mp ho
  rcases (inv_agrees hi).2 e with ⟨h, _⟩ | ⟨g, _, ha, _⟩
  · unfold World.get at h
    rw [he] at h
    simp only [Option.join_some] at h
    subst h
    rfl
  · exact absurd ha (hl e g)

example : NoReplaceRun World.init ([.create, .computeRate 0 [1] [2], .copy 0, .fromInnards 0, .destroy 2, .destroy 0, .destroy 1] :
    List (EOp ℕ)) ∧ DisciplinedRun EState.init ([.create, .computeRate 0 [1] [2], .copy 0, .fromInnards 0, .destroy 2, .destroy 0,
    .destroy 1] : List (EOp ℕ)) := by
  refine ⟨?_, disciplinedRunB_sound _ _ (by decide)⟩
  simp [NoReplaceRun, NoReplace, wstep, World.init, World.get, Tables.empty]

theorem wrun_again (xs ys : List α) (k : ℕ) (t : Tables α) (ht : t.rateMem = .own) (hc : t.cumMem = .none) (l : ℕ) :
    ∃ ts, wrun (⟨[some t], l⟩ : World α) (List.replicate k (.computeRate 0 xs ys) ++ [.destroy 0]) =
      some (⟨[none], l + 2 * k⟩, ts) := by
  induction k generalizing t l with
  | zero => exact ⟨[false], rfl⟩
  | succ k ih =>
    obtain ⟨ts, h⟩ := ih { t with rateX := xs, rateY := ys, rateReady := true, rateMem := .own } rfl hc (l + 2)
    refine ⟨false :: ts, ?_⟩
    rw [List.replicate_succ, List.cons_append]
    have e : wstep (⟨[some t], l⟩ : World α) (.computeRate 0 xs ys) =
        some (⟨[some { t with rateX := xs, rateY := ys, rateReady := true, rateMem := .own }], l + 2⟩, false) := by
      simp [wstep, World.get, ht, leaked]
    simp only [wrun, e, Option.bind_eq_bind, Option.bind_some, h]
    rw [show l + 2 + 2 * k = l + 2 * (k + 1) by omega]

/-- **C156** is violated: creating one engine, computing its rate table `k + 1` times and destroying the engine leaves `2 k` arrays
that nothing refers to. -/
theorem C156_refuted (xs ys : List α) (k : ℕ) :
    ∃ s ts, erun EState.init ([.create] ++ (List.replicate (k + 1) (.computeRate 0 xs ys) ++ [.destroy 0])) = .ok (s, ts) ∧
      NoneLeft s ∧ arraysAlive s = 2 * k := by
  have hw : ∃ ts, wrun World.init ([.create] ++ (List.replicate (k + 1) (.computeRate 0 xs ys) ++ [.destroy 0])) =
      some ((⟨[none], 2 * k⟩ : World α), ts) := by
    obtain ⟨ts, h⟩ := wrun_again xs ys k (⟨xs, ys, true, .own, [], [], [], false, .none⟩ : Tables α) rfl rfl 0
    refine ⟨false :: false :: ts, ?_⟩
    rw [List.replicate_succ, List.cons_append]
    have e : wstep (⟨[some Tables.empty], 0⟩ : World α) (.computeRate 0 xs ys) =
        some (⟨[some ⟨xs, ys, true, .own, [], [], [], false, .none⟩], 0⟩, false) := rfl
    have e0 : wstep (World.init : World α) .create = some (⟨[some Tables.empty], 0⟩, false) := rfl
    simp only [List.cons_append, List.nil_append, wrun, e0, e, h, Option.bind_eq_bind, Option.bind_some, Nat.zero_add]
  obtain ⟨ts, hw⟩ := hw
  have hd : DisciplinedRun EState.init ([.create] ++ (List.replicate (k + 1) (.computeRate 0 xs ys) ++ [.destroy 0])) := by
    refine plain_run _ _ _ inv_init noW_init ?_ (by rw [hw]; rfl)
    intro op hop
    simp only [List.cons_append, List.nil_append, List.mem_cons, List.mem_append, List.mem_replicate, List.not_mem_nil,
      or_false] at hop
    rcases hop with rfl | ⟨_, rfl⟩ | rfl <;> trivial
  obtain ⟨s, w, ts', h1, h2, hi⟩ := inv_run _ _ _ inv_init hd
  rw [hw] at h2
  cases h2
  refine ⟨s, ts, h1, ?_, ?_⟩
  · intro e g ha
    rcases (inv_agrees hi).2 e with ⟨_, h⟩ | ⟨g', t, _, h, _⟩
    · exact h g ha
    · rcases e with _ | e
      · simp [World.get] at h
      · simp [World.get] at h
  · rw [inv_count hi]; rfl

/-! `is_init()` and the tables behind it -/

theorem front_of_holds {s : PV.State α} {v : ℕ} {x : α} {l : List α} (h : PV.Holds s v ((x :: l).map some)) :
    PV.front s v = .ok x := by
  obtain ⟨o, hl, hsz, hp⟩ := h
  unfold PV.front PV.read
  have hg : PV.getObj s v = .ok o := by unfold PV.getObj; unfold PV.Live at hl; rw [hl]
  rw [hg, except_bind_ok]
  cases hq : o.ptr with
  | none => rw [hq] at hp; cases hp
  | some b =>
    rw [hq] at hp
    obtain ⟨blk, hb, halive, hpre⟩ := hp
    have hc : blk.cells[0]? = some (some x) := by
      obtain ⟨r, hr⟩ := hpre
      rw [← hr]
      rfl
    unfold PV.load
    simp only [hb, halive, if_true, rd, hc]
    rfl

/-- The tables a flag announces are there. -/
def Sound (t : Tables α) : Prop :=
  (t.rateReady = true → t.rateX ≠ [] ∧ t.rateY ≠ []) ∧ (t.cumReady = true → t.cumX ≠ [] ∧ t.cumF ≠ [] ∧ t.cumV ≠ [])

theorem get_mem {w : World α} {e : ℕ} {t : Tables α} (h : w.get e = some t) : some t ∈ w.engines := by
  unfold World.get at h
  cases hx : w.engines[e]? with
  | none => rw [hx] at h; cases h
  | some y =>
    rw [hx] at h
    simp only [Option.join_some] at h
    subst h
    exact List.mem_of_getElem? hx

theorem sound_set {w : World α} (h : ∀ t, some t ∈ w.engines → Sound t) (e : ℕ) (x : Option (Tables α))
    (hx : ∀ t, x = some t → Sound t) : ∀ t, some t ∈ w.engines.set e x → Sound t := by
  intro t ht
  rcases List.mem_or_eq_of_mem_set ht with h' | h'
  · exact h t h'
  · exact hx t h'.symm

theorem sound_append {w : World α} (h : ∀ t, some t ∈ w.engines → Sound t) {u : Tables α} (hu : Sound u) :
    ∀ t, some t ∈ w.engines ++ [some u] → Sound t := by
  intro t ht
  rcases List.mem_append.mp ht with h' | h'
  · exact h t h'
  · cases List.mem_singleton.mp h'; exact hu

theorem sound_step {w w' : World α} {op : EOp α} {th : Bool} (h : ∀ t, some t ∈ w.engines → Sound t) (hf : Filled op)
    (hs : wstep w op = some (w', th)) : ∀ t, some t ∈ w'.engines → Sound t := by
  cases op with
  | create =>
    cases hs
    exact sound_append h (And.intro (fun q => by cases q) (fun q => by cases q))
  | copy e =>
    simp only [wstep, Option.map_eq_some_iff] at hs
    obtain ⟨u, hg, hu⟩ := hs
    cases hu
    exact sound_append h (h u (get_mem hg))
  | move e => exact hf.elim
  | fromInnards e => exact hf.elim
  | assign d e =>
    simp only [wstep] at hs
    cases ha : w.get d with
    | none => rw [ha] at hs; cases hs
    | some a =>
      cases hb : w.get e with
      | none => rw [ha, hb] at hs; cases hs
      | some b =>
        rw [ha, hb] at hs
        simp only [Option.bind_eq_bind, Option.bind_some] at hs
        split at hs
        · cases hs; exact h
        · cases hs
          exact sound_set h d _ fun t q => by cases q; exact h b (get_mem hb)
  | computeRate e xs ys =>
    simp only [wstep, Option.map_eq_some_iff] at hs
    obtain ⟨u, hg, hu⟩ := hs
    cases hu
    exact sound_set h e _ fun t q => by cases q; exact ⟨fun _ => hf, (h u (get_mem hg)).2⟩
  | computeCum e xs fs vs =>
    simp only [wstep, Option.map_eq_some_iff] at hs
    obtain ⟨u, hg, hu⟩ := hs
    cases hu
    exact sound_set h e _ fun t q => by cases q; exact ⟨(h u (get_mem hg)).1, fun _ => hf⟩
  | readRate e xs ys =>
    simp only [wstep, Option.map_eq_some_iff] at hs
    obtain ⟨u, hg, hu⟩ := hs
    split at hu
    · cases hu; exact h
    · cases hu
      exact sound_set h e _ fun t q => by cases q; exact ⟨fun _ => hf, (h u (get_mem hg)).2⟩
  | readCum e xs fs vs =>
    simp only [wstep, Option.map_eq_some_iff] at hs
    obtain ⟨u, hg, hu⟩ := hs
    split at hu
    · cases hu; exact h
    · cases hu
      exact sound_set h e _ fun t q => by cases q; exact ⟨(h u (get_mem hg)).1, fun _ => hf⟩
  | destroy e =>
    simp only [wstep, Option.map_eq_some_iff] at hs
    obtain ⟨u, hg, hu⟩ := hs
    cases hu
    exact sound_set h e _ fun t q => by cases q

theorem sound_run : ∀ (ops : List (EOp α)) (w w' : World α) (ts : List Bool), (∀ t, some t ∈ w.engines → Sound t) →
    (∀ op ∈ ops, Filled op) → wrun w ops = some (w', ts) → ∀ t, some t ∈ w'.engines → Sound t := by
  intro ops
  induction ops with
  | nil => intro w w' ts h _ hr; cases hr; exact h
  | cons op ops ih =>
    intro w w' ts h hf hr
    simp only [wrun] at hr
    cases hx : wstep w op with
    | none => rw [hx] at hr; cases hr
    | some y =>
      rw [hx] at hr
      simp only [Option.bind_eq_bind, Option.bind_some] at hr
      cases hy : wrun y.1 ops with
      | none => rw [hy] at hr; cases hr
      | some z =>
        rw [hy] at hr
        cases hr
        exact ih y.1 z.1 z.2 (sound_step h (hf op List.mem_cons_self) hx) (fun o ho => hf o (List.mem_cons_of_mem _ ho)) hy

/-- **C157**, where it holds: without moves and innards, and with tables that are not empty, an engine whose flag is set has a
table, so that its first coordinate can be read. Missing: engines that were moved from or rebuilt
(`C157_moved_refuted`, `C157_innards_refuted`). -/
theorem C157_ready_partial (ops : List (EOp α)) (hf : ∀ op ∈ ops, Filled op) (hw : (wrun World.init ops).isSome)
    {s : EState α} {ts : List Bool} (hr : erun EState.init ops = .ok (s, ts)) {e : ℕ} {g : Eng} (ha : Alive s e g) :
    (g.rateInit = true → ∃ x, PV.front s.mem g.rc = .ok x) ∧ (g.cumInit = true → ∃ x, PV.front s.mem g.c0 = .ok x) := by
  have hp : ∀ op ∈ ops, Plain op := by
    intro op ho
    have := hf op ho
    cases op <;> trivial
  obtain ⟨w, h1, hi⟩ := inv_of_run (plain_run ops _ _ inv_init noW_init hp hw) hr
  have hs := sound_run ops _ _ _ (by intro t ht; cases ht) hf h1
  rcases (inv_agrees hi).2 e with ⟨_, h⟩ | ⟨g', t, ha', hg, hsh⟩
  · exact absurd ha (h g)
  · have hgg : g' = g := by unfold Alive at ha ha'; rw [ha'] at ha; cases ha; rfl
    subst hgg
    obtain ⟨q1, q2⟩ := hs t (get_mem hg)
    obtain ⟨a1, a2, a3, a4, a5, a6, a7⟩ := hsh
    constructor
    · intro hr
      cases hx : t.rateX with
      | nil => exact absurd hx (q1 (a6 ▸ hr)).1
      | cons x l => rw [hx] at a1; exact ⟨x, front_of_holds a1⟩
    · intro hr
      cases hx : t.cumX with
      | nil => exact absurd hx (q2 (a7 ▸ hr)).1
      | cons x l => rw [hx] at a3; exact ⟨x, front_of_holds a3⟩

example : (∀ op ∈ ([.create, .computeRate 0 [1] [2], .copy 0, .assign 0 1, .destroy 1] : List (EOp ℕ)), Filled op) ∧
    (wrun World.init ([.create, .computeRate 0 [1] [2], .copy 0, .assign 0 1, .destroy 1] : List (EOp ℕ))).isSome :=
  ⟨by simp [Filled], by decide⟩

/-- **C157** is violated by the move constructor: whatever the program did before, the engine moved from keeps its flags, and the first
access to its tables dereferences the null pointer. -/
theorem C157_moved_refuted (ops : List (EOp α)) (hd : DisciplinedRun EState.init ops) {s : EState α} {ts : List Bool}
    (hr : erun EState.init ops = .ok (s, ts)) {e : ℕ} {g : Eng} (ha : Alive s e g) :
    ∃ s', estep s (.move e) = .ok (s', false) ∧ Alive s' e g ∧ PV.front s'.mem g.rc = .error .nullDeref ∧
      PV.front s'.mem g.c0 = .error .nullDeref := by
  obtain ⟨w, _, hi⟩ := inv_of_run hd hr
  exact move_null hi ha

example : ∃ s ts g, erun EState.init ([.create, .computeRate 0 [1, 2] [3, 4]] : List (EOp ℕ)) = .ok (s, ts) ∧
    DisciplinedRun EState.init ([.create, .computeRate 0 [1, 2] [3, 4]] : List (EOp ℕ)) ∧ Alive s 0 g ∧ g.rateInit = true :=
  ⟨_, _, _, rfl, disciplinedRunB_sound _ _ (by decide), rfl, rfl⟩

/-- **C157** is violated by the constructor from innards: an engine rebuilt from the innards of an engine without tables reports both
tables as initialised, although the first access dereferences the null pointer. -/
theorem C157_innards_refuted :
    DisciplinedRun EState.init ([.create, .fromInnards 0] : List (EOp α)) ∧
    ∃ s ts g, erun EState.init ([.create, .fromInnards 0] : List (EOp α)) = .ok (s, ts) ∧ Alive s 1 g ∧ g.rateInit = true ∧
      g.cumInit = true ∧ PV.front s.mem g.rc = .error .nullDeref ∧ PV.front s.mem g.c0 = .error .nullDeref :=
by
  have e1 : estep (EState.init : EState α) .create = .ok (⟨⟨[], [some ⟨none, 0, true⟩, some ⟨none, 0, true⟩, some ⟨none, 0, true⟩,
    some ⟨none, 0, true⟩, some ⟨none, 0, true⟩]⟩, [some ⟨0, 1, 2, 3, 4, false, false⟩]⟩, false) := rfl
  constructor
  · refine ⟨trivial, ?_⟩
    rw [e1]
    refine ⟨⟨⟨0, 1, 2, 3, 4, false, false⟩, rfl, ?_, ?_⟩, ?_⟩
    · intro x y hx hy; cases hx; cases hy; exact Nat.le_refl _
    · intro x y z hx hy hz; cases hx; cases hy; cases hz; exact Nat.le_refl _
    · split <;> trivial
  refine ⟨⟨⟨[], [some ⟨none, 0, true⟩, some ⟨none, 0, true⟩, some ⟨none, 0, true⟩, some ⟨none, 0, true⟩, some ⟨none, 0, true⟩,
    some ⟨none, 0, false⟩, some ⟨none, 0, false⟩, some ⟨none, 0, false⟩, some ⟨none, 0, false⟩, some ⟨none, 0, false⟩, none, none]⟩,
    [some ⟨0, 1, 2, 3, 4, false, false⟩, some ⟨5, 6, 7, 8, 9, true, true⟩]⟩, [false, false], ⟨5, 6, 7, 8, 9, true, true⟩, ?_, rfl, rfl, rfl,
    rfl, rfl⟩
  simp only [erun, e1, except_bind_ok]
  simp [estep, fromInnards, PV.ctorEmpty, PV.ctorRaw, PV.assignMove, PV.dtor, PV.newObj, PV.setObj, PV.getObj, getEng, pure, Except.pure]

/-! Using an engine again after a move -/

/-- State and description after a move. -/
theorem after_move {s : EState α} {w : World α} (hi : Inv s w) {e : ℕ} {g : Eng} (ha : Alive s e g) :
    ∃ s' w' t, estep s (.move e) = .ok (s', false) ∧ Alive s' e g ∧ Inv s' w' ∧ w'.get e = some t ∧ t.rateMem = .foreign ∧
      t.cumMem = .foreign := by
  obtain ⟨s', h1, ha', _⟩ := move_null hi ha
  obtain ⟨s2, w', th, h2, h3, hi', _⟩ := inv_step hi (.move e) ⟨g, ha⟩
  rw [h1] at h2
  cases h2
  simp only [wstep, Option.map_eq_some_iff] at h3
  obtain ⟨u, hu, h4⟩ := h3
  cases h4
  refine ⟨s', _, u.emptied, h1, ha', hi', ?_, rfl, rfl⟩
  have hlt : e < w.engines.length := by
    unfold World.get at hu
    cases hx : w.engines[e]? with
    | none => rw [hx] at hu; cases hu
    | some y => exact (List.getElem?_eq_some_iff.mp hx).1
  unfold World.get
  simp only
  rw [List.getElem?_append_left (by simpa using hlt), List.getElem?_set_self hlt]
  rfl

/-- **C158**, where it holds: an engine that was moved from can compute its tables again, and then holds them. Missing: reading them
from a file (`C158_read_refuted`). -/
theorem C158_compute_partial (ops : List (EOp α)) (hd : DisciplinedRun EState.init ops) {s : EState α} {ts : List Bool}
    (hr : erun EState.init ops = .ok (s, ts)) {e : ℕ} {g : Eng} (ha : Alive s e g) (xs ys : List α) :
    ∃ s1 s2 g', estep s (.move e) = .ok (s1, false) ∧ estep s1 (.computeRate e xs ys) = .ok (s2, false) ∧ Alive s2 e g' ∧
      g'.rateInit = true ∧ PV.Holds s2.mem g'.rc (xs.map some) ∧ PV.Holds s2.mem g'.rd (ys.map some) := by
  obtain ⟨w, _, hi⟩ := inv_of_run hd hr
  obtain ⟨s1, w1, t, h1, ha1, hi1, hg1, _, _⟩ := after_move hi ha
  obtain ⟨s2, w2, th, h2, h3, hi2, _⟩ := inv_step hi1 (.computeRate e xs ys) ⟨g, ha1⟩
  simp only [wstep, hg1, Option.map_some, Option.some.injEq, Prod.mk.injEq] at h3
  obtain ⟨hw2, rfl⟩ := h3
  have hlt : e < w1.engines.length := by
    unfold World.get at hg1
    cases hx : w1.engines[e]? with
    | none => rw [hx] at hg1; cases hg1
    | some y => exact (List.getElem?_eq_some_iff.mp hx).1
  have hg2 : w2.get e = some { t with rateX := xs, rateY := ys, rateReady := true, rateMem := .own } := by
    rw [← hw2]
    unfold World.get
    simp only
    rw [List.getElem?_set_self hlt]
    rfl
  rcases (inv_agrees hi2).2 e with ⟨h, _⟩ | ⟨g', t', ha', hg', hsh⟩
  · rw [hg2] at h; cases h
  · rw [hg2] at hg'
    cases hg'
    exact ⟨s1, s2, g', h1, h2, ha', hsh.2.2.2.2.2.1, hsh.1, hsh.2.1⟩

/-- **C158** is violated when the tables come from a file: whatever the program did before, reading a table into an engine that was
moved from throws, because the move leaves vectors that do not manage their memory. -/
theorem C158_read_refuted (ops : List (EOp α)) (hd : DisciplinedRun EState.init ops) {s : EState α} {ts : List Bool}
    (hr : erun EState.init ops = .ok (s, ts)) {e : ℕ} {g : Eng} (ha : Alive s e g) (xs ys cs fs vs : List α) :
    ∃ s1, estep s (.move e) = .ok (s1, false) ∧ (∃ s2, estep s1 (.readRate e xs ys) = .ok (s2, true)) ∧
      ∃ s2, estep s1 (.readCum e cs fs vs) = .ok (s2, true) := by
  obtain ⟨w, _, hi⟩ := inv_of_run hd hr
  obtain ⟨s1, w1, t, h1, ha1, hi1, hg1, hf1, hf2⟩ := after_move hi ha
  obtain ⟨u1, u2⟩ := foreign_unlent hi1 ha1 hg1
  refine ⟨s1, h1, ?_, ?_⟩
  · obtain ⟨s2, w2, th, h2, h3, _, _⟩ := inv_step hi1 (.readRate e xs ys) ⟨g, ha1, u1 hf1⟩
    simp only [wstep, hg1, Option.map_some, hf1, if_true, Option.some.injEq, Prod.mk.injEq] at h3
    exact ⟨s2, by rw [h2, ← h3.2]⟩
  · obtain ⟨s2, w2, th, h2, h3, _, _⟩ := inv_step hi1 (.readCum e cs fs vs) ⟨g, ha1, u2 hf2⟩
    simp only [wstep, hg1, Option.map_some, hf2, if_true, Option.some.injEq, Prod.mk.injEq] at h3
    exact ⟨s2, by rw [h2, ← h3.2]⟩

example : ∃ s ts g, erun EState.init ([.create, .readRate 0 [1, 2] [3, 4]] : List (EOp ℕ)) = .ok (s, ts) ∧
    DisciplinedRun EState.init ([.create, .readRate 0 [1, 2] [3, 4]] : List (EOp ℕ)) ∧ Alive s 0 g :=
  ⟨_, _, _, rfl, disciplinedRunB_sound _ _ (by decide), rfl⟩

end Picsar.Props
