import Verif.Lemmas.PersistSum
import Verif.Props.FieldExchange

/-
C173: summation of the currents with persistent requests; C174: number of requests.
-/
namespace Picsar.Props
open Picsar Picsar.Grid Picsar.Mpi Picsar.Exchange Picsar.Persist

/-- C173, proved part. In the time loop of the program, at every time step and under every schedule, the call ends and every copy of a
node holds the sum of the contributions of all processes, as with the other kinds of communication. Missing: for `jx` the count of
two requests is a variable without a value, which must not be negative, and the first call must have `it = 0`; see the refutations. -/
theorem C173_summation_partial (D : Dom) (h : D.Ok) (w : JComp) (s0 : PState D) (i : ℕ) (s : PState D) (st : Steps D w s0 i s)
    (sz : Proc D → ℤ) (hz : w = .jx → i = 0 → ∀ c, 0 ≤ sz c) :
    (∃ s', Call D w i sz s (.ok s')) ∧ ∀ r, Call D w i sz s r → ∃ s', r = .ok s' ∧ ∀ c, (s'.mem c).cur = (s.mem c).cur ∧
      ∀ x, InArr D c.1 x → (s'.mem c).heap (s'.mem c).cur x = nodeSum (arrays s) c.1 x := by
  have hp : ∃ made, prepare D w i sz s = .ok (fresh D (fun c => (s.mem c).cur), made) := by
    by_cases hi : i = 0
    · subst hi
      exact ⟨_, prepare_zero fun hw => hz hw rfl⟩
    · exact ⟨_, prepare_later (by exact_mod_cast hi) ((steps_inv h st).1 hi)⟩
  obtain ⟨made, hp⟩ := hp
  refine ⟨call_exists h hp, fun r hr => ?_⟩
  cases hr with
  | fault e he => rw [hp] at he; cases he
  | run rq made' n b he e hst =>
    have hq := Except.ok.inj (hp.symm.trans he)
    have h1 : rq = fresh D (fun c => (s.mem c).cur) := (congrArg Prod.fst hq).symm
    subst h1
    refine ⟨_, rfl, fun c => ?_⟩
    exact call_result h _ (m := fun c => ⟨(s.mem c).heap, (s.mem c).cur, [], []⟩) (fun _ => rfl) (fun _ => ⟨rfl, rfl⟩) e hst c

/-- C173, refuted for a first call at another time than `it = 0` (a script that sets `it`, or a plasma switched on later): every call
starts requests that do not exist, whatever the array. -/
theorem C173_late_refuted (D : Dom) (c : Proc D) (w : JComp) (it : ℤ) (hit : it ≠ 0) (sz : Proc D → ℤ) (s : PState D)
    (hs : ∀ c k, s.rq c k = none) (r : Res (PState D)) (hr : Call D w it sz s r) : r = .error .uninitialised := by
  have hp : prepare D w it sz s = .error .uninitialised := by
    unfold prepare
    rw [if_neg hit, if_neg]
    intro hall
    have := hall c 0 (by omega)
    rw [hs c 0] at this
    cases this
  cases hr with
  | fault e he => rw [hp] at he; rw [Except.error.inj he]
  | run rq made n b he _ _ => rw [hp] at he; cases he

/-- C173, refuted for `jx` when the variable without a value happens to be negative on some process: the first call aborts. For the
other two components it does not. -/
theorem C173_count_refuted (D : Dom) (h : D.Ok) (sz : Proc D → ℤ) (c : Proc D) (hc : sz c < 0) (s : PState D) :
    (∀ r, Call D .jx 0 sz s r → r = .error .exception) ∧ ∃ s', Call D .jy 0 sz s (.ok s') := by
  constructor
  · intro r hr
    have hp : prepare D .jx 0 sz s = .error .exception := by
      unfold prepare
      rw [if_pos rfl, if_pos ⟨rfl, c, hc⟩]
    cases hr with
    | fault e he => rw [hp] at he; rw [Except.error.inj he]
    | run rq made n b he _ _ => rw [hp] at he; cases he
  · exact call_exists h (prepare_zero fun hw => by cases hw)

/-- C173, refuted when the array is another one than at the first call (scripts can bind the name to a new array): the requests still
send the old storage. If that holds zeros, what neighbours deposited on a node is lost, every copy gets the value of its owner
alone. -/
theorem C173_moved_refuted (D : Dom) (h : D.Ok) (w : JComp) (s0 : PState D) (i : ℕ) (hi : i ≠ 0) (s : PState D)
    (st : Steps D w s0 i s) (s2 : PState D) (hrq : s2.rq = s.rq) (hcur : ∀ c, (s2.mem c).cur ≠ (s.mem c).cur)
    (hold : ∀ c x, (s2.mem c).heap (s.mem c).cur x = 0) (sz : Proc D → ℤ) :
    (∃ s', Call D w i sz s2 (.ok s')) ∧ ∀ s', Call D w i sz s2 (.ok s') → ∀ (c o : Proc D) (x x' : I3), InArr D c.1 x →
      InArr D o.1 x' → Owns D o.1 x' → SameNode D c.1 x o.1 x' →
      (s'.mem c).heap (s'.mem c).cur x = (s2.mem o).heap (s2.mem o).cur x' := by
  have hr : s2.rq = fresh D (fun c => (s.mem c).cur) := hrq.trans ((steps_inv h st).1 hi)
  have hp := prepare_later (w := w) (it := i) (sz := sz) (by exact_mod_cast hi) hr
  refine ⟨call_exists h hp, fun s' hc c o x x' h0 h1 h2 h3 => ?_⟩
  cases hc with
  | run rq made n b he e hst =>
    have hq := Except.ok.inj (hp.symm.trans he)
    have e1 : rq = fresh D (fun c => (s.mem c).cur) := (congrArg Prod.fst hq).symm
    subst e1
    refine moved_result h (μ := fun c => (s2.mem c).cur) (F := fun c => (s2.mem c).heap (s2.mem c).cur) (fun c => (hcur c).symm)
      (m := fun c => ⟨(s2.mem c).heap, (s2.mem c).cur, [], []⟩) (fun c => ⟨rfl, funext (hold c), rfl, ?_, ?_⟩) e hst c o x x' h0 h1 h2 h3
    · intro a ha; cases ha
    · intro a ha; cases ha

/-- C174, proved part. In the time loop of the program the number of requests does not grow after the first time step. Missing: loops
that leave `it` alone. -/
theorem C174_bounded_partial (D : Dom) (h : D.Ok) (w : JComp) (s0 : PState D) (i : ℕ) (s : PState D) (st : Steps D w s0 i s)
    (c : Proc D) : s.made c = s0.made c + if i = 0 then 0 else perInit w :=
  (steps_inv h st).2 c

/-- C174, refuted for the time loop of the example scripts, where `it` stays 0: every call creates new requests, and none is ever
freed; such loops of any length exist. -/
theorem C174_grows_refuted (D : Dom) (h : D.Ok) (w : JComp) (s0 : PState D) :
    (∀ i s, Loop D w 0 s0 i s → ∀ c, s.made c = s0.made c + i * perInit w ∧ 6 ≤ perInit w) ∧ ∀ i, ∃ s, Loop D w 0 s0 i s := by
  refine ⟨fun i s st c => ⟨loop_made st c, by cases w <;> decide⟩, fun i => ?_⟩
  induction i with
  | zero => exact ⟨_, .first⟩
  | succ i ih =>
    obtain ⟨s, st⟩ := ih
    obtain ⟨s', hc⟩ := call_exists h (prepare_zero (w := w) (sz := fun _ => 0) (s := s) fun _ _ => le_rfl)
    exact ⟨s', .next st hc ⟨rfl, fun _ => rfl, rfl⟩⟩

/-- A state before the first call: no requests, one storage, 1 in a node that both processes have. -/
noncomputable def perState : PState dom211 where
  rq _ _ := none
  mem c := ⟨fun _ i => if c.1 = ⟨0, 0, 0⟩ ∧ i = ⟨5, 2, 2⟩ then 1 else 0, 7, [], []⟩
  made _ := 0

-- three time steps are possible
example : ∃ s, Steps dom211 .jy perState 3 s := by
  obtain ⟨s1, h1⟩ := (C173_summation_partial dom211 dom211_ok .jy perState 0 perState .first (fun _ => -1) (fun a => by cases a)).1
  have st1 := Steps.next .first h1 ⟨rfl, fun _ => rfl, rfl⟩
  obtain ⟨s2, h2⟩ := (C173_summation_partial dom211 dom211_ok .jy perState 1 s1 st1 (fun _ => -1) (fun a => by cases a)).1
  have st2 := Steps.next st1 h2 ⟨rfl, fun _ => rfl, rfl⟩
  obtain ⟨s3, h3⟩ := (C173_summation_partial dom211 dom211_ok .jy perState 2 s2 st2 (fun _ => -1) (fun a => by cases a)).1
  exact ⟨s3, .next st2 h3 ⟨rfl, fun _ => rfl, rfl⟩⟩
-- the state meets the hypotheses of the refutations
example : ∃ (s s2 : PState dom211), Steps dom211 .jz perState 1 s ∧ s2.rq = s.rq ∧ (∀ c, (s2.mem c).cur ≠ (s.mem c).cur) ∧
    (∀ c x, (s2.mem c).heap (s.mem c).cur x = 0) ∧ (s2.mem proc0).heap (s2.mem proc0).cur ⟨4, 2, 2⟩ = 1 := by
  obtain ⟨s1, h1⟩ := (C173_summation_partial dom211 dom211_ok .jz perState 0 perState .first (fun _ => 0) (fun a => by cases a)).1
  refine ⟨s1, ⟨s1.rq, fun c => ⟨fun a _ => if a = (s1.mem c).cur then 0 else 1, (s1.mem c).cur + 1, [], []⟩, s1.made⟩,
    Steps.next .first h1 ⟨rfl, fun _ => rfl, rfl⟩, rfl, fun c => ?_, fun c x => if_pos rfl, if_neg ?_⟩
  · exact Nat.succ_ne_self _
  · exact Nat.succ_ne_self _
example (r : Res (PState dom211)) (hr : Call dom211 .jx 5 (fun _ => 0) perState r) : r = .error .uninitialised :=
  C173_late_refuted dom211 proc0 .jx 5 (by decide) _ perState (fun _ _ => rfl) r hr
example (r : Res (PState dom211)) (hr : Call dom211 .jx 0 (fun _ => -3) perState r) : r = .error .exception :=
  (C173_count_refuted dom211 dom211_ok (fun _ => -3) proc1 (by decide) perState).1 r hr
example : ∃ s, Loop dom211 .jx 0 perState 10 s ∧ s.made proc0 = 80 := by
  obtain ⟨a, b⟩ := C174_grows_refuted dom211 dom211_ok .jx perState
  obtain ⟨s, st⟩ := b 10
  exact ⟨s, st, (a 10 s st proc0).1⟩

end Picsar.Props
