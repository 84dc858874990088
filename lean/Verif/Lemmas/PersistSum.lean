import Verif.Spec.PersistSum
import Verif.Lemmas.FieldExchange

namespace Picsar.Persist
open Picsar Picsar.Grid Picsar.Mpi Picsar.Exchange

/-! ### Simulation -/

theorem set_loc (m : PLoc) (x : Loc) : (m.set x).loc = x := by
  show Loc.mk (Function.update m.heap m.cur x.f m.cur) x.t1 x.t2 = x
  rw [Function.update_self]

theorem sim_absorb {R : Type} {P : Prog R PLoc (List ℝ)} {Q : Prog R Loc (List ℝ)} {κ : R → ℕ} {N : ℕ}
    (hsrc : ∀ k r, k < N → P.src k r = Q.src k r)
    (hput : ∀ k r m v, k < N → (P.put k r m v).loc = Q.put k r m.loc v ∧ (P.put k r m v).cur = m.cur)
    (hpay : ∀ k r m, k < N → m.cur = κ r → P.pay k r m = Q.pay k r m.loc)
    {m : R → PLoc} (hm : ∀ r, (m r).cur = κ r) (r : R) (a : ℕ) : ∀ n, a + n ≤ N →
    (absorb P m r a n).loc = absorb Q (fun r => (m r).loc) r a n ∧ (absorb P m r a n).cur = κ r
  | 0, _ => ⟨rfl, hm r⟩
  | n + 1, hn => by
    obtain ⟨i1, i2⟩ := sim_absorb hsrc hput hpay hm r a n (by omega)
    have hlt : a + n < N := by omega
    unfold absorb
    rw [hsrc _ _ hlt]
    cases Q.src (a + n) r with
    | none => exact ⟨i1, i2⟩
    | some s =>
      obtain ⟨p1, p2⟩ := hput (a + n) r (absorb P m r a n) (P.pay (a + n) s (m s)) hlt
      refine ⟨?_, p2.trans i2⟩
      show (P.put (a + n) r (absorb P m r a n) (P.pay (a + n) s (m s))).loc = _
      rw [p1, i1, hpay _ _ _ hlt (hm s)]

theorem sim_sync {R : Type} {P : Prog R PLoc (List ℝ)} {Q : Prog R Loc (List ℝ)} {κ : R → ℕ} {N : ℕ} (hoff : P.off = Q.off)
    (hmono : ∀ g, Q.off g ≤ Q.off (g + 1))
    (hsrc : ∀ k r, k < N → P.src k r = Q.src k r)
    (hput : ∀ k r m v, k < N → (P.put k r m v).loc = Q.put k r m.loc v ∧ (P.put k r m v).cur = m.cur)
    (hpay : ∀ k r m, k < N → m.cur = κ r → P.pay k r m = Q.pay k r m.loc)
    (hfin : ∀ g r m, (P.fin g r m).loc = Q.fin g r m.loc ∧ (P.fin g r m).cur = m.cur)
    {m : R → PLoc} (hm : ∀ r, (m r).cur = κ r) : ∀ g, Q.off g ≤ N → ∀ r,
    (sync P m g r).loc = sync Q (fun r => (m r).loc) g r ∧ (sync P m g r).cur = κ r
  | 0, _, r => ⟨rfl, hm r⟩
  | g + 1, hg, r => by
    have hmg := hmono g
    have ih := sim_sync hoff hmono hsrc hput hpay hfin hm g (by omega)
    obtain ⟨a1, a2⟩ := sim_absorb hsrc hput hpay (m := sync P m g) (fun r => (ih r).2) r (Q.off g) (Q.off (g + 1) - Q.off g) (by omega)
    have e : (fun r => (sync P m g r).loc) = sync Q (fun r => (m r).loc) g := funext fun r => (ih r).1
    rw [e] at a1
    obtain ⟨f1, f2⟩ := hfin g r (absorb P (sync P m g) r (Q.off g) (Q.off (g + 1) - Q.off g))
    have es : sync P m (g + 1) r = P.fin g r (absorb P (sync P m g) r (Q.off g) (Q.off (g + 1) - Q.off g)) := by
      rw [← hoff]; rfl
    rw [es]
    exact ⟨by rw [f1, a1]; rfl, f2.trans a2⟩

theorem onArray_ok {R : Type} {P : Prog R Loc (List ℝ)} (h : P.Ok) : (onArray P).Ok where
  off0 := h.off0
  mono := h.mono
  pair := h.pair
  apart g k i r x m h1 h2 h3 h4 := by
    show P.pay k r (x.set (P.put i r x.loc m)).loc = P.pay k r x.loc
    rw [set_loc]
    exact h.apart g k i r x.loc m h1 h2 h3 h4

/-! ### The summation -/

/-- The requests that the initialisation creates for the storage `κ`. -/
noncomputable def fresh (D : Dom) (κ : Proc D → ℕ) : Table D := fun c k => sendInit D c (κ c) k

theorem sumPersistent_ok (D : Dom) (κ : Proc D → ℕ) : (sumPersistent D (fresh D κ)).Ok where
  off0 := rfl
  mono g := by show 2 * g ≤ 2 * (g + 1); omega
  pair k s d := by
    show (sendInit D s (κ s) k).bind (·.dst) = some d ↔
      (if k < 6 then (if k % 2 = 0 then down (axOf k) d else up (axOf k) d) else none) = some s
    unfold sendInit
    by_cases hk : k < 6
    · rw [if_pos hk, if_pos hk]
      exact (sumNonblocking_ok D).pair k s d
    · rw [if_neg hk, if_neg hk]
      simp
  apart g k i r x m _ _ _ _ := by
    show (match fresh D κ r k with
      | some q => pack ((if i % 2 = 0 then PLoc.mk x.heap x.cur m x.t2 else PLoc.mk x.heap x.cur x.t1 m).heap q.arr) q.elems
      | none => []) = match fresh D κ r k with
      | some q => pack (x.heap q.arr) q.elems
      | none => []
    split_ifs <;> rfl

theorem summationPersistent_ok {D : Dom} (h : D.Ok) (κ : Proc D → ℕ) : (summationPersistent D (fresh D κ)).Ok :=
  seq_ok (sumPersistent_ok D κ) (onArray_ok (exchNonblocking_ok h))

theorem sumPersistent_sync (D : Dom) (κ : Proc D → ℕ) {m : Proc D → PLoc} (hm : ∀ r, (m r).cur = κ r) (c : Proc D) :
    (sync (sumPersistent D (fresh D κ)) m 3 c).loc = sync (sumNonblocking D) (fun r => (m r).loc) 3 c ∧
    (sync (sumPersistent D (fresh D κ)) m 3 c).cur = κ c := by
  refine sim_sync (P := sumPersistent D (fresh D κ)) (Q := sumNonblocking D) (κ := κ) (N := 6) rfl (sumNonblocking_ok D).mono
    (fun k r hk => if_pos hk) (fun k r m v _ => ?_) (fun k r m hk e => ?_) (fun g r m => ⟨?_, rfl⟩) hm 3 le_rfl c
  · show (if k % 2 = 0 then PLoc.mk m.heap m.cur v m.t2 else PLoc.mk m.heap m.cur m.t1 v).loc =
      (if k % 2 = 0 then Loc.mk m.loc.f v m.loc.t2 else Loc.mk m.loc.f m.loc.t1 v) ∧ _
    constructor
    · split_ifs <;> rfl
    · show (if k % 2 = 0 then PLoc.mk m.heap m.cur v m.t2 else PLoc.mk m.heap m.cur m.t1 v).cur = _
      split_ifs <;> rfl
  · show (match sendInit D r (κ r) k with
      | some q => pack (m.heap q.arr) q.elems
      | none => []) = pack (m.heap m.cur) (slab D r.1 (axOf k) (smSend D k r.1))
    unfold sendInit
    rw [if_pos hk, e]
  · show Loc.mk (Function.update m.heap m.cur _ m.cur) [] [] = _
    rw [Function.update_self]
    rfl

theorem onArray_sync {D : Dom} (h : D.Ok) (κ : Proc D → ℕ) {m : Proc D → PLoc} (hm : ∀ r, (m r).cur = κ r) (c : Proc D) :
    (sync (onArray (exchNonblocking D)) m 6 c).loc = sync (exchNonblocking D) (fun r => (m r).loc) 6 c ∧
    (sync (onArray (exchNonblocking D)) m 6 c).cur = κ c :=
  sim_sync (P := onArray (exchNonblocking D)) (Q := exchNonblocking D) (κ := κ) (N := 6) rfl (exchNonblocking_ok h).mono
    (fun _ _ _ => rfl) (fun _ _ m _ _ => ⟨set_loc m _, rfl⟩) (fun _ _ _ _ _ => rfl) (fun _ _ m => ⟨set_loc m _, rfl⟩) hm 6 le_rfl c

/-- A call with requests for the storage in use. -/
theorem call_result {D : Dom} (h : D.Ok) (κ : Proc D → ℕ) {m : Proc D → PLoc} (hm : ∀ r, (m r).cur = κ r)
    (ht : ∀ r, (m r).t1 = [] ∧ (m r).t2 = []) {n : ℕ} {b : Conf (Proc D) PLoc (List ℝ)}
    (e : Exec (summationPersistent D (fresh D κ)) n (start m) b) (hst : Stuck (summationPersistent D (fresh D κ)) b) (c : Proc D) :
    (b.mem c).cur = κ c ∧ ∀ i, InArr D c.1 i → (b.mem c).heap (b.mem c).cur i = nodeSum (fun r => (m r).loc) c.1 i := by
  have o1 := sumPersistent_ok D κ
  have o2 := onArray_ok (exchNonblocking_ok h)
  obtain ⟨r1, -, -⟩ := exec_result (seq_ok o1 o2) e hst
  have e1 : sync ((sumPersistent D (fresh D κ)).seq (onArray (exchNonblocking D))) m
      ((sumPersistent D (fresh D κ)).seq (onArray (exchNonblocking D))).G =
    sync (onArray (exchNonblocking D)) (sync (sumPersistent D (fresh D κ)) m 3) 6 := sync_seq o1 o2 m 6
  rw [e1] at r1
  have k1 := fun c => sumPersistent_sync D κ hm c
  obtain ⟨l1, l2⟩ := onArray_sync h κ (fun r => (k1 r).2) c
  have ef : (fun r => (sync (sumPersistent D (fresh D κ)) m 3 r).loc) = sync (sumNonblocking D) (fun r => (m r).loc) 3 :=
    funext fun r => (k1 r).1
  rw [ef] at l1
  rw [r1 c]
  refine ⟨l2, fun i hi => ?_⟩
  have hf : (sync (onArray (exchNonblocking D)) (sync (sumPersistent D (fresh D κ)) m 3) 6 c).loc.f i =
    (sync (exchNonblocking D) (sync (sumNonblocking D) (fun r => (m r).loc) 3) 6 c).f i := by rw [l1]
  refine Eq.trans hf ?_
  obtain ⟨o, i', h1, h2, h3⟩ := owner_exists h c i hi
  have e2 := exch_all h (F := fun k c => (sync (exchNonblocking D) (sync (sumNonblocking D) (fun r => (m r).loc) 3) k c).f)
    (fun k _ c => exchNonblocking_step D _ k c) c i hi o i' h1 h2 h3
  have e3 := sumNonblocking_result h (fun r => (m r).loc) ht o i' h1 h2
  rw [nodeSum_same _ h3, ← e3]
  exact e2

/-! ### Another storage -/

theorem addUnpack_zero : ∀ (l : List I3) (v : List ℝ) (f : I3 → ℝ), (∀ a ∈ v, a = 0) → addUnpack l v f = f
  | [], _, f, _ => by unfold addUnpack; rfl
  | _ :: _, [], f, _ => by unfold addUnpack; rfl
  | i :: is, v :: vs, f, h => by
    have h0 := h v List.mem_cons_self
    unfold addUnpack
    rw [h0, add_zero, Function.update_eq_self]
    exact addUnpack_zero is vs f fun a ha => h a (List.mem_cons_of_mem _ ha)

/-- The requests refer to a storage of zeros, the array is elsewhere. -/
structure Moved {D : Dom} (κ : Proc D → ℕ) (μ : Proc D → ℕ) (F : Proc D → I3 → ℝ) (c : Proc D) (m : PLoc) : Prop where
  cur : m.cur = μ c
  old : m.heap (κ c) = fun _ => 0
  new : m.heap (μ c) = F c
  t1 : ∀ a ∈ m.t1, a = 0
  t2 : ∀ a ∈ m.t2, a = 0

theorem moved_pay {D : Dom} {κ μ : Proc D → ℕ} {F : Proc D → I3 → ℝ} {c : Proc D} {m : PLoc} (hm : Moved κ μ F c m) (k : ℕ) :
    ∀ a ∈ (sumPersistent D (fresh D κ)).pay k c m, a = 0 := by
  show ∀ a ∈ (match sendInit D c (κ c) k with
      | some q => pack (m.heap q.arr) q.elems
      | none => []), a = 0
  unfold sendInit
  by_cases hk : k < 6
  · rw [if_pos hk]
    show ∀ a ∈ pack (m.heap (κ c)) _, a = 0
    rw [hm.old]
    intro a ha
    obtain ⟨_, _, e⟩ := List.mem_map.mp ha
    exact e.symm
  · rw [if_neg hk]
    intro a ha
    cases ha

theorem moved_absorb {D : Dom} {κ μ : Proc D → ℕ} {F : Proc D → I3 → ℝ} {m : Proc D → PLoc} (hm : ∀ c, Moved κ μ F c (m c))
    (c : Proc D) (a : ℕ) : ∀ n, Moved κ μ F c (absorb (sumPersistent D (fresh D κ)) m c a n)
  | 0 => hm c
  | n + 1 => by
    have ih := moved_absorb hm c a n
    unfold absorb
    cases (sumPersistent D (fresh D κ)).src (a + n) c with
    | none => exact ih
    | some s =>
      have hz := moved_pay (hm s) (a + n)
      show Moved κ μ F c (if (a + n) % 2 = 0 then _ else _)
      split_ifs
      · exact ⟨ih.cur, ih.old, ih.new, hz, ih.t2⟩
      · exact ⟨ih.cur, ih.old, ih.new, ih.t1, hz⟩

theorem moved_sync {D : Dom} {κ μ : Proc D → ℕ} (hne : ∀ c, κ c ≠ μ c) {F : Proc D → I3 → ℝ} {m : Proc D → PLoc}
    (hm : ∀ c, Moved κ μ F c (m c)) : ∀ g c, Moved κ μ F c (sync (sumPersistent D (fresh D κ)) m g c)
  | 0, c => hm c
  | g + 1, c => by
    have ha := moved_absorb (moved_sync hne hm g) c (2 * g) (2 * (g + 1) - 2 * g)
    obtain ⟨a1, a2, a3, a4, a5⟩ := ha
    generalize hx : absorb (sumPersistent D (fresh D κ)) (sync (sumPersistent D (fresh D κ)) m g) c (2 * g) (2 * (g + 1) - 2 * g) = x
    have e : sync (sumPersistent D (fresh D κ)) m (g + 1) c = (sumPersistent D (fresh D κ)).fin g c x := by rw [← hx]; rfl
    rw [hx] at a1 a2 a3 a4 a5
    have ef : (sumPersistent D (fresh D κ)).fin g c x = ⟨x.heap, x.cur, [], []⟩ := by
      show PLoc.mk (Function.update x.heap x.cur _) x.cur [] [] = _
      rw [addUnpack_zero _ _ _ a4, addUnpack_zero _ _ _ a5, Function.update_eq_self]
    rw [e, ef]
    refine ⟨a1, a2, a3, ?_, ?_⟩ <;> (intro a h; cases h)

theorem moved_result {D : Dom} (h : D.Ok) {κ μ : Proc D → ℕ} (hne : ∀ c, κ c ≠ μ c) {F : Proc D → I3 → ℝ} {m : Proc D → PLoc}
    (hm : ∀ c, Moved κ μ F c (m c)) {n : ℕ} {b : Conf (Proc D) PLoc (List ℝ)}
    (e : Exec (summationPersistent D (fresh D κ)) n (start m) b) (hst : Stuck (summationPersistent D (fresh D κ)) b) (c o : Proc D)
    (i i' : I3) (hi : InArr D c.1 i) (h1 : InArr D o.1 i') (h2 : Owns D o.1 i') (h3 : SameNode D c.1 i o.1 i') :
    (b.mem c).heap (b.mem c).cur i = F o i' := by
  have o1 := sumPersistent_ok D κ
  have o2 := onArray_ok (exchNonblocking_ok h)
  obtain ⟨r1, -, -⟩ := exec_result (seq_ok o1 o2) e hst
  have e1 : sync ((sumPersistent D (fresh D κ)).seq (onArray (exchNonblocking D))) m
      ((sumPersistent D (fresh D κ)).seq (onArray (exchNonblocking D))).G =
    sync (onArray (exchNonblocking D)) (sync (sumPersistent D (fresh D κ)) m 3) 6 := sync_seq o1 o2 m 6
  rw [e1] at r1
  have k1 := moved_sync hne hm 3
  obtain ⟨l1, l2⟩ := onArray_sync h μ (fun r => (k1 r).cur) c
  rw [r1 c]
  have hf : (sync (onArray (exchNonblocking D)) (sync (sumPersistent D (fresh D κ)) m 3) 6 c).loc.f i =
    (sync (exchNonblocking D) (fun r => (sync (sumPersistent D (fresh D κ)) m 3 r).loc) 6 c).f i := by rw [l1]
  refine Eq.trans hf ?_
  have e2 := exch_all h (F := fun k c => (sync (exchNonblocking D) (fun r => (sync (sumPersistent D (fresh D κ)) m 3 r).loc) k c).f)
    (fun k _ c => exchNonblocking_step D _ k c) c i hi o i' h1 h2 h3
  refine Eq.trans e2 ?_
  show (sync (sumPersistent D (fresh D κ)) m 3 o).heap (sync (sumPersistent D (fresh D κ)) m 3 o).cur i' = F o i'
  rw [(k1 o).cur, (k1 o).new]

/-! ### Histories -/

theorem prepare_zero {D : Dom} {w : JComp} {sz : Proc D → ℤ} {s : PState D} (hz : w = .jx → ∀ c, 0 ≤ sz c) :
    prepare D w 0 sz s = .ok (fresh D (fun c => (s.mem c).cur), fun c => s.made c + perInit w) := by
  unfold prepare
  rw [if_pos rfl, if_neg]
  · rfl
  · rintro ⟨a, c, hc⟩
    have := hz a c
    omega

theorem prepare_zero' {D : Dom} {w : JComp} {sz : Proc D → ℤ} {s : PState D} {x} (e : prepare D w 0 sz s = .ok x) :
    x = (fresh D (fun c => (s.mem c).cur), fun c => s.made c + perInit w) := by
  unfold prepare at e
  rw [if_pos rfl] at e
  split_ifs at e
  exact (Except.ok.inj e).symm

theorem prepare_later {D : Dom} {w : JComp} {it : ℤ} {sz : Proc D → ℤ} {s : PState D} {κ : Proc D → ℕ} (hi : it ≠ 0)
    (hr : s.rq = fresh D κ) : prepare D w it sz s = .ok (fresh D κ, s.made) := by
  unfold prepare
  rw [if_neg hi, if_pos, hr]
  intro c k hk
  rw [hr]
  show (sendInit D c (κ c) k).isSome
  unfold sendInit
  rw [if_pos hk]
  rfl

/-- Before a call the requests are those of the storage in use. -/
theorem steps_inv {D : Dom} (h : D.Ok) {w : JComp} {s0 : PState D} {i : ℕ} {s : PState D} (st : Steps D w s0 i s) :
    (i ≠ 0 → s.rq = fresh D (fun c => (s.mem c).cur)) ∧ ∀ c, s.made c = s0.made c + if i = 0 then 0 else perInit w := by
  induction st with
  | first => exact ⟨fun h => absurd rfl h, fun c => rfl⟩
  | @next i s s' s'' sz _ hc hs ih =>
    obtain ⟨i1, i2⟩ := ih
    cases hc with
    | run rq made n b hp e hst =>
      have key : rq = fresh D (fun c => (s.mem c).cur) ∧ ∀ c, made c = s0.made c + perInit w := by
        by_cases hi : i = 0
        · subst hi
          have := prepare_zero' hp
          refine ⟨congrArg Prod.fst this, fun c => ?_⟩
          have e2 := congrFun (congrArg Prod.snd this) c
          have e3 := i2 c
          rw [if_pos rfl] at e3
          show made c = _
          rw [show made c = s.made c + perInit w from e2, e3, Nat.add_zero]
        · have hz : (i : ℤ) ≠ 0 := by exact_mod_cast hi
          have := Except.ok.inj (hp.symm.trans (prepare_later hz (i1 hi)))
          refine ⟨congrArg Prod.fst this, fun c => ?_⟩
          have e2 := congrFun (congrArg Prod.snd this) c
          have e3 := i2 c
          rw [if_neg hi] at e3
          rw [show made c = s.made c from e2, e3]
      obtain ⟨k1, k2⟩ := key
      subst k1
      have hcur : ∀ c, (s''.mem c).cur = (s.mem c).cur := fun c => by
        rw [hs.cur c]
        exact (call_result h _ (m := fun c => ⟨(s.mem c).heap, (s.mem c).cur, [], []⟩) (fun _ => rfl) (fun _ => ⟨rfl, rfl⟩) e hst c).1
      refine ⟨fun _ => ?_, fun c => ?_⟩
      · rw [hs.rq]
        exact congrArg (fresh D) (funext fun c => (hcur c).symm)
      · rw [hs.made, if_neg (Nat.succ_ne_zero i)]
        exact k2 c

theorem loop_made {D : Dom} {w : JComp} {s0 : PState D} {i : ℕ} {s : PState D} (st : Loop D w 0 s0 i s) (c : Proc D) :
    s.made c = s0.made c + i * perInit w := by
  induction st with
  | first => simp
  | @next i s s' s'' sz _ hc hs ih =>
    cases hc with
    | run rq made n b hp e hst =>
      have := prepare_zero' hp
      have e2 := congrFun (congrArg Prod.snd this) c
      rw [hs.made]
      rw [show (PState.mk rq b.mem made).made c = s.made c + perInit w from e2, ih]
      ring

/-- A call that prepares well has an execution to its end. -/
theorem call_exists {D : Dom} (h : D.Ok) {w : JComp} {it : ℤ} {sz : Proc D → ℤ} {s : PState D} {κ : Proc D → ℕ} {made : Proc D → ℕ}
    (hp : prepare D w it sz s = .ok (fresh D κ, made)) : ∃ s', Call D w it sz s (.ok s') := by
  have := Fintype.ofFinite (Proc D)
  obtain ⟨n, b, e, hst⟩ := exec_exists (summationPersistent_ok h κ) (fun c => ⟨(s.mem c).heap, (s.mem c).cur, [], []⟩)
  exact ⟨_, Call.run _ _ n b hp e hst⟩

end Picsar.Persist
