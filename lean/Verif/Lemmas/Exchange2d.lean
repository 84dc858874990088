import Verif.Spec.Exchange2d
import Verif.Lemmas.FieldExchange

namespace Picsar.Exchange
open Picsar Picsar.Grid Picsar.Mpi

/-! ### Leaving out groups -/

section
variable {R σ μ : Type} {Q : Prog R σ μ} {a d : ℕ}

theorem off_le {Q : Prog R σ μ} (h : Q.Ok) {g g' : ℕ} (hg : g ≤ g') : Q.off g ≤ Q.off g' := by
  induction g', hg using Nat.le_induction with
  | base => exact le_rfl
  | succ n _ ih => exact ih.trans (h.mono n)

theorem noY_off (ha : Q.off a = 2) (hd : Q.off (a + d) = 4) {g : ℕ} (hg : a ≤ g) : (noY Q a d).off g = Q.off (g + d) - 2 := by
  show (if g ≤ a then Q.off g else Q.off (g + d) - 2) = _
  by_cases e : g ≤ a
  · have : g = a := le_antisymm e hg
    subst this
    rw [if_pos e, ha, hd]
  · rw [if_neg e]

theorem noY_off_lt {g : ℕ} (hg : g ≤ a) : (noY Q a d).off g = Q.off g := if_pos hg

theorem noY_ok (h : Q.Ok) (ha : Q.off a = 2) (hd : Q.off (a + d) = 4) : (noY Q a d).Ok where
  off0 := (noY_off_lt (Nat.zero_le _)).trans h.off0
  mono g := by
    by_cases hg : g < a
    · rw [noY_off_lt hg.le, noY_off_lt hg]
      exact h.mono g
    · rw [noY_off ha hd (by omega), noY_off ha hd (by omega), show g + 1 + d = g + d + 1 by omega]
      have := h.mono (g + d)
      omega
  pair k s e := h.pair (comm2 k) s e
  apart g k i r x m h1 h2 h3 h4 := by
    by_cases hg : g < a
    · rw [noY_off_lt hg.le] at h1 h3
      rw [noY_off_lt (show g + 1 ≤ a from hg)] at h2 h4
      have hb := off_le h (show g + 1 ≤ a by omega)
      have e1 : comm2 k = k := if_pos (by omega)
      have e2 : comm2 i = i := if_pos (by omega)
      show Q.pay (comm2 k) r (Q.put (comm2 i) r x m) = Q.pay (comm2 k) r x
      rw [e1, e2]
      exact h.apart g k i r x m h1 h2 h3 h4
    · rw [noY_off ha hd (by omega)] at h1 h3 h2 h4
      rw [show g + 1 + d = g + d + 1 by omega] at h2 h4
      have hb := off_le h (show a + d ≤ g + d by omega)
      have e1 : comm2 k = k + 2 := if_neg (by omega)
      have e2 : comm2 i = i + 2 := if_neg (by omega)
      show Q.pay (comm2 k) r (Q.put (comm2 i) r x m) = Q.pay (comm2 k) r x
      rw [e1, e2]
      exact h.apart (g + d) (k + 2) (i + 2) r x m (by omega) (by omega) (by omega) (by omega)

theorem sync_noY [DecidableEq R] (h : Q.Ok) (ha : Q.off a = 2) (hd : Q.off (a + d) = 4) (m : R → σ) (hskip : sync Q m (a + d) = sync Q m a) :
    ∀ g, sync (noY Q a d) m g = sync Q m (if g ≤ a then g else g + d)
  | 0 => by rw [if_pos (Nat.zero_le _)]; rfl
  | g + 1 => by
    have ih := sync_noY h ha hd m hskip g
    funext r
    show Q.fin (if g < a then g else g + d) r (absorb (noY Q a d) (sync (noY Q a d) m g) r ((noY Q a d).off g)
      ((noY Q a d).off (g + 1) - (noY Q a d).off g)) = _
    rw [ih]
    by_cases hg : g < a
    · rw [if_pos hg, if_pos (show g + 1 ≤ a by omega), if_pos hg.le, noY_off_lt hg.le, noY_off_lt (show g + 1 ≤ a from hg)]
      show _ = Q.fin g r (absorb Q (sync Q m g) r (Q.off g) (Q.off (g + 1) - Q.off g))
      congr 1
      apply absorb_congr
      intro k hk
      have hb := off_le h (show g + 1 ≤ a by omega)
      have e1 : comm2 (Q.off g + k) = Q.off g + k := if_pos (by omega)
      show Q.src (comm2 (Q.off g + k)) r = _ ∧ Q.put (comm2 (Q.off g + k)) = _ ∧ Q.pay (comm2 (Q.off g + k)) = _
      rw [e1]
      exact ⟨rfl, rfl, rfl⟩
    · have hs : sync Q m (if g ≤ a then g else g + d) = sync Q m (g + d) := by
        by_cases e : g ≤ a
        · have : g = a := by omega
          subst this
          rw [if_pos e, hskip]
        · rw [if_neg e]
      rw [if_neg hg, if_neg (show ¬ g + 1 ≤ a by omega), hs, noY_off ha hd (by omega), noY_off ha hd (by omega),
        show g + 1 + d = g + d + 1 by omega]
      show _ = Q.fin (g + d) r (absorb Q (sync Q m (g + d)) r (Q.off (g + d)) (Q.off (g + d + 1) - Q.off (g + d)))
      have hb := off_le h (show a + d ≤ g + d by omega)
      have hm := h.mono (g + d)
      rw [show Q.off (g + d + 1) - 2 - (Q.off (g + d) - 2) = Q.off (g + d + 1) - Q.off (g + d) by omega]
      congr 1
      apply absorb_congr
      intro k hk
      have e1 : comm2 (Q.off (g + d) - 2 + k) = Q.off (g + d) + k := by
        unfold comm2
        rw [if_neg (by omega)]
        omega
      show Q.src (comm2 (Q.off (g + d) - 2 + k)) r = _ ∧ Q.put (comm2 (Q.off (g + d) - 2 + k)) = _ ∧
        Q.pay (comm2 (Q.off (g + d) - 2 + k)) = _
      rw [e1]
      exact ⟨rfl, rfl, rfl⟩

end

/-! ### The plane -/

theorem absorb_skip {R σ μ : Type} {P : Prog R σ μ} {m : R → σ} {r : R} {a n : ℕ} (e : P.src (a + n) r = none) :
    absorb P m r a (n + 1) = absorb P m r a n := by
  rw [absorb, e]

theorem planar_up {D : Dom} (hp : Planar D) (c : Proc D) : up .y c = none ∧ down .y c = none := by
  have h1 := (c.2 .y).1
  have h2 := (c.2 .y).2
  rw [hp.one] at h2
  have e : at_ c.1 .y = 0 := by omega
  constructor
  · show c.move .y (procMax D .y (at_ c.1 .y)) = none
    have : procMax D .y (at_ c.1 .y) = none := if_pos ⟨hp.apart, by rw [e, hp.one]; rfl⟩
    rw [this]
    rfl
  · show c.move .y (procMin D .y (at_ c.1 .y)) = none
    have : procMin D .y (at_ c.1 .y) = none := if_pos ⟨hp.apart, e⟩
    rw [this]
    rfl

theorem addUnpack_nil (l : List I3) (f : I3 → ℝ) : addUnpack l [] f = f := by cases l <;> rfl

theorem sum_skip {D : Dom} (hp : Planar D) (m : Proc D → Loc) : sync (sumNonblocking D) m 2 = sync (sumNonblocking D) m 1 := by
  funext c
  have s2 : (sumNonblocking D).src 2 c = none := (planar_up hp c).2
  have s3 : (sumNonblocking D).src 3 c = none := (planar_up hp c).1
  have ea : absorb (sumNonblocking D) (sync (sumNonblocking D) m 1) c 2 2 = sync (sumNonblocking D) m 1 c := by
    exact (absorb_skip (n := 1) s3).trans (absorb_skip (n := 0) s2)
  show (sumNonblocking D).fin 1 c (absorb (sumNonblocking D) (sync (sumNonblocking D) m 1) c 2 2) = _
  rw [ea]
  have t1 : (sync (sumNonblocking D) m 1 c).t1 = [] := rfl
  have t2 : (sync (sumNonblocking D) m 1 c).t2 = [] := rfl
  generalize sync (sumNonblocking D) m 1 c = x at t1 t2
  obtain ⟨f, a, b⟩ := x
  dsimp only at t1 t2
  subst t1 t2
  show Loc.mk (addUnpack _ [] (addUnpack _ [] f)) [] [] = _
  rw [addUnpack_nil, addUnpack_nil]

theorem exch_skip {D : Dom} (hp : Planar D) (m : Proc D → Loc) : sync (exchNonblocking D) m 4 = sync (exchNonblocking D) m 2 := by
  have s2 : ∀ c, (exchNonblocking D).src 2 c = none := fun c => (planar_up hp c).1
  have s3 : ∀ c, (exchNonblocking D).src 3 c = none := fun c => (planar_up hp c).2
  have e3 : sync (exchNonblocking D) m 3 = sync (exchNonblocking D) m 2 := funext fun c => absorb_one_none (s2 c)
  have e4 : sync (exchNonblocking D) m 4 = sync (exchNonblocking D) m 3 := funext fun c => absorb_one_none (s3 c)
  rw [e4, e3]

theorem sumNonblocking2_ok (D : Dom) : (sumNonblocking2 D).Ok := noY_ok (sumNonblocking_ok D) rfl rfl
theorem exchNonblocking2_ok {D : Dom} (h : D.Ok) : (exchNonblocking2 D).Ok := noY_ok (exchNonblocking_ok h) rfl rfl

theorem sum2_sync {D : Dom} (hp : Planar D) (m : Proc D → Loc) : sync (sumNonblocking2 D) m 2 = sync (sumNonblocking D) m 3 :=
  sync_noY (a := 1) (d := 1) (sumNonblocking_ok D) rfl rfl m (sum_skip hp m) 2

theorem exch2_sync {D : Dom} (h : D.Ok) (hp : Planar D) (m : Proc D → Loc) :
    sync (exchNonblocking2 D) m 4 = sync (exchNonblocking D) m 6 :=
  sync_noY (a := 2) (d := 2) (exchNonblocking_ok h) rfl rfl m (exch_skip hp m) 4

theorem planar_copies {D : Dom} (hp : Planar D) {c i : I3} (hc : at_ c .y = 0) (hi : InArr1 D .y (at_ c .y) (at_ i .y)) :
    copies D .y c.k i.k = {(c.k, i.k)} := by
  have hc' : c.k = 0 := hc
  have hi' : -D.g .y ≤ i.k ∧ i.k ≤ D.n .y c.k + D.g .y := hi
  ext ⟨p, q⟩
  unfold copies
  simp only [Finset.mem_map, Finset.mem_filter, Finset.mem_sigma, Finset.mem_Ico, Finset.mem_Icc,
    Prod.mk.injEq, Finset.mem_singleton, hp.one]
  constructor
  · rintro ⟨⟨p', q'⟩, ⟨⟨⟨a1, a2⟩, a3, a4⟩, a5⟩, rfl, rfl⟩
    have : p' = 0 := by dsimp only at a1 a2; omega
    subst this
    unfold SameNode1 at a5
    rw [hp.apart, if_neg (by decide), hc'] at a5
    dsimp only at a5 ⊢
    omega
  · rintro ⟨rfl, rfl⟩
    refine ⟨⟨c.k, i.k⟩, ⟨⟨⟨hc'.ge, by rw [show (⟨c.k, i.k⟩ : (_ : ℤ) × ℤ).1 = 0 from hc']; decide⟩, hi'.1, hi'.2⟩, ?_⟩, rfl⟩
    unfold SameNode1
    rw [hp.apart, if_neg (by decide)]

theorem nodeSum_planar {D : Dom} (hp : Planar D) (m : Proc D → Loc) (c : Proc D) {i : I3} (hi : InArr D c.1 i) :
    nodeSum m c.1 i = planeSum m c.1 i := by
  have h1 := (c.2 .y).1
  have h2 := (c.2 .y).2
  rw [hp.one] at h2
  unfold nodeSum planeSum
  rw [planar_copies hp (by omega) (hi .y)]
  simp only [Finset.sum_singleton]

/-! ### Blocking -/

theorem sumBlocking2_ok (D : Dom) : (sumBlocking2 D).Ok := noY_ok (sumBlocking_ok D) rfl rfl

theorem sumBlocking2_off (D : Dom) (g : ℕ) : (sumBlocking2 D).off g = g := by
  show (if g ≤ 2 then g else g + 2 - 2) = g
  split_ifs
  · rfl
  · omega

theorem sumBlocking2_step (D : Dom) (m0 : Proc D → Loc) (k : ℕ) (c : Proc D) (hnil : ∀ c, (m0 c).t1 = []) :
    (sync (sumBlocking2 D) m0 (k + 1) c).f =
    match if comm2 k % 2 = 0 then downPer (axOf (comm2 k)) c else upPer (axOf (comm2 k)) c with
    | some s => addUnpack (slab D c.1 (axOf (comm2 k)) (smRecv D (comm2 k) c.1))
        (pack (sync (sumBlocking2 D) m0 k s).f (slab D s.1 (axOf (comm2 k)) (smSend D (comm2 k) s.1))) (sync (sumBlocking2 D) m0 k c).f
    | none => (sync (sumBlocking2 D) m0 k c).f := by
  have ht : (sync (sumBlocking2 D) m0 k c).t1 = [] := by
    cases k with
    | zero => exact hnil c
    | succ k => rfl
  have hfin : ∀ m, (sumBlocking2 D).fin k c m = (sumBlocking D).fin (comm2 k) c m := fun m => rfl
  show ((sumBlocking2 D).fin k c (absorb (sumBlocking2 D) (sync (sumBlocking2 D) m0 k) c ((sumBlocking2 D).off k)
    ((sumBlocking2 D).off (k + 1) - (sumBlocking2 D).off k))).f = _
  rw [sumBlocking2_off, sumBlocking2_off, Nat.add_sub_cancel_left, hfin]
  rcases e : (if comm2 k % 2 = 0 then downPer (axOf (comm2 k)) c else upPer (axOf (comm2 k)) c) with _ | s
  · rw [absorb_one_none (show (sumBlocking2 D).src k c = none from e)]
    show addUnpack (slab D c.1 (axOf (comm2 k)) (smRecv D (comm2 k) c.1)) (sync (sumBlocking2 D) m0 k c).t1 (sync (sumBlocking2 D) m0 k c).f = _
    rw [ht, addUnpack_nil]
  · rw [absorb_one_some (show (sumBlocking2 D).src k c = some s from e)]
    rfl

/-- The two directions of a summation in the plane. -/
theorem sum_plane {D : Dom} {F F2 F4 : Proc D → I3 → ℝ}
    (X : ∀ (c : Proc D) (i : I3), InArr D c.1 i → Owns1 D .x (at_ c.1 .x) (at_ i .x) → F2 c i = axSum .x F c.1 i)
    (Z : ∀ (c : Proc D) (i : I3), InArr D c.1 i → Owns1 D .z (at_ c.1 .z) (at_ i .z) → F4 c i = axSum .z F2 c.1 i)
    (c : Proc D) (i : I3) (hi : InArr D c.1 i) (hx : Owns1 D .x (at_ c.1 .x) (at_ i .x)) (hz : Owns1 D .z (at_ c.1 .z) (at_ i .z)) :
    F4 c i = ∑ r ∈ copies D .z c.1.l i.l, ∑ p ∈ copies D .x c.1.j i.j, st F ⟨p.1, c.1.k, r.1⟩ ⟨p.2, i.k, r.2⟩ := by
  rw [Z c i hi hz]
  unfold axSum
  apply Finset.sum_congr rfl
  intro r hr
  obtain ⟨r1, r2⟩ : (0 ≤ r.1 ∧ r.1 < D.P .z) ∧ InArr1 D .z r.1 r.2 := by
    unfold copies at hr
    simp only [Finset.mem_map, Finset.mem_filter, Finset.mem_sigma, Finset.mem_Ico, Finset.mem_Icc, Sigma.exists] at hr
    obtain ⟨x, y, ⟨⟨a1, a2⟩, -⟩, rfl⟩ := hr
    exact ⟨a1, a2⟩
  have hp1 : ∀ a, 0 ≤ at_ (upd c.1 .z r.1) a ∧ at_ (upd c.1 .z r.1) a < D.P a := by
    intro b
    by_cases hb : b = .z
    · subst hb; simpa using r1
    · rw [at_upd_ne _ hb]; exact c.2 b
  have hi1 : InArr D (upd c.1 .z r.1) (upd i .z r.2) := inArr_upd hi r2
  rw [st_pos F2 hp1, X ⟨upd c.1 .z r.1, hp1⟩ (upd i .z r.2) hi1 hx]
  rfl

theorem sumBlocking2_per {D : Dom} (h : D.Ok) (hp : ∀ a, D.per a = true) (m0 : Proc D → Loc) (hnil : ∀ c, (m0 c).t1 = []) (c : Proc D)
    (i : I3) (hi : InArr D c.1 i) (hx : Owns1 D .x (at_ c.1 .x) (at_ i .x)) (hz : Owns1 D .z (at_ c.1 .z) (at_ i .z)) :
    (sync (sumBlocking2 D) m0 4 c).f i = planeSum m0 c.1 i := by
  have hs : ∀ k c, (sync (sumBlocking2 D) m0 (k + 1) c).f =
    match if comm2 k % 2 = 0 then down (axOf (comm2 k)) c else up (axOf (comm2 k)) c with
    | some s => addUnpack (slab D c.1 (axOf (comm2 k)) (smRecv D (comm2 k) c.1))
        (pack (sync (sumBlocking2 D) m0 k s).f (slab D s.1 (axOf (comm2 k)) (smSend D (comm2 k) s.1))) (sync (sumBlocking2 D) m0 k c).f
    | none => (sync (sumBlocking2 D) m0 k c).f := by
    intro k c
    rw [← upPer_up hp, ← downPer_down hp]
    exact sumBlocking2_step D m0 k c hnil
  exact sum_plane (F := fun c => (m0 c).f) (F2 := fun c => (sync (sumBlocking2 D) m0 2 c).f)
    (F4 := fun c => (sync (sumBlocking2 D) m0 4 c).f)
    (sum_axis_blocking (F1 := fun c => (sync (sumBlocking2 D) m0 1 c).f) h .x (hs 0) (hs 1))
    (sum_axis_blocking (F1 := fun c => (sync (sumBlocking2 D) m0 3 c).f) h .z (hs 2) (hs 3)) c i hi hx hz

/-- What the blocking version computes, in every case: the sum as if x and z were periodic. -/
theorem blocking2_result (D : Dom) (h : D.Ok) (m0 : Proc D → Loc) (h0 : ∀ c, (m0 c).t1 = []) (n : ℕ)
    (b : Conf (Proc D) Loc (List ℝ)) (e : Exec (summationBlocking2 D) n (start m0) b) (hst : Stuck (summationBlocking2 D) b) :
    (∀ s d, b.ch s d = []) ∧ ∀ (c : Proc D) (i : I3), InArr D c.1 i → ∀ (o : Proc D) (i' : I3), InArr D o.1 i' → Owns D o.1 i' →
      SameNode D c.1 i o.1 i' → Owns1 D.peri .x (at_ o.1 .x) (at_ i' .x) → Owns1 D.peri .z (at_ o.1 .z) (at_ i' .z) →
      (b.mem c).f i = planeSum (D := D.peri) m0 o.1 i' := by
  have o1 := sumBlocking2_ok D
  have o2 := exchBlocking_ok D
  obtain ⟨r1, r2, -⟩ := exec_result (seq_ok o1 o2) e hst
  refine ⟨r2, fun c i hi o i' h1 h2 h3 hx hz => ?_⟩
  have e1 : sync ((sumBlocking2 D).seq (exchBlocking D)) m0 ((sumBlocking2 D).seq (exchBlocking D)).G =
    sync (exchBlocking D) (sync (sumBlocking2 D) m0 4) 6 := sync_seq o1 o2 m0 6
  rw [r1 c, e1]
  have e2 := exch_all h (F := fun k c => (sync (exchBlocking D) (sync (sumBlocking2 D) m0 4) k c).f)
    (fun k _ c => exchBlocking_step D _ k c) c i hi o i' h1 h2 h3
  exact Eq.trans e2 (sumBlocking2_per (D := D.peri) (peri_ok h) (fun _ => rfl) m0 h0 o i' h1 hx hz)

theorem planeSum_same {D : Dom} (m : Proc D → Loc) {c i c' i' : I3} (h : SameNode D c i c' i') (hc : c.k = c'.k) (hi : i.k = i'.k) :
    planeSum m c i = planeSum m c' i' := by
  have hx : copies D .x c.j i.j = copies D .x c'.j i'.j := copies_same (h .x)
  have hz : copies D .z c.l i.l = copies D .z c'.l i'.l := copies_same (h .z)
  unfold planeSum
  rw [hx, hz, hc, hi]

end Picsar.Exchange
