import Verif.Spec.Remap
import Verif.Lemmas.FieldExchange
import Mathlib.Tactic.SplitIfs
namespace Picsar.Remap
open Picsar Picsar.Grid Picsar.Mpi Picsar.Exchange

theorem inter1_iff {a1 b1 a2 b2 : ℤ} (h1 : a1 ≤ b1) (h2 : a2 ≤ b2) : (inter1 a1 b1 a2 b2).1 = true ↔ a2 ≤ b1 ∧ a1 ≤ b2 := by
  unfold inter1
  split_ifs <;> simp <;> omega

theorem inter1_symm {a1 b1 a2 b2 : ℤ} (h1 : a1 ≤ b1) (h2 : a2 ≤ b2) : inter1 a1 b1 a2 b2 = inter1 a2 b2 a1 b1 := by
  unfold inter1
  split_ifs <;> simp <;> omega

theorem inter1_mem {a1 b1 a2 b2 : ℤ} (h : (inter1 a1 b1 a2 b2).1 = true) (x : ℤ) :
    (inter1 a1 b1 a2 b2).2.1 ≤ x ∧ x ≤ (inter1 a1 b1 a2 b2).2.2 ↔ (a1 ≤ x ∧ x ≤ b1) ∧ (a2 ≤ x ∧ x ≤ b2) := by
  unfold inter1 at *
  split_ifs at * <;> simp at * <;> omega

/-- No empty subdomain. -/
def Lim.Ok (L : Lim) : Prop := L.lo.j ≤ L.hi.j ∧ L.lo.k ≤ L.hi.k ∧ L.lo.l ≤ L.hi.l

theorem inter3_symm {A B : Lim} (hA : A.Ok) (hB : B.Ok) : inter3 A B = inter3 B A := by
  unfold inter3
  rw [inter1_symm hA.1 hB.1, inter1_symm hA.2.1 hB.2.1, inter1_symm hA.2.2 hB.2.2]

theorem inter3_mem {A B : Lim} (h : (inter3 A B).1 = true) (p : I3) : (inter3 A B).2.Has p ↔ A.Has p ∧ B.Has p := by
  unfold inter3 at *
  simp only [Bool.and_eq_true] at h
  have x := inter1_mem h.1.1 p.j
  have y := inter1_mem h.1.2 p.k
  have z := inter1_mem h.2 p.l
  unfold Lim.Has InBox
  dsimp only
  constructor
  · rintro ⟨a, b, c, d, e, f⟩
    have := x.mp ⟨a, b⟩
    have := y.mp ⟨c, d⟩
    have := z.mp ⟨e, f⟩
    omega
  · rintro ⟨⟨a, b, c, d, e, f⟩, a', b', c', d', e', f'⟩
    have := x.mpr ⟨⟨a, b⟩, a', b'⟩
    have := y.mpr ⟨⟨c, d⟩, c', d'⟩
    have := z.mpr ⟨⟨e, f⟩, e', f'⟩
    omega

theorem inter3_flag {A B : Lim} (hA : A.Ok) (hB : B.Ok) {p : I3} (h1 : A.Has p) (h2 : B.Has p) : (inter3 A B).1 = true := by
  unfold inter3
  simp only [Bool.and_eq_true]
  obtain ⟨a, b, c, d, e, f⟩ := h1
  obtain ⟨a', b', c', d', e', f'⟩ := h2
  refine ⟨⟨(inter1_iff hA.1 hB.1).mpr ?_, (inter1_iff hA.2.1 hB.2.1).mpr ?_⟩, (inter1_iff hA.2.2 hB.2.2).mpr ?_⟩ <;> omega

/-- Sum of indices. -/
def add3 (i t : I3) : I3 := ⟨i.j + t.j, i.k + t.k, i.l + t.l⟩

theorem add_sub3 (i t : I3) : add3 (sub3 i t) t = i := by
  unfold add3 sub3; simp

theorem sub_add3 (i t : I3) : sub3 (add3 i t) t = i := by
  unfold add3 sub3; simp

theorem sub_eq (C : Lim) (t : I3) : sub C t = (box C.lo C.hi).map (sub3 · t) := by
  unfold sub box sub3
  have h : ∀ lo hi u : ℤ, irange (lo - u) (hi - u) = (irange lo hi).map (· + -u) := fun lo hi u => irange_shift lo hi (-u)
  simp only [h, List.map_flatMap, List.flatMap_map, List.map_map]
  rfl

theorem mem_sub {C : Lim} {t i : I3} : i ∈ (box C.lo C.hi).map (sub3 · t) ↔ C.Has (add3 i t) := by
  rw [List.mem_map]
  constructor
  · rintro ⟨p, hp, rfl⟩
    rw [add_sub3]
    exact mem_box.mp hp
  · intro h
    exact ⟨_, mem_box.mpr h, sub_add3 i t⟩

variable {n nf : ℕ} {L1 L2 : Fin n → Lim}

theorem remap_ok (h1 : ∀ r, (L1 r).Ok) (h2 : ∀ r, (L2 r).Ok) : (remap n nf L1 L2).Ok := by
  refine ⟨by simp [remap], fun g => ?_, fun k s d => ?_, fun g k i r x m _ _ _ _ => ?_⟩
  · show g * (n * n) ≤ (g + 1) * (n * n)
    exact Nat.mul_le_mul_right _ (Nat.le_succ g)
  · show (if h : rcv n k < n then _ else _) = _ ↔ (if h : snd n k < n then _ else _) = _
    have hn : 0 < n := s.pos
    have hr : rcv n k < n := Nat.mod_lt _ hn
    have hs : snd n k < n := by
      unfold snd
      exact Nat.div_lt_of_lt_mul (Nat.mod_lt _ (Nat.mul_pos hn hn))
    rw [dif_pos hr, dif_pos hs]
    constructor
    · intro e
      split_ifs at e with hc
      injection e with e
      subst e
      rw [if_pos]
      · congr 1; exact Fin.ext hc.1.symm
      · refine ⟨rfl, ?_⟩
        have : s = ⟨snd n k, hs⟩ := Fin.ext hc.1
        rw [inter3_symm (h2 _) (h1 _), ← this]
        exact hc.2
    · intro e
      split_ifs at e with hc
      injection e with e
      subst e
      rw [if_pos]
      · congr 1; exact Fin.ext hc.1.symm
      · refine ⟨rfl, ?_⟩
        have : d = ⟨rcv n k, hr⟩ := Fin.ext hc.1
        rw [inter3_symm (h1 _) (h2 _), ← this]
        exact hc.2
  · have hold : ((remap n nf L1 L2).put i r x m).old = x.old := by
      show (if h : snd n i < n then _ else _ : Mem).old = _
      split_ifs <;> rfl
    show (if h : rcv n k < n then pack (((remap n nf L1 L2).put i r x m).old (cmp n k)) _ else _) = _
    rw [hold]
    rfl

theorem idx (hn : 0 < n) {g c : ℕ} (hc : c < n * n) : snd n (g * (n * n) + c) = c / n ∧ rcv n (g * (n * n) + c) = c % n ∧
    cmp n (g * (n * n) + c) = g := by
  have hnn : 0 < n * n := Nat.mul_pos hn hn
  unfold snd rcv cmp
  rw [Nat.mul_comm g, Nat.mul_add_mod, Nat.mod_eq_of_lt hc, Nat.mul_add_div hnn, Nat.div_eq_of_lt hc, Nat.add_zero]
  exact ⟨rfl, rfl, rfl⟩

/-- The receives of one component on process `r`. -/
theorem absorb_inv (h1 : ∀ r, (L1 r).Ok) (h2 : ∀ r, (L2 r).Ok) (m : Fin n → Mem) (r : Fin n) (g : ℕ) :
    ∀ c, c ≤ n * n →
      (absorb (remap n nf L1 L2) m r (g * (n * n)) c).old = (m r).old ∧
      (∀ f, f ≠ g → (absorb (remap n nf L1 L2) m r (g * (n * n)) c).new f = (m r).new f) ∧
      (∀ i, ¬ (L2 r).Has (add3 i (L2 r).lo) →
        (absorb (remap n nf L1 L2) m r (g * (n * n)) c).new g i = (m r).new g i) ∧
      ∀ p, (L2 r).Has p → (∃ s : Fin n, s.val * n + r.val < c ∧ (L1 s).Has p) →
        ∃ s : Fin n, (L1 s).Has p ∧
          (absorb (remap n nf L1 L2) m r (g * (n * n)) c).new g ((L2 r).loc p) = (m s).old g ((L1 s).loc p) := by
  classical
  have hn : 0 < n := r.pos
  intro c
  induction c with
  | zero => exact fun _ => ⟨rfl, fun _ _ => rfl, fun _ _ => rfl, fun p _ ⟨s, hs, _⟩ => by omega⟩
  | succ c ih =>
    intro hc
    obtain ⟨i1, i2, i3, i4⟩ := ih (by omega)
    obtain ⟨e1, e2, e3⟩ := idx hn (g := g) (show c < n * n by omega)
    have hsl : c / n < n := Nat.div_lt_of_lt_mul (by omega)
    have hrl : c % n < n := Nat.mod_lt _ hn
    have hcdiv := Nat.div_add_mod c n
    have hsrc : (remap n nf L1 L2).src (g * (n * n) + c) r =
        if r.val = c % n ∧ (inter3 (L2 r) (L1 ⟨c / n, hsl⟩)).1 = true then some ⟨c / n, hsl⟩ else none := by
      show (if h : snd n _ < n then _ else _) = _
      rw [dif_pos (by rw [e1]; exact hsl)]
      simp only [e1, e2]
    by_cases hcond : r.val = c % n ∧ (inter3 (L2 r) (L1 ⟨c / n, hsl⟩)).1 = true
    · rw [if_pos hcond] at hsrc
      have habs : absorb (remap n nf L1 L2) m r (g * (n * n)) (c + 1) =
          (remap n nf L1 L2).put (g * (n * n) + c) r (absorb (remap n nf L1 L2) m r (g * (n * n)) c)
            ((remap n nf L1 L2).pay (g * (n * n) + c) ⟨c / n, hsl⟩ (m ⟨c / n, hsl⟩)) := by
        rw [absorb.eq_2, hsrc]
      have hrr : (⟨c % n, hrl⟩ : Fin n) = r := Fin.ext hcond.1.symm
      have hpay : (remap n nf L1 L2).pay (g * (n * n) + c) ⟨c / n, hsl⟩ (m ⟨c / n, hsl⟩) =
          (box (inter3 (L2 r) (L1 ⟨c / n, hsl⟩)).2.lo (inter3 (L2 r) (L1 ⟨c / n, hsl⟩)).2.hi).map
            (fun p => (m ⟨c / n, hsl⟩).old g (sub3 p (L1 ⟨c / n, hsl⟩).lo)) := by
        show (if h : rcv n _ < n then _ else _) = _
        rw [dif_pos (by rw [e2]; exact hrl)]
        simp only [e2, e3, hrr]
        rw [inter3_symm (h1 _) (h2 _), sub_eq]
        unfold pack
        rw [List.map_map]
        rfl
      have hput : ∀ (x : Mem) v, (remap n nf L1 L2).put (g * (n * n) + c) r x v =
          ⟨x.old, Function.update x.new g
            (unpack ((box (inter3 (L2 r) (L1 ⟨c / n, hsl⟩)).2.lo (inter3 (L2 r) (L1 ⟨c / n, hsl⟩)).2.hi).map
              (sub3 · (L2 r).lo)) v (x.new g))⟩ := by
        intro x v
        show (if h : snd n _ < n then _ else _) = _
        rw [dif_pos (by rw [e1]; exact hsl)]
        simp only [e1, e3, sub_eq]
      rw [hpay, hput] at habs
      have hnew : ∀ i, (absorb (remap n nf L1 L2) m r (g * (n * n)) (c + 1)).new g i =
          if (inter3 (L2 r) (L1 ⟨c / n, hsl⟩)).2.Has (add3 i (L2 r).lo) then
            (m ⟨c / n, hsl⟩).old g (sub3 (add3 i (L2 r).lo) (L1 ⟨c / n, hsl⟩).lo)
          else (absorb (remap n nf L1 L2) m r (g * (n * n)) c).new g i := by
        intro i
        rw [habs]
        simp only [Function.update_self]
        rw [unpack_map (τ := (sub3 · (L2 r).lo)) (τ' := (add3 · (L2 r).lo)) (fun j => add_sub3 j _) _ _ _ _ (Exchange.nodup_box _ _)]
        by_cases hm : (inter3 (L2 r) (L1 ⟨c / n, hsl⟩)).2.Has (add3 i (L2 r).lo)
        · rw [if_pos (mem_sub.mpr hm), if_pos hm]
        · rw [if_neg (fun h => hm (mem_sub.mp h)), if_neg hm]
      refine ⟨by rw [habs]; exact i1, fun f hf => ?_, fun i hi => ?_, fun p hp hs => ?_⟩
      · rw [habs]
        simp only [Function.update_of_ne hf]
        exact i2 f hf
      · rw [hnew, if_neg]
        · exact i3 i hi
        · rw [inter3_mem hcond.2]
          exact fun h => hi h.1
      · rw [hnew, show add3 ((L2 r).loc p) (L2 r).lo = p from add_sub3 _ _]
        by_cases hm : (inter3 (L2 r) (L1 ⟨c / n, hsl⟩)).2.Has p
        · rw [if_pos hm]
          exact ⟨⟨c / n, hsl⟩, ((inter3_mem hcond.2 p).mp hm).2, rfl⟩
        · rw [if_neg hm]
          obtain ⟨s, hsc, hsp⟩ := hs
          refine i4 p hp ⟨s, ?_, hsp⟩
          by_contra hge
          have hsc' : s.val * n + r.val = c := by omega
          have : s = ⟨c / n, hsl⟩ := by
            refine Fin.ext ?_
            show s.val = c / n
            rw [← hsc', Nat.mul_comm, Nat.mul_add_div hn, Nat.div_eq_of_lt r.isLt, Nat.add_zero]
          exact hm ((inter3_mem hcond.2 p).mpr ⟨hp, this ▸ hsp⟩)
    · rw [if_neg hcond] at hsrc
      have habs : absorb (remap n nf L1 L2) m r (g * (n * n)) (c + 1) = absorb (remap n nf L1 L2) m r (g * (n * n)) c := by
        rw [absorb.eq_2, hsrc]
      rw [habs]
      refine ⟨i1, i2, i3, fun p hp ⟨s, hsc, hsp⟩ => i4 p hp ⟨s, ?_, hsp⟩⟩
      by_contra hge
      have hsc' : s.val * n + r.val = c := by omega
      have hsv : s.val = c / n := by
        rw [← hsc', Nat.mul_comm, Nat.mul_add_div hn, Nat.div_eq_of_lt r.isLt, Nat.add_zero]
      have hrv : r.val = c % n := by
        rw [← hsc', Nat.mul_comm, Nat.mul_add_mod, Nat.mod_eq_of_lt r.isLt]
      have : s = ⟨c / n, hsl⟩ := Fin.ext hsv
      exact hcond ⟨hrv, inter3_flag (h2 _) (h1 _) hp (this ▸ hsp)⟩

/-- After `g` components. -/
theorem sync_inv (h1 : ∀ r, (L1 r).Ok) (h2 : ∀ r, (L2 r).Ok)
    (hcov : ∀ r p, (L2 r).Has p → ∃ s, (L1 s).Has p) (m0 : Fin n → Mem) : ∀ g r,
      (sync (remap n nf L1 L2) m0 g r).old = (m0 r).old ∧
      (∀ f i, ¬ (f < g ∧ (L2 r).Has (add3 i (L2 r).lo)) → (sync (remap n nf L1 L2) m0 g r).new f i = (m0 r).new f i) ∧
      ∀ f, f < g → ∀ p, (L2 r).Has p → ∃ s, (L1 s).Has p ∧
        (sync (remap n nf L1 L2) m0 g r).new f ((L2 r).loc p) = (m0 s).old f ((L1 s).loc p)
  | 0, r => ⟨rfl, fun _ _ _ => rfl, fun f hf => by omega⟩
  | g + 1, r => by
    obtain ⟨a1, a2, a3, a4⟩ := absorb_inv (nf := nf) h1 h2 (sync (remap n nf L1 L2) m0 g) r g (n * n) le_rfl
    have e : sync (remap n nf L1 L2) m0 (g + 1) r =
        absorb (remap n nf L1 L2) (sync (remap n nf L1 L2) m0 g) r (g * (n * n)) (n * n) := by
      show absorb (remap n nf L1 L2) (sync (remap n nf L1 L2) m0 g) r (g * (n * n)) ((g + 1) * (n * n) - g * (n * n)) = _
      rw [Nat.succ_mul, Nat.add_sub_cancel_left]
    rw [e]
    obtain ⟨b1, b2, b3⟩ := sync_inv h1 h2 hcov m0 g r
    refine ⟨by rw [a1, b1], fun f i hfi => ?_, fun f hf p hp => ?_⟩
    · by_cases hfg : f = g
      · subst hfg
        have hi : ¬ (L2 r).Has (add3 i (L2 r).lo) := fun h => hfi ⟨by omega, h⟩
        rw [a3 i hi]
        exact b2 f i (fun h => hi h.2)
      · rw [a2 f hfg]
        exact b2 f i (fun h => hfi ⟨by omega, h.2⟩)
    · by_cases hfg : f = g
      · subst hfg
        obtain ⟨s, hs⟩ := hcov r p hp
        have hlt : s.val * n + r.val < n * n := by
          have := s.isLt
          have := r.isLt
          have : (s.val + 1) * n ≤ n * n := Nat.mul_le_mul_right _ (by omega)
          rw [Nat.succ_mul] at this
          omega
        obtain ⟨s', hs', e'⟩ := a4 p hp ⟨s, hlt, hs⟩
        refine ⟨s', hs', ?_⟩
        rw [e', (sync_inv h1 h2 hcov m0 f s').1]
      · obtain ⟨s, hs, e'⟩ := b3 f (by omega) p hp
        refine ⟨s, hs, ?_⟩
        rw [a2 f hfg, e']

end Picsar.Remap
