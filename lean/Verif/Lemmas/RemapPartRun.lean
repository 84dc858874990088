import Verif.Lemmas.RemapPartRoute
import Verif.Lemmas.Mpi
import Mathlib.Tactic.Abel
import Mathlib.Algebra.BigOperators.Group.Finset.Piecewise
import Mathlib.Algebra.BigOperators.Group.Finset.Basic
import Mathlib.Algebra.Order.BigOperators.Group.Multiset
/-
Message passing, and the whole routine.
-/
namespace Picsar.RemapPart
open Picsar Picsar.Grid Picsar.Tiling Picsar.PartExchange Picsar.Remap Picsar.LoadBalance Picsar.Mpi

variable {n N : ℕ} {L1 L2 : Fin N → Lim}

theorem exchange_ok (h1 : ∀ r, (L1 r).Ok) (h2 : ∀ r, (L2 r).Ok) : (exchange N L1 L2).Ok := by
  refine ⟨by simp [exchange], fun g => ?_, fun k s d => ?_, fun g k i r x m _ _ _ _ => ?_⟩
  · show g * (N * N) ≤ (g + 1) * (N * N)
    exact Nat.mul_le_mul_right _ (Nat.le_succ g)
  · show (if h : rcv N k < N then _ else _) = _ ↔ (if h : snd N k < N then _ else _) = _
    have hn : 0 < N := s.pos
    have hr : rcv N k < N := Nat.mod_lt _ hn
    have hs : snd N k < N := by
      unfold snd
      exact Nat.div_lt_of_lt_mul (Nat.mod_lt _ (Nat.mul_pos hn hn))
    rw [dif_pos hr, dif_pos hs]
    constructor
    · intro e
      split_ifs at e with hc
      injection e with e
      subst e
      have : s = ⟨snd N k, hs⟩ := Fin.ext hc.1
      rw [if_pos]
      · congr 1; exact this.symm
      · refine ⟨rfl, ?_, ?_⟩
        · rw [← this]; exact fun he => hc.2.1 he.symm
        · rw [inter3_symm (h2 _) (h1 _), ← this]
          exact hc.2.2
    · intro e
      split_ifs at e with hc
      injection e with e
      subst e
      have : d = ⟨rcv N k, hr⟩ := Fin.ext hc.1
      rw [if_pos]
      · congr 1; exact this.symm
      · refine ⟨rfl, ?_, ?_⟩
        · rw [← this]; exact fun he => hc.2.1 he.symm
        · rw [inter3_symm (h1 _) (h2 _), ← this]
          exact hc.2.2
  · have hold : ((exchange N L1 L2).put i r x m).out = x.out := by
      show (if h : snd N i < N then _ else _ : Mem N).out = _
      split_ifs <;> rfl
    show (if h : rcv N k < N then (if Remap.cmp N k = 0 then ((((exchange N L1 L2).put i r x m).out _).1, []) else ([], (((exchange N L1 L2).put i r x m).out _).2)) else _ : Msg) = _
    rw [hold]
    rfl

/-- The receives of one group on process `r`. -/
theorem exch_absorb (m : Fin N → Mem N) (r : Fin N) (g : ℕ) (hg : g < 2) : ∀ c, c ≤ N * N →
    (absorb (exchange N L1 L2) m r (g * (N * N)) c).out = (m r).out ∧
    (∀ s, (absorb (exchange N L1 L2) m r (g * (N * N)) c).rc s = if g = 0 ∧ s.val * N + r.val < c ∧ s ∈ recvFrom L1 L2 r then ((m s).out r).1 else (m r).rc s) ∧
    (∀ s, (absorb (exchange N L1 L2) m r (g * (N * N)) c).rd s = if g = 1 ∧ s.val * N + r.val < c ∧ s ∈ recvFrom L1 L2 r then ((m s).out r).2 else (m r).rd s) := by
  classical
  have hn : 0 < N := r.pos
  have hmem : ∀ s, s ∈ recvFrom L1 L2 r ↔ s ≠ r ∧ (inter3 (L2 r) (L1 s)).1 = true := by
    intro s
    unfold recvFrom
    rw [List.mem_filter]
    simp [List.mem_finRange]
  intro c
  induction c with
  | zero => exact fun _ => ⟨rfl, fun s => by rw [if_neg (by omega)]; rfl, fun s => by rw [if_neg (by omega)]; rfl⟩
  | succ c ih =>
    intro hc
    obtain ⟨i1, i2, i3⟩ := ih (by omega)
    obtain ⟨e1, e2, e3⟩ := idx hn (g := g) (show c < N * N by omega)
    have hsl : c / N < N := Nat.div_lt_of_lt_mul (by omega)
    have hrl : c % N < N := Nat.mod_lt _ hn
    have hcdiv := Nat.div_add_mod c N
    have hlt : ∀ s : Fin N, s.val * N + r.val < c + 1 ↔ s.val * N + r.val < c ∨ (s = ⟨c / N, hsl⟩ ∧ r.val = c % N) := by
      intro s
      constructor
      · intro hx
        by_cases hx2 : s.val * N + r.val < c
        · exact Or.inl hx2
        · right
          have hsc' : s.val * N + r.val = c := by omega
          constructor
          · refine Fin.ext ?_
            show s.val = c / N
            rw [← hsc', Nat.mul_comm, Nat.mul_add_div hn, Nat.div_eq_of_lt r.isLt, Nat.add_zero]
          · rw [← hsc', Nat.mul_comm, Nat.mul_add_mod, Nat.mod_eq_of_lt r.isLt]
      · rintro (hx | ⟨rfl, hr⟩)
        · omega
        · show c / N * N + r.val < c + 1
          rw [hr, Nat.mul_comm]
          omega
    have hsrc : (exchange N L1 L2).src (g * (N * N) + c) r =
        if r.val = c % N ∧ (⟨c / N, hsl⟩ : Fin N) ≠ r ∧ (inter3 (L2 r) (L1 ⟨c / N, hsl⟩)).1 = true then some ⟨c / N, hsl⟩ else none := by
      show (if h : snd N _ < N then _ else _) = _
      rw [dif_pos (by rw [e1]; exact hsl)]
      simp only [e1, e2]
    by_cases hcond : r.val = c % N ∧ (⟨c / N, hsl⟩ : Fin N) ≠ r ∧ (inter3 (L2 r) (L1 ⟨c / N, hsl⟩)).1 = true
    · rw [if_pos hcond] at hsrc
      have habs : absorb (exchange N L1 L2) m r (g * (N * N)) (c + 1) =
          (exchange N L1 L2).put (g * (N * N) + c) r (absorb (exchange N L1 L2) m r (g * (N * N)) c)
            ((exchange N L1 L2).pay (g * (N * N) + c) ⟨c / N, hsl⟩ (m ⟨c / N, hsl⟩)) := by
        rw [absorb.eq_2, hsrc]
      have hrr : (⟨c % N, hrl⟩ : Fin N) = r := Fin.ext hcond.1.symm
      have hpay : (exchange N L1 L2).pay (g * (N * N) + c) ⟨c / N, hsl⟩ (m ⟨c / N, hsl⟩) =
          if g = 0 then (((m ⟨c / N, hsl⟩).out r).1, []) else ([], ((m ⟨c / N, hsl⟩).out r).2) := by
        show (if h : rcv N _ < N then _ else _ : Msg) = _
        rw [dif_pos (by rw [e2]; exact hrl)]
        simp only [e2, e3, hrr]
      have hput : ∀ (x : Mem N) v, (exchange N L1 L2).put (g * (N * N) + c) r x v =
          if g = 0 then ⟨x.out, Function.update x.rc ⟨c / N, hsl⟩ v.1, x.rd⟩ else ⟨x.out, x.rc, Function.update x.rd ⟨c / N, hsl⟩ v.2⟩ := by
        intro x v
        show (if h : snd N _ < N then _ else _ : Mem N) = _
        rw [dif_pos (by rw [e1]; exact hsl)]
        simp only [e1, e3]
      have hin : (⟨c / N, hsl⟩ : Fin N) ∈ recvFrom L1 L2 r := (hmem _).mpr hcond.2
      rw [habs, hput, hpay]
      by_cases hg0 : g = 0
      · simp only [if_pos hg0]
        refine ⟨i1, fun s => ?_, fun s => ?_⟩
        · by_cases hs : s = ⟨c / N, hsl⟩
          · rw [hs, Function.update_self, if_pos ⟨hg0, (hlt _).mpr (Or.inr ⟨rfl, hcond.1⟩), hin⟩]
          · rw [Function.update_of_ne hs, i2 s]
            simp only [hlt s, hs, false_and, or_false]
        · rw [i3 s, if_neg (by omega), if_neg (by omega)]
      · have hg1 : g = 1 := by omega
        simp only [if_neg hg0]
        refine ⟨i1, fun s => ?_, fun s => ?_⟩
        · rw [i2 s, if_neg (by omega), if_neg (by omega)]
        · by_cases hs : s = ⟨c / N, hsl⟩
          · rw [hs, Function.update_self, if_pos ⟨hg1, (hlt _).mpr (Or.inr ⟨rfl, hcond.1⟩), hin⟩]
          · rw [Function.update_of_ne hs, i3 s]
            simp only [hlt s, hs, false_and, or_false]
    · rw [if_neg hcond] at hsrc
      have habs : absorb (exchange N L1 L2) m r (g * (N * N)) (c + 1) = absorb (exchange N L1 L2) m r (g * (N * N)) c := by
        rw [absorb.eq_2, hsrc]
      have hnot : ∀ s, s.val * N + r.val < c + 1 ∧ s ∈ recvFrom L1 L2 r ↔ s.val * N + r.val < c ∧ s ∈ recvFrom L1 L2 r := by
        intro s
        rw [hlt s]
        constructor
        · rintro ⟨hx | ⟨rfl, hx⟩, hy⟩
          · exact ⟨hx, hy⟩
          · exact absurd ⟨hx, (hmem _).mp hy⟩ hcond
        · rintro ⟨hx, hy⟩
          exact ⟨Or.inl hx, hy⟩
      rw [habs]
      refine ⟨i1, fun s => ?_, fun s => ?_⟩
      · rw [i2 s]; simp only [hnot s]
      · rw [i3 s]; simp only [hnot s]

/-- After the exchange every process has the messages of the others. -/
theorem exch_sync (m0 : Fin N → Mem N) (r s : Fin N) (hs : s ∈ recvFrom L1 L2 r) :
    ((sync (exchange N L1 L2) m0 2 r).rc s, (sync (exchange N L1 L2) m0 2 r).rd s) = (m0 s).out r := by
  have e : ∀ g r, sync (exchange N L1 L2) m0 (g + 1) r = absorb (exchange N L1 L2) (sync (exchange N L1 L2) m0 g) r (g * (N * N)) (N * N) := by
    intro g r
    show absorb (exchange N L1 L2) (sync (exchange N L1 L2) m0 g) r (g * (N * N)) ((g + 1) * (N * N) - g * (N * N)) = _
    rw [Nat.succ_mul, Nat.add_sub_cancel_left]
  have hlt : s.val * N + r.val < N * N := by
    have := s.isLt
    have := r.isLt
    have : (s.val + 1) * N ≤ N * N := Nat.mul_le_mul_right _ (by omega)
    rw [Nat.succ_mul] at this
    omega
  have a : ∀ q, _ := fun q : Fin N => exch_absorb (L1 := L1) (L2 := L2) m0 q 0 (by omega) (N * N) le_rfl
  obtain ⟨-, b2, b3⟩ := exch_absorb (L1 := L1) (L2 := L2) (sync (exchange N L1 L2) m0 1) r 1 (by omega) (N * N) le_rfl
  have hout : (sync (exchange N L1 L2) m0 1 s).out = (m0 s).out := by rw [e 0 s]; exact (a s).1
  rw [e 1 r, b2 s, b3 s, if_neg (by omega), if_pos ⟨rfl, hlt, hs⟩, hout, e 0 r]
  have := (a r).2.1 s
  rw [if_pos ⟨rfl, hlt, hs⟩] at this
  show ((absorb (exchange N L1 L2) m0 r (0 * (N * N)) (N * N)).rc s, _) = _
  rw [this]

/-! ### Totals -/

section
variable {D : Domain} {at_ : Fin N → Place} {P : Fin N → Proc n} {K : ℕ} {nt : Fin N → I3} {idx : Fin N → Part n → I3}
  {Ss : Fin N → List (Species n)} {L : Fin N → ℕ → I3 → List (Part n)}

theorem mem_recv {r s : Fin N} : s ∈ recvFrom L1 L2 r ↔ s ≠ r ∧ (inter3 (L2 r) (L1 s)).1 = true := by
  unfold recvFrom
  rw [List.mem_filter]
  simp [List.mem_finRange]

theorem mem_send {r s : Fin N} : s ∈ sendTo L1 L2 r ↔ s ≠ r ∧ (inter3 (L1 r) (L2 s)).1 = true := by
  unfold sendTo
  rw [List.mem_filter]
  simp [List.mem_finRange]

theorem send_recv (h1 : ∀ r, (L1 r).Ok) (h2 : ∀ r, (L2 r).Ok) (r s : Fin N) : s ∈ sendTo L1 L2 r ↔ r ∈ recvFrom L1 L2 s := by
  rw [mem_send, mem_recv, inter3_symm (h1 r) (h2 s), ne_comm]

theorem stays_eq (h : Agree D at_ L1 L2 P) (hs : Start D L1 L2 K nt idx Ss L) (r : Fin N) {i : ℕ} (hi : i < K) :
    stays (P r) (nt r) (L r i) = inner (P r).border (nt r) (L r i) + outer D (L2 r) (P r).border (nt r) (L r i) := by
  classical
  unfold stays inner outer
  rw [← List.sum_map_add]
  congr 1
  apply List.map_congr_left
  intro u hu
  unfold post
  split_ifs
  · rw [zero_add]
    congr 1
    apply List.filter_congr
    intro p hp
    obtain ⟨o1, o2⟩ := hs.old r i u p hi (mem_box.mp hu) hp
    exact decide_eq_decide.mpr (dest_ok h o1 o2).1
  · rw [add_zero]

theorem handed_eq (h : Agree D at_ L1 L2 P) (hs : Start D L1 L2 K nt idx Ss L) (s r : Fin N) {i : ℕ} (hi : i < K) (hr : r ∈ sendTo L1 L2 s) :
    handed (P s) (nt s) (L s i) ((sendTo L1 L2 s).idxOf r + 1 : ℤ) = outer D (L2 r) (P s).border (nt s) (L s i) := by
  classical
  unfold handed outer
  congr 1
  apply List.map_congr_left
  intro u hu
  unfold outs
  split_ifs
  · congr 1
    apply List.filter_congr
    intro p hp
    obtain ⟨o1, o2⟩ := hs.old s i u p hi (mem_box.mp hu) hp
    exact decide_eq_decide.mpr ((dest_ok h o1 o2).2 r hr)
  · rfl

theorem mem_list_sum : ∀ {l : List (Multiset (Part n))} {p : Part n}, p ∈ l.sum → ∃ x ∈ l, p ∈ x
  | [], p, h => by simp at h
  | x :: l, p, h => by
    rw [List.sum_cons, Multiset.mem_add] at h
    rcases h with h | h
    · exact ⟨x, by simp, h⟩
    · obtain ⟨y, hy, hp⟩ := mem_list_sum h
      exact ⟨y, by simp [hy], hp⟩

theorem mem_sum_of_mem : ∀ {l : List (Multiset (Part n))} {x : Multiset (Part n)} {p : Part n}, x ∈ l → p ∈ x → p ∈ l.sum
  | y :: l, x, p, hx, hp => by
    rw [List.sum_cons, Multiset.mem_add]
    rcases List.mem_cons.mp hx with rfl | hx
    · exact Or.inl hp
    · exact Or.inr (mem_sum_of_mem hx hp)

theorem mem_outer {M : Lim} {b : I3 → Bool} {nt : I3} {L : I3 → List (Part n)} {p : Part n} (hp : p ∈ outer D M b nt L) :
    D.Owns M p ∧ ∃ u, InBox ⟨1, 1, 1⟩ nt u ∧ p ∈ L u := by
  classical
  unfold outer at hp
  obtain ⟨x, hx, hpx⟩ := mem_list_sum hp
  obtain ⟨u, hu, rfl⟩ := List.mem_map.mp hx
  split_ifs at hpx
  · rw [Multiset.mem_coe, List.mem_filter] at hpx
    exact ⟨by simpa using hpx.2, u, mem_box.mp hu, hpx.1⟩
  · simp at hpx

theorem outer_zero (h : Agree D at_ L1 L2 P) (hs : Start D L1 L2 K nt idx Ss L) (s r : Fin N) {i : ℕ} (hi : i < K) (hr : r ∉ sendTo L1 L2 s) (hne : r ≠ s) :
    outer D (L2 r) (P s).border (nt s) (L s i) = 0 := by
  rw [Multiset.eq_zero_iff_forall_notMem]
  intro p hp
  obtain ⟨o, u, hu, hpu⟩ := mem_outer hp
  exact hr (mem_send.mpr ⟨hne, meets h (hs.old s i u p hi hu hpu).1 o⟩)

theorem recv_sum (h : Agree D at_ L1 L2 P) (hs : Start D L1 L2 K nt idx Ss L) (r : Fin N) {i : ℕ} (hi : i < K) :
    outer D (L2 r) (P r).border (nt r) (L r i) + ((recvFrom L1 L2 r).map fun s => outer D (L2 r) (P s).border (nt s) (L s i)).sum =
      ∑ s, outer D (L2 r) (P s).border (nt s) (L s i) := by
  rw [← List.sum_toFinset _ (show (recvFrom L1 L2 r).Nodup from (List.nodup_finRange N).filter _), ← Finset.add_sum_erase _ _ (Finset.mem_univ r)]
  congr 1
  refine Finset.sum_subset (fun s hs' => ?_) (fun s hs1 hs2 => ?_)
  · rw [List.mem_toFinset] at hs'
    exact Finset.mem_erase.mpr ⟨(mem_recv.mp hs').1, Finset.mem_univ _⟩
  · rw [List.mem_toFinset] at hs2
    refine outer_zero h hs s r hi (fun hc => hs2 ((send_recv h.old (lim_ok h) s r).mp hc)) ?_
    exact (Finset.mem_erase.mp hs1).1.symm

open Classical in
/-- Every particle is inside the limits of one process. -/
theorem split_list (h : Agree D at_ L1 L2 P) (r : Fin N) : ∀ l : List (Part n), (∀ p ∈ l, D.Has p) →
    ∑ d, ((l.filter fun p => decide (D.Owns (L2 d) p) : List (Part n)) : Multiset (Part n)) = (l : Multiset (Part n))
  | [], _ => by simp
  | p :: l, hl => by
    have ih := split_list h r l fun q hq => hl q (by simp [hq])
    obtain ⟨e, he⟩ := owner_exists h r (hl p (by simp))
    have : ∀ d, (((p :: l).filter fun p => decide (D.Owns (L2 d) p) : List (Part n)) : Multiset (Part n)) =
        (if d = e then {p} else 0) + ((l.filter fun p => decide (D.Owns (L2 d) p) : List (Part n)) : Multiset (Part n)) := by
      intro d
      by_cases hd : d = e
      · subst hd
        rw [List.filter_cons_of_pos (by simpa using he), if_pos rfl, Multiset.singleton_add, Multiset.cons_coe]
      · have : ¬ D.Owns (L2 d) p := fun ho => hd (owns_unique h ho he)
        rw [List.filter_cons_of_neg (by simpa using this), if_neg hd, zero_add]
    simp only [this]
    rw [Finset.sum_add_distrib, ih, Finset.sum_ite_eq' Finset.univ e, if_pos (Finset.mem_univ e), Multiset.singleton_add, Multiset.cons_coe]

theorem split_total (h : Agree D at_ L1 L2 P) (hs : Start D L1 L2 K nt idx Ss L) (s : Fin N) {i : ℕ} (hi : i < K) :
    inner (P s).border (nt s) (L s i) + ∑ r, outer D (L2 r) (P s).border (nt s) (L s i) = total (nt s) (L s i) := by
  classical
  unfold inner outer total
  have key : ∀ us : List I3, (∀ u ∈ us, ∀ p ∈ L s i u, D.Has p) →
      (us.map fun u => if (P s).border u = true then 0 else (L s i u : Multiset (Part n))).sum +
        ∑ r, (us.map fun u => if (P s).border u = true then (((L s i u).filter fun p => decide (D.Owns (L2 r) p) : List (Part n)) : Multiset (Part n)) else 0).sum =
      (us.map fun u => (L s i u : Multiset (Part n))).sum := by
    intro us
    induction us with
    | nil => intro _; simp
    | cons u us ih =>
      intro hus
      have ih := ih fun v hv => hus v (by simp [hv])
      simp only [List.map_cons, List.sum_cons, Finset.sum_add_distrib]
      rw [← ih]
      by_cases hb : (P s).border u = true
      · simp only [if_pos hb]
        rw [split_list h s (L s i u) (hus u (by simp))]
        abel
      · simp only [if_neg hb, Finset.sum_const_zero]
        abel
  exact key _ fun u hu p hp => (hs.old s i u p hi (mem_box.mp hu) hp).2

theorem out_eq (r d : Fin N) (X : ℤ → List (List (Part n))) (hd : d ∈ sendTo L1 L2 r) :
    (memory L1 L2 r ((irange 1 ((sendTo L1 L2 r).length : ℤ)).map fun k => packet (X k))).out d = packet (X ((sendTo L1 L2 r).idxOf d + 1)) := by
  have hlt := List.idxOf_lt_length_of_mem hd
  unfold memory irange
  dsimp only
  rw [List.map_map, List.getD_eq_getElem _ _ (by simp; exact hlt), List.getElem_map, List.getElem_range]
  simp only [Function.comp]
  congr 2
  ring

/-- The whole routine. -/
theorem run_ok (h : Agree D at_ L1 L2 P) (hs : Start D L1 L2 K nt idx Ss L) {npl : Fin N → ℤ} (hcap : ∀ r, (number (Ss r) (L r) : ℤ) ≤ npl r) :
    ∃ (rest : Fin N → List (Species n)) (ms : Fin N → List Msg), (∀ r, before (P r) (npl r) (Ss r) = .ok (rest r, ms r)) ∧
      ∀ (k : ℕ) (b : Conf (Fin N) (Mem N) Msg), Exec (exchange N L1 L2) k (start fun r => memory L1 L2 r (ms r)) b → Stuck (exchange N L1 L2) b →
        ∀ r, ∃ (Ss' : List (Species n)) (L' : ℕ → I3 → List (Part n)),
          after (idx r) ((recvFrom L1 L2 r).map fun s => ((b.mem r).rc s, (b.mem r).rd s)) (rest r) = .ok Ss' ∧ Ss'.length = K ∧ HoldsSp Ss' L' ∧
          ∀ (i : ℕ) (S S' : Species n), (Ss r)[i]? = some S → Ss'[i]? = some S' → S'.nt = nt r ∧
            total (nt r) (L' i) = inner (P r).border (nt r) (L r i) + ∑ s, outer D (L2 r) (P s).border (nt s) (L s i) ∧
            S'.npart - Multiset.card (total (nt r) (L' i)) = S.npart - Multiset.card (total (nt r) (L r i)) := by
  have hlt : ∀ {r : Fin N} {i : ℕ} {S : Species n}, (Ss r)[i]? = some S → i < K ∧ S.nt = nt r := by
    intro r i S hS
    obtain ⟨a, -⟩ := List.getElem?_eq_some_iff.mp hS
    exact ⟨by rw [← hs.len r]; exact a, hs.tiles r S (List.mem_of_getElem? hS)⟩
  have hb : ∀ r, _ := fun r => before_ok (P r) (npl := npl r) (hs.holds r) (fun i S hS u hu _ p hp => by
      obtain ⟨a, c⟩ := hlt hS
      rw [c] at hu
      obtain ⟨o1, o2⟩ := hs.old r i u p a hu hp
      obtain ⟨d, hd⟩ := owner_exists h r o2
      exact ⟨_, (route_ok h o1 hd).1⟩) (hcap r)
      (by rw [h.ranks r, List.length_map, (h.lists r).1]; exact (h.lists r).2)
  choose rest M X e l1 l2 k using hb
  refine ⟨rest, _, e, fun q b ex st r => ?_⟩
  have hok := exchange_ok h.old (lim_ok h)
  have hmem := (exec_result hok ex st).1 r
  have hms : (recvFrom L1 L2 r).map (fun s => ((b.mem r).rc s, (b.mem r).rd s)) =
      ((recvFrom L1 L2 r).map fun s => X s ((sendTo L1 L2 s).idxOf r + 1)).map packet := by
    rw [List.map_map]
    apply List.map_congr_left
    intro s hsr
    rw [hmem]
    show ((sync (exchange N L1 L2) _ 2 r).rc s, (sync (exchange N L1 L2) _ 2 r).rd s) = _
    rw [exch_sync _ r s hsr, h.ranks s, List.length_map]
    exact out_eq s r (X s) ((send_recv h.old (lim_ok h) s r).mpr hsr)
  have hgone : ∀ s ∈ recvFrom L1 L2 r, ∀ i, i < K → (((X s ((sendTo L1 L2 s).idxOf r + 1)).getD i [] : List (Part n)) : Multiset (Part n)) =
      outer D (L2 r) (P s).border (nt s) (L s i) := by
    intro s hsr i hi
    have hS : (Ss s)[i]? = some ((Ss s)[i]'(by rw [hs.len s]; exact hi)) := List.getElem?_eq_getElem _
    obtain ⟨S', f, -, k'⟩ := k s i _ hS
    rw [k'.gone, (hlt hS).2]
    exact handed_eq h hs s r hi ((send_recv h.old (lim_ok h) s r).mpr hsr)
  have hrest : ∀ i T, (rest r)[i]? = some T → ∃ S f, (Ss r)[i]? = some S ∧ Left (P r) S T (L r i) (M r i) f fun d => (X r d).getD i [] := by
    intro i T hT
    obtain ⟨a, -⟩ := List.getElem?_eq_some_iff.mp hT
    have hS : (Ss r)[i]? = some ((Ss r)[i]'(by rw [← l1 r]; exact a)) := List.getElem?_eq_getElem _
    obtain ⟨S', f, e', k'⟩ := k r i _ hS
    rw [hT] at e'
    cases e'
    exact ⟨_, f, hS, k'⟩
  obtain ⟨Ss', L', e', l', g'⟩ := after_ok (idx := idx r) ((recvFrom L1 L2 r).map fun s => X s ((sendTo L1 L2 s).idxOf r + 1)) (Ss := rest r) (L := M r)
    (fun Y hY => by
      obtain ⟨s, -, rfl⟩ := List.mem_map.mp hY
      rw [l2 s, l1 r, hs.len, hs.len])
    (fun i T hT => by obtain ⟨S, f, -, k'⟩ := hrest i T hT; exact k'.holds)
    (fun i T hT Y hY p hp => by
      obtain ⟨s, hsr, rfl⟩ := List.mem_map.mp hY
      obtain ⟨S, f, hS, k'⟩ := hrest i T hT
      rw [k'.nt, (hlt hS).2]
      refine hs.tile r p ?_
      have : p ∈ (((X s ((sendTo L1 L2 s).idxOf r + 1)).getD i [] : List (Part n)) : Multiset (Part n)) := hp
      rw [hgone s hsr i (hlt hS).1] at this
      exact (mem_outer this).1)
  have hfin : ∀ i S', Ss'[i]? = some S' → ∃ T, (rest r)[i]? = some T ∧
      Grown T S' (M r i) (L' i) ((((recvFrom L1 L2 r).map fun s => X s ((sendTo L1 L2 s).idxOf r + 1)).map fun Y => (Y.getD i [] : Multiset (Part n))).sum) := by
    intro i S' hS'
    obtain ⟨a, -⟩ := List.getElem?_eq_some_iff.mp hS'
    have hT : (rest r)[i]? = some ((rest r)[i]'(by rw [← l']; exact a)) := List.getElem?_eq_getElem _
    obtain ⟨S2, e2, g2⟩ := g' i _ hT
    rw [hS'] at e2
    cases e2
    exact ⟨_, hT, g2⟩
  refine ⟨Ss', L', by rw [hms]; exact e', by rw [l', l1, hs.len], fun i S' hS' => by obtain ⟨T, -, g⟩ := hfin i S' hS'; exact g.holds, fun i S S' hS hS' => ?_⟩
  obtain ⟨T, hT, g⟩ := hfin i S' hS'
  obtain ⟨S2, f, hS2, k'⟩ := hrest i T hT
  rw [hS] at hS2
  cases hS2
  obtain ⟨hi, hnt⟩ := hlt hS
  have hrecv : (((recvFrom L1 L2 r).map fun s => X s ((sendTo L1 L2 s).idxOf r + 1)).map fun Y => (Y.getD i [] : Multiset (Part n))).sum =
      ((recvFrom L1 L2 r).map fun s => outer D (L2 r) (P s).border (nt s) (L s i)).sum := by
    rw [List.map_map]
    congr 1
    exact List.map_congr_left fun s hsr => hgone s hsr i hi
  have hTnt : T.nt = nt r := by rw [k'.nt, hnt]
  have htot : total (nt r) (L' i) = total (nt r) (M r i) + ((recvFrom L1 L2 r).map fun s => outer D (L2 r) (P s).border (nt s) (L s i)).sum := by
    rw [← hrecv, ← hTnt]; exact g.all
  refine ⟨by rw [g.nt, hTnt], ?_, ?_⟩
  · have := k'.stay
    rw [hnt] at this
    rw [htot, this, stays_eq h hs r hi, add_assoc, recv_sum h hs r hi]
  · have a := k'.npart
    rw [hnt] at a
    rw [htot, g.npart, hrecv, Multiset.card_add]
    push_cast
    omega

end

end Picsar.RemapPart
