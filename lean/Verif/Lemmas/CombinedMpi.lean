import Verif.Lemmas.CombinedRecv
import Verif.Lemmas.PartBlocking
import Verif.Lemmas.Mpi
/-
The exchange between tiles and processes: the communications.
-/
namespace Picsar.Combined
open Picsar Picsar.Grid Picsar.Tiling Picsar.ParticleBcs Picsar.PartExchange

variable {n : ℕ} {R : Type}

section
variable (K : ℕ) (nb : R → I3 → R) (P : R → Proc n)

theorem c_off_lo {g : ℕ} (h : g ≤ K) : (combined K nb P).off g = 26 * g := if_pos h

theorem c_off_hi {g : ℕ} (h : K ≤ g) : (combined K nb P).off g = 26 * K + (g - K) := by
  by_cases hg : g ≤ K
  · have : g = K := by omega
    subst this
    rw [c_off_lo _ _ _ le_rfl]; omega
  · exact if_neg hg

theorem c_put (k : ℕ) (r : R) (s : CMem n) (x : Msg) : (combined K nb P).put k r (.ok s) x =
    .ok ⟨s.sp, s.cnt, s.out, s.nrecv, Function.update s.inbox (k % 26) (some x), s.rbuf, s.npos⟩ := rfl

theorem c_pay (k : ℕ) (r : R) (m : Res (CMem n)) : (combined K nb P).pay k r m = cpay K k m := rfl

theorem c_src (k : ℕ) (r : R) : (combined K nb P).src k r = some (nb r (neg (dirAt (k % 26)))) := rfl

theorem c_dst (k : ℕ) (r : R) : (combined K nb P).dst k r = some (nb r (dirAt (k % 26))) := rfl

theorem c_fin (g : ℕ) (r : R) (s : CMem n) : (combined K nb P).fin g r (.ok s) = cfin K (P r) g s := rfl

theorem c_ok {nb : R → I3 → R} (hm : Mutual nb) : (combined K nb P).Ok := by
  refine ⟨c_off_lo _ _ _ (Nat.zero_le _), fun g => ?_, fun k s d => ?_, fun g k i r x m _ _ _ _ => ?_⟩
  · by_cases h : g + 1 ≤ K
    · rw [c_off_lo _ _ _ h, c_off_lo _ _ _ (by omega)]; omega
    · rw [c_off_hi _ _ _ (show K ≤ g by omega), c_off_hi _ _ _ (show K ≤ g + 1 by omega)]; omega
  · rw [c_dst, c_src, Option.some.injEq, Option.some.injEq]
    have hd : dirAt (k % 26) ∈ dirs := dirAt_mem (by omega)
    constructor
    · rintro rfl; exact hm s _ hd
    · rintro rfl; simpa [neg_neg'] using hm d _ (neg_mem hd)
  · rw [c_pay, c_pay]
    cases x with
    | error e => rfl
    | ok s => rw [c_put]; rfl

/-- Receives of one group of counts. -/
theorem c_absorb {m : R → Res (CMem n)} {s : R → CMem n} (h : ∀ r, m r = .ok (s r)) (g : ℕ) (r : R) : ∀ j, j ≤ 26 →
    Mpi.absorb (combined K nb P) m r (26 * g) j = .ok ⟨(s r).sp, (s r).cnt, (s r).out, (s r).nrecv,
      fun q => if q < j then some (cpay K (26 * g + q) (.ok (s (nb r (neg (dirAt q)))))) else (s r).inbox q, (s r).rbuf, (s r).npos⟩ := by
  intro j
  induction j with
  | zero => intro _; rw [Mpi.absorb, h r]; simp
  | succ j ih =>
    intro hj
    rw [Mpi.absorb, c_src]
    dsimp only
    rw [ih (by omega), c_put, c_pay, show (26 * g + j) % 26 = j by omega, h]
    congr 2
    funext q
    by_cases hq : q = j
    · subst hq; simp
    · rw [Function.update_of_ne hq]
      have : q < j + 1 ↔ q < j := by omega
      simp only [this]

end

/-- What `r` receives of species `is` from the first `q` directions, in this order. -/
def inRows (nb : R → I3 → R) (W : R → ℕ → I3 → List (Part n)) (r : R) (is q : ℕ) : List (Part n) := (dirs.take q).flatMap fun d => W (nb r (neg d)) is d

theorem inRows_succ (nb : R → I3 → R) (W : R → ℕ → I3 → List (Part n)) (r : R) (is : ℕ) {q : ℕ} (hq : q < 26) :
    inRows nb W r is (q + 1) = inRows nb W r is q ++ W (nb r (neg (dirAt q))) is (dirAt q) := by
  have h : q < dirs.length := by rw [dirs_length]; exact hq
  unfold inRows
  rw [← List.take_append_getElem h, List.flatMap_append, dirAt_getElem h]
  simp

theorem inRows_all (nb : R → I3 → R) (W : R → ℕ → I3 → List (Part n)) (r : R) (is : ℕ) : inRows nb W r is 26 = dirs.flatMap fun d => W (nb r (neg d)) is d := by
  unfold inRows; rw [List.take_of_length_le (by rw [dirs_length])]

theorem inRows_le (nb : R → I3 → R) (W : R → ℕ → I3 → List (Part n)) (r : R) (is q : ℕ) (hq : q ≤ 26) : (inRows nb W r is q).length ≤ (inRows nb W r is 26).length := by
  rw [inRows_all]
  unfold inRows
  conv_rhs => rw [← List.take_append_drop q dirs, List.flatMap_append, List.length_append]
  omega

/-- State of process `r` after the counts of the species below `g` were received; `s0` is the state before the communications. -/
structure Counted (K : ℕ) (nb : R → I3 → R) (W : R → ℕ → I3 → List (Part n)) (s0 : CMem n) (g : ℕ) (r : R) (s : CMem n) : Prop where
  sp : s.sp = s0.sp
  cnt : s.cnt = s0.cnt
  out : s.out = s0.out
  nrecv : ∀ is, is < g → is < K → ∀ d ∈ dirs, s.nrecv is d = (W (nb r (neg d)) is d).length

theorem takeCounts_ok {is : ℕ} {c : ℕ → ℤ} : ∀ (j : ℕ) (s : CMem n), (∀ q, q < j → s.inbox q = some (.cnt [c q])) → j ≤ 26 →
    ∃ s', (List.range j).foldlM (fun s q => takeCount is q s) s = .ok s' ∧ s'.sp = s.sp ∧ s'.cnt = s.cnt ∧ s'.out = s.out ∧ s'.inbox = s.inbox ∧
      (∀ q, q < j → s'.nrecv is (dirAt q) = c q) ∧ ∀ i, i ≠ is → s'.nrecv i = s.nrecv i := by
  intro j
  induction j with
  | zero => exact fun s _ _ => ⟨s, rfl, rfl, rfl, rfl, rfl, fun q hq => absurd hq (Nat.not_lt_zero q), fun _ _ => rfl⟩
  | succ j ih =>
    intro s hs hj
    obtain ⟨s1, e1, a1, b1, c1, d1, f1, g1⟩ := ih s (fun q hq => hs q (by omega)) (by omega)
    refine ⟨⟨s1.sp, s1.cnt, s1.out, fun i e => if i = is ∧ e = dirAt j then c j else s1.nrecv i e, s1.inbox, s1.rbuf, s1.npos⟩, ?_, a1, b1, c1, d1, fun q hq => ?_, fun i hi => ?_⟩
    · rw [List.range_succ, List.foldlM_append, e1]
      simp only [except_bind_ok, List.foldlM_cons, List.foldlM_nil]
      unfold takeCount
      rw [d1, hs j (by omega)]
      rfl
    · dsimp only
      by_cases hqj : q = j
      · subst hqj; simp
      · rw [if_neg ?_]
        · exact f1 q (by omega)
        · rintro ⟨-, e⟩
          have h1 : q < dirs.length := by rw [dirs_length]; omega
          have h2 : j < dirs.length := by rw [dirs_length]; omega
          rw [dirAt_getElem h1, dirAt_getElem h2] at e
          exact hqj ((nodup_dirs.getElem_inj_iff).mp e)
    · dsimp only
      funext e
      rw [if_neg (fun h => hi h.1), g1 i hi]

theorem dirs_dirAt {d : I3} (h : d ∈ dirs) : ∃ q, q < 26 ∧ dirAt q = d := by
  obtain ⟨q, hq, rfl⟩ := List.mem_iff_getElem.mp h
  exact ⟨q, by rw [dirs_length] at hq; exact hq, dirAt_getElem hq⟩

/-- The counts. -/
theorem counts_sync {K : ℕ} {nb : R → I3 → R} {P : R → Proc n} {sp : R → ℕ → Species n} {L M W : R → ℕ → I3 → List (Part n)} {m0 : R → Res (CMem n)} {s0 : R → CMem n}
    (h0 : ∀ r, m0 r = .ok (s0 r)) (hr : ∀ r, Ready K (P r) (sp r) (L r) (s0 r) (M r) (W r)) :
    ∀ g, g ≤ K → ∀ r, ∃ s, Mpi.sync (combined K nb P) m0 g r = .ok s ∧ Counted K nb W (s0 r) g r s := by
  intro g
  induction g with
  | zero => intro _ r; exact ⟨s0 r, by rw [Mpi.sync]; exact h0 r, rfl, rfl, rfl, fun is h => absurd h (Nat.not_lt_zero is)⟩
  | succ g ih =>
    intro hg r
    choose s e C using ih (by omega)
    have hpay : ∀ q, q < 26 → ∀ r', cpay K (26 * g + q) (.ok (s r')) = .cnt [((W r' g (dirAt q)).length : ℤ)] := by
      intro q hq r'
      unfold cpay
      dsimp only
      rw [if_pos (by omega), show (26 * g + q) / 26 = g by omega, show (26 * g + q) % 26 = q by omega, (C r').cnt, (hr r').cnt g (by omega) _ (dirAt_mem hq)]
    have habs := c_absorb K nb P e g r 26 le_rfl
    obtain ⟨s', e', a, b, c, -, f, f'⟩ := takeCounts_ok (is := g) (c := fun q => ((W (nb r (neg (dirAt q))) g (dirAt q)).length : ℤ)) 26
      ⟨(s r).sp, (s r).cnt, (s r).out, (s r).nrecv, fun q => if q < 26 then some (cpay K (26 * g + q) (.ok (s (nb r (neg (dirAt q)))))) else (s r).inbox q, (s r).rbuf, (s r).npos⟩
      (fun q hq => by dsimp only; rw [if_pos hq, hpay q hq]) le_rfl
    refine ⟨s', ?_, by rw [a]; exact (C r).sp, by rw [b]; exact (C r).cnt, by rw [c]; exact (C r).out, fun is hi hK d hd => ?_⟩
    · rw [Mpi.sync]
      beta_reduce
      rw [c_off_lo _ _ _ (show g ≤ K by omega), c_off_lo _ _ _ hg, show 26 * (g + 1) - 26 * g = 26 by omega, habs, c_fin]
      unfold cfin
      rw [if_pos (by omega)]
      exact e'
    · by_cases his : is = g
      · subst his
        obtain ⟨q, hq, rfl⟩ := dirs_dirAt hd
        exact f q hq
      · rw [f' is his]
        exact (C r).nrecv is (by omega) hK d hd

/-- State of process `r` before direction number `q` of species `is`. -/
structure Flow (K : ℕ) (nb : R → I3 → R) (P : R → Proc n) (sp : R → ℕ → Species n) (L W : R → ℕ → I3 → List (Part n)) (s0 : CMem n) (is q : ℕ) (r : R) (s : CMem n) : Prop where
  done : ∀ i, i < is → Stored nb P (fun r => sp r i) (fun r => L r i) r (s.sp i)
  todo : ∀ i, is ≤ i → i < K → s.sp i = s0.sp i
  out : s.out = s0.out
  nrecv : ∀ i, i < K → ∀ d ∈ dirs, s.nrecv i d = (W (nb r (neg d)) i d).length
  npos : q ≠ 0 → s.npos = 1 + (inRows nb W r is q).length
  size : q ≠ 0 → s.rbuf.n = (((inRows nb W r is 26).length : ℤ) + 1) * (n + 7)
  rows : q ≠ 0 → Rows s.rbuf ((inRows nb W r is 26).length + 1) 1 (inRows nb W r is q)

theorem sum_lengths (ds : List I3) (f : I3 → List (Part n)) : (ds.map fun d => ((f d).length : ℤ)).sum = ((ds.flatMap f).length : ℕ) := by
  induction ds with
  | nil => rfl
  | cons d ds ih => rw [List.map_cons, List.sum_cons, ih, List.flatMap_cons, List.length_append]; push_cast; ring

theorem recvTot_eq {K : ℕ} {nb : R → I3 → R} {P : R → Proc n} {sp : R → ℕ → Species n} {L W : R → ℕ → I3 → List (Part n)} {s0 : CMem n} {is q : ℕ} {r : R} {s : CMem n}
    (F : Flow K nb P sp L W s0 is q r s) (hK : is < K) : recvTot s is = (inRows nb W r is 26).length := by
  rw [inRows_all]
  unfold recvTot
  rw [← sum_lengths]
  refine congrArg List.sum (List.map_congr_left fun d hd => F.nrecv is hK d hd)

/-- Data of one direction. -/
theorem takeRows_ok {K : ℕ} {nb : R → I3 → R} {P : R → Proc n} {sp : R → ℕ → Species n} {L W : R → ℕ → I3 → List (Part n)} {s0 : CMem n} {is q : ℕ} {r : R} {s : CMem n} (hq : q < 26)
    (F : Flow K nb P sp L W s0 is q r s) (hK : is < K) {ib : ℕ → Option Msg} (hib : ib q = some (.dat (colMajor (W (nb r (neg (dirAt q))) is (dirAt q))))) :
    ∃ s', takeRows is q ⟨s.sp, s.cnt, s.out, s.nrecv, ib, s.rbuf, s.npos⟩ = .ok s' ∧ s'.sp = s.sp ∧ s'.out = s.out ∧ s'.nrecv = s.nrecv ∧
      s'.npos = 1 + (inRows nb W r is (q + 1)).length ∧ s'.rbuf.n = (((inRows nb W r is 26).length : ℤ) + 1) * (n + 7) ∧
      Rows s'.rbuf ((inRows nb W r is 26).length + 1) 1 (inRows nb W r is (q + 1)) := by
  have htot := recvTot_eq F hK
  have hj := F.nrecv is hK (dirAt q) (dirAt_mem hq)
  have hle := inRows_le nb W r is (q + 1) (by omega)
  rw [inRows_succ nb W r is hq, List.length_append] at hle
  generalize hw : W (nb r (neg (dirAt q))) is (dirAt q) = w at *
  generalize hT : (inRows nb W r is 26).length = T at *
  have hpos : (if q = 0 then 1 else s.npos) = 1 + ((inRows nb W r is q).length : ℤ) := by
    by_cases h : q = 0
    · subst h; simp [inRows]
    · rw [if_neg h]; exact F.npos h
  have hsize : (if q = 0 then FArr.undef (((T : ℤ) + 1) * (n + 7)) else s.rbuf).n = ((T : ℤ) + 1) * (n + 7) := by
    by_cases h : q = 0
    · rw [if_pos h]; rfl
    · rw [if_neg h, ← hT]; exact F.size h
  have hrows : Rows (if q = 0 then FArr.undef (((T : ℤ) + 1) * (n + 7)) else s.rbuf) ((T : ℤ) + 1) 1 (inRows nb W r is q) := by
    by_cases h : q = 0
    · subst h
      intro c _ i hi
      simp [inRows] at hi
    · rw [if_neg h, ← hT]; exact F.rows h
  obtain ⟨b', e', n', r', k'⟩ := vec_ok w (b := if q = 0 then FArr.undef (((T : ℤ) + 1) * (n + 7)) else s.rbuf) (st := (T : ℤ) + 1) (pos := 1 + ((inRows nb W r is q).length : ℤ))
    (by omega) (by push_cast at hle ⊢; omega) hsize
  have htot' : recvTot (⟨s.sp, s.cnt, s.out, s.nrecv, ib, s.rbuf, s.npos⟩ : CMem n) is = T := htot
  refine ⟨⟨s.sp, s.cnt, s.out, s.nrecv, ib, b', 1 + ((inRows nb W r is q).length : ℤ) + w.length⟩, ?_, rfl, rfl, rfl, ?_, by dsimp only; rw [n', hsize], ?_⟩
  · unfold takeRows
    dsimp only
    rw [hib]
    dsimp only
    rw [if_pos (by rw [hj, colMajor_length]; push_cast; exact le_rfl), htot', hj, hpos, e']
    rfl
  · dsimp only
    rw [inRows_succ nb W r is hq, hw, List.length_append]
    push_cast; ring
  · dsimp only
    rw [inRows_succ nb W r is hq, hw]
    exact rows_append (k' _ le_rfl hrows) r'

theorem sum_flatMap' {α : Type} (us : List I3) (f : I3 → List α) : ((us.flatMap f : List α) : Multiset α) = (us.map fun u => (f u : Multiset α)).sum := by
  induction us with
  | nil => rfl
  | cons u us ih => rw [List.flatMap_cons, ← Multiset.coe_add, ih]; simp

theorem arriving_eq {K : ℕ} {nb : R → I3 → R} {P : R → Proc n} {sp : R → ℕ → Species n} {L M W : R → ℕ → I3 → List (Part n)} {s0 : R → CMem n}
    (hr : ∀ r, Ready K (P r) (sp r) (L r) (s0 r) (M r) (W r)) {is : ℕ} (hK : is < K) (r : R) :
    (inRows nb W r is 26 : Multiset (Part n)) = arriving nb P (fun r => sp r is) (fun r => L r is) r := by
  rw [inRows_all, sum_flatMap']
  unfold arriving
  refine congrArg List.sum (List.map_congr_left fun d hd => ?_)
  rw [(hr (nb r (neg d))).sent is hK d hd]

/-- One direction; `sx` is the state of the sender. -/
theorem flow_step {K : ℕ} {nb : R → I3 → R} {P : R → Proc n} {sp : R → ℕ → Species n} {L M W : R → ℕ → I3 → List (Part n)} {s0 : R → CMem n}
    (hr : ∀ r, Ready K (P r) (sp r) (L r) (s0 r) (M r) (W r))
    {is q : ℕ} (hq : q < 26) (hK : is < K) {r : R} {s : CMem n} (F : Flow K nb P sp L W (s0 r) is q r s) {ib : ℕ → Option Msg}
    (hib : ib q = some (.dat (colMajor (W (nb r (neg (dirAt q))) is (dirAt q))))) :
    ∃ s', dataFin (P r) is q ⟨s.sp, s.cnt, s.out, s.nrecv, ib, s.rbuf, s.npos⟩ = .ok s' ∧
      (if q = 25 then Flow K nb P sp L W (s0 r) (is + 1) 0 r s' else Flow K nb P sp L W (s0 r) is (q + 1) r s') := by
  classical
  obtain ⟨s1, e1, a1, b1, c1, p1, n1, r1⟩ := takeRows_ok hq F hK hib
  unfold dataFin
  rw [e1]
  simp only [except_bind_ok]
  have F1 : Flow K nb P sp L W (s0 r) is (q + 1) r s1 := ⟨fun i hi => by rw [a1]; exact F.done i hi, fun i hi hiK => by rw [a1]; exact F.todo i hi hiK, by rw [b1]; exact F.out,
    fun i hi d hd => by rw [c1]; exact F.nrecv i hi d hd, fun _ => p1, fun _ => n1, fun _ => r1⟩
  by_cases h25 : q = 25
  · subst h25
    simp only [if_true]
    have htot := recvTot_eq F1 hK
    have hsp : s1.sp is = (s0 r).sp is := F1.todo is le_rfl hK
    obtain ⟨S', M', e', h', A', n', np', m'⟩ := recvSpecies_ok (P := P r) (b := s1.rbuf) (V := inRows nb W r is 26) n1 r1 ((hr r).holds is hK) ((hr r).alloc is hK)
    rw [← hsp] at e'
    have hV := arriving_eq hr hK r (nb := nb)
    refine ⟨⟨Function.update s1.sp is S', s1.cnt, s1.out, s1.nrecv, s1.inbox, s1.rbuf, s1.npos⟩, ?_, ⟨fun i hi => ?_, fun i hi hiK => ?_, F1.out, F1.nrecv, fun h => absurd rfl h,
      fun h => absurd rfl h, fun h => absurd rfl h⟩⟩
    · unfold closeSpecies
      rw [htot, e']
      rfl
    · dsimp only
      by_cases his : i = is
      · subst his
        rw [Function.update_self]
        refine ⟨M', h', A', by rw [n']; exact (hr r).nt i hK, fun T hT => ?_, ?_⟩
        · have hT' : InBox ⟨1, 1, 1⟩ ((s0 r).sp i).nt T := by rw [(hr r).nt i hK]; exact hT
          rw [m' T hT', ← hV, Multiset.filter_coe, ← (hr r).here i hK T hT]
          by_cases hb : (P r).border T = true
          · rw [if_pos hb, if_pos hb, ← Multiset.coe_add]
          · rw [if_neg hb, if_neg hb, add_zero]
        · rw [np', (hr r).npart i hK, ← hV, Multiset.coe_card]
      · rw [Function.update_of_ne his]; exact F1.done i (by omega)
    · dsimp only
      rw [Function.update_of_ne (by omega)]
      exact F1.todo i (by omega) hiK
  · rw [if_neg h25]
    exact ⟨s1, rfl, by rw [if_neg h25]; exact F1⟩

/-- The lockstep execution. -/
theorem c_sync {K : ℕ} {nb : R → I3 → R} {P : R → Proc n} {sp : R → ℕ → Species n} {L M W : R → ℕ → I3 → List (Part n)} {m0 : R → Res (CMem n)} {s0 : R → CMem n}
    (h0 : ∀ r, m0 r = .ok (s0 r)) (hr : ∀ r, Ready K (P r) (sp r) (L r) (s0 r) (M r) (W r)) :
    ∀ j, j ≤ K * 26 → ∀ r, ∃ s, Mpi.sync (combined K nb P) m0 (K + j) r = .ok s ∧ Flow K nb P sp L W (s0 r) (j / 26) (j % 26) r s := by
  intro j
  induction j with
  | zero =>
    intro _ r
    obtain ⟨s, e, C⟩ := counts_sync (nb := nb) h0 hr K le_rfl r
    exact ⟨s, e, fun i hi => absurd hi (by omega), fun i _ _ => by rw [C.sp], C.out, fun i hi d hd => C.nrecv i hi hi d hd, fun h => absurd rfl h, fun h => absurd rfl h, fun h => absurd rfl h⟩
  | succ j ih =>
    intro hj r
    choose s e F using ih (by omega)
    have hK : j / 26 < K := by omega
    have hpay : cpay K (26 * K + j) (.ok (s (nb r (neg (dirAt (j % 26)))))) = .dat (colMajor (W (nb r (neg (dirAt (j % 26)))) (j / 26) (dirAt (j % 26)))) := by
      unfold cpay
      dsimp only
      rw [if_neg (by omega), show (26 * K + j - 26 * K) / 26 = j / 26 by omega, show (26 * K + j) % 26 = j % 26 by omega, (F _).out,
        (hr _).out _ hK _ (dirAt_mem (by omega))]
    obtain ⟨s', e', F'⟩ := flow_step hr (show j % 26 < 26 by omega) hK (F r)
      (ib := Function.update (s r).inbox (j % 26) (some (cpay K (26 * K + j) (.ok (s (nb r (neg (dirAt (j % 26))))))))) (by rw [Function.update_self, hpay])
    refine ⟨s', ?_, ?_⟩
    · rw [← Nat.add_assoc, Mpi.sync]
      beta_reduce
      rw [c_off_hi _ _ _ (show K ≤ K + j by omega), c_off_hi _ _ _ (show K ≤ K + j + 1 by omega), show 26 * K + (K + j + 1 - K) - (26 * K + (K + j - K)) = 0 + 1 by omega,
        show 26 * K + (K + j - K) = 26 * K + j by omega, Mpi.absorb, c_src]
      dsimp only
      rw [Mpi.absorb, Nat.add_zero, show (26 * K + j) % 26 = j % 26 by omega, e, e, c_put, c_pay, c_fin]
      unfold cfin
      rw [if_neg (by omega), show K + j - K = j by omega, show (26 * K + j) % 26 = j % 26 by omega]
      exact e'
    · by_cases h25 : j % 26 = 25
      · rw [if_pos h25] at F'
        rw [show (j + 1) / 26 = j / 26 + 1 by omega, show (j + 1) % 26 = 0 by omega]
        exact F'
      · rw [if_neg h25] at F'
        rw [show (j + 1) / 26 = j / 26 by omega, show (j + 1) % 26 = j % 26 + 1 by omega]
        exact F'

end Picsar.Combined
