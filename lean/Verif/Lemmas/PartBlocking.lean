import Verif.Lemmas.PartMatch
import Verif.Lemmas.Mpi
/-
The blocking exchange of particles.
-/
namespace Picsar.PartExchange
open Picsar Picsar.Grid Picsar.Tiling Picsar.ParticleBcs

variable {n : ℕ} {R : Type}

theorem dirs_length : dirs.length = 26 := by decide

theorem dirAt_getElem {q : ℕ} (hq : q < dirs.length) : dirAt q = dirs[q] := by
  unfold dirAt; rw [List.getD_eq_getElem?_getD, List.getElem?_eq_getElem hq, Option.getD_some]

theorem dirAt_mem {q : ℕ} (hq : q < 26) : dirAt q ∈ dirs := by
  have : q < dirs.length := by rw [dirs_length]; exact hq
  rw [dirAt_getElem this]; exact List.getElem_mem this

section
variable (K : ℕ) (nb : R → I3 → R) (P : R → Proc n)

theorem b_fin (g : ℕ) (r : R) (m : Res (BMem n)) : (blocking K nb P).fin g r m = Except.bind m (bfin (P r) g) := rfl

theorem b_put (g : ℕ) (r : R) (s : BMem n) (x : Msg) : (blocking K nb P).put g r (.ok s) x = .ok ⟨s.sp, s.buf, some x, s.nrecv, s.out⟩ := rfl

theorem b_pay (g : ℕ) (r : R) (m : Res (BMem n)) : (blocking K nb P).pay g r m = bpay g m := rfl

theorem b_dst (g : ℕ) (r : R) : (blocking K nb P).dst g r = if g % 53 = 0 then none else some (nb r (dirAt ((g % 53 - 1) / 2))) := rfl

theorem b_src (g : ℕ) (r : R) : (blocking K nb P).src g r = if g % 53 = 0 then none else some (nb r (neg (dirAt ((g % 53 - 1) / 2)))) := rfl

theorem b_off (g : ℕ) : (blocking K nb P).off g = g := rfl

theorem b_bind (f : BMem n → Res (BMem n)) (s : BMem n) : Except.bind (.ok s : Res (BMem n)) f = f s := rfl

theorem b_sync0 (m0 : R → Res (BMem n)) (g : ℕ) (r : R) (h : g % 53 = 0) :
    Mpi.sync (blocking K nb P) m0 (g + 1) r = Except.bind (Mpi.sync (blocking K nb P) m0 g r) (bfin (P r) g) := by
  have h1 : (blocking K nb P).off (g + 1) - (blocking K nb P).off g = 0 + 1 := by rw [b_off, b_off]; omega
  have h2 : (blocking K nb P).off g + 0 = g := by rw [b_off]; omega
  rw [Mpi.sync]
  beta_reduce
  rw [b_fin, h1, Mpi.absorb, h2, b_src, if_pos h, Mpi.absorb]

theorem b_sync1 (m0 : R → Res (BMem n)) (g : ℕ) (r : R) (h : ¬ g % 53 = 0) :
    Mpi.sync (blocking K nb P) m0 (g + 1) r = Except.bind ((blocking K nb P).put g r (Mpi.sync (blocking K nb P) m0 g r)
      (bpay g (Mpi.sync (blocking K nb P) m0 g (nb r (neg (dirAt ((g % 53 - 1) / 2))))))) (bfin (P r) g) := by
  have h1 : (blocking K nb P).off (g + 1) - (blocking K nb P).off g = 0 + 1 := by rw [b_off, b_off]; omega
  have h2 : (blocking K nb P).off g + 0 = g := by rw [b_off]; omega
  rw [Mpi.sync]
  beta_reduce
  rw [b_fin, h1, Mpi.absorb, h2, b_src, if_neg h]
  dsimp only
  rw [Mpi.absorb, b_pay]

theorem b_ok {nb : R → I3 → R} (hm : Mutual nb) : (blocking K nb P).Ok := by
  refine ⟨rfl, fun g => ?_, fun k s d => ?_, fun g k i r x m _ _ _ _ => ?_⟩
  · rw [b_off, b_off]; omega
  · rw [b_dst, b_src]
    by_cases h : k % 53 = 0
    · simp [h]
    · rw [if_neg h, if_neg h, Option.some.injEq, Option.some.injEq]
      have hd : dirAt ((k % 53 - 1) / 2) ∈ dirs := dirAt_mem (by omega)
      constructor
      · rintro rfl; exact hm s _ hd
      · rintro rfl; simpa [neg_neg'] using hm d _ (neg_mem hd)
  · rw [b_pay, b_pay]
    cases x with
    | error e => rfl
    | ok s => rw [b_put]; rfl

end

/-- The particles `r` receives from the first `q` directions. -/
noncomputable def arrived (nb : R → I3 → R) (P : R → Proc n) (S : R → Species n) (L : R → I3 → List (Part n)) (r : R) (q : ℕ) : Multiset (Part n) :=
  ((dirs.take q).map fun d => handed .blocking (P (nb r (neg d))) (S (nb r (neg d))).nt (L (nb r (neg d))) d).sum

theorem arrived_succ (nb : R → I3 → R) (P : R → Proc n) (S : R → Species n) (L : R → I3 → List (Part n)) (r : R) {q : ℕ} (hq : q < 26) :
    arrived nb P S L r (q + 1) = arrived nb P S L r q + handed .blocking (P (nb r (neg (dirAt q)))) (S (nb r (neg (dirAt q)))).nt (L (nb r (neg (dirAt q)))) (dirAt q) := by
  have h : q < dirs.length := by rw [dirs_length]; exact hq
  unfold arrived
  rw [← List.take_append_getElem h, List.map_append, List.sum_append, dirAt_getElem h]
  simp

/-- State of process `r` at the beginning of species `is`. -/
structure Begin (nb : R → I3 → R) (P : R → Proc n) (sp : R → ℕ → Species n) (L : R → ℕ → I3 → List (Part n)) (is : ℕ) (r : R) (s : BMem n) : Prop where
  done : ∀ i, i < is → Delivered .blocking nb P (fun r => sp r i) (fun r => L r i) r (s.sp i)
  todo : ∀ i, is ≤ i → s.sp i = sp r i

/-- State of process `r` before direction `q` of species `is`. -/
structure During (nb : R → I3 → R) (P : R → Proc n) (sp : R → ℕ → Species n) (L : R → ℕ → I3 → List (Part n)) (Q : R → I3 → List (Part n)) (is q : ℕ) (r : R) (s : BMem n) : Prop where
  done : ∀ i, i < is → Delivered .blocking nb P (fun r => sp r i) (fun r => L r i) r (s.sp i)
  todo : ∀ i, is < i → s.sp i = sp r i
  buf : ∀ d, BufHolds (s.buf d) (Q r d)
  now : ∃ M, HoldsAll (s.sp is) M ∧ (s.sp is).nt = (sp r is).nt ∧
    total (sp r is).nt M = stays .blocking (P r) (sp r is).nt (L r is) + arrived nb P (fun r => sp r is) (fun r => L r is) r q ∧
    (s.sp is).npart - Multiset.card (total (sp r is).nt M) = (sp r is).npart - Multiset.card (total (sp r is).nt (L r is))

theorem scan_step {nb : R → I3 → R} {P : R → Proc n} {sp : R → ℕ → Species n} {L : R → ℕ → I3 → List (Part n)} {is : ℕ} {r : R} {s : BMem n} (h : HoldsAll (sp r is) (L r is))
    (B : Begin nb P sp L is r s) : ∃ s' X, bfin (P r) (is * 53) s = .ok s' ∧ (∀ d, (X d : Multiset (Part n)) = handed .blocking (P r) (sp r is).nt (L r is) d) ∧
      ∀ Q : R → I3 → List (Part n), Q r = X → During nb P sp L Q is 0 r s' := by
  have e0 : is * 53 % 53 = 0 := by omega
  have e1 : is * 53 / 53 = is := by omega
  have hs := B.todo is le_rfl
  obtain ⟨s', M', X, e', nt', h', t', pk, px, np'⟩ := scan_spec (scanTileB_spec (P r)) (s := ⟨s.sp is, fun _ => SBuf.new, fun _ => 0⟩) (L := L r is) (B := fun _ => [])
    (by dsimp only; rw [hs]; exact h) (fun d => bufHolds_new)
  dsimp only at e' nt' t' px np'
  rw [hs] at e' nt' t' px np'
  refine ⟨⟨Function.update s.sp is s'.S, s'.buf, none, 0, []⟩, X, ?_, px, fun Q hQ => ⟨fun i hi => ?_, fun i hi => ?_, fun d => ?_, ⟨M', ?_, ?_, ?_, ?_⟩⟩⟩
  · unfold bfin
    rw [if_pos e0, e1, hs]
    unfold scanSpeciesB
    dsimp only
    rw [e']
    rfl
  · dsimp only; rw [Function.update_of_ne (by omega)]; exact B.done i hi
  · dsimp only; rw [Function.update_of_ne (by omega)]; exact B.todo i (by omega)
  · rw [hQ]; simpa using pk.buf d
  · dsimp only; rw [Function.update_self]; exact h'
  · dsimp only; rw [Function.update_self]; exact nt'
  · rw [t']; simp [arrived]
  · dsimp only; rw [Function.update_self]; exact np'

/-- One direction: both `MPI_SENDRECV`. `sx` is the state of the sender. -/
theorem dir_step {nb : R → I3 → R} {P : R → Proc n} {sp : R → ℕ → Species n} {L : R → ℕ → I3 → List (Part n)} {Q : R → I3 → List (Part n)} {is q : ℕ} (hq : q < 26)
    (hQ : ∀ r d, (Q r d : Multiset (Part n)) = handed .blocking (P r) (sp r is).nt (L r is) d) {r : R} {s : BMem n} (D : During nb P sp L Q is q r s)
    (hin : ∀ p ∈ Q (nb r (neg (dirAt q))) (dirAt q), InBox ⟨1, 1, 1⟩ (sp r is).nt ((P r).idx p)) {sx : BMem n} (hx : BufHolds (sx.buf (dirAt q)) (Q (nb r (neg (dirAt q))) (dirAt q))) :
    ∃ s1 : BMem n, bfin (P r) (is * 53 + 1 + 2 * q) ⟨s.sp, s.buf, some (bpay (is * 53 + 1 + 2 * q) (.ok sx)), s.nrecv, s.out⟩ = .ok s1 ∧ s1.out = flat (Q r (dirAt q)) ∧
      ∀ sy : BMem n, sy.out = flat (Q (nb r (neg (dirAt q))) (dirAt q)) → ∃ s2 : BMem n,
        bfin (P r) (is * 53 + 1 + 2 * q + 1) ⟨s1.sp, s1.buf, some (bpay (is * 53 + 1 + 2 * q + 1) (.ok sy)), s1.nrecv, s1.out⟩ = .ok s2 ∧ During nb P sp L Q is (q + 1) r s2 := by
  have a1 : (is * 53 + 1 + 2 * q) % 53 = 1 + 2 * q := by omega
  have a2 : (is * 53 + 1 + 2 * q) / 53 = is := by omega
  have b1 : (is * 53 + 1 + 2 * q + 1) % 53 = 2 + 2 * q := by omega
  have b2 : (is * 53 + 1 + 2 * q + 1) / 53 = is := by omega
  have hnv : nvar n = (n : ℤ) + 7 := rfl
  generalize hW : Q (nb r (neg (dirAt q))) (dirAt q) = W at *
  have p1 : bpay (is * 53 + 1 + 2 * q) (.ok sx) = .cnt [(W.length : ℤ) * nvar n] := by
    unfold bpay
    dsimp only
    rw [a1, if_pos (by omega), show (1 + 2 * q) / 2 = q by omega, hx.cnt]
  have hlen : ∀ l : List (Part n), ((l.length : ℤ) * nvar n).toNat = (flat l).length := by
    intro l
    rw [flat_length, hnv, show (l.length : ℤ) * ((n : ℤ) + 7) = ((l.length * (n + 7) : ℕ) : ℤ) by push_cast; ring, Int.toNat_natCast]
  refine ⟨⟨s.sp, s.buf, none, (W.length : ℤ) * nvar n, flat (Q r (dirAt q))⟩, ?_, rfl, fun sy hy => ?_⟩
  · unfold bfin
    rw [a1, if_neg (by omega), if_pos (by omega), show (1 + 2 * q) / 2 = q by omega, p1]
    dsimp only
    rw [(D.buf (dirAt q)).cnt, hlen, slice_buf (D.buf (dirAt q))]
    rfl
  · have p2 : bpay (is * 53 + 1 + 2 * q + 1) (.ok sy) = .dat (flat W) := by
      unfold bpay
      dsimp only
      rw [b1, if_neg (by omega), hy]
    obtain ⟨M, hM, nM, tM, npM⟩ := D.now
    have hfl : ((flat W).length : ℤ) = (W.length : ℤ) * nvar n := by rw [flat_length, hnv]; push_cast; ring
    obtain ⟨S', L', e', h', n', np', t'⟩ := unpackAll_ok (idx := (P r).idx) (b := ⟨(W.length : ℤ) * nvar n, (FArr.ofList (flat W)).val⟩) (off := 0) hM W
      (by dsimp only; rw [hfl]; simp) (fun i h => by
        dsimp only
        have := (FArr.holds_ofList (flat W)).2 i h
        rw [show ((0 : ℕ) : ℤ) + 1 + i = (i : ℤ) + 1 by push_cast; ring]
        exact this)
      (by rw [nM]; exact hin) (m := (W.length : ℤ) * nvar n) rfl
    rw [nM] at n' t'
    have tW : (W : Multiset (Part n)) = handed .blocking (P (nb r (neg (dirAt q)))) (sp (nb r (neg (dirAt q))) is).nt (L (nb r (neg (dirAt q))) is) (dirAt q) := by
      rw [← hW]; exact hQ _ _
    refine ⟨⟨Function.update s.sp is S', s.buf, none, 0, []⟩, ?_, ⟨fun i hi => ?_, fun i hi => ?_, D.buf, L', ?_, ?_, ?_, ?_⟩⟩
    · unfold bfin
      rw [b1, if_neg (by omega), if_neg (by omega), p2, b2]
      dsimp only
      rw [if_pos hfl.le]
      have e'' : unpackAll (P r).idx ⟨(W.length : ℤ) * nvar n, (FArr.ofList (flat W)).val⟩ 0 ((W.length : ℤ) * nvar n) (s.sp is) = .ok S' := e'
      rw [e'']
      rfl
    · dsimp only; rw [Function.update_of_ne (by omega)]; exact D.done i hi
    · dsimp only; rw [Function.update_of_ne (by omega)]; exact D.todo i (by omega)
    · dsimp only; rw [Function.update_self]; exact h'
    · dsimp only; rw [Function.update_self]; exact n'
    · rw [t', tM, arrived_succ _ _ _ _ _ hq, tW, add_assoc]
    · dsimp only
      rw [Function.update_self, np', t', Multiset.card_add, Multiset.coe_card]
      push_cast
      omega

theorem during_end {nb : R → I3 → R} {P : R → Proc n} {sp : R → ℕ → Species n} {L : R → ℕ → I3 → List (Part n)} {Q : R → I3 → List (Part n)} {is : ℕ} {r : R} {s : BMem n}
    (D : During nb P sp L Q is 26 r s) : Begin nb P sp L (is + 1) r s := by
  refine ⟨fun i hi => ?_, fun i hi => D.todo i (by omega)⟩
  by_cases h : i = is
  · subst h
    obtain ⟨M, h1, h2, h3, h4⟩ := D.now
    refine ⟨M, h1, h2, ?_, h4⟩
    dsimp only
    rw [h3]
    unfold arrived
    rw [List.take_of_length_le (by rw [dirs_length])]
  · exact D.done i (by omega)

/-- The lockstep execution. -/
theorem b_sync {K : ℕ} {nb : R → I3 → R} {P : R → Proc n} {sp : R → ℕ → Species n} {L : R → ℕ → I3 → List (Part n)} (hm : Mutual nb)
    (h : ∀ r is, is < K → HoldsAll (sp r is) (L r is)) (hl : ∀ is, is < K → Land .blocking nb P (fun r => (sp r is).nt) fun r => L r is) {m0 : R → Res (BMem n)}
    (h0 : ∀ r, ∃ s, m0 r = .ok s ∧ s.sp = sp r) : ∀ is, is ≤ K → ∀ r, ∃ s, Mpi.sync (blocking K nb P) m0 (is * 53) r = .ok s ∧ Begin nb P sp L is r s := by
  intro is
  induction is with
  | zero =>
    intro _ r
    obtain ⟨s, e, hs⟩ := h0 r
    exact ⟨s, by rw [Nat.zero_mul, Mpi.sync]; exact e, fun i hi => absurd hi (by omega), fun i _ => by rw [hs]⟩
  | succ is ih =>
    intro hK
    choose s0 e0 B0 using ih (by omega)
    choose s1 X e1 hX D1 using fun r => scan_step (h r is (by omega)) (B0 r)
    have start : ∀ r, Mpi.sync (blocking K nb P) m0 (is * 53 + 1) r = .ok (s1 r) := by
      intro r
      rw [b_sync0 K nb P m0 (is * 53) r (by omega), e0, b_bind, e1]
    have loop : ∀ q, q ≤ 26 → ∀ r, ∃ s, Mpi.sync (blocking K nb P) m0 (is * 53 + 1 + 2 * q) r = .ok s ∧ During nb P sp L X is q r s := by
      intro q
      induction q with
      | zero => intro _ r; exact ⟨s1 r, start r, D1 r X rfl⟩
      | succ q ihq =>
        intro hq
        choose s eS D using ihq (by omega)
        have hin : ∀ r, ∀ p ∈ X (nb r (neg (dirAt q))) (dirAt q), InBox ⟨1, 1, 1⟩ (sp r is).nt ((P r).idx p) := by
          intro r p hp
          have hd := dirAt_mem (show q < 26 by omega)
          have h1 := hl is (by omega) (nb r (neg (dirAt q))) (dirAt q) hd p (by rw [← hX]; exact hp)
          have h2 : nb (nb r (neg (dirAt q))) (dirAt q) = r := by simpa [neg_neg'] using hm r _ (neg_mem hd)
          rw [h2] at h1
          exact h1
        choose t1 f1 o1 g1 using fun r => dir_step (by omega) hX (D r) (hin r) ((D (nb r (neg (dirAt q)))).buf (dirAt q))
        have first : ∀ r, Mpi.sync (blocking K nb P) m0 (is * 53 + 1 + 2 * q + 1) r = .ok (t1 r) := by
          intro r
          rw [b_sync1 K nb P m0 _ r (by omega), show ((is * 53 + 1 + 2 * q) % 53 - 1) / 2 = q by omega, eS, eS, b_put, b_bind, f1]
        intro r
        obtain ⟨s2, f2, D2⟩ := g1 r (t1 (nb r (neg (dirAt q)))) (o1 _)
        refine ⟨s2, ?_, D2⟩
        rw [show is * 53 + 1 + 2 * (q + 1) = is * 53 + 1 + 2 * q + 1 + 1 by ring, b_sync1 K nb P m0 _ r (by omega),
          show ((is * 53 + 1 + 2 * q + 1) % 53 - 1) / 2 = q by omega, first, first, b_put, b_bind, f2]
    intro r
    obtain ⟨s, e, D⟩ := loop 26 le_rfl r
    exact ⟨s, by rw [show (is + 1) * 53 = is * 53 + 1 + 2 * 26 by ring]; exact e, during_end D⟩

end Picsar.PartExchange
