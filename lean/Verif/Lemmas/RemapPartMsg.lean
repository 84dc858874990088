import Verif.Lemmas.RemapPart
/-
Messages of the exchange of particles after a new split.
-/
namespace Picsar.RemapPart
open Picsar Picsar.Grid Picsar.Tiling Picsar.PartExchange Picsar.Remap Picsar.LoadBalance

variable {n : ℕ}

theorem holdsSp_cons {S : Species n} {Ss : List (Species n)} {L : ℕ → I3 → List (Part n)} (h : HoldsSp (S :: Ss) L) :
    HoldsAll S (L 0) ∧ HoldsSp Ss fun i => L (i + 1) :=
  ⟨h 0 S rfl, fun i T hT => h (i + 1) T (by simpa using hT)⟩

theorem number_cons (S : Species n) (Ss : List (Species n)) (L : ℕ → I3 → List (Part n)) :
    number (S :: Ss) L = Multiset.card (total S.nt (L 0)) + number Ss fun i => L (i + 1) := by
  unfold number
  rw [List.mapIdx_cons, List.sum_cons]

/-- What is left of species `S` after the particles of `L` that leave have been packed, and the packed particles. -/
structure Left (P : Proc n) (S S' : Species n) (L M : I3 → List (Part n)) (f : ℤ → ℤ) (X : ℤ → List (Part n)) : Prop where
  nt : S'.nt = S.nt
  holds : HoldsAll S' M
  stay : total S.nt M = stays P S.nt L
  count : ∀ d, f d = (X d).length
  gone : ∀ d, (X d : Multiset (Part n)) = handed P S.nt L d
  npart : S'.npart - Multiset.card (total S.nt M) = S.npart - Multiset.card (total S.nt L)

theorem scanAll_ok (P : Proc n) {cap : ℤ} : ∀ (Ss : List (Species n)) (L : ℕ → I3 → List (Part n)) (buf : ℤ → FArr ℝ) (cn : ℤ → ℤ) (B : ℤ → List (Part n)),
    HoldsSp Ss L → (∀ i S, Ss[i]? = some S → Routed P S.nt (L i)) → (∀ d, Col cap (buf d) (B d) ∧ cn d = ((B d).length : ℤ)) →
    (∀ d, ((B d).length : ℤ) + number Ss L ≤ cap) →
    ∃ (out : List (Species n × (ℤ → ℤ))) (buf' : ℤ → FArr ℝ) (M : ℕ → I3 → List (Part n)) (X : ℤ → List (List (Part n))),
      scanAll P Ss buf cn = .ok (out, buf') ∧ out.length = Ss.length ∧ (∀ d, (X d).length = Ss.length) ∧
      (∀ i S, Ss[i]? = some S → ∃ S' f, out[i]? = some (S', f) ∧ Left P S S' (L i) (M i) f fun d => (X d).getD i []) ∧
      (∀ d, out.map (fun e => e.2 d) = (X d).map fun l => (l.length : ℤ)) ∧ ∀ d, Col cap (buf' d) (B d ++ (X d).flatten)
  | [], L, buf, cn, B, _, _, hB, _ => ⟨[], buf, L, fun _ => [], rfl, rfl, fun _ => rfl, fun i S hS => by simp at hS, fun _ => rfl, fun d => by simpa using (hB d).1⟩
  | S :: Ss, L, buf, cn, B, h, hr, hB, hcap => by
    obtain ⟨h0, hs⟩ := holdsSp_cons h
    obtain ⟨s', M', X, e, n', h', st, pk, px, le, np⟩ := scanSpecies_ok P (s := ⟨S, buf, cn, fun _ => 0⟩) h0 (hr 0 S rfl) hB (fun d => by
      have := hcap d
      rw [number_cons] at this
      push_cast at this
      show _ + (Multiset.card (total S.nt (L 0)) : ℤ) ≤ cap
      omega)
    obtain ⟨out, buf', M2, X2, e2, l2, l3, k2, c2, b2⟩ := scanAll_ok P Ss (fun i => L (i + 1)) s'.buf s'.cnt (fun d => B d ++ X d) hs
      (fun i T hT => hr (i + 1) T (by simpa using hT)) pk.buf (fun d => by
      have := hcap d
      have := le d
      rw [number_cons] at *
      rw [List.length_append]
      push_cast at *
      have : ((X d).length : ℤ) ≤ Multiset.card (total S.nt (L 0)) := by exact_mod_cast le d
      omega)
    have hsend : ∀ d, s'.send d = (X d).length := fun d => by rw [pk.send d]; simp
    refine ⟨(s'.S, s'.send) :: out, buf', fun i => match i with | 0 => M' | i + 1 => M2 i, fun d => X d :: X2 d, ?_, by simp [l2], fun d => by simp [l3 d],
      fun i T hT => ?_, fun d => ?_, fun d => ?_⟩
    · unfold scanAll
      rw [e]
      simp only [except_bind_ok]
      rw [e2]
      rfl
    · cases i with
      | zero =>
        simp only [List.getElem?_cons_zero, Option.some.injEq] at hT
        subst hT
        exact ⟨_, _, rfl, n', h', st, fun d => by simpa using hsend d, fun d => by simpa using px d, np⟩
      | succ i =>
        obtain ⟨S2, f, e3, k3⟩ := k2 i T (by simpa using hT)
        exact ⟨S2, f, by simpa using e3, k3.nt, k3.holds, k3.stay, fun d => by simpa using k3.count d, fun d => by simpa using k3.gone d, k3.npart⟩
    · simp only [List.map_cons, hsend, c2]
    · rw [List.flatten_cons, ← List.append_assoc]
      exact b2 d

/-- Message with the particles of `Y`, species by species. -/
def packet (Y : List (List (Part n))) : Msg := (Y.map fun l => (l.length : ℤ), flat Y.flatten)

theorem sum_lengths (Y : List (List (Part n))) : (Y.map fun l => (l.length : ℤ)).sum = (Y.flatten.length : ℤ) := by
  induction Y with
  | nil => rfl
  | cons l Y ih => rw [List.map_cons, List.sum_cons, ih, List.flatten_cons, List.length_append]; push_cast; ring

theorem mapM_ok {α β : Type} (f : α → Res β) (g : α → β) : ∀ (l : List α), (∀ a ∈ l, f a = .ok (g a)) → l.mapM f = .ok (l.map g)
  | [], _ => rfl
  | a :: l, h => by
    rw [List.mapM_cons, h a (by simp), except_bind_ok, mapM_ok f g l (fun b hb => h b (by simp [hb]))]
    rfl

theorem before_ok (P : Proc n) {npl : ℤ} {Ss : List (Species n)} {L : ℕ → I3 → List (Part n)} (h : HoldsSp Ss L)
    (hr : ∀ i S, Ss[i]? = some S → Routed P S.nt (L i)) (hcap : (number Ss L : ℤ) ≤ npl)
    (hn : P.ranks.length ≤ 1000 ∧ P.nrecv ≤ 1000) :
    ∃ (Ss' : List (Species n)) (M : ℕ → I3 → List (Part n)) (X : ℤ → List (List (Part n))),
      before P npl Ss = .ok (Ss', (irange 1 P.ranks.length).map fun k => packet (X k)) ∧ Ss'.length = Ss.length ∧ (∀ d, (X d).length = Ss.length) ∧
      ∀ i S, Ss[i]? = some S → ∃ S' f, Ss'[i]? = some S' ∧ Left P S S' (L i) (M i) f fun d => (X d).getD i [] := by
  obtain ⟨out, buf', M, X, e, l1, l2, k, c, b⟩ := scanAll_ok P Ss L (fun _ => FArr.undef (nvar n * npl)) (fun _ => 0) (fun _ => []) h hr
    (fun d => ⟨col_new _ (by omega), rfl⟩) (fun d => by simpa using hcap)
  refine ⟨out.map Prod.fst, M, X, ?_, by simpa using l1, l2, fun i S hS => ?_⟩
  · unfold before
    rw [if_pos hn, e]
    simp only [except_bind_ok]
    rw [mapM_ok _ (fun k => packet (X k))]
    · rfl
    · intro d _
      have hcol := b d
      rw [List.nil_append] at hcol
      have hlen : (nvar n * ((X d).map fun l => (l.length : ℤ)).sum).toNat = (flat (X d).flatten).length := by
        rw [sum_lengths, flat_length]
        unfold nvar
        rw [show ((n : ℤ) + 7) * ((X d).flatten.length : ℤ) = (((X d).flatten.length * (n + 7) : ℕ) : ℤ) by push_cast; ring, Int.toNat_natCast]
      rw [c d, hlen, slice_ok (flat (X d).flatten) 1 le_rfl (by have := hcol.arr.1; omega) (fun i hi => by
        rw [← hcol.arr.2 i hi]
        congr 1
        ring)]
      rfl
  · obtain ⟨S', f, e', k'⟩ := k i S hS
    exact ⟨S', f, by rw [List.getElem?_map, e']; rfl, k'⟩

/-! ### Unpacking -/

/-- Species `S'` is `S` with the particles of `Y` added. -/
structure Grown (S S' : Species n) (L M : I3 → List (Part n)) (Y : Multiset (Part n)) : Prop where
  nt : S'.nt = S.nt
  holds : HoldsAll S' M
  all : total S.nt M = total S.nt L + Y
  npart : S'.npart = S.npart + Multiset.card Y

theorem unpackSpecies_ok {idx : Part n → I3} {b : FArr ℝ} : ∀ (Ss : List (Species n)) (Y : List (List (Part n))) (L : ℕ → I3 → List (Part n)) (off : ℕ),
    Ss.length = Y.length → HoldsSp Ss L → (off : ℤ) + (flat Y.flatten).length ≤ b.n →
    (∀ (i : ℕ) (h : i < (flat Y.flatten).length), b.val (off + 1 + i) = some (flat Y.flatten)[i]) →
    (∀ i S, Ss[i]? = some S → ∀ p ∈ Y.getD i [], InBox ⟨1, 1, 1⟩ S.nt (idx p)) →
    ∃ (Ss' : List (Species n)) (M : ℕ → I3 → List (Part n)), unpackSpecies idx b off (Y.map fun l => (l.length : ℤ)) Ss = .ok Ss' ∧ Ss'.length = Ss.length ∧
      ∀ i S, Ss[i]? = some S → ∃ S', Ss'[i]? = some S' ∧ Grown S S' (L i) (M i) (Y.getD i [] : List (Part n))
  | [], Y, L, off, _, _, _, _, _ => ⟨[], L, by unfold unpackSpecies; rfl, rfl, fun i S hS => by simp at hS⟩
  | S :: Ss, [], L, off, hl, _, _, _, _ => by simp at hl
  | S :: Ss, l :: Y, L, off, hl, h, hb, hv, hi => by
    obtain ⟨h0, hs⟩ := holdsSp_cons h
    have hf : flat (l :: Y).flatten = flat l ++ flat Y.flatten := by rw [List.flatten_cons, flat_append]
    rw [hf, List.length_append] at hb
    push_cast at hb
    obtain ⟨S1, L1, e1, h1, n1, np1, t1⟩ := unpackAll_ok (idx := idx) (b := b) (off := off) h0 l (by omega) (fun i hi' => by
      rw [hv i (by rw [hf, List.length_append]; omega)]
      simp only [hf]
      rw [List.getElem_append_left hi']) (fun p hp => hi 0 S rfl p (by simpa using hp)) (m := nvar n * l.length) (by ring)
    have hoff : (off : ℤ) + nvar n * l.length = ((off + (flat l).length : ℕ) : ℤ) := by
      rw [flat_length]; unfold nvar; push_cast; ring
    obtain ⟨Ss', M, e2, l2, k2⟩ := unpackSpecies_ok (idx := idx) (b := b) Ss Y (fun i => L (i + 1)) (off + (flat l).length) (by simpa using hl) hs (by push_cast; omega)
      (fun i hi' => by
        have := hv ((flat l).length + i) (by rw [hf, List.length_append]; omega)
        simp only [hf] at this
        rw [List.getElem_append_right (by omega)] at this
        simp only [Nat.add_sub_cancel_left] at this
        rw [← this]
        congr 1
        push_cast
        ring)
      (fun i T hT p hp => hi (i + 1) T (by simpa using hT) p (by simpa using hp))
    refine ⟨S1 :: Ss', fun i => match i with | 0 => L1 | i + 1 => M i, ?_, by simp [l2], fun i T hT => ?_⟩
    · rw [List.map_cons]
      unfold unpackSpecies
      rw [e1]
      simp only [except_bind_ok]
      rw [hoff, e2]
      rfl
    · cases i with
      | zero =>
        simp only [List.getElem?_cons_zero, Option.some.injEq] at hT
        subst hT
        exact ⟨S1, rfl, n1, h1, by simpa using t1, by simpa using np1⟩
      | succ i =>
        obtain ⟨S2, e3, k3⟩ := k2 i T (by simpa using hT)
        exact ⟨S2, by simpa using e3, k3.nt, k3.holds, by simpa using k3.all, by simpa using k3.npart⟩

theorem column_val {nmax : ℤ} {d : List ℝ} (i : ℕ) (h : i < d.length) : (column nmax d).val (((0 : ℕ) : ℤ) + 1 + i) = some d[i] := by
  unfold column
  dsimp only
  rw [if_pos (by omega), show (((0 : ℕ) : ℤ) + 1 + (i : ℤ) - 1).toNat = i by omega, List.getElem?_eq_getElem h]

theorem le_foldr_max : ∀ (l : List ℤ) (x : ℤ), x ∈ l → x ≤ l.foldr max 0
  | a :: l, x, h => by
    rw [List.foldr_cons]
    rcases List.mem_cons.mp h with h | h
    · omega
    · have := le_foldr_max l x h; omega

/-- Unpacking the messages of several processes. -/
theorem after_ok {idx : Part n → I3} (Ys : List (List (List (Part n)))) {Ss : List (Species n)} {L : ℕ → I3 → List (Part n)}
    (hl : ∀ Y ∈ Ys, Y.length = Ss.length) (h : HoldsSp Ss L)
    (hi : ∀ i S, Ss[i]? = some S → ∀ Y ∈ Ys, ∀ p ∈ Y.getD i [], InBox ⟨1, 1, 1⟩ S.nt (idx p)) :
    ∃ (Ss' : List (Species n)) (M : ℕ → I3 → List (Part n)), after idx (Ys.map packet) Ss = .ok Ss' ∧ Ss'.length = Ss.length ∧
      ∀ i S, Ss[i]? = some S → ∃ S', Ss'[i]? = some S' ∧ Grown S S' (L i) (M i) (Ys.map fun Y => (Y.getD i [] : Multiset (Part n))).sum := by
  unfold after
  dsimp only
  have key : ∀ (nmax : ℤ) (Zs : List (List (List (Part n)))), (∀ Y ∈ Zs, Y ∈ Ys ∧ nvar n * (Y.flatten.length : ℤ) ≤ nmax) →
      ∀ (Ts : List (Species n)) (K : ℕ → I3 → List (Part n)), Ts.length = Ss.length → HoldsSp Ts K → (∀ (i : ℕ) (T S : Species n), Ts[i]? = some T → Ss[i]? = some S → T.nt = S.nt) →
      ∃ (Ss' : List (Species n)) (M : ℕ → I3 → List (Part n)),
        (Zs.map packet).foldlM (fun Ss m => unpackSpecies idx (column nmax m.2) 0 m.1 Ss) Ts = .ok Ss' ∧ Ss'.length = Ts.length ∧
        ∀ i S, Ts[i]? = some S → ∃ S', Ss'[i]? = some S' ∧ Grown S S' (K i) (M i) (Zs.map fun Y => (Y.getD i [] : Multiset (Part n))).sum := by
    intro nmax Zs
    induction Zs with
    | nil =>
      intro _ Ts K _ hK _
      exact ⟨Ts, K, rfl, rfl, fun i S hS => ⟨S, hS, rfl, hK i S hS, by simp, by simp⟩⟩
    | cons Y Zs ih =>
      intro hZ Ts K hlen hK hnt
      have hY := hZ Y (by simp)
      obtain ⟨S1, M1, e1, l1, k1⟩ := unpackSpecies_ok (idx := idx) (b := column nmax (flat Y.flatten)) Ts Y K 0 (by rw [hlen, hl Y hY.1]) hK
        (by
          show ((0 : ℕ) : ℤ) + _ ≤ nmax
          have := hY.2
          rw [flat_length]
          unfold nvar at this
          push_cast
          linarith)
        (fun i hi' => column_val i hi')
        (fun i T hT p hp => by
          obtain ⟨hlt, -⟩ := List.getElem?_eq_some_iff.mp hT
          have hS : Ss[i]? = some (Ss[i]'(by omega)) := List.getElem?_eq_getElem (by omega)
          rw [hnt i T _ hT hS]
          exact hi i _ hS Y hY.1 p hp)
      have hget : ∀ i T1, S1[i]? = some T1 → ∃ T, Ts[i]? = some T ∧ Grown T T1 (K i) (M1 i) (Y.getD i [] : List (Part n)) := by
        intro i T1 hT1
        obtain ⟨hlt, -⟩ := List.getElem?_eq_some_iff.mp hT1
        have hT : Ts[i]? = some (Ts[i]'(by omega)) := List.getElem?_eq_getElem (by omega)
        obtain ⟨S', e', g'⟩ := k1 i _ hT
        rw [hT1] at e'
        cases e'
        exact ⟨_, hT, g'⟩
      obtain ⟨S2, M2, e2, l2, k2⟩ := ih (fun Z hZ' => hZ Z (by simp [hZ'])) S1 M1 (by rw [l1, hlen])
        (fun i T1 hT1 => by obtain ⟨T, -, g⟩ := hget i T1 hT1; exact g.holds)
        (fun i T1 S hT1 hS => by obtain ⟨T, hT, g⟩ := hget i T1 hT1; rw [g.nt]; exact hnt i T S hT hS)
      refine ⟨S2, M2, ?_, by rw [l2, l1], fun i T hT => ?_⟩
      · rw [List.map_cons, List.foldlM_cons]
        show (unpackSpecies idx (column nmax (flat Y.flatten)) ((0 : ℕ) : ℤ) (Y.map fun l => (l.length : ℤ)) Ts >>= _) = _
        rw [e1, except_bind_ok]
        exact e2
      · obtain ⟨T1, eT, g1⟩ := k1 i T hT
        obtain ⟨T2, eT2, g2⟩ := k2 i T1 eT
        refine ⟨T2, eT2, by rw [g2.nt, g1.nt], g2.holds, ?_, ?_⟩
        · have := g2.all
          rw [g1.nt] at this
          rw [this, g1.all, List.map_cons, List.sum_cons, add_assoc]
        · rw [g2.npart, g1.npart, List.map_cons, List.sum_cons, Multiset.card_add]
          push_cast
          ring
  refine key _ Ys (fun Y hY => ⟨hY, ?_⟩) Ss L rfl h (fun i T S hT hS => by rw [hT] at hS; cases hS; rfl)
  refine mul_le_mul_of_nonneg_left (le_foldr_max _ _ ?_) (by unfold nvar; positivity)
  rw [List.map_map, List.mem_map]
  exact ⟨Y, hY, sum_lengths Y⟩

end Picsar.RemapPart
