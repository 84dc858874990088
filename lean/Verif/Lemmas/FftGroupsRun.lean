import Verif.Lemmas.FftGroups
import Mathlib.Data.Int.Interval

namespace Picsar.FftGroups
open Picsar Picsar.Mpi

variable {Y Z : Axis} {gy gz : ℤ}

instance : Fintype (Proc Y Z) := Fintype.subtype (Finset.Ico 0 Y.P ×ˢ Finset.Ico 0 Z.P) (by intro x; simp [Finset.mem_product])

theorem mod_shift {a b P k : ℤ} (ha : 0 ≤ a ∧ a < P) (hb : 0 ≤ b ∧ b < P) : (a + k) % P = b ↔ (b - k) % P = a := by
  have h1 : (a + k) % P = b ↔ (a + k) % P = b % P := by rw [Int.emod_eq_of_lt hb.1 hb.2]
  have h2 : (b - k) % P = a ↔ (b - k) % P = a % P := by rw [Int.emod_eq_of_lt ha.1 ha.2]
  rw [h1, h2, Int.emod_eq_emod_iff_emod_sub_eq_zero, Int.emod_eq_emod_iff_emod_sub_eq_zero, ← Int.dvd_iff_emod_eq_zero,
    ← Int.dvd_iff_emod_eq_zero]
  have e : b - k - a = -(a + k - b) := by ring
  rw [e, Int.dvd_neg]

/-- One process is reached from the other by the same displacement. -/
theorem fwd_bwd (k : ℕ) (c d : Proc Y Z) : fwd k c = d ↔ bwd k d = c := by
  have h1 : fwd k c = d ↔ (fwd k c).1.1 = d.1.1 ∧ (fwd k c).1.2 = d.1.2 :=
    ⟨fun h => by rw [h]; exact ⟨rfl, rfl⟩, fun h => Subtype.ext (Prod.ext h.1 h.2)⟩
  have h2 : bwd k d = c ↔ (bwd k d).1.1 = c.1.1 ∧ (bwd k d).1.2 = c.1.2 :=
    ⟨fun h => by rw [h]; exact ⟨rfl, rfl⟩, fun h => Subtype.ext (Prod.ext h.1 h.2)⟩
  rw [h1, h2]
  exact and_congr (mod_shift c.2.1 d.2.1) (mod_shift c.2.2 d.2.2)

theorem fwd_bwd' (k : ℕ) (c : Proc Y Z) : fwd k (bwd k c) = c := (fwd_bwd k _ _).2 rfl

/-- Every process is reached by one of the displacements. -/
theorem reach (s d : Proc Y Z) : ∃ k, k < (Y.P * Z.P).toNat ∧ bwd k d = s := by
  have hy := s.2.1
  have hz := s.2.2
  have y1 := mod_range hy (d.1.1 - s.1.1)
  have z1 := mod_range hz (d.1.2 - s.1.2)
  have hnn : 0 ≤ (d.1.1 - s.1.1) % Y.P + Y.P * ((d.1.2 - s.1.2) % Z.P) := add_nonneg y1.1 (mul_nonneg (by omega) z1.1)
  refine ⟨((d.1.1 - s.1.1) % Y.P + Y.P * ((d.1.2 - s.1.2) % Z.P)).toNat, ?_, ?_⟩
  · have : Y.P * ((d.1.2 - s.1.2) % Z.P) + Y.P ≤ Y.P * Z.P := by
      have : Y.P * ((d.1.2 - s.1.2) % Z.P + 1) ≤ Y.P * Z.P := mul_le_mul_of_nonneg_left (by omega) (by omega)
      rw [mul_add, mul_one] at this
      exact this
    omega
  · rw [← fwd_bwd]
    apply Subtype.ext
    have e : ((((d.1.1 - s.1.1) % Y.P + Y.P * ((d.1.2 - s.1.2) % Z.P)).toNat : ℕ) : ℤ) =
        (d.1.1 - s.1.1) % Y.P + Y.P * ((d.1.2 - s.1.2) % Z.P) := by omega
    have e1 : ((d.1.1 - s.1.1) % Y.P + Y.P * ((d.1.2 - s.1.2) % Z.P)) % Y.P = (d.1.1 - s.1.1) % Y.P := by
      rw [Int.add_mul_emod_self_left, Int.emod_emod_of_dvd _ dvd_rfl]
    have e2 : ((d.1.1 - s.1.1) % Y.P + Y.P * ((d.1.2 - s.1.2) % Z.P)) / Y.P = (d.1.2 - s.1.2) % Z.P := by
      rw [Int.add_mul_ediv_left _ _ (by omega), Int.ediv_eq_zero_of_lt y1.1 y1.2, zero_add]
    unfold fwd
    simp only [e, e1, e2]
    refine Prod.ext ?_ ?_
    · show (s.1.1 + (d.1.1 - s.1.1) % Y.P) % Y.P = d.1.1
      rw [Int.add_emod_emod]
      rw [show s.1.1 + (d.1.1 - s.1.1) = d.1.1 by ring, Int.emod_eq_of_lt d.2.1.1 d.2.1.2]
    · show (s.1.2 + (d.1.2 - s.1.2) % Z.P) % Z.P = d.1.2
      rw [Int.add_emod_emod]
      rw [show s.1.2 + (d.1.2 - s.1.2) = d.1.2 by ring, Int.emod_eq_of_lt d.2.2.1 d.2.2.2]

theorem bwd_zero (d : Proc Y Z) : bwd 0 d = d := by
  apply Subtype.ext
  refine Prod.ext ?_ ?_
  · show (d.1.1 - ((0 : ℕ) : ℤ) % Y.P) % Y.P = d.1.1
    simp [Int.emod_eq_of_lt d.2.1.1 d.2.1.2]
  · show (d.1.2 - ((0 : ℕ) : ℤ) / Y.P) % Z.P = d.1.2
    simp [Int.emod_eq_of_lt d.2.2.1 d.2.2.2]

theorem fwd_zero (d : Proc Y Z) : fwd 0 d = d := by rw [fwd_bwd, bwd_zero]

/-! Pairing of the messages. -/

theorem flag_nonneg {a b s : ℤ} (h : 0 ≤ s) : 0 ≤ flag a b s := by unfold flag; split_ifs <;> omega

theorem flag_comm {a b s : ℤ} : flag a b s = flag b a s := by
  unfold flag
  by_cases h : b = a
  · subst h; rfl
  · rw [if_neg h, if_neg (Ne.symm h)]

theorem dst_iff (hY : Y.Ok gy) (hZ : Z.Ok gz) (w : Way) (k : ℕ) (s d : Proc Y Z) : w.dst Y Z k s = some d ↔
    fwd k s = d ∧ k < (Y.P * Z.P).toNat ∧ flag s.1.2 d.1.2 (w.cut.snd Z s.1.2 d.1.2).size ≠ 0 ∧
      flag s.1.1 d.1.1 (w.cut.snd Y s.1.1 d.1.1).size ≠ 0 := by
  unfold Way.dst
  simp only
  constructor
  · intro h
    split_ifs at h with hc
    have e := Option.some.inj h
    subst e
    refine ⟨rfl, ?_, hc.2⟩
    have := hc.1
    unfold Cut.work at this
    exact List.mem_range.1 (List.mem_filter.1 this).1
  · rintro ⟨rfl, h1, h2, h3⟩
    rw [if_pos]
    refine ⟨?_, h2, h3⟩
    unfold Cut.work
    refine List.mem_filter.2 ⟨List.mem_range.2 h1, decide_eq_true (.inl ?_)⟩
    have a1 := flag_nonneg (a := s.1.1) (b := (fwd k s).1.1) (size_eq hY w s.2.1 (fwd k s).1.1).2
    have a2 := flag_nonneg (a := s.1.2) (b := (fwd k s).1.2) (size_eq hZ w s.2.2 (fwd k s).1.2).2
    exact mul_pos (lt_of_le_of_ne a1 (Ne.symm h3)) (lt_of_le_of_ne a2 (Ne.symm h2))

theorem from_iff (hY : Y.Ok gy) (hZ : Z.Ok gz) (w : Way) (k : ℕ) (s d : Proc Y Z) : w.from Y Z k d = some s ↔
    bwd k d = s ∧ k < (Y.P * Z.P).toNat ∧ flag d.1.2 s.1.2 (w.cut.rcv Z d.1.2 s.1.2).size ≠ 0 ∧
      flag d.1.1 s.1.1 (w.cut.rcv Y d.1.1 s.1.1).size ≠ 0 := by
  unfold Way.from
  simp only
  constructor
  · intro h
    split_ifs at h with hc
    have e := Option.some.inj h
    subst e
    refine ⟨rfl, ?_, hc.2⟩
    have := hc.1
    unfold Cut.work at this
    exact List.mem_range.1 (List.mem_filter.1 this).1
  · rintro ⟨rfl, h1, h2, h3⟩
    rw [if_pos]
    refine ⟨?_, h2, h3⟩
    unfold Cut.work
    refine List.mem_filter.2 ⟨List.mem_range.2 h1, decide_eq_true (.inr ?_)⟩
    have a1 := flag_nonneg (a := d.1.1) (b := (bwd k d).1.1) (size_eq hY w (bwd k d).2.1 d.1.1).2
    have a2 := flag_nonneg (a := d.1.2) (b := (bwd k d).1.2) (size_eq hZ w (bwd k d).2.2 d.1.2).2
    rw [(size_eq hY w (bwd k d).2.1 d.1.1).1] at a1
    rw [(size_eq hZ w (bwd k d).2.2 d.1.2).1] at a2
    exact mul_pos (lt_of_le_of_ne a1 (Ne.symm h3)) (lt_of_le_of_ne a2 (Ne.symm h2))

theorem pair (hY : Y.Ok gy) (hZ : Z.Ok gz) (w : Way) (k : ℕ) (s d : Proc Y Z) : w.dst Y Z k s = some d ↔ w.from Y Z k d = some s := by
  rw [dst_iff hY hZ, from_iff hY hZ, fwd_bwd, (size_eq hY w s.2.1 d.1.1).1, (size_eq hZ w s.2.2 d.1.2).1]
  rw [flag_comm (a := s.1.1), flag_comm (a := s.1.2)]

/-- The array that is read is not written. -/
theorem src_put (w : Way) (is : List (ℤ × ℤ)) (v : List ℝ) (m : Mem) : w.src (w.put is v m) = w.src m := by cases w <;> rfl

theorem ok_of (hY : Y.Ok gy) (hZ : Z.Ok gz) (w : Way) : (blocking w Y Z).Ok ∧ (nonblocking w Y Z).Ok := by
  refine ⟨⟨rfl, fun g => Nat.le_succ g, fun k s d => pair hY hZ w (k + 1) s d, ?_⟩, ⟨by simp [nonblocking], fun g => ?_, fun k s d => pair hY hZ w (k + 1) s d, ?_⟩⟩
  · intro g k i r x m _ _ _ _
    show List.map (w.src (w.put _ _ _)) _ = List.map (w.src x) _
    rw [src_put]
  · exact Nat.mul_le_mul_right _ (Nat.le_succ g)
  · intro g k i r x m _ _ _ _
    show List.map (w.src (w.put _ _ _)) _ = List.map (w.src x) _
    rw [src_put]

/-! The result. -/

/-- Memory of process `d` after its first `K` receives. -/
def gather (w : Way) (Y Z : Axis) (m0 : Proc Y Z → Mem) (d : Proc Y Z) : ℕ → Mem
  | 0 => w.self Y Z d (m0 d)
  | K + 1 => match w.from Y Z (K + 1) d with
    | some s => w.put (w.into Y Z d.1 (bwd (K + 1) d).1) ((w.out Y Z s.1 (fwd (K + 1) s).1).map (w.src (m0 s))) (gather w Y Z m0 d K)
    | none => gather w Y Z m0 d K

theorem gather_src (w : Way) (m0 : Proc Y Z → Mem) (d : Proc Y Z) : ∀ K, w.src (gather w Y Z m0 d K) = w.src (m0 d) := by
  intro K
  induction K with
  | zero => exact src_put ..
  | succ K ih =>
    unfold gather
    split
    · rw [src_put, ih]
    · exact ih

theorem sync_blocking (w : Way) (m0 : Proc Y Z → Mem) : ∀ (K : ℕ) (d : Proc Y Z),
    sync (blocking w Y Z) (fun r => w.self Y Z r (m0 r)) K d = gather w Y Z m0 d K := by
  intro K
  induction K with
  | zero => intro d; rfl
  | succ K ih =>
    intro d
    have e : sync (blocking w Y Z) (fun r => w.self Y Z r (m0 r)) K = fun d => gather w Y Z m0 d K := funext ih
    show absorb (blocking w Y Z) _ d K (K + 1 - K) = _
    rw [Nat.add_sub_cancel_left, e]
    cases hf : w.from Y Z (K + 1) d with
    | none =>
      have h1 : (blocking w Y Z).src (K + 0) d = none := hf
      have h2 : gather w Y Z m0 d (K + 1) = gather w Y Z m0 d K := by rw [gather, hf]
      rw [absorb, h1, h2]
      rfl
    | some s =>
      have h1 : (blocking w Y Z).src (K + 0) d = some s := hf
      have h2 : gather w Y Z m0 d (K + 1) = w.put (w.into Y Z d.1 (bwd (K + 1) d).1) ((w.out Y Z s.1 (fwd (K + 1) s).1).map (w.src (m0 s)))
        (gather w Y Z m0 d K) := by rw [gather, hf]
      rw [absorb, h1, h2, ← gather_src w m0 s K]
      rfl

theorem absorb_nonblocking (w : Way) (m0 : Proc Y Z → Mem) (d : Proc Y Z) : ∀ K,
    absorb (nonblocking w Y Z) (fun r => w.self Y Z r (m0 r)) d 0 K = gather w Y Z m0 d K := by
  intro K
  induction K with
  | zero => rfl
  | succ K ih =>
    cases hf : w.from Y Z (K + 1) d with
    | none =>
      have h1 : (nonblocking w Y Z).src K d = none := hf
      have h2 : gather w Y Z m0 d (K + 1) = gather w Y Z m0 d K := by rw [gather, hf]
      rw [absorb, Nat.zero_add, h1, h2]
      exact ih
    | some s =>
      have h1 : (nonblocking w Y Z).src K d = some s := hf
      have h2 : gather w Y Z m0 d (K + 1) = w.put (w.into Y Z d.1 (bwd (K + 1) d).1) ((w.out Y Z s.1 (fwd (K + 1) s).1).map (w.src (m0 s)))
        (gather w Y Z m0 d K) := by rw [gather, hf]
      have h3 : w.src (w.self Y Z s (m0 s)) = w.src (m0 s) := src_put ..
      rw [absorb, Nat.zero_add, h1, h2, ← h3, ← ih]
      rfl

theorem sync_nonblocking (w : Way) (m0 : Proc Y Z → Mem) (d : Proc Y Z) :
    sync (nonblocking w Y Z) (fun r => w.self Y Z r (m0 r)) 1 d = gather w Y Z m0 d ((Y.P * Z.P).toNat - 1) := by
  show absorb (nonblocking w Y Z) _ d (0 * ((Y.P * Z.P).toNat - 1)) ((0 + 1) * ((Y.P * Z.P).toNat - 1) - 0 * ((Y.P * Z.P).toNat - 1)) = _
  simp only [Nat.zero_mul, Nat.zero_add, Nat.one_mul, Nat.sub_zero]
  exact absorb_nonblocking w m0 d _

/-- Both programs, started after the copies on the processes themselves, end in the same memory. -/
theorem final_mem (hY : Y.Ok gy) (hZ : Z.Ok gz) (w : Way) {Q : Prog (Proc Y Z) Mem (List ℝ)} (hQ : Q = blocking w Y Z ∨ Q = nonblocking w Y Z)
    (m0 : Proc Y Z → Mem) {n : ℕ} {c : Conf (Proc Y Z) Mem (List ℝ)} (e : Exec Q n (start fun r => w.self Y Z r (m0 r)) c) (hst : Stuck Q c)
    (d : Proc Y Z) : c.mem d = gather w Y Z m0 d ((Y.P * Z.P).toNat - 1) := by
  obtain ⟨o1, o2⟩ := ok_of hY hZ w
  rcases hQ with rfl | rfl
  · rw [(exec_result o1 e hst).1 d]
    exact sync_blocking w m0 _ d
  · rw [(exec_result o2 e hst).1 d]
    exact sync_nonblocking w m0 d

theorem store_map {α : Type} (τ : α → ℤ × ℤ) (v : α → ℝ) (i : ℤ × ℤ) : ∀ (L : List α) (f : ℤ × ℤ → ℝ),
    (∃ o ∈ L, τ o = i ∧ store (L.map τ) (L.map v) f i = v o) ∨ ((∀ o ∈ L, τ o ≠ i) ∧ store (L.map τ) (L.map v) f i = f i) := by
  intro L
  induction L with
  | nil => intro f; exact .inr ⟨by simp, rfl⟩
  | cons a L ih =>
    intro f
    rw [List.map_cons, List.map_cons]
    show (∃ o ∈ a :: L, τ o = i ∧ store (L.map τ) (L.map v) (Function.update f (τ a) (v a)) i = v o) ∨
      ((∀ o ∈ a :: L, τ o ≠ i) ∧ store (L.map τ) (L.map v) (Function.update f (τ a) (v a)) i = f i)
    rcases ih (Function.update f (τ a) (v a)) with ⟨o, ho, h1, h2⟩ | ⟨h1, h2⟩
    · exact .inl ⟨o, List.mem_cons_of_mem _ ho, h1, h2⟩
    · by_cases ha : τ a = i
      · refine .inl ⟨a, List.mem_cons_self, ha, ?_⟩
        rw [h2, ← ha, Function.update_self]
      · refine .inr ⟨?_, ?_⟩
        · intro o ho
          rcases List.mem_cons.1 ho with rfl | ho
          · exact ha
          · exact h1 o ho
        · rw [h2, Function.update_of_ne (Ne.symm ha)]

theorem mem_offs {sy sz : ℤ} {o : ℤ × ℤ} : o ∈ offs sy sz ↔ (0 ≤ o.1 ∧ o.1 < sy) ∧ 0 ≤ o.2 ∧ o.2 < sz := by
  unfold offs
  rw [List.mem_flatMap]
  constructor
  · rintro ⟨j, hj, h⟩
    rw [List.mem_map] at h
    obtain ⟨i, hi, rfl⟩ := h
    rw [List.mem_range] at hi hj
    simp only
    omega
  · rintro ⟨⟨a1, a2⟩, b1, b2⟩
    refine ⟨o.2.toNat, List.mem_range.2 (by omega), List.mem_map.2 ⟨o.1.toNat, List.mem_range.2 (by omega), ?_⟩⟩
    refine Prod.ext ?_ ?_ <;> simp only <;> omega

/-- The array that is written. -/
def Way.tgt : Way → Mem → ℤ × ℤ → ℝ
  | .toFft, m => m.f
  | .toGrid, m => m.l

theorem tgt_put (w : Way) (is : List (ℤ × ℤ)) (v : List ℝ) (m : Mem) : w.tgt (w.put is v m) = store is v (w.tgt m) := by cases w <;> rfl

/-- Where the two parts of an element come from. -/
def Way.Rel2 (w : Way) (Y Z : Axis) (d : Proc Y Z) (p : ℤ × ℤ) (s : Proc Y Z) (c : ℤ × ℤ) : Prop :=
  w.Rel Y d.1.1 p.1 s.1.1 c.1 ∧ w.Rel Z d.1.2 p.2 s.1.2 c.2

/-- Effect of one message: elements that come from the sender hold its value, all others are left. -/
theorem msg (hY : Y.Ok gy) (hZ : Z.Ok gz) (aY : Y.Aligned) (aZ : Z.Aligned) (w : Way) (s d : Proc Y Z) (v : ℤ × ℤ → ℝ) (f : ℤ × ℤ → ℝ)
    (p : ℤ × ℤ) :
    (∃ c, w.Rel2 Y Z d p s c ∧ store (w.into Y Z d.1 s.1) ((w.out Y Z s.1 d.1).map v) f p = v c) ∨
    ((w.Full Y → w.Full Z → ¬ ∃ c, w.Rel2 Y Z d p s c) ∧ store (w.into Y Z d.1 s.1) ((w.out Y Z s.1 d.1).map v) f p = f p) := by
  obtain ⟨y1, y2⟩ := size_eq hY w s.2.1 d.1.1
  obtain ⟨z1, z2⟩ := size_eq hZ w s.2.2 d.1.2
  unfold Way.into Way.out cellsOf
  rw [← y1, ← z1, List.map_map]
  rcases store_map (fun o : ℤ × ℤ => ((w.cut.rcv Y d.1.1 s.1.1).first + o.1, (w.cut.rcv Z d.1.2 s.1.2).first + o.2))
    (v ∘ fun o : ℤ × ℤ => ((w.cut.snd Y s.1.1 d.1.1).first + o.1, (w.cut.snd Z s.1.2 d.1.2).first + o.2)) p
    (offs (w.cut.snd Y s.1.1 d.1.1).size (w.cut.snd Z s.1.2 d.1.2).size) f with ⟨o, ho, h1, h2⟩ | ⟨h1, h2⟩
  · left
    obtain ⟨⟨a1, a2⟩, b1, b2⟩ := mem_offs.1 ho
    refine ⟨_, ?_, h2⟩
    rw [← h1]
    exact ⟨sound hY aY w s.2.1 d.2.1 a1 a2, sound hZ aZ w s.2.2 d.2.2 b1 b2⟩
  · right
    refine ⟨?_, h2⟩
    rintro fy fz ⟨c, r1, r2⟩
    obtain ⟨i, i0, i1, i2, -⟩ := complete hY aY w fy s.2.1 d.2.1 r1
    obtain ⟨j, j0, j1, j2, -⟩ := complete hZ aZ w fz s.2.2 d.2.2 r2
    exact h1 (i, j) (mem_offs.2 ⟨⟨i0, i1⟩, j0, j1⟩) (Prod.ext i2.symm j2.symm)

theorem rel2_uniq (hY : Y.Ok gy) (hZ : Z.Ok gz) (w : Way) {d s s' : Proc Y Z} {p c c' : ℤ × ℤ} (h : w.Rel2 Y Z d p s c) (h' : w.Rel2 Y Z d p s' c') :
    s = s' ∧ c = c' := by
  obtain ⟨a1, a2⟩ := rel_uniq hY w s.2.1 s'.2.1 h.1 h'.1
  obtain ⟨b1, b2⟩ := rel_uniq hZ w s.2.2 s'.2.2 h.2 h'.2
  exact ⟨Subtype.ext (Prod.ext a1 b1), Prod.ext a2 b2⟩

theorem self_eq (hY : Y.Ok gy) (hZ : Z.Ok gz) (w : Way) (d : Proc Y Z) (m : Mem) :
    w.self Y Z d m = w.put (w.into Y Z d.1 d.1) ((w.out Y Z d.1 d.1).map (w.src m)) m := by
  obtain ⟨y1, -⟩ := size_eq hY w d.2.1 d.1.1
  obtain ⟨z1, -⟩ := size_eq hZ w d.2.2 d.1.2
  unfold Way.self Way.out cellsOf
  rw [y1, z1]

/-- After `K` receives: what came is right, the rest is as before. -/
theorem gather_tgt (hY : Y.Ok gy) (hZ : Z.Ok gz) (aY : Y.Aligned) (aZ : Z.Aligned) (w : Way) (m0 : Proc Y Z → Mem) (d : Proc Y Z) (p : ℤ × ℤ) :
    ∀ K, K < (Y.P * Z.P).toNat →
    ((∃ s c, w.Rel2 Y Z d p s c ∧ w.tgt (gather w Y Z m0 d K) p = w.src (m0 s) c) ∨ w.tgt (gather w Y Z m0 d K) p = w.tgt (m0 d) p) ∧
    (w.Full Y → w.Full Z → ∀ s c k, k ≤ K → bwd k d = s → w.Rel2 Y Z d p s c → w.tgt (gather w Y Z m0 d K) p = w.src (m0 s) c) := by
  intro K
  induction K with
  | zero =>
    intro _
    have e : gather w Y Z m0 d 0 = w.put (w.into Y Z d.1 d.1) ((w.out Y Z d.1 d.1).map (w.src (m0 d))) (m0 d) := self_eq hY hZ w d _
    rw [e, tgt_put]
    rcases msg hY hZ aY aZ w d d (w.src (m0 d)) (w.tgt (m0 d)) p with ⟨c, h1, h2⟩ | ⟨h1, h2⟩
    · refine ⟨.inl ⟨d, c, h1, h2⟩, ?_⟩
      intro _ _ s c' k hk hb hr
      obtain ⟨rfl, rfl⟩ := rel2_uniq hY hZ w h1 hr
      exact h2
    · refine ⟨.inr h2, ?_⟩
      intro fy fz s c' k hk hb hr
      have k0 : k = 0 := by omega
      rw [k0, bwd_zero] at hb
      subst hb
      exact absurd ⟨c', hr⟩ (h1 fy fz)
  | succ K ih =>
    intro hK
    obtain ⟨ih1, ih2⟩ := ih (by omega)
    unfold gather
    cases hf : w.from Y Z (K + 1) d with
    | none =>
      simp only
      refine ⟨ih1, ?_⟩
      intro fy fz s c k hk hb hr
      rcases Nat.lt_or_ge k (K + 1) with h | h
      · exact ih2 fy fz s c k (by omega) hb hr
      · exfalso
        have hk' : k = K + 1 := by omega
        subst hk'
        have : w.from Y Z (K + 1) d = some s := by
          rw [from_iff hY hZ]
          refine ⟨hb, hK, ?_, ?_⟩
          · obtain ⟨i, i0, i1, -, -⟩ := complete hZ aZ w fz s.2.2 d.2.2 hr.2
            rw [(size_eq hZ w s.2.2 d.1.2).1] at i1
            unfold flag
            split_ifs <;> omega
          · obtain ⟨i, i0, i1, -, -⟩ := complete hY aY w fy s.2.1 d.2.1 hr.1
            rw [(size_eq hY w s.2.1 d.1.1).1] at i1
            unfold flag
            split_ifs <;> omega
        rw [hf] at this
        cases this
    | some s0 =>
      simp only
      have hb0 := ((from_iff hY hZ w _ _ _).1 hf).1
      rw [tgt_put, hb0, (fwd_bwd (K + 1) s0 d).2 hb0]
      rcases msg hY hZ aY aZ w s0 d (w.src (m0 s0)) (w.tgt (gather w Y Z m0 d K)) p with ⟨c, h1, h2⟩ | ⟨h1, h2⟩
      · refine ⟨.inl ⟨s0, c, h1, h2⟩, ?_⟩
        intro _ _ s c' k hk hb hr
        obtain ⟨rfl, rfl⟩ := rel2_uniq hY hZ w h1 hr
        exact h2
      · rw [h2]
        refine ⟨ih1, ?_⟩
        intro fy fz s c k hk hb hr
        rcases Nat.lt_or_ge k (K + 1) with h | h
        · exact ih2 fy fz s c k (by omega) hb hr
        · exfalso
          have hk' : k = K + 1 := by omega
          subst hk'
          rw [hb0] at hb
          subst hb
          exact h1 fy fz ⟨c, hr⟩

theorem prod_pos (hY : Y.Ok gy) (hZ : Z.Ok gz) : 0 < (Y.P * Z.P).toNat := by
  have a := hY.pPos
  have b := hZ.pPos
  have : 0 < Y.P * Z.P := mul_pos (by omega) (by omega)
  omega

/-- The result of the exchange. -/
theorem result (hY : Y.Ok gy) (hZ : Z.Ok gz) (aY : Y.Aligned) (aZ : Z.Aligned) (w : Way) {Q : Prog (Proc Y Z) Mem (List ℝ)}
    (hQ : Q = blocking w Y Z ∨ Q = nonblocking w Y Z) (m0 : Proc Y Z → Mem) {n : ℕ} {c : Conf (Proc Y Z) Mem (List ℝ)}
    (e : Exec Q n (start fun r => w.self Y Z r (m0 r)) c) (hst : Stuck Q c) (d : Proc Y Z) :
    w.src (c.mem d) = w.src (m0 d) ∧
    (∀ p, (∃ s j, w.Rel2 Y Z d p s j ∧ w.tgt (c.mem d) p = w.src (m0 s) j) ∨ w.tgt (c.mem d) p = w.tgt (m0 d) p) ∧
    (w.Full Y → w.Full Z → ∀ p s j, w.Rel2 Y Z d p s j → w.tgt (c.mem d) p = w.src (m0 s) j) := by
  have hp := prod_pos hY hZ
  rw [final_mem hY hZ w hQ m0 e hst d]
  refine ⟨gather_src .., fun p => (gather_tgt hY hZ aY aZ w m0 d p _ (by omega)).1, ?_⟩
  intro fy fz p s j hr
  obtain ⟨k, hk, hb⟩ := reach s d
  exact (gather_tgt hY hZ aY aZ w m0 d p _ (by omega)).2 fy fz s j k (by omega) hb hr

theorem store_other {p : ℤ × ℤ} : ∀ (is : List (ℤ × ℤ)) (vs : List ℝ) (f : ℤ × ℤ → ℝ), p ∉ is → store is vs f p = f p
  | [], _, f, _ => by simp [store]
  | i :: is, [], f, _ => rfl
  | i :: is, v :: vs, f, h => by
    show store is vs (Function.update f i v) p = f p
    rw [store_other is vs _ (fun hp => h (List.mem_cons_of_mem _ hp))]
    exact Function.update_of_ne (fun e => h (by rw [e]; exact List.mem_cons_self)) _ _

/-- An element that no message contains keeps its value. -/
theorem gather_other (w : Way) (m0 : Proc Y Z → Mem) (d : Proc Y Z) (p : ℤ × ℤ) (hp : ∀ s : Proc Y Z, p ∉ w.into Y Z d.1 s.1) :
    ∀ K, w.tgt (gather w Y Z m0 d K) p = w.tgt (m0 d) p := by
  intro K
  induction K with
  | zero =>
    unfold gather Way.self
    simp only
    rw [tgt_put]
    exact store_other _ _ _ (hp d)
  | succ K ih =>
    unfold gather
    split
    · rw [tgt_put, store_other _ _ _ (hp _), ih]
    · exact ih

theorem mem_cells {py pz : Piece} {p : ℤ × ℤ} : p ∈ cellsOf py pz ↔
    (py.first ≤ p.1 ∧ p.1 < py.first + py.size) ∧ pz.first ≤ p.2 ∧ p.2 < pz.first + pz.size := by
  unfold cellsOf
  rw [List.mem_map]
  constructor
  · rintro ⟨o, ho, rfl⟩
    have := mem_offs.1 ho
    simp only
    omega
  · rintro ⟨h1, h2⟩
    exact ⟨(p.1 - py.first, p.2 - pz.first), mem_offs.2 (by simp only; omega), Prod.ext (by simp only; omega) (by simp only; omega)⟩

theorem length_offs (a b : ℤ) : (offs a b).length = b.toNat * a.toNat := by
  unfold offs
  rw [List.length_flatMap]
  simp

/-! The list of displacements. -/

theorem work_eq (hY : Y.Ok gy) (hZ : Z.Ok gz) (w : Way) (c : Proc Y Z) : w.cut.work c = 0 :: ((List.range ((Y.P * Z.P).toNat - 1)).map Nat.succ).filter
    (fun k => 0 < w.cut.sndFlag Y Z c.1 (fwd k c).1 ∨ 0 < w.cut.rcvFlag Y Z c.1 (bwd k c).1) := by
  have hp := prod_pos hY hZ
  unfold Cut.work
  obtain ⟨m, hm⟩ : ∃ m, (Y.P * Z.P).toNat = m + 1 := ⟨(Y.P * Z.P).toNat - 1, by omega⟩
  rw [hm, List.range_succ_eq_map, List.filter_cons_of_pos]
  · rfl
  · refine decide_eq_true (.inl ?_)
    rw [fwd_zero]
    unfold Cut.sndFlag flag
    simp

theorem fwd_self {k : ℕ} {c : Proc Y Z} (hk : k < (Y.P * Z.P).toNat) (h : fwd k c = c) : k = 0 := by
  have hy := c.2.1
  have hz := c.2.2
  have h1 : (c.1.1 + (k : ℤ) % Y.P) % Y.P = c.1.1 := congrArg (fun x : Proc Y Z => x.1.1) h
  have h2 : (c.1.2 + (k : ℤ) / Y.P) % Z.P = c.1.2 := congrArg (fun x : Proc Y Z => x.1.2) h
  have hPy : 0 < Y.P := by omega
  have e := Int.mul_ediv_add_emod (k : ℤ) Y.P
  have r0 := Int.emod_nonneg (k : ℤ) hPy.ne'
  have r1 := Int.emod_lt_of_pos (k : ℤ) hPy
  have q0 : 0 ≤ (k : ℤ) / Y.P := Int.ediv_nonneg (by omega) hPy.le
  have q1 : (k : ℤ) / Y.P < Z.P := by
    rw [Int.ediv_lt_iff_lt_mul hPy, mul_comm]
    omega
  have key : ∀ a P x : ℤ, 0 ≤ a → a < P → 0 ≤ x → x < P → (a + x) % P = a → x = 0 := by
    intro a P x a0 a1 x0 x1 h
    rcases lt_or_ge (a + x) P with hl | hl
    · rw [mod_mid (by omega) hl] at h; omega
    · rw [mod_high hl (by omega)] at h; omega
  have z1 := key _ _ _ hy.1 hy.2 r0 r1 h1
  have z2 := key _ _ _ hz.1 hz.2 q0 q1 h2
  rw [z1, z2] at e
  omega

theorem posted_le (w : Way) (c : Proc Y Z) (L : List ℕ) : ∀ n : ℕ,
    L.foldl (fun (n : ℕ) (k : ℕ) => n + (if (w.from Y Z k c).isSome then 1 else 0) + if (w.dst Y Z k c).isSome then 1 else 0) n =
      n + (L.filter fun k => (w.from Y Z k c).isSome).length + (L.filter fun k => (w.dst Y Z k c).isSome).length := by
  induction L with
  | nil => intro n; rfl
  | cons k L ih =>
    intro n
    rw [List.foldl_cons, ih, List.filter_cons, List.filter_cons]
    split_ifs <;> simp <;> omega

theorem filter_len {L M : List ℕ} {p q : ℕ → Bool} (h : L.Sublist M) (hpq : ∀ k ∈ L, p k = true → q k = true) :
    (L.filter p).length ≤ (M.filter q).length := by
  have h1 : (L.filter p).length ≤ (L.filter q).length := by
    rw [← List.countP_eq_length_filter, ← List.countP_eq_length_filter]
    exact List.countP_mono_left hpq
  exact le_trans h1 (h.filter q).length_le

/-- The array of requests is large enough. -/
theorem requests_ok (hY : Y.Ok gy) (hZ : Z.Ok gz) (w : Way) (c : Proc Y Z) : ∃ n, w.postRequests 0 c = .ok n := by
  have hp := prod_pos hY hZ
  unfold Way.postRequests Cut.requests
  simp only [if_true]
  rw [if_pos]
  · exact ⟨_, rfl⟩
  rw [posted_le, work_eq hY hZ, Nat.zero_add, Nat.add_comm]
  show _ + _ ≤ _
  have sub : (((List.range ((Y.P * Z.P).toNat - 1)).map Nat.succ).filter
    (fun k => decide (0 < w.cut.sndFlag Y Z c.1 (fwd k c).1 ∨ 0 < w.cut.rcvFlag Y Z c.1 (bwd k c).1))).Sublist (List.range (Y.P * Z.P).toNat) := by
    refine List.Sublist.trans List.filter_sublist ?_
    obtain ⟨m, hm⟩ : ∃ m, (Y.P * Z.P).toNat = m + 1 := ⟨(Y.P * Z.P).toNat - 1, by omega⟩
    rw [hm, List.range_succ_eq_map]
    exact List.sublist_cons_self _ _
  have nz : ∀ k ∈ ((List.range ((Y.P * Z.P).toNat - 1)).map Nat.succ).filter
      (fun k => decide (0 < w.cut.sndFlag Y Z c.1 (fwd k c).1 ∨ 0 < w.cut.rcvFlag Y Z c.1 (bwd k c).1)), k ≠ 0 ∧ k < (Y.P * Z.P).toNat := by
    intro k hk
    refine ⟨?_, List.mem_range.1 (sub.subset hk)⟩
    have := (List.mem_filter.1 hk).1
    rw [List.mem_map] at this
    obtain ⟨j, -, rfl⟩ := this
    exact Nat.succ_ne_zero j
  refine Nat.add_le_add (filter_len sub ?_) (filter_len sub ?_)
  · intro k hk hs
    obtain ⟨d, hd⟩ := Option.isSome_iff_exists.1 hs
    obtain ⟨h1, h2, h3, h4⟩ := (dst_iff hY hZ w k c d).1 hd
    refine decide_eq_true ⟨fun e => (nz k hk).1 (fwd_self h2 e), ?_⟩
    rw [h1]
    have a1 := flag_nonneg (a := c.1.1) (b := d.1.1) (size_eq hY w c.2.1 d.1.1).2
    have a2 := flag_nonneg (a := c.1.2) (b := d.1.2) (size_eq hZ w c.2.2 d.1.2).2
    exact mul_pos (lt_of_le_of_ne a1 (Ne.symm h4)) (lt_of_le_of_ne a2 (Ne.symm h3))
  · intro k hk hs
    obtain ⟨d, hd⟩ := Option.isSome_iff_exists.1 hs
    obtain ⟨h1, h2, h3, h4⟩ := (from_iff hY hZ w k d c).1 hd
    refine decide_eq_true ⟨fun e => (nz k hk).1 (fwd_self h2 ((fwd_bwd k c c).2 e)), ?_⟩
    rw [h1]
    have a1 := flag_nonneg (a := c.1.1) (b := d.1.1) (size_eq hY w d.2.1 c.1.1).2
    have a2 := flag_nonneg (a := c.1.2) (b := d.1.2) (size_eq hZ w d.2.2 c.1.2).2
    rw [(size_eq hY w d.2.1 c.1.1).1] at a1
    rw [(size_eq hZ w d.2.2 c.1.2).1] at a2
    exact mul_pos (lt_of_le_of_ne a1 (Ne.symm h4)) (lt_of_le_of_ne a2 (Ne.symm h3))

/-! Where the sources are. -/

variable {A : Axis} {g : ℤ}

theorem source_exists (h : A.Ok g) (ha : A.Aligned) {d p : ℤ} (hd : A.In d) (p1 : 1 ≤ p) (p2 : p ≤ A.shi d - A.slo d + 1)
    (hx : A.P = A.G ∨ A.open_ = false ∨ (0 ≤ A.slo d + p - 1 ∧ A.slo d + p - 1 < A.n)) : ∃ s c, A.In s ∧ A.Source d p s c := by
  have hn : 0 < A.n := by have := h.guards; omega
  by_cases hw : A.P = A.G
  · obtain ⟨a1, a2⟩ := ha hw d hd
    refine ⟨d, A.slo d + p - 1 - A.lo d, hd, ⟨p1, p2⟩, ?_⟩
    rw [if_pos hw]
    exact ⟨rfl, by omega, by omega, by omega⟩
  · obtain ⟨s, hs, s1, s2⟩ := h.owner (x := (A.slo d + p - 1) % A.n) (Int.emod_nonneg _ hn.ne') (Int.emod_lt_of_pos _ hn)
    refine ⟨s, (A.slo d + p - 1) % A.n - A.lo s, hs, ⟨p1, p2⟩, ?_⟩
    rw [if_neg hw]
    refine ⟨by omega, by omega, ?_⟩
    cases ho : A.open_
    · refine ⟨-((A.slo d + p - 1) / A.n), ?_⟩
      have := Int.mul_ediv_add_emod (A.slo d + p - 1) A.n
      rw [mul_comm] at this
      rw [neg_mul]
      omega
    · show _ = _
      rcases hx with hx | hx | hx
      · exact absurd hx hw
      · rw [ho] at hx; cases hx
      · rw [mod_mid hx.1 hx.2]
        omega

/-- Every cell of a process has an image. -/
theorem image_of (h : A.Ok g) (ha : A.Aligned) {s c : ℤ} (hs : A.In s) (c0 : 0 ≤ c) (c1 : c ≤ A.hi s - A.lo s) : ∃ d p, A.In d ∧ A.Image s c d p := by
  have u1 := h.lo_nonneg hs
  have u2 := h.hi_lt hs
  by_cases hw : A.P = A.G
  · obtain ⟨a1, a2⟩ := ha hw s hs
    have := h.guardsL
    refine ⟨s, A.lo s + c - A.slo s + 1, hs, ⟨by omega, by omega⟩, by omega, ?_⟩
    rw [if_pos hw]
    exact ⟨rfl, by omega, by omega⟩
  · obtain ⟨d, hd, d1, d2, d3, d4⟩ := h.image_exists (x := A.lo s + c) (by omega) (by omega)
    refine ⟨d, A.lo s + c - A.slo d + 1, hd, ⟨by omega, by omega⟩, by omega, ?_⟩
    rw [if_neg hw]
    exact ⟨⟨c0, c1⟩, d1, d2⟩

/-- The image of an element has the element as its source. -/
theorem source_of_image {s c d p : ℤ} (h : A.Image s c d p) : A.Source d p s c := by
  obtain ⟨h1, h2, h3⟩ := h
  refine ⟨h1, ?_⟩
  by_cases hw : A.P = A.G
  · rw [if_pos hw] at h3 ⊢
    exact ⟨h3.1, h3.2.1, h3.2.2, h2⟩
  · rw [if_neg hw] at h3 ⊢
    refine ⟨h3.1.1, h3.1.2, ?_⟩
    cases A.open_
    · exact ⟨0, by omega⟩
    · exact h2

end Picsar.FftGroups
