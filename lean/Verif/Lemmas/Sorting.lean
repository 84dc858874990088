import Verif.Model.Sorting
import Verif.Spec.Sorting
import Verif.Lemmas.FArr
import Verif.Lemmas.Grid
import Mathlib.Data.List.Basic
import Mathlib.Algebra.Order.Field.Basic
import Mathlib.Tactic.Linarith
import Mathlib.Tactic.FieldSimp
namespace Picsar.Sorting
open Picsar Picsar.Grid

section counting
variable {α : Type} (kk : α → ℕ)

/-- Elements of bin `k`. -/
def blk (l : List α) (k : ℕ) : List α := l.filter fun a => decide (kk a = k)

/-- The first `k` bins, one after the other. -/
def tab (l : List α) (k : ℕ) : List α := (List.range k).flatMap (blk kk l)

theorem tab_succ (l : List α) (k : ℕ) : tab kk l (k + 1) = tab kk l k ++ blk kk l k := by
  simp [tab, List.range_succ]

theorem tab_mono (l : List α) {a b : ℕ} (h : a ≤ b) : (tab kk l a).length ≤ (tab kk l b).length := by
  induction b with
  | zero => rw [Nat.le_zero.mp h]
  | succ b ih =>
    rcases Nat.lt_or_ge a (b + 1) with h' | h'
    · rw [tab_succ, List.length_append]
      have := ih (by omega)
      omega
    · rw [show a = b + 1 by omega]

theorem tab_perm (l : List α) (k : ℕ) :
    (tab kk l k).Perm (l.filter fun a => decide (kk a < k)) := by
  induction k with
  | zero => simp [tab]
  | succ k ih =>
    rw [tab_succ]
    have h1 := List.filter_append_perm (fun a => decide (kk a < k))
      (l.filter fun a => decide (kk a < k + 1))
    refine List.Perm.trans ?_ h1
    simp only [List.filter_filter, blk]
    refine List.Perm.append (ih.trans (List.Perm.of_eq ?_)) (List.Perm.of_eq ?_)
    · refine List.filter_congr fun a _ => ?_
      rw [Bool.eq_iff_iff]
      simp only [decide_eq_true_eq, Bool.and_eq_true]
      omega
    · refine List.filter_congr fun a _ => ?_
      rw [Bool.eq_iff_iff]
      simp only [decide_eq_true_eq, Bool.and_eq_true, Bool.not_eq_true', decide_eq_false_iff_not]
      omega

theorem tab_perm_all {l : List α} {m : ℕ} (h : ∀ a ∈ l, kk a < m) : (tab kk l m).Perm l := by
  refine (tab_perm kk l m).trans (List.Perm.of_eq ?_)
  rw [List.filter_eq_self]
  intro a ha
  simpa using h a ha

theorem tab_key {l : List α} {m : ℕ} {a : α} (h : a ∈ tab kk l m) : kk a < m := by
  have := (tab_perm kk l m).mem_iff.mp h
  simpa using (List.mem_filter.mp this).2

theorem tab_sorted (l : List α) (m : ℕ) : (tab kk l m).Pairwise fun a b => kk a ≤ kk b := by
  induction m with
  | zero => simp [tab]
  | succ m ih =>
    rw [tab_succ, List.pairwise_append]
    refine ⟨ih, ?_, ?_⟩
    · refine List.pairwise_of_forall_mem_list fun a ha b hb => ?_
      have h1 := (List.mem_filter.mp ha).2
      have h2 := (List.mem_filter.mp hb).2
      simp only [decide_eq_true_eq] at h1 h2
      omega
    · intro a ha b hb
      have h1 := tab_key kk ha
      have h2 := (List.mem_filter.mp hb).2
      simp only [decide_eq_true_eq] at h2
      omega

theorem tab_stable (l : List α) (m k : ℕ) :
    (tab kk l m).filter (fun a => decide (kk a = k)) = if k < m then blk kk l k else [] := by
  induction m with
  | zero => simp [tab]
  | succ m ih =>
    rw [tab_succ, List.filter_append, ih]
    by_cases h : k = m
    · subst h
      rw [if_neg (lt_irrefl _), if_pos (Nat.lt_succ_self _), List.nil_append]
      unfold blk
      rw [List.filter_filter]
      exact List.filter_congr fun a _ => Bool.and_self _
    · have : (blk kk l m).filter (fun a => decide (kk a = k)) = [] := by
        rw [List.filter_eq_nil_iff]
        intro a ha
        have h1 := (List.mem_filter.mp ha).2
        simp only [decide_eq_true_eq] at h1 ⊢
        omega
      rw [this, List.append_nil]
      by_cases h' : k < m
      · rw [if_pos h', if_pos (by omega)]
      · rw [if_neg h', if_neg (by omega)]

theorem blk_take_succ (l : List α) (n : ℕ) (h : n < l.length) (k : ℕ) :
    blk kk (l.take (n + 1)) k = blk kk (l.take n) k ++ if kk l[n] = k then [l[n]] else [] := by
  unfold blk
  rw [List.take_succ_eq_append_getElem h, List.filter_append]
  congr 1
  by_cases hk : kk l[n] = k <;> simp [hk]

theorem blk_take_le (l : List α) (n k : ℕ) :
    (blk kk (l.take n) k).length ≤ (blk kk l k).length :=
  ((List.take_sublist n l).filter _).length_le

end counting

/-- The three loops and the copy compute the concatenation of the bins. -/
theorem binSort_eq {α : Type} {l : List α} {P : FArr α} {m : ℕ} {bin : α → ℤ} (kk : α → ℕ)
    (hP : P.Holds l) (hkey : ∀ a ∈ l, bin a = kk a + 1 ∧ kk a < m) :
    ∃ Q, binSort l.length m bin P = .ok Q ∧ Q.n = P.n ∧ Q.Holds (tab kk l m) ∧
      ∀ i : ℤ, (l.length : ℤ) < i → Q.val i = P.val i := by
  have hkl : ∀ a ∈ l, kk a < m := fun a ha => (hkey a ha).2
  have hlen : (tab kk l m).length = l.length := (tab_perm_all kk hkl).length_eq
  -- first loop
  obtain ⟨⟨hcnb, nbppc⟩, e1, -, i1⟩ := foldlM_irange_inv
    (body := fun (st : FArr ℤ × FArr ℤ) ip => (do
      let p ← P.get ip
      let hcnb ← st.1.set ip (bin p)
      let h ← hcnb.get ip
      let c ← st.2.get h
      let nbppc ← st.2.set h (c + 1)
      .ok (hcnb, nbppc) : Res (FArr ℤ × FArr ℤ))) (lo := 1)
    (fun i st => 1 ≤ i ∧ ∀ n : ℕ, i = n + 1 → (st.1.n = l.length ∧ st.2.n = m ∧
      (∀ j (h : j < l.length), j < n → st.1.val (j + 1) = some (bin l[j])) ∧
      ∀ k, k < m → st.2.val (k + 1) = some ((blk kk (l.take n) k).length : ℤ)))
    l.length l.length (by omega) (by omega) (by
      rintro i ⟨h, c⟩ hi1 hi2 ⟨-, hinv⟩
      obtain ⟨n, rfl⟩ : ∃ n : ℕ, i = n + 1 := ⟨(i - 1).toNat, by omega⟩
      obtain ⟨a1, a2, a3, a4⟩ := hinv n rfl
      have hn : n < l.length := by omega
      obtain ⟨b1, b2⟩ := hkey l[n] (List.getElem_mem hn)
      dsimp only at a1 a2 a3 a4 ⊢
      simp only [hP.get hn, except_bind_ok]
      rw [FArr.set_ok _ (by omega)]
      simp only [except_bind_ok]
      rw [FArr.get_ok (v := bin l[n]) (by dsimp only; omega) (by simp)]
      simp only [except_bind_ok]
      rw [b1, FArr.get_ok (by omega) (a4 _ b2)]
      simp only [except_bind_ok]
      rw [FArr.set_ok _ (by omega)]
      refine ⟨_, rfl, by omega, ?_⟩
      rintro n' hn'
      obtain rfl : n' = n + 1 := by omega
      refine ⟨a1, a2, ?_, ?_⟩
      · intro j hj hjn
        by_cases e : j = n
        · subst e; simp [b1]
        · have : ((j : ℤ) + 1) ≠ n + 1 := by omega
          simp only [Function.update_of_ne this]
          exact a3 j hj (by omega)
      · intro k hk
        rw [blk_take_succ kk l n hn]
        by_cases e : kk l[n] = k
        · subst e; simp
        · have : ((k : ℤ) + 1) ≠ kk l[n] + 1 := by omega
          simp only [Function.update_of_ne this, if_neg e, List.append_nil]
          exact a4 k hk)
    (FArr.fill l.length 0, FArr.fill m 0)
    ⟨le_refl _, fun n hn => ⟨rfl, rfl, fun j _ hj => by omega, fun k _ => by
      obtain rfl : n = 0 := by omega
      simp [FArr.fill, blk]⟩⟩
  obtain ⟨a1, a2, a3, a4⟩ := i1 l.length (by omega)
  rw [List.take_length] at a4
  -- second loop
  obtain ⟨⟨piihc, kend⟩, e2, -, i2⟩ := foldlM_irange_inv
    (body := fun (st : FArr ℤ × ℤ) ic => (do
      let piihc ← st.1.set ic st.2
      let c ← nbppc.get ic
      .ok (piihc, st.2 + c) : Res (FArr ℤ × ℤ))) (lo := 1)
    (fun i st => 1 ≤ i ∧ ∀ n : ℕ, i = n + 1 → (st.1.n = m ∧ st.2 = (tab kk l n).length ∧
      ∀ k, k < n → st.1.val (k + 1) = some ((tab kk l k).length : ℤ)))
    m m (by omega) (by omega) (by
      rintro i ⟨h, c⟩ hi1 hi2 ⟨-, hinv⟩
      obtain ⟨n, rfl⟩ : ∃ n : ℕ, i = n + 1 := ⟨(i - 1).toNat, by omega⟩
      obtain ⟨b1, b2, b3⟩ := hinv n rfl
      dsimp only at b1 b2 b3 ⊢
      have a2' : nbppc.n = m := a2
      rw [FArr.set_ok _ (by omega)]
      simp only [except_bind_ok]
      rw [FArr.get_ok (by omega) (a4 n (by omega))]
      refine ⟨_, rfl, by omega, ?_⟩
      rintro n' hn'
      obtain rfl : n' = n + 1 := by omega
      refine ⟨b1, by rw [tab_succ, List.length_append, b2]; push_cast; rfl, ?_⟩
      intro k hk
      by_cases e : k = n
      · subst e; simp [b2]
      · have : ((k : ℤ) + 1) ≠ n + 1 := by omega
        simp only [Function.update_of_ne this]
        exact b3 k (by omega))
    (FArr.fill m 0, 0)
    ⟨le_refl _, fun n hn => ⟨rfl, by obtain rfl : n = 0 := by omega
                                     simp [tab], fun k hk => by omega⟩⟩
  obtain ⟨b1, -, b3⟩ := i2 m (by omega)
  -- third loop
  obtain ⟨⟨pend, out⟩, e3, -, i3⟩ := foldlM_irange_inv
    (body := fun (st : FArr ℤ × FArr α) ip => (do
      let k ← hcnb.get ip
      let q ← st.1.get k
      let piihc ← st.1.set k (q + 1)
      let q' ← piihc.get k
      let p ← P.get ip
      let out ← st.2.set q' p
      .ok (piihc, out) : Res (FArr ℤ × FArr α))) (lo := 1)
    (fun i st => 1 ≤ i ∧ ∀ n : ℕ, i = n + 1 → (st.1.n = m ∧ st.2.n = l.length ∧
      (∀ k, k < m → st.1.val (k + 1) = some ((tab kk l k).length + (blk kk (l.take n) k).length : ℤ)) ∧
      ∀ k, k < m → ∀ j (hj : j < (blk kk (l.take n) k).length),
        st.2.val ((tab kk l k).length + j + 1) = some (blk kk (l.take n) k)[j]))
    l.length l.length (by omega) (by omega) (by
      rintro i ⟨pi, o⟩ hi1 hi2 ⟨-, hinv⟩
      obtain ⟨n, rfl⟩ : ∃ n : ℕ, i = n + 1 := ⟨(i - 1).toNat, by omega⟩
      obtain ⟨c1, c2, c3, c4⟩ := hinv n rfl
      have hn : n < l.length := by omega
      obtain ⟨d1, d2⟩ := hkey l[n] (List.getElem_mem hn)
      dsimp only at a1 a3 c1 c2 c3 c4 ⊢
      have hb := blk_take_succ kk l n hn (kk l[n])
      rw [if_pos rfl] at hb
      have hlt : (blk kk (l.take n) (kk l[n])).length + 1 ≤ (blk kk l (kk l[n])).length := by
        have := blk_take_le kk l (n + 1) (kk l[n])
        rw [hb, List.length_append] at this
        exact this
      have htb : (tab kk l (kk l[n])).length + (blk kk l (kk l[n])).length ≤ l.length := by
        have := tab_mono kk l (show kk l[n] + 1 ≤ m by omega)
        rw [tab_succ, List.length_append] at this
        omega
      rw [FArr.get_ok (by omega) (a3 n hn hn)]
      simp only [except_bind_ok]
      rw [d1, FArr.get_ok (by omega) (c3 _ d2)]
      simp only [except_bind_ok]
      rw [FArr.set_ok _ (by omega)]
      simp only [except_bind_ok]
      rw [FArr.get_ok (v := ((tab kk l (kk l[n])).length + (blk kk (l.take n) (kk l[n])).length + 1 : ℤ))
        (by dsimp only; omega) (by simp)]
      simp only [except_bind_ok, hP.get hn]
      rw [FArr.set_ok _ (by omega)]
      refine ⟨_, rfl, by omega, ?_⟩
      rintro n' hn'
      obtain rfl : n' = n + 1 := by omega
      refine ⟨c1, c2, ?_, ?_⟩
      · intro k hk
        rw [blk_take_succ kk l n hn]
        by_cases e : kk l[n] = k
        · subst e; simp; omega
        · have : ((k : ℤ) + 1) ≠ kk l[n] + 1 := by omega
          simp only [Function.update_of_ne this, if_neg e, List.append_nil]
          exact c3 k hk
      · intro k hk j hj
        have hbk := blk_take_succ kk l n hn k
        by_cases e : kk l[n] = k
        · subst e
          rw [if_pos rfl] at hbk
          simp only [hbk, List.length_append, List.length_singleton] at hj
          by_cases ej : j = (blk kk (l.take n) (kk l[n])).length
          · subst ej
            simp [hbk]
          · have hj' : j < (blk kk (l.take n) (kk l[n])).length := by omega
            dsimp only
            rw [Function.update_of_ne (by omega), c4 _ hk j hj']
            simp [hbk, List.getElem_append_left hj']
        · rw [if_neg e, List.append_nil] at hbk
          simp only [hbk] at hj ⊢
          have hjl := lt_of_lt_of_le hj (blk_take_le kk l n k)
          rw [Function.update_of_ne ?_]
          · exact c4 k hk j hj
          · rcases Nat.lt_or_gt_of_ne e with h | h
            · have := tab_mono kk l (show kk l[n] + 1 ≤ k by omega)
              rw [tab_succ, List.length_append] at this
              omega
            · have := tab_mono kk l (show k + 1 ≤ kk l[n] by omega)
              rw [tab_succ, List.length_append] at this
              omega)
    (piihc, FArr.undef l.length)
    ⟨le_refl _, fun n hn => ⟨b1, rfl, fun k hk => by
        obtain rfl : n = 0 := by omega
        rw [b3 k hk]; simp [blk], fun k _ j hj => by
        obtain rfl : n = 0 := by omega
        simp [blk] at hj⟩⟩
  obtain ⟨-, c2, -, c4⟩ := i3 l.length (by omega)
  dsimp only at c2 c4
  rw [List.take_length] at c4
  have hout : out.Holds (tab kk l m) := by
    refine ⟨by omega, ?_⟩
    have : ∀ k, k ≤ m → ∀ (i : ℕ) (h : i < (tab kk l k).length),
        out.val (i + 1) = some (tab kk l k)[i] := by
      intro k
      induction k with
      | zero => intro _ i h; simp [tab] at h
      | succ k ih =>
        intro hk i h
        by_cases hi : i < (tab kk l k).length
        · rw [ih (by omega) i hi]
          simp only [tab_succ]
          rw [List.getElem_append_left hi]
        · have hh := h
          rw [tab_succ, List.length_append] at hh
          have := c4 k (by omega) (i - (tab kk l k).length) (by omega)
          rw [show ((tab kk l k).length : ℤ) + ((i - (tab kk l k).length : ℕ) : ℤ) + 1 = i + 1 by
            omega] at this
          rw [this]
          simp only [tab_succ]
          rw [List.getElem_append_right (by omega)]
    exact this m le_rfl
  -- copy back
  obtain ⟨Q, e4, -, i4⟩ := foldlM_irange_inv
    (body := fun (P : FArr α) ip => (do P.set ip (← out.get ip) : Res (FArr α))) (lo := 1)
    (fun i (Q : FArr α) => 1 ≤ i ∧ Q.n = P.n ∧
      (∀ j (h : j < (tab kk l m).length), (j : ℤ) + 1 < i → Q.val (j + 1) = some (tab kk l m)[j]) ∧
      ∀ j : ℤ, (l.length : ℤ) < j → Q.val j = P.val j)
    l.length l.length (by omega) (by omega) (by
      rintro i Q hi1 hi2 ⟨-, g1, g2, g3⟩
      obtain ⟨n, rfl⟩ : ∃ n : ℕ, i = n + 1 := ⟨(i - 1).toNat, by omega⟩
      have hn : n < (tab kk l m).length := by omega
      have := hP.1
      simp only [hout.get hn, except_bind_ok]
      rw [FArr.set_ok _ (by omega)]
      refine ⟨_, rfl, by omega, g1, ?_, ?_⟩
      · intro j hj hjn
        by_cases e : j = n
        · subst e; simp
        · dsimp only
          rw [Function.update_of_ne (by omega)]
          exact g2 j hj (by omega)
      · intro j hj
        dsimp only
        rw [Function.update_of_ne (by omega)]
        exact g3 j hj)
    P ⟨le_refl _, rfl, fun j _ hj => by omega, fun _ _ => rfl⟩
  obtain ⟨g1, g2, g3⟩ := i4
  refine ⟨Q, ?_, g1, ⟨by rw [g1, hlen]; exact hP.1, fun i h => g2 i h (by omega)⟩, g3⟩
  unfold binSort
  rw [e1]
  simp only [except_bind_ok]
  rw [e2]
  simp only [except_bind_ok]
  rw [e3]
  simp only [except_bind_ok]
  exact e4

end Picsar.Sorting

namespace Picsar.Sorting
open Picsar Picsar.Grid Picsar.Spec.Sorting

theorem stable_of_tab {α κ : Type} [DecidableEq κ] {cell : α → κ} {le : κ → κ → Prop}
    {kk : α → ℕ} {l : List α} {m : ℕ} (hk : ∀ a ∈ l, kk a < m)
    (heq : ∀ a ∈ l, ∀ b ∈ l, (cell a = cell b ↔ kk a = kk b))
    (hle : ∀ a ∈ l, ∀ b ∈ l, kk a ≤ kk b → le (cell a) (cell b)) :
    StableSort cell le l (tab kk l m) := by
  have hp := tab_perm_all kk hk
  refine ⟨hp, ?_, ?_⟩
  · refine List.Pairwise.imp_of_mem ?_ (tab_sorted kk l m)
    intro a b ha hb h
    exact hle a (hp.mem_iff.mp ha) b (hp.mem_iff.mp hb) h
  · intro c
    by_cases h : ∃ a ∈ l, cell a = c
    · obtain ⟨a, ha, rfl⟩ := h
      have e1 : ∀ L : List α, (∀ b ∈ L, b ∈ l) →
          L.filter (fun b => decide (cell b = cell a)) = L.filter fun b => decide (kk b = kk a) := by
        intro L hL
        refine List.filter_congr fun b hb => ?_
        rw [Bool.eq_iff_iff]
        simpa using heq b (hL b hb) a ha
      rw [e1 _ fun b hb => hp.mem_iff.mp hb, e1 _ fun b hb => hb, tab_stable,
        if_pos (hk a ha)]
      rfl
    · push Not at h
      rw [List.filter_eq_nil_iff.mpr, List.filter_eq_nil_iff.mpr]
      · intro a ha; simpa using h a ha
      · intro a ha; simpa using h a (hp.mem_iff.mp ha)

theorem inCell_iff {lo d x : ℝ} (hd : 0 < d) {c : ℤ} :
    InCell lo d x c ↔ ⌊(x - lo) * (1 / d)⌋ = c := by
  rw [Int.floor_eq_iff, mul_one_div, le_div_iff₀ hd, div_lt_iff₀ hd]
  unfold InCell
  constructor <;> rintro ⟨h1, h2⟩ <;> constructor <;> linarith

theorem floor_range {lo hi d x : ℝ} (hd : 0 < d) (h1 : lo ≤ x) (h2 : x < hi) :
    0 ≤ ⌊(x - lo) * (1 / d)⌋ ∧ ⌊(x - lo) * (1 / d)⌋ < ⌈(hi - lo) * (1 / d)⌉ := by
  constructor
  · rw [Int.floor_nonneg]
    exact mul_nonneg (by linarith) (by positivity)
  · rw [Int.floor_lt]
    refine lt_of_lt_of_le ?_ (Int.le_ceil _)
    exact mul_lt_mul_of_pos_right (by linarith) (by positivity)

theorem id_range {a b c nx ny nz : ℤ} (ha : 0 ≤ a ∧ a < nx) (hb : 0 ≤ b ∧ b < ny)
    (hc : 0 ≤ c ∧ c < nz) : 0 ≤ c * nx * ny + b * nx + a ∧ c * nx * ny + b * nx + a < nx * ny * nz := by
  obtain ⟨a0, a1⟩ := ha
  obtain ⟨b0, b1⟩ := hb
  obtain ⟨c0, c1⟩ := hc
  have hx : 0 < nx := by omega
  have hy : 0 < ny := by omega
  refine ⟨by positivity, ?_⟩
  have h1 : b * nx + a < ny * nx := by nlinarith
  have h2 : c * nx * ny + nx * ny ≤ nx * ny * nz := by
    have : (c + 1) * (nx * ny) ≤ nz * (nx * ny) := mul_le_mul_of_nonneg_right (by omega) (by positivity)
    nlinarith
  nlinarith

theorem id_lex {a b c a' b' c' nx ny : ℤ} (ha : 0 ≤ a ∧ a < nx) (hb : 0 ≤ b ∧ b < ny)
    (ha' : 0 ≤ a' ∧ a' < nx) (hb' : 0 ≤ b' ∧ b' < ny)
    (h : c * nx * ny + b * nx + a ≤ c' * nx * ny + b' * nx + a') :
    c < c' ∨ c = c' ∧ (b < b' ∨ b = b' ∧ a ≤ a') := by
  have hx : 0 < nx := by omega
  have hy : 0 < ny := by omega
  have l1 : b' * nx + a' < ny * nx := by nlinarith
  have l0 : 0 ≤ b * nx + a := by nlinarith [mul_nonneg hb.1 hx.le]
  have hcc : c ≤ c' := by
    by_contra hlt
    push Not at hlt
    have : (c' + 1) * (nx * ny) ≤ c * (nx * ny) := mul_le_mul_of_nonneg_right (by omega) (by positivity)
    nlinarith
  rcases lt_or_eq_of_le hcc with h' | rfl
  · exact .inl h'
  refine .inr ⟨rfl, ?_⟩
  have hbb : b ≤ b' := by
    by_contra hlt
    push Not at hlt
    have : (b' + 1) * nx ≤ b * nx := mul_le_mul_of_nonneg_right (by omega) hx.le
    nlinarith
  rcases lt_or_eq_of_le hbb with h' | rfl
  · exact .inl h'
  · exact .inr ⟨rfl, by linarith⟩

end Picsar.Sorting
