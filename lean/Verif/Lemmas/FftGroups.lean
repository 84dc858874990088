import Verif.Spec.FftGroups
import Verif.Lemmas.Mpi
import Mathlib.Tactic.Linarith
import Mathlib.Tactic.Ring

namespace Picsar.FftGroups
open Picsar Picsar.Mpi

/-! Intervals that follow each other. -/

theorem tile_lt {lo hi : ℤ → ℤ} {a b : ℤ} (hn : ∀ i, a ≤ i → i + 1 < b → lo (i + 1) = hi i + 1) (hf : ∀ i, a ≤ i → i < b → lo i ≤ hi i) :
    ∀ (m : ℕ) (i : ℤ), a ≤ i → i + 1 + m < b → hi i < lo (i + 1 + m) := by
  intro m
  induction m with
  | zero =>
    intro i h1 h2
    have := hn i h1 (by simpa using h2)
    simp only [Nat.cast_zero, add_zero]
    omega
  | succ m ih =>
    intro i h1 h2
    have h3 := ih i h1 (by push_cast at h2; omega)
    have h4 := hn (i + 1 + m) (by omega) (by push_cast at h2; omega)
    have h5 := hf (i + 1 + m) (by omega) (by push_cast at h2; omega)
    have : i + 1 + ((m + 1 : ℕ) : ℤ) = i + 1 + m + 1 := by push_cast; ring
    rw [this, h4]
    omega

theorem tile_sep {lo hi : ℤ → ℤ} {a b : ℤ} (hn : ∀ i, a ≤ i → i + 1 < b → lo (i + 1) = hi i + 1) (hf : ∀ i, a ≤ i → i < b → lo i ≤ hi i)
    {i j : ℤ} (h1 : a ≤ i) (h2 : i < j) (h3 : j < b) : hi i < lo j := by
  have := tile_lt hn hf (j - (i + 1)).toNat i h1 (by omega)
  have e : i + 1 + ((j - (i + 1)).toNat : ℤ) = j := by omega
  rwa [e] at this

theorem tile_uniq {lo hi : ℤ → ℤ} {a b : ℤ} (hn : ∀ i, a ≤ i → i + 1 < b → lo (i + 1) = hi i + 1) (hf : ∀ i, a ≤ i → i < b → lo i ≤ hi i)
    {i j x : ℤ} (i1 : a ≤ i) (i2 : i < b) (j1 : a ≤ j) (j2 : j < b) (h1 : lo i ≤ x) (h2 : x ≤ hi i) (h3 : lo j ≤ x) (h4 : x ≤ hi j) : i = j := by
  rcases lt_trichotomy i j with h | h | h
  · have := tile_sep hn hf i1 h j2; omega
  · exact h
  · have := tile_sep hn hf j1 h i2; omega

theorem tile_cover {lo hi : ℤ → ℤ} {a b : ℤ} (hn : ∀ i, a ≤ i → i + 1 < b → lo (i + 1) = hi i + 1) :
    ∀ (m : ℕ) (x : ℤ), a + m < b → lo a ≤ x → x ≤ hi (a + m) → ∃ i, a ≤ i ∧ i ≤ a + m ∧ lo i ≤ x ∧ x ≤ hi i := by
  intro m
  induction m with
  | zero => intro x h1 h2 h3; exact ⟨a, le_rfl, by simp, h2, by simpa using h3⟩
  | succ m ih =>
    intro x h1 h2 h3
    push_cast at h1 h3
    by_cases h : x ≤ hi (a + m)
    · obtain ⟨i, i1, i2, i3, i4⟩ := ih x (by omega) h2 h
      exact ⟨i, i1, by push_cast; omega, i3, i4⟩
    · refine ⟨a + m + 1, by omega, by push_cast; omega, ?_, by rw [show a + (m : ℤ) + 1 = a + (m + 1) by ring]; exact h3⟩
      rw [hn (a + m) (by omega) (by omega)]
      omega

theorem tile_cover' {lo hi : ℤ → ℤ} {a b : ℤ} (hn : ∀ i, a ≤ i → i + 1 < b → lo (i + 1) = hi i + 1) (hab : a < b) {x : ℤ} (h1 : lo a ≤ x)
    (h2 : x ≤ hi (b - 1)) : ∃ i, a ≤ i ∧ i < b ∧ lo i ≤ x ∧ x ≤ hi i := by
  obtain ⟨i, i1, i2, i3, i4⟩ := tile_cover hn (b - 1 - a).toNat x (by omega) h1 (by rw [show a + ((b - 1 - a).toNat : ℤ) = b - 1 by omega]; exact h2)
  exact ⟨i, i1, by omega, i3, i4⟩

variable {A : Axis} {g : ℤ}

theorem Axis.Ok.pPos (h : A.Ok g) : 1 ≤ A.P := by
  have := h.divides
  have h1 := h.groups
  have h2 := h.per
  nlinarith

/-- Group and place in the group of a process. -/
theorem Axis.Ok.split (h : A.Ok g) {c : ℤ} (hc : A.In c) : ∃ k r, 0 ≤ k ∧ k < A.G ∧ 0 ≤ r ∧ r < A.P / A.G ∧ c = k * (A.P / A.G) + r := by
  have hp := h.per
  refine ⟨c / (A.P / A.G), c % (A.P / A.G), Int.ediv_nonneg hc.1 (by omega), ?_, Int.emod_nonneg _ (by omega), Int.emod_lt_of_pos _ (by omega), ?_⟩
  · rw [Int.ediv_lt_iff_lt_mul (by omega)]
    have := h.divides
    have := hc.2
    omega
  · have := Int.mul_ediv_add_emod c (A.P / A.G)
    rw [mul_comm] at this
    omega

theorem Axis.Ok.lo_nonneg (h : A.Ok g) {c : ℤ} (hc : A.In c) : 0 ≤ A.lo c := by
  rcases eq_or_lt_of_le hc.1 with e | e
  · rw [← e, h.first]
  · have := tile_sep h.next h.filled le_rfl e hc.2
    have := h.filled 0 le_rfl (by have := hc.2; omega)
    rw [h.first] at this
    omega

theorem Axis.Ok.hi_lt (h : A.Ok g) {c : ℤ} (hc : A.In c) : A.hi c < A.n := by
  have hl := h.last
  rcases eq_or_lt_of_le (show c ≤ A.P - 1 by have := hc.2; omega) with e | e
  · rw [e, hl]; omega
  · have := tile_sep h.next h.filled hc.1 e (by omega)
    have := h.filled (A.P - 1) (by have := h.pPos; omega) (by omega)
    omega

theorem Axis.Ok.glo_nonneg (h : A.Ok g) {c : ℤ} (hc : A.In c) : 0 ≤ A.glo c := by
  obtain ⟨k, r, k0, k1, r0, r1, e⟩ := h.split hc
  rw [e, (h.same k r k0 k1 r0 r1).1]
  rcases eq_or_lt_of_le k0 with e | e
  · rw [← e, zero_mul, h.groupFirst]
  · have := tile_sep (lo := fun k => A.glo (k * (A.P / A.G))) (hi := fun k => A.ghi (k * (A.P / A.G))) (a := 0) (b := A.G)
      (fun i a b => h.groupNext i a b) (fun i a b => h.groupFilled i a b) le_rfl e k1
    have f0 := h.groupFilled 0 le_rfl (by omega)
    simp only [zero_mul] at this f0
    rw [h.groupFirst] at f0
    omega

theorem Axis.Ok.ghi_lt (h : A.Ok g) {c : ℤ} (hc : A.In c) : A.ghi c < A.n := by
  obtain ⟨k, r, k0, k1, r0, r1, e⟩ := h.split hc
  rw [e, (h.same k r k0 k1 r0 r1).2]
  have hl := h.groupLast
  rcases eq_or_lt_of_le (show k ≤ A.G - 1 by omega) with e | e
  · rw [e, hl]; omega
  · have := tile_sep (lo := fun k => A.glo (k * (A.P / A.G))) (hi := fun k => A.ghi (k * (A.P / A.G))) (a := 0) (b := A.G)
      (fun i a b => h.groupNext i a b) (fun i a b => h.groupFilled i a b) k0 e (by omega)
    have f0 := h.groupFilled (A.G - 1) (by omega) (by omega)

    omega

theorem Axis.Ok.in_of (h : A.Ok g) {k r : ℤ} (k0 : 0 ≤ k) (k1 : k < A.G) (r0 : 0 ≤ r) (r1 : r < A.P / A.G) : A.In (k * (A.P / A.G) + r) := by
  have hd := h.divides
  constructor
  · have : 0 ≤ k * (A.P / A.G) := mul_nonneg k0 (by omega)
    omega
  · have : (k + 1) * (A.P / A.G) ≤ A.G * (A.P / A.G) := mul_le_mul_of_nonneg_right (by omega) (by omega)
    have e : (k + 1) * (A.P / A.G) = k * (A.P / A.G) + A.P / A.G := by ring
    omega

/-- The slabs of a group as consecutive intervals. -/
theorem Axis.Ok.slab_next (h : A.Ok g) {k : ℤ} (k0 : 0 ≤ k) (k1 : k < A.G) :
    (∀ r, 0 ≤ r → r + 1 < A.P / A.G → A.slo (k * (A.P / A.G) + (r + 1)) = A.shi (k * (A.P / A.G) + r) + 1) ∧
    ∀ r, 0 ≤ r → r < A.P / A.G → A.slo (k * (A.P / A.G) + r) ≤ A.shi (k * (A.P / A.G) + r) :=
  ⟨fun r r0 r1 => h.slabNext k r k0 k1 r0 r1, fun r r0 r1 => by
    have := h.in_of k0 k1 r0 r1
    exact h.slabFilled _ this.1 this.2⟩

theorem Axis.Ok.slab_range (h : A.Ok g) {c : ℤ} (hc : A.In c) : A.glo c - g ≤ A.slo c ∧ A.shi c ≤ A.ghi c + g := by
  obtain ⟨k, r, k0, k1, r0, r1, e⟩ := h.split hc
  obtain ⟨hn, hf⟩ := h.slab_next k0 k1
  have hp := h.per
  rw [e, (h.same k r k0 k1 r0 r1).1, (h.same k r k0 k1 r0 r1).2]
  constructor
  · have e0 := h.slabFirst k k0 k1
    rcases eq_or_lt_of_le r0 with z | z
    · rw [← z, add_zero, e0]
    · have := tile_sep (lo := fun r => A.slo (k * (A.P / A.G) + r)) (hi := fun r => A.shi (k * (A.P / A.G) + r)) (a := 0) hn hf le_rfl z r1
      have f0 := hf 0 le_rfl (by omega)
      simp only [add_zero] at this f0
      omega
  · have e0 := h.slabLast k k0 k1
    rcases eq_or_lt_of_le (show r ≤ A.P / A.G - 1 by omega) with z | z
    · rw [z, e0]
    · have := tile_sep (lo := fun r => A.slo (k * (A.P / A.G) + r)) (hi := fun r => A.shi (k * (A.P / A.G) + r)) (a := 0) hn hf r0 z (by omega)
      have f0 := hf (A.P / A.G - 1) (by omega) (by omega)

      omega

/-- Every cell of the domain is in the slab of exactly one process of its group. -/
theorem Axis.Ok.image_exists (h : A.Ok g) {x : ℤ} (x0 : 0 ≤ x) (x1 : x < A.n) :
    ∃ d, A.In d ∧ A.glo d ≤ x ∧ x ≤ A.ghi d ∧ A.slo d ≤ x ∧ x ≤ A.shi d := by
  have hG := h.groups
  obtain ⟨k, k0, k1, k2, k3⟩ := tile_cover' (lo := fun k => A.glo (k * (A.P / A.G))) (hi := fun k => A.ghi (k * (A.P / A.G))) (a := 0) (b := A.G)
      (fun i a b => h.groupNext i a b) (by omega) (x := x) (by simp only [zero_mul]; rw [h.groupFirst]; exact x0) (by rw [h.groupLast]; omega)
  obtain ⟨hn, hf⟩ := h.slab_next k0 k1
  have hg := h.guards
  obtain ⟨r, r0, r1, r2, r3⟩ := tile_cover' (lo := fun r => A.slo (k * (A.P / A.G) + r)) (hi := fun r => A.shi (k * (A.P / A.G) + r)) (a := 0) hn
    (by have := h.per; omega) (x := x) (by simp only [add_zero]; rw [h.slabFirst k k0 k1]; omega)
    (by rw [h.slabLast k k0 k1]; omega)
  refine ⟨k * (A.P / A.G) + r, h.in_of k0 k1 r0 r1, ?_, ?_, r2, r3⟩
  · rw [(h.same k r k0 k1 r0 r1).1]; exact k2
  · rw [(h.same k r k0 k1 r0 r1).2]; exact k3

theorem Axis.Ok.image_uniq (h : A.Ok g) {x d e : ℤ} (hd : A.In d) (he : A.In e) (d1 : A.glo d ≤ x) (d2 : x ≤ A.ghi d) (d3 : A.slo d ≤ x)
    (d4 : x ≤ A.shi d) (e1 : A.glo e ≤ x) (e2 : x ≤ A.ghi e) (e3 : A.slo e ≤ x) (e4 : x ≤ A.shi e) : d = e := by
  obtain ⟨k, r, k0, k1, r0, r1, rfl⟩ := h.split hd
  obtain ⟨k', r', k0', k1', r0', r1', rfl⟩ := h.split he
  rw [(h.same k r k0 k1 r0 r1).1] at d1
  rw [(h.same k r k0 k1 r0 r1).2] at d2
  rw [(h.same k' r' k0' k1' r0' r1').1] at e1
  rw [(h.same k' r' k0' k1' r0' r1').2] at e2
  have hk : k = k' := tile_uniq (lo := fun k => A.glo (k * (A.P / A.G))) (hi := fun k => A.ghi (k * (A.P / A.G))) (a := 0) (b := A.G)
      (fun i a b => h.groupNext i a b) (fun i a b => h.groupFilled i a b) k0 k1 k0' k1' d1 d2 e1 e2
  subst hk
  obtain ⟨hn, hf⟩ := h.slab_next k0 k1
  have hr : r = r' := tile_uniq (lo := fun r => A.slo (k * (A.P / A.G) + r)) (hi := fun r => A.shi (k * (A.P / A.G) + r)) (a := 0) hn hf
    r0 r1 r0' r1' d3 d4 e3 e4
  rw [hr]

theorem Axis.Ok.owner (h : A.Ok g) {x : ℤ} (x0 : 0 ≤ x) (x1 : x < A.n) : ∃ s, A.In s ∧ A.lo s ≤ x ∧ x ≤ A.hi s := by
  obtain ⟨s, s0, s1, s2, s3⟩ := tile_cover' (lo := A.lo) (hi := A.hi) (a := 0) h.next (by have := h.pPos; omega) (x := x) (by rw [h.first]; exact x0)
    (by rw [h.last]; omega)
  exact ⟨s, ⟨s0, s1⟩, s2, s3⟩

theorem Axis.Ok.owner_uniq (h : A.Ok g) {x s t : ℤ} (hs : A.In s) (ht : A.In t) (h1 : A.lo s ≤ x) (h2 : x ≤ A.hi s) (h3 : A.lo t ≤ x)
    (h4 : x ≤ A.hi t) : s = t := tile_uniq h.next h.filled hs.1 hs.2 ht.1 ht.2 h1 h2 h3 h4

/-! The pieces. -/

theorem mod_low {n a : ℤ} (h1 : -n ≤ a) (h2 : a < 0) : a % n = a + n := by
  rw [← Int.add_emod_right]
  exact Int.emod_eq_of_lt (by omega) (by omega)

theorem mod_high {n a : ℤ} (h1 : n ≤ a) (h2 : a < 2 * n) : a % n = a - n := by
  rw [← Int.sub_emod_right]
  exact Int.emod_eq_of_lt (by omega) (by omega)

theorem mod_mid {n a : ℤ} (h1 : 0 ≤ a) (h2 : a < n) : a % n = a := Int.emod_eq_of_lt h1 h2

theorem l2g_size (n : ℤ) (o : Bool) (u v a b : ℤ) : (l2gSend n o u v a b).size = (l2gRecv n o a b u v).size := by
  unfold l2gSend l2gRecv
  split <;> cases o <;> simp only [Bool.false_eq_true, if_false, if_true] <;> split_ifs <;> simp_all

theorem common_nonneg (a b c d : ℤ) : 0 ≤ common a b c d := le_max_right _ _

theorem l2gSend_nonneg (n : ℤ) (o : Bool) (u v a b : ℤ) : 0 ≤ (l2gSend n o u v a b).size := by
  unfold l2gSend
  have := @common_nonneg
  split <;> cases o <;> simp only [Bool.false_eq_true, if_false, if_true] <;> (try split_ifs) <;> simp_all

/-- What a process gets from where, for both ways. -/
def Way.Rel (w : Way) (A : Axis) (me i other j : ℤ) : Prop :=
  match w with
  | .toFft => A.Source me i other j
  | .toGrid => A.Image me i other j

theorem own_size (A : Axis) (a b f f' : ℤ) : (A.own a b f).size = (A.own b a f').size := by
  unfold Axis.own
  by_cases h : b = a
  · subst h; simp
  · rw [if_neg h, if_neg (Ne.symm h)]

theorem own_nonneg (h : A.Ok g) {a b f : ℤ} (ha : A.In a) : 0 ≤ (A.own a b f).size := by
  unfold Axis.own
  have := h.filled a ha.1 ha.2
  have := h.guardsL
  split_ifs
  · show 0 ≤ A.hi a - A.lo a + 1 + 2 * A.ng
    omega
  · exact le_rfl

theorem case_one {n a b : ℤ} (h : selectCase n a b = 1) : (a < 0 ∧ b < 0) ∨ (n ≤ a ∧ n ≤ b) := by
  unfold selectCase at h
  split_ifs at h with h1 h2 <;> first | exact h2 | omega

theorem g2l_size (h : A.Ok g) {d : ℤ} (hd : A.In d) (u v : ℤ) :
    (g2lSend A.n (A.slo d) (A.shi d) u v (A.glo d) (A.ghi d)).size = (g2lRecv u v (A.slo d) (A.shi d) (A.glo d) (A.ghi d)).size := by
  have h1 := h.glo_nonneg hd
  have h2 := h.ghi_lt hd
  unfold g2lSend g2lRecv
  simp only
  by_cases hc : selectCase A.n (A.slo d) (A.shi d) = 1
  · have := case_one hc
    rw [if_pos hc]
    have : ¬ max (A.slo d) (A.glo d) ≤ min (A.shi d) (A.ghi d) := by omega
    simp [this]
  · rw [if_neg hc]
    by_cases hf : max (A.slo d) (A.glo d) ≤ min (A.shi d) (A.ghi d)
    · rw [if_neg (not_lt.2 hf), if_pos hf]
      split_ifs <;> simp_all
    · rw [if_pos (not_le.1 hf), if_neg hf]
      simp

theorem g2l_nonneg (u v a b c d : ℤ) : 0 ≤ (g2lRecv u v a b c d).size := by
  unfold g2lRecv
  have := @common_nonneg
  simp only
  split_ifs <;> simp_all

/-- Both ends of a message have the same size. -/
theorem size_eq (h : A.Ok g) (w : Way) {s : ℤ} (hs : A.In s) (d : ℤ) :
    (w.cut.snd A s d).size = (w.cut.rcv A d s).size ∧ 0 ≤ (w.cut.snd A s d).size := by
  cases w
  · show (A.l2gSend s d).size = (A.l2gRecv d s).size ∧ 0 ≤ (A.l2gSend s d).size
    unfold Axis.l2gSend Axis.l2gRecv
    split_ifs
    · exact ⟨own_size .., own_nonneg h hs⟩
    · exact ⟨l2g_size .., l2gSend_nonneg ..⟩
  · show (A.g2lSend s d).size = (A.g2lRecv d s).size ∧ 0 ≤ (A.g2lSend s d).size
    unfold Axis.g2lSend Axis.g2lRecv
    split_ifs
    · exact ⟨own_size .., own_nonneg h hs⟩
    · rw [g2l_size h hs]
      exact ⟨rfl, g2l_nonneg ..⟩

theorem common_pos {a b c d o : ℤ} (h0 : 0 ≤ o) (h : o < common a b c d) :
    common a b c d = min b d - max a c + 1 ∧ max a c + o ≤ min b d := by
  unfold common at *
  omega

theorem case_eq (n a b : ℤ) (h : a ≤ b) :
    (selectCase n a b = 0 ∧ 0 ≤ a ∧ b < n) ∨ (selectCase n a b = 1 ∧ (b < 0 ∨ n ≤ a)) ∨ (selectCase n a b = 2 ∧ a < 0 ∧ 0 ≤ b) ∨
    (selectCase n a b = 3 ∧ 0 ≤ a ∧ a < n ∧ n ≤ b) := by
  unfold selectCase
  split_ifs <;> omega

/-- The pieces of the way to the transforms stand for the same cells. -/
theorem l2g_sound {n : ℤ} (o : Bool) {u v a b i : ℤ} (hu : 0 ≤ u) (hv : v < n) (hab : a ≤ b) (ha : -n < a) (hb : b < 2 * n)
    (i0 : 0 ≤ i) (i1 : i < (l2gSend n o u v a b).size) :
    0 ≤ (l2gSend n o u v a b).first + i ∧ (l2gSend n o u v a b).first + i ≤ v - u ∧
    1 ≤ (l2gRecv n o a b u v).first + i ∧ (l2gRecv n o a b u v).first + i ≤ b - a + 1 ∧
    if o then u + ((l2gSend n o u v a b).first + i) = a + ((l2gRecv n o a b u v).first + i) - 1
    else ∃ t : ℤ, u + ((l2gSend n o u v a b).first + i) = a + ((l2gRecv n o a b u v).first + i) - 1 + t * n := by
  unfold l2gSend l2gRecv at *
  rcases case_eq n a b hab with ⟨e, h1, h2⟩ | ⟨e, h1⟩ | ⟨e, h1, h2⟩ | ⟨e, h1, h2, h3⟩
  · rw [e] at i1 ⊢
    simp only at i1 ⊢
    have hz : ¬ common u v a b = 0 := by intro z; rw [z] at i1; simp at i1; omega
    rw [if_neg hz] at i1
    rw [if_neg hz, if_neg hz]
    obtain ⟨c1, c2⟩ := common_pos i0 i1
    simp only
    refine ⟨by omega, by omega, by omega, by omega, ?_⟩
    cases o
    · exact ⟨0, by omega⟩
    · show _ = _; omega
  · rw [e] at i1 ⊢
    cases o
    · simp only [Bool.false_eq_true, if_false] at i1 ⊢
      have hz : ¬ common u v (a % n) (b % n) = 0 := by intro z; rw [z] at i1; simp at i1; omega
      rw [if_neg hz] at i1
      rw [if_neg hz, if_neg hz]
      obtain ⟨c1, c2⟩ := common_pos i0 i1
      simp only
      have hm : (a % n = a + n ∧ b % n = b + n) ∨ (a % n = a - n ∧ b % n = b - n) := by
        rcases h1 with h1 | h1
        · exact .inl ⟨mod_low (by omega) (by omega), mod_low (by omega) h1⟩
        · exact .inr ⟨mod_high h1 (by omega), mod_high (by omega) hb⟩
      rcases hm with ⟨m1, m2⟩ | ⟨m1, m2⟩
      · refine ⟨by omega, by omega, by omega, by omega, 1, by omega⟩
      · refine ⟨by omega, by omega, by omega, by omega, -1, by omega⟩
    · simp at i1; omega
  · rw [e] at i1 ⊢
    have m1 : a % n = a + n := mod_low (by omega) h1
    have key : ∀ q, q = a + n → ¬ common u v q (n - 1) = 0 → i < common u v q (n - 1) →
        0 ≤ max u q - u + i ∧ max u q - u + i ≤ v - u ∧ 1 ≤ max q u - q + 1 + i ∧ max q u - q + 1 + i ≤ b - a + 1 ∧
        ∃ t : ℤ, u + (max u q - u + i) = a + (max q u - q + 1 + i) - 1 + t * n := by
      intro q hq hz i1
      obtain ⟨c1, c2⟩ := common_pos i0 i1
      exact ⟨by omega, by omega, by omega, by omega, 1, by omega⟩
    have key2 : i < common u v 0 b → 0 ≤ max u 0 - u + i ∧ max u 0 - u + i ≤ v - u ∧ 1 ≤ max 0 u - 0 + 1 - a + i ∧
        max 0 u - 0 + 1 - a + i ≤ b - a + 1 ∧ u + (max u 0 - u + i) = a + (max 0 u - 0 + 1 - a + i) - 1 := by
      intro i1
      obtain ⟨c1, c2⟩ := common_pos i0 i1
      exact ⟨by omega, by omega, by omega, by omega, by omega⟩
    cases o
    · simp only [Bool.false_eq_true, if_false] at i1 ⊢
      by_cases hz : common u v (a % n) (n - 1) = 0
      · simp only [hz, if_true] at i1 ⊢
        have hz2 : ¬ common u v 0 b = 0 := by intro z; rw [z] at i1; simp at i1; omega
        simp only [hz2, if_false] at i1 ⊢
        obtain ⟨k1, k2, k3, k4, k5⟩ := key2 i1
        exact ⟨k1, k2, k3, k4, 0, by rw [k5]; ring⟩
      · simp only [hz, if_false] at i1 ⊢
        exact key _ m1 hz i1
    · simp only [if_true] at i1 ⊢
      have hz2 : ¬ common u v 0 b = 0 := by intro z; rw [z] at i1; simp at i1; omega
      simp only [hz2, if_false] at i1 ⊢
      exact key2 i1
  · rw [e] at i1 ⊢
    have m1 : b % n = b - n := mod_high h3 hb
    have key : ∀ q, q = b - n → i < common u v 0 q →
        0 ≤ max u 0 - u + i ∧ max u 0 - u + i ≤ v - u ∧ 1 ≤ max 0 u - 0 + 1 + (n - a) + i ∧ max 0 u - 0 + 1 + (n - a) + i ≤ b - a + 1 ∧
        ∃ t : ℤ, u + (max u 0 - u + i) = a + (max 0 u - 0 + 1 + (n - a) + i) - 1 + t * n := by
      intro q hq i1
      obtain ⟨c1, c2⟩ := common_pos i0 i1
      exact ⟨by omega, by omega, by omega, by omega, -1, by omega⟩
    have key2 : i < common u v a (n - 1) → 0 ≤ max u a - u + i ∧ max u a - u + i ≤ v - u ∧ 1 ≤ max a u - a + 1 + i ∧
        max a u - a + 1 + i ≤ b - a + 1 ∧ u + (max u a - u + i) = a + (max a u - a + 1 + i) - 1 := by
      intro i1
      obtain ⟨c1, c2⟩ := common_pos i0 i1
      exact ⟨by omega, by omega, by omega, by omega, by omega⟩
    cases o
    · simp only [Bool.false_eq_true, if_false] at i1 ⊢
      by_cases hz : common u v 0 (b % n) = 0
      · simp only [hz, if_true] at i1 ⊢
        have hz2 : ¬ common u v a (n - 1) = 0 := by intro z; rw [z] at i1; simp at i1; omega
        simp only [hz2, if_false] at i1 ⊢
        obtain ⟨k1, k2, k3, k4, k5⟩ := key2 i1
        exact ⟨k1, k2, k3, k4, 0, by rw [k5]; ring⟩
      · simp only [hz, if_false] at i1 ⊢
        exact key _ m1 i1
    · simp only [if_true] at i1 ⊢
      have hz2 : ¬ common u v a (n - 1) = 0 := by intro z; rw [z] at i1; simp at i1; omega
      simp only [hz2, if_false] at i1 ⊢
      exact key2 i1

theorem g2l_sound (h : A.Ok g) {u v d i : ℤ} (hd : A.In d) (i0 : 0 ≤ i)
    (i1 : i < (g2lRecv u v (A.slo d) (A.shi d) (A.glo d) (A.ghi d)).size) :
    0 ≤ (g2lRecv u v (A.slo d) (A.shi d) (A.glo d) (A.ghi d)).first + i ∧ (g2lRecv u v (A.slo d) (A.shi d) (A.glo d) (A.ghi d)).first + i ≤ v - u ∧
    1 ≤ (g2lSend A.n (A.slo d) (A.shi d) u v (A.glo d) (A.ghi d)).first + i ∧
    (g2lSend A.n (A.slo d) (A.shi d) u v (A.glo d) (A.ghi d)).first + i ≤ A.shi d - A.slo d + 1 ∧
    u + ((g2lRecv u v (A.slo d) (A.shi d) (A.glo d) (A.ghi d)).first + i) =
      A.slo d + ((g2lSend A.n (A.slo d) (A.shi d) u v (A.glo d) (A.ghi d)).first + i) - 1 ∧
    A.glo d ≤ u + ((g2lRecv u v (A.slo d) (A.shi d) (A.glo d) (A.ghi d)).first + i) ∧
    u + ((g2lRecv u v (A.slo d) (A.shi d) (A.glo d) (A.ghi d)).first + i) ≤ A.ghi d := by
  have e := g2l_size h hd u v
  have i2 := i1
  rw [← e] at i2
  have f1 : (g2lRecv u v (A.slo d) (A.shi d) (A.glo d) (A.ghi d)) =
      ⟨common u v (max (A.slo d) (A.glo d)) (min (A.shi d) (A.ghi d)), max u (max (A.slo d) (A.glo d)) - u⟩ := by
    unfold g2lRecv at i1 ⊢
    simp only at i1 ⊢
    split_ifs at i1 ⊢ with c1 c2
    all_goals first | rfl | (exfalso; simp at i1; omega)
  have f2 : (g2lSend A.n (A.slo d) (A.shi d) u v (A.glo d) (A.ghi d)).first = max (max (A.slo d) (A.glo d)) u - A.slo d + 1 := by
    unfold g2lSend at i2 ⊢
    simp only at i2 ⊢
    split_ifs at i2 ⊢
    all_goals first | rfl | (exfalso; simp at i2; omega)
  rw [f2]
  rw [f1] at i1 ⊢
  obtain ⟨c1, c2⟩ := common_pos i0 i1
  simp only at i1 ⊢
  refine ⟨?_, ?_, ?_, ?_, ?_, ?_, ?_⟩ <;> omega

/-- Everything a message carries stands for the same cells. -/
theorem sound (h : A.Ok g) (ha : A.Aligned) (w : Way) {s d i : ℤ} (hs : A.In s) (hd : A.In d) (i0 : 0 ≤ i) (i1 : i < (w.cut.snd A s d).size) :
    w.Rel A d ((w.cut.rcv A d s).first + i) s ((w.cut.snd A s d).first + i) := by
  have hg := h.guards
  have r1 := h.slab_range hd
  have r1' := h.slab_range hs
  have r2 := h.glo_nonneg hd
  have r3 := h.ghi_lt hd
  have u1 := h.lo_nonneg hs
  have u2 := h.hi_lt hs
  have f1 := h.slabFilled d hd.1 hd.2
  cases w
  · show A.Source d ((A.l2gRecv d s).first + i) s ((A.l2gSend s d).first + i)
    replace i1 : i < (A.l2gSend s d).size := i1
    unfold Axis.Source
    unfold Axis.l2gSend Axis.l2gRecv at *
    by_cases hw : A.P = A.G
    · simp only [if_pos hw] at i1 ⊢
      unfold Axis.own at *
      by_cases e : d = s
      · subst e
        simp only [if_true] at i1 ⊢
        obtain ⟨a1, a2⟩ := ha hw d hd
        refine ⟨⟨by omega, by omega⟩, trivial, by omega, by omega, by omega⟩
      · rw [if_neg e] at i1; simp at i1; omega
    · simp only [if_neg hw] at i1 ⊢
      obtain ⟨a1, a2, a3, a4, a5⟩ := l2g_sound A.open_ (n := A.n) u1 u2 f1 (by omega) (by omega) i0 i1
      exact ⟨⟨a3, a4⟩, a1, a2, a5⟩
  · show A.Image d ((A.g2lRecv d s).first + i) s ((A.g2lSend s d).first + i)
    replace i1 : i < (A.g2lSend s d).size := i1
    unfold Axis.Image
    unfold Axis.g2lSend Axis.g2lRecv at *
    by_cases hw : A.P = A.G
    · simp only [if_pos hw] at i1 ⊢
      unfold Axis.own at *
      by_cases e : d = s
      · subst e
        simp only [if_true] at i1 ⊢
        obtain ⟨a1, a2⟩ := ha hw d hd
        refine ⟨⟨by omega, by omega⟩, by omega, trivial, by omega, by omega⟩
      · rw [if_neg e] at i1; simp at i1; omega
    · simp only [if_neg hw] at i1 ⊢
      rw [g2l_size h hs] at i1
      obtain ⟨a1, a2, a3, a4, a5, a6, a7⟩ := g2l_sound h hs i0 i1
      exact ⟨⟨a3, a4⟩, a5, ⟨a1, a2⟩, a6, a7⟩

theorem common_mem {a b c d x : ℤ} (h1 : a ≤ x) (h2 : x ≤ b) (h3 : c ≤ x) (h4 : x ≤ d) :
    0 ≤ x - max a c ∧ x - max a c < common a b c d := by
  unfold common
  omega

theorem common_ne {a b c d : ℤ} (h : ¬ common a b c d = 0) : max a c ≤ min b d := by
  unfold common at h
  omega

/-- Everything that one process owns of a slab is in its message, if the two meet in one period only. -/
theorem l2g_complete {n : ℤ} (o : Bool) {u v a b p c : ℤ} (hu : 0 ≤ u) (hv : v < n) (hab : a ≤ b) (ha : -n < a) (hb : b < 2 * n)
    (hm : o = false → ∀ x y t t' : ℤ, a ≤ x → x ≤ b → a ≤ y → y ≤ b → u ≤ x + t * n → x + t * n ≤ v → u ≤ y + t' * n → y + t' * n ≤ v → t = t')
    (p1 : 1 ≤ p) (p2 : p ≤ b - a + 1) (c1 : 0 ≤ c) (c2 : c ≤ v - u)
    (hx : if o then u + c = a + p - 1 else ∃ t : ℤ, u + c = a + p - 1 + t * n) :
    ∃ i, 0 ≤ i ∧ i < (l2gSend n o u v a b).size ∧ p = (l2gRecv n o a b u v).first + i ∧ c = (l2gSend n o u v a b).first + i := by
  unfold l2gSend l2gRecv
  obtain ⟨t, ht, hto⟩ : ∃ t : ℤ, u + c = a + p - 1 + t * n ∧ (o = true → t = 0) := by
    cases o
    · obtain ⟨t, ht⟩ := hx
      exact ⟨t, ht, by simp⟩
    · exact ⟨0, by simpa using hx, fun _ => rfl⟩
  have hn : 0 < n := by omega
  have tb : t = 0 ∨ t = 1 ∨ t = -1 := by
    rcases lt_or_ge t (-1) with h | h
    · have : t * n ≤ (-2) * n := mul_le_mul_of_nonneg_right (by omega) hn.le
      omega
    rcases lt_or_ge 1 t with h' | h'
    · have : 2 * n ≤ t * n := mul_le_mul_of_nonneg_right (by omega) hn.le
      omega
    omega
  rcases case_eq n a b hab with ⟨e, h1, h2⟩ | ⟨e, h1⟩ | ⟨e, h1, h2⟩ | ⟨e, h1, h2, h3⟩
  · rw [e]
    simp only
    have t0 : t = 0 := by rcases tb with h | h | h <;> subst h <;> omega
    subst t0
    obtain ⟨k1, k2⟩ := common_mem (a := u) (b := v) (c := a) (d := b) (x := u + c) (by omega) (by omega) (by omega) (by omega)
    have hz : ¬ common u v a b = 0 := by omega
    rw [if_neg hz, if_neg hz]
    exact ⟨_, k1, k2, by simp only; omega, by simp only; omega⟩
  · rw [e]
    cases o
    · simp only [Bool.false_eq_true, if_false]
      have hmm : (t = 1 ∧ a % n = a + n ∧ b % n = b + n) ∨ (t = -1 ∧ a % n = a - n ∧ b % n = b - n) := by
        rcases h1 with h1 | h1
        · exact .inl ⟨by rcases tb with h | h | h <;> subst h <;> omega, mod_low (by omega) (by omega), mod_low (by omega) h1⟩
        · exact .inr ⟨by rcases tb with h | h | h <;> subst h <;> omega, mod_high h1 (by omega), mod_high (by omega) hb⟩
      have k : 0 ≤ u + c - max u (a % n) ∧ u + c - max u (a % n) < common u v (a % n) (b % n) := by
        rcases hmm with ⟨t0, m1, m2⟩ | ⟨t0, m1, m2⟩ <;> subst t0 <;>
          exact common_mem (x := u + c) (by omega) (by omega) (by omega) (by omega)
      obtain ⟨k1, k2⟩ := k
      have hz : ¬ common u v (a % n) (b % n) = 0 := by omega
      rw [if_neg hz, if_neg hz]
      refine ⟨_, k1, k2, ?_, by simp only; omega⟩
      simp only
      rcases hmm with ⟨t0, m1, m2⟩ | ⟨t0, m1, m2⟩ <;> subst t0 <;> omega
    · have := hto rfl
      subst this
      omega
  · rw [e]
    have m1 : a % n = a + n := mod_low (by omega) h1
    have b2 : t = 0 → 0 ≤ u + c - max u 0 ∧ u + c - max u 0 < common u v 0 b := by
      intro t0
      subst t0
      exact common_mem (x := u + c) (by omega) (by omega) (by omega) (by omega)
    cases o
    · simp only [Bool.false_eq_true, if_false]
      rcases tb with t0 | t0 | t0
      · have hz : common u v (a % n) (n - 1) = 0 := by
          by_contra hz
          have := common_ne hz
          rw [m1] at this
          have := hm rfl (a + p - 1) (max u (a + n) - n) 0 1 (by omega) (by omega) (by omega) (by omega) (by subst t0; omega) (by subst t0; omega)
            (by omega) (by omega)
          omega
        obtain ⟨k1, k2⟩ := b2 t0
        have hz2 : ¬ common u v 0 b = 0 := by omega
        simp only [hz, hz2, if_true, if_false]
        subst t0
        exact ⟨_, k1, k2, by omega, by omega⟩
      · subst t0
        obtain ⟨k1, k2⟩ := common_mem (a := u) (b := v) (c := a % n) (d := n - 1) (x := u + c) (by omega) (by omega) (by omega) (by omega)
        have hz : ¬ common u v (a % n) (n - 1) = 0 := by omega
        simp only [hz, if_false]
        exact ⟨_, k1, k2, by omega, by omega⟩
      · exfalso
        have := hm rfl (a + p - 1) (u + c) (-1) 0 (by omega) (by omega) (by omega) (by subst t0; omega) (by subst t0; omega) (by subst t0; omega)
          (by omega) (by omega)
        omega
    · have t0 := hto rfl
      simp only [if_true]
      obtain ⟨k1, k2⟩ := b2 t0
      have hz2 : ¬ common u v 0 b = 0 := by omega
      simp only [hz2, if_false]
      subst t0
      exact ⟨_, k1, k2, by omega, by omega⟩
  · rw [e]
    have m1 : b % n = b - n := mod_high h3 hb
    have b2 : t = 0 → 0 ≤ u + c - max u a ∧ u + c - max u a < common u v a (n - 1) := by
      intro t0
      subst t0
      exact common_mem (x := u + c) (by omega) (by omega) (by omega) (by omega)
    cases o
    · simp only [Bool.false_eq_true, if_false]
      rcases tb with t0 | t0 | t0
      · have hz : common u v 0 (b % n) = 0 := by
          by_contra hz
          have := common_ne hz
          rw [m1] at this
          have := hm rfl (a + p - 1) (max u 0 + n) 0 (-1) (by omega) (by omega) (by omega) (by omega) (by subst t0; omega) (by subst t0; omega)
            (by omega) (by omega)
          omega
        obtain ⟨k1, k2⟩ := b2 t0
        have hz2 : ¬ common u v a (n - 1) = 0 := by omega
        simp only [hz, hz2, if_true, if_false]
        subst t0
        exact ⟨_, k1, k2, by omega, by omega⟩
      · exfalso
        subst t0
        omega
      · subst t0
        obtain ⟨k1, k2⟩ := common_mem (a := u) (b := v) (c := 0) (d := b % n) (x := u + c) (by omega) (by omega) (by omega) (by omega)
        have hz : ¬ common u v 0 (b % n) = 0 := by omega
        simp only [hz, if_false]
        exact ⟨_, k1, k2, by omega, by omega⟩
    · have t0 := hto rfl
      simp only [if_true]
      obtain ⟨k1, k2⟩ := b2 t0
      have hz2 : ¬ common u v a (n - 1) = 0 := by omega
      simp only [hz2, if_false]
      subst t0
      exact ⟨_, k1, k2, by omega, by omega⟩

theorem g2l_complete (h : A.Ok g) {u v d c p : ℤ} (hd : A.In d) (c0 : 0 ≤ c) (c1 : c ≤ v - u) (p0 : 1 ≤ p) (p1 : p ≤ A.shi d - A.slo d + 1)
    (hx : u + c = A.slo d + p - 1) (g0 : A.glo d ≤ u + c) (g1 : u + c ≤ A.ghi d) :
    ∃ i, 0 ≤ i ∧ i < (g2lRecv u v (A.slo d) (A.shi d) (A.glo d) (A.ghi d)).size ∧
      c = (g2lRecv u v (A.slo d) (A.shi d) (A.glo d) (A.ghi d)).first + i ∧
      p = (g2lSend A.n (A.slo d) (A.shi d) u v (A.glo d) (A.ghi d)).first + i := by
  have h1 := h.glo_nonneg hd
  have h2 := h.ghi_lt hd
  have hc : ¬ selectCase A.n (A.slo d) (A.shi d) = 1 := by
    intro hc
    have := case_one hc
    omega
  have hf : max (A.slo d) (A.glo d) ≤ min (A.shi d) (A.ghi d) := by omega
  obtain ⟨k1, k2⟩ := common_mem (a := u) (b := v) (c := max (A.slo d) (A.glo d)) (d := min (A.shi d) (A.ghi d)) (x := u + c) (by omega) (by omega)
    (by omega) (by omega)
  have hz : ¬ common u v (max (A.slo d) (A.glo d)) (min (A.shi d) (A.ghi d)) = 0 := by omega
  unfold g2lRecv g2lSend
  simp only [hc, hf, hz, not_lt.2 hf, if_true, if_false]
  exact ⟨_, k1, k2, by omega, by omega⟩

theorem once (h : A.Ok g) (hm : A.MeetsOnce) (hw : A.P ≠ A.G) (ho : A.open_ = false) {s d : ℤ} (hs : A.In s) (hd : A.In d) :
    ∀ x y t t' : ℤ, A.slo d ≤ x → x ≤ A.shi d → A.slo d ≤ y → y ≤ A.shi d → A.lo s ≤ x + t * A.n → x + t * A.n ≤ A.hi s →
      A.lo s ≤ y + t' * A.n → y + t' * A.n ≤ A.hi s → t = t' := by
  have u1 := h.lo_nonneg hs
  have u2 := h.hi_lt hs
  have key : ∀ x t : ℤ, A.lo s ≤ x + t * A.n → x + t * A.n ≤ A.hi s → x % A.n = x + t * A.n ∧ x / A.n = -t := by
    intro x t h1 h2
    have e : (x + t * A.n) % A.n = x % A.n := Int.add_mul_emod_self_right ..
    rw [mod_mid (by omega) (by omega)] at e
    refine ⟨e.symm, ?_⟩
    have e2 : (x + t * A.n) / A.n = x / A.n + t := Int.add_mul_ediv_right _ _ (by omega)
    rw [Int.ediv_eq_zero_of_lt (by omega) (by omega)] at e2
    omega
  intro x y t t' h1 h2 h3 h4 h5 h6 h7 h8
  obtain ⟨a1, a2⟩ := key x t h5 h6
  obtain ⟨b1, b2⟩ := key y t' h7 h8
  have := hm hw ho s d hs hd x y h1 h2 h3 h4 (by omega) (by omega) (by omega) (by omega)
  omega

/-- The condition under which everything arrives: none on the way back. -/
def Way.Full (w : Way) (A : Axis) : Prop := w = .toFft → A.MeetsOnce

theorem complete (h : A.Ok g) (ha : A.Aligned) (w : Way) (hm : w.Full A) {s d p c : ℤ} (hs : A.In s) (hd : A.In d) (hr : w.Rel A d p s c) :
    ∃ i, 0 ≤ i ∧ i < (w.cut.snd A s d).size ∧ p = (w.cut.rcv A d s).first + i ∧ c = (w.cut.snd A s d).first + i := by
  have hg := h.guards
  have r1 := h.slab_range hd
  have r1' := h.slab_range hs
  have r2 := h.glo_nonneg hd
  have r3 := h.ghi_lt hd
  have u1 := h.lo_nonneg hs
  have u2 := h.hi_lt hs
  have f1 := h.slabFilled d hd.1 hd.2
  cases w
  · show ∃ i, 0 ≤ i ∧ i < (A.l2gSend s d).size ∧ p = (A.l2gRecv d s).first + i ∧ c = (A.l2gSend s d).first + i
    replace hr : A.Source d p s c := hr
    unfold Axis.Source at hr
    unfold Axis.l2gSend Axis.l2gRecv
    by_cases hw : A.P = A.G
    · simp only [if_pos hw] at hr ⊢
      obtain ⟨⟨p1, p2⟩, rfl, c1, c2, e⟩ := hr
      obtain ⟨a1, a2⟩ := ha hw s hd
      unfold Axis.own
      simp only [if_true]
      exact ⟨p - 1, by omega, by omega, by omega, by omega⟩
    · simp only [if_neg hw] at hr ⊢
      obtain ⟨⟨p1, p2⟩, c1, c2, e⟩ := hr
      exact l2g_complete A.open_ u1 u2 f1 (by omega) (by omega) (fun ho => once h (hm rfl) hw ho hs hd) p1 p2 c1 c2 e
  · show ∃ i, 0 ≤ i ∧ i < (A.g2lSend s d).size ∧ p = (A.g2lRecv d s).first + i ∧ c = (A.g2lSend s d).first + i
    replace hr : A.Image d p s c := hr
    unfold Axis.Image at hr
    unfold Axis.g2lSend Axis.g2lRecv
    by_cases hw : A.P = A.G
    · simp only [if_pos hw] at hr ⊢
      obtain ⟨⟨p1, p2⟩, e, rfl, c1, c2⟩ := hr
      obtain ⟨a1, a2⟩ := ha hw d hd
      unfold Axis.own
      simp only [if_true]
      exact ⟨c - 1, by omega, by omega, by omega, by omega⟩
    · simp only [if_neg hw] at hr ⊢
      obtain ⟨⟨p1, p2⟩, e, ⟨c1, c2⟩, g1, g2⟩ := hr
      rw [g2l_size h hs]
      exact g2l_complete h hs c1 c2 p1 p2 e g1 g2

/-- The origin of an element is unique. -/
theorem rel_uniq (h : A.Ok g) (w : Way) {s s' d p c c' : ℤ} (hs : A.In s) (hs' : A.In s') (hr : w.Rel A d p s c) (hr' : w.Rel A d p s' c') :
    s = s' ∧ c = c' := by
  have u1 := h.lo_nonneg hs
  have u2 := h.hi_lt hs
  have v1 := h.lo_nonneg hs'
  have v2 := h.hi_lt hs'
  cases w
  · replace hr : A.Source d p s c := hr
    replace hr' : A.Source d p s' c' := hr'
    unfold Axis.Source at hr hr'
    by_cases hw : A.P = A.G
    · simp only [if_pos hw] at hr hr'
      obtain ⟨-, rfl, -, -, e⟩ := hr
      obtain ⟨-, rfl, -, -, e'⟩ := hr'
      exact ⟨rfl, by omega⟩
    · simp only [if_neg hw] at hr hr'
      obtain ⟨-, c1, c2, e⟩ := hr
      obtain ⟨-, c1', c2', e'⟩ := hr'
      have key : A.lo s + c = A.lo s' + c' := by
        cases ho : A.open_ <;> simp only [ho, Bool.false_eq_true, if_false, if_true] at e e'
        · obtain ⟨t, e⟩ := e
          obtain ⟨t', e'⟩ := e'
          have e1 : (A.lo s + c) % A.n = (A.slo d + p - 1) % A.n := by rw [e]; exact Int.add_mul_emod_self_right ..
          have e2 : (A.lo s' + c') % A.n = (A.slo d + p - 1) % A.n := by rw [e']; exact Int.add_mul_emod_self_right ..
          rw [mod_mid (by omega) (by omega)] at e1 e2
          omega
        · omega
      have := h.owner_uniq hs hs' (x := A.lo s + c) (by omega) (by omega) (by omega) (by omega)
      subst this
      exact ⟨rfl, by omega⟩
  · replace hr : A.Image d p s c := hr
    replace hr' : A.Image d p s' c' := hr'
    unfold Axis.Image at hr hr'
    by_cases hw : A.P = A.G
    · simp only [if_pos hw] at hr hr'
      obtain ⟨-, e, rfl, -, -⟩ := hr
      obtain ⟨-, e', rfl, -, -⟩ := hr'
      exact ⟨rfl, by omega⟩
    · simp only [if_neg hw] at hr hr'
      obtain ⟨⟨p1, p2⟩, e, ⟨c1, c2⟩, g1, g2⟩ := hr
      obtain ⟨⟨p1', p2'⟩, e', ⟨c1', c2'⟩, g1', g2'⟩ := hr'
      have := h.image_uniq hs hs' (x := A.lo d + p) g1 g2 (by omega) (by omega) g1' g2' (by omega) (by omega)
      subst this
      exact ⟨rfl, by omega⟩

end Picsar.FftGroups
