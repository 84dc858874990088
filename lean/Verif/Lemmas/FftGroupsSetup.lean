import Verif.Lemmas.FftGroups
import Verif.Lemmas.Topology

namespace Picsar.FftGroups
open Picsar Picsar.Topology

theorem groupCells_eq {n G : ℤ} (hG : 1 ≤ G) (hn : 0 ≤ n) (k : ℤ) (hk : k < G) :
    groupCells n G k = sLo (n / G) (G - n % G) (k + 1 + 1) - sLo (n / G) (G - n % G) (k + 1) := by
  rw [sLo_size]
  unfold groupCells
  have hq : Int.tdiv n G = n / G := Int.tdiv_eq_ediv_of_nonneg hn
  have hdm := Int.mul_ediv_add_emod n G
  have hm1 := Int.emod_nonneg n (show G ≠ 0 by omega)
  have hm2 := Int.emod_lt_of_pos n (show 0 < G by omega)
  rw [hq]
  simp only
  have e : n / G * G = G * (n / G) := mul_comm _ _
  split_ifs <;> omega

theorem groupMin_eq {n G : ℤ} (hG : 1 ≤ G) (hn : 0 ≤ n) : ∀ k : ℕ, (k : ℤ) ≤ G → groupMin n G k = sLo (n / G) (G - n % G) (k + 1) := by
  intro k
  induction k with
  | zero =>
    intro _
    have hm2 := Int.emod_lt_of_pos n (show 0 < G by omega)
    simp [groupMin, sLo]
    omega
  | succ k ih =>
    intro hk
    push_cast at hk
    have : groupMin n G (k + 1) = groupMin n G k + groupCells n G k := by
      unfold groupMin
      rw [List.range_succ, List.map_append, List.sum_append]
      simp
    rw [this, ih (by omega), groupCells_eq hG hn k (by omega)]
    push_cast
    ring

theorem groupCells_pos {n G : ℤ} (hG : 1 ≤ G) (hn : G ≤ n) (k : ℤ) (hk : k < G) : 1 ≤ groupCells n G k ∧ G * groupCells n G k ≤ n + G - 1 := by
  rw [groupCells_eq hG (by omega) k hk, sLo_size]
  have h1 : 1 ≤ n / G := by rw [Int.le_ediv_iff_mul_le (by omega)]; omega
  have hdm := Int.mul_ediv_add_emod n G
  have hm1 := Int.emod_nonneg n (show G ≠ 0 by omega)
  constructor
  · split_ifs <;> omega
  · split_ifs
    · rw [mul_add]; omega
    · rw [mul_add]; omega

theorem ceil_bounds {N p : ℤ} (hp : 1 ≤ p) : N ≤ p * ((N + p - 1) / p) ∧ p * ((N + p - 1) / p) ≤ N + p - 1 := by
  have hdm := Int.mul_ediv_add_emod (N + p - 1) p
  have hm1 := Int.emod_nonneg (N + p - 1) (show p ≠ 0 by omega)
  have hm2 := Int.emod_lt_of_pos (N + p - 1) (show 0 < p by omega)
  omega

/-- What a successful set-up computes. -/
theorem setup_eq {n P G gg ng : ℤ} {o : Bool} {lo hi : ℤ → ℤ} {A : Axis} (e : setupZ n P G gg ng o lo hi = .ok A) :
    P % G = 0 ∧ 2 * gg < n ∧
    (∀ c, 0 ≤ c → c < P → (fftwSlab (groupCells n G (Int.tdiv c (Int.tdiv P G)) + 2 * gg) (Int.tdiv P G) (c % Int.tdiv P G)).2 ≠ 0) ∧
    A = ⟨P, G, n, ng, o, lo, hi,
      fun c => (fftwSlab (groupCells n G (Int.tdiv c (Int.tdiv P G)) + 2 * gg) (Int.tdiv P G) (c % Int.tdiv P G)).1 - gg +
        groupMin n G (Int.tdiv c (Int.tdiv P G)).toNat,
      fun c => (fftwSlab (groupCells n G (Int.tdiv c (Int.tdiv P G)) + 2 * gg) (Int.tdiv P G) (c % Int.tdiv P G)).1 - gg +
        groupMin n G (Int.tdiv c (Int.tdiv P G)).toNat +
        (fftwSlab (groupCells n G (Int.tdiv c (Int.tdiv P G)) + 2 * gg) (Int.tdiv P G) (c % Int.tdiv P G)).2 - 1,
      fun c => groupMin n G (Int.tdiv c (Int.tdiv P G)).toNat,
      fun c => groupMin n G (Int.tdiv c (Int.tdiv P G)).toNat + groupCells n G (Int.tdiv c (Int.tdiv P G)) - 1⟩ := by
  unfold setupZ at e
  dsimp only at e
  split_ifs at e with h1 h2 h3
  refine ⟨not_not.1 h1, by omega, ?_, (Except.ok.inj e).symm⟩
  intro c c0 c1 hz
  apply h2
  refine List.any_eq_true.2 ⟨c.toNat, List.mem_range.2 (by omega), ?_⟩
  have : ((c.toNat : ℕ) : ℤ) = c := by omega
  rw [this]
  exact decide_eq_true hz

theorem tdiv_split {k r p : ℤ} (hk : 0 ≤ k) (hr : 0 ≤ r) (hrp : r < p) : Int.tdiv (k * p + r) p = k ∧ (k * p + r) % p = r := by
  have hp : 0 < p := by omega
  have : 0 ≤ k * p := mul_nonneg hk hp.le
  constructor
  · rw [Int.tdiv_eq_ediv_of_nonneg (by omega), Int.add_comm, Int.add_mul_ediv_right _ _ (by omega), Int.ediv_eq_zero_of_lt hr hrp, zero_add]
  · rw [Int.add_comm, Int.add_mul_emod_self_right, Int.emod_eq_of_lt hr hrp]

/-- The values of the set-up in terms of group and place in the group. -/
structure Setup (n P G p gg ng : ℤ) (A : Axis) : Prop where
  P_eq : A.P = P
  G_eq : A.G = G
  n_eq : A.n = n
  ng_eq : A.ng = ng
  p_eq : A.P / A.G = p
  p_pos : 1 ≤ p
  mul : P = G * p
  small : 2 * gg < n
  glo : ∀ k r, 0 ≤ k → k < G → 0 ≤ r → r < p → A.glo (k * p + r) = sLo (n / G) (G - n % G) (k + 1)
  ghi : ∀ k r, 0 ≤ k → k < G → 0 ≤ r → r < p → A.ghi (k * p + r) = sLo (n / G) (G - n % G) (k + 1 + 1) - 1
  slo : ∀ k r, 0 ≤ k → k < G → 0 ≤ r → r < p → A.slo (k * p + r) =
    r * ((groupCells n G k + 2 * gg + p - 1) / p) - gg + sLo (n / G) (G - n % G) (k + 1)
  shi : ∀ k r, 0 ≤ k → k < G → 0 ≤ r → r < p → A.shi (k * p + r) = A.slo (k * p + r) - 1 +
    min ((groupCells n G k + 2 * gg + p - 1) / p) (groupCells n G k + 2 * gg - r * ((groupCells n G k + 2 * gg + p - 1) / p))
  block : ∀ k, 0 ≤ k → k < G → 1 ≤ (groupCells n G k + 2 * gg + p - 1) / p
  full : ∀ k r, 0 ≤ k → k < G → 0 ≤ r → r < p → r * ((groupCells n G k + 2 * gg + p - 1) / p) < groupCells n G k + 2 * gg

theorem setup_of {n P G gg ng : ℤ} {o : Bool} {lo hi : ℤ → ℤ} {A : Axis} (hG : 1 ≤ G) (hP : 1 ≤ P) (hn : P ≤ n)
    (e : setupZ n P G gg ng o lo hi = .ok A) : Setup n P G (P / G) gg ng A ∧ A.lo = lo ∧ A.hi = hi ∧ A.open_ = o := by
  obtain ⟨h1, h2, h3, h4⟩ := setup_eq e
  have ht : Int.tdiv P G = P / G := Int.tdiv_eq_ediv_of_nonneg (by omega)
  have hmul : P = G * (P / G) := by
    have := Int.mul_ediv_add_emod P G
    omega
  have hp : 1 ≤ P / G := by
    by_contra hc
    have : G * (P / G) ≤ G * 0 := mul_le_mul_of_nonneg_left (by omega) (by omega)
    omega
  have hGn : G ≤ n := by
    have : G * 1 ≤ G * (P / G) := mul_le_mul_of_nonneg_left hp (by omega)
    omega
  rw [ht] at h3 h4
  have full : ∀ k r, 0 ≤ k → k < G → 0 ≤ r → r < P / G →
      0 < min ((groupCells n G k + 2 * gg + P / G - 1) / (P / G)) (groupCells n G k + 2 * gg - r * ((groupCells n G k + 2 * gg + P / G - 1) / (P / G))) := by
    intro k r k0 k1 r0 r1
    obtain ⟨t1, t2⟩ := tdiv_split k0 r0 r1
    have hin : 0 ≤ k * (P / G) + r ∧ k * (P / G) + r < P := by
      have a1 : 0 ≤ k * (P / G) := mul_nonneg k0 (by omega)
      have a2 : (k + 1) * (P / G) ≤ G * (P / G) := mul_le_mul_of_nonneg_right (by omega) (by omega)
      have a3 : (k + 1) * (P / G) = k * (P / G) + P / G := by ring
      omega
    have := h3 (k * (P / G) + r) hin.1 hin.2
    rw [t1, t2] at this
    unfold fftwSlab at this
    simp only at this
    omega
  subst h4
  refine ⟨⟨rfl, rfl, rfl, rfl, rfl, hp, hmul, h2, ?_, ?_, ?_, ?_, ?_, ?_⟩, rfl, rfl, rfl⟩
  · intro k r k0 k1 r0 r1
    obtain ⟨t1, t2⟩ := tdiv_split k0 r0 r1
    simp only [t1]
    rw [groupMin_eq hG (by omega) _ (by omega)]
    congr 1
    omega
  · intro k r k0 k1 r0 r1
    obtain ⟨t1, t2⟩ := tdiv_split k0 r0 r1
    simp only [t1]
    rw [groupMin_eq hG (by omega) _ (by omega), groupCells_eq hG (by omega) k k1]
    have : ((k.toNat : ℕ) : ℤ) = k := by omega
    rw [this]
    omega
  · intro k r k0 k1 r0 r1
    obtain ⟨t1, t2⟩ := tdiv_split k0 r0 r1
    simp only [t1, t2, fftwSlab]
    rw [groupMin_eq hG (by omega) _ (by omega)]
    have : ((k.toNat : ℕ) : ℤ) = k := by omega
    rw [this]
  · intro k r k0 k1 r0 r1
    have := full k r k0 k1 r0 r1
    obtain ⟨t1, t2⟩ := tdiv_split k0 r0 r1
    simp only [t1, t2, fftwSlab]
    omega
  · intro k k0 k1
    have := full k 0 k0 k1 le_rfl (by omega)
    omega
  · intro k r k0 k1 r0 r1
    have := full k r k0 k1 r0 r1
    omega

/-- The split of the cells over the processes. -/
theorem split_of {n P : ℤ} {lo hi : ℤ → ℤ} (hP : 1 ≤ P) (hn : P ≤ n) {s : Split} (hs : split n P = .ok s)
    (hl : ∀ c, 0 ≤ c → c < P → s.cmin.get (c + 1) = .ok (lo c) ∧ s.cmax.get (c + 1) = .ok (hi c)) (c : ℤ) (c0 : 0 ≤ c) (c1 : c < P) :
    lo c = sLo (n / P) (P - n % P) (c + 1) ∧ hi c = sLo (n / P) (P - n % P) (c + 1 + 1) - 1 := by
  obtain ⟨s', n0, np, e, I, hq, h0, h1, h2, h3⟩ := split_ok hP (show 0 ≤ n by omega)
  rw [hs] at e
  have e := Except.ok.inj e
  subst e
  obtain ⟨a1, a2⟩ := sget I (show 1 ≤ c + 1 by omega) (show c + 1 ≤ P by omega)
  obtain ⟨b1, b2⟩ := hl c c0 c1
  rw [a1] at b1
  rw [a2] at b2
  have hdm := Int.mul_ediv_add_emod n P
  rw [← hq] at hdm
  have hnp : np = P - n % P := by omega
  rw [← hq, ← hnp]
  exact ⟨(Except.ok.inj b1).symm, (Except.ok.inj b2).symm⟩

theorem sLo_one {n P : ℤ} (hP : 1 ≤ P) : sLo (n / P) (P - n % P) 1 = 0 := by
  have hm2 := Int.emod_lt_of_pos n (show 0 < P by omega)
  unfold sLo
  simp
  omega

theorem sLo_end {n P : ℤ} (hP : 1 ≤ P) : sLo (n / P) (P - n % P) (P + 1) = n := by
  have hm2 := Int.emod_lt_of_pos n (show 0 < P by omega)
  have hm1 := Int.emod_nonneg n (show P ≠ 0 by omega)
  have hdm := Int.mul_ediv_add_emod n P
  unfold sLo
  have : (P + 1 - 1) * (n / P) = P * (n / P) := by ring
  omega

/-- The set-up of the code satisfies the specification. -/
theorem setup_ok {n P G gg ng : ℤ} {o : Bool} {lo hi : ℤ → ℤ} {A : Axis} (hG : 1 ≤ G) (hP : 1 ≤ P) (hn : P ≤ n) (hg : 0 ≤ gg) (hng : 0 ≤ ng)
    {s : Split} (hs : split n P = .ok s) (hl : ∀ c, 0 ≤ c → c < P → s.cmin.get (c + 1) = .ok (lo c) ∧ s.cmax.get (c + 1) = .ok (hi c))
    (e : setupZ n P G gg ng o lo hi = .ok A) : A.Ok gg := by
  obtain ⟨S, hlo, hhi, ho⟩ := setup_of hG hP hn e
  have L := split_of hP hn hs hl
  have hp := S.p_pos
  have hGn : G ≤ n := by
    have : G * 1 ≤ G * (P / G) := mul_le_mul_of_nonneg_left hp (by omega)
    have := S.mul
    omega
  have z0 : ∀ k : ℤ, k * (P / G) = k * (P / G) + 0 := fun k => by ring
  have hin : ∀ k r, 0 ≤ k → k < G → 0 ≤ r → r < P / G → 0 ≤ k * (P / G) + r := fun k r k0 k1 r0 r1 => by
    have a1 : 0 ≤ k * (P / G) := mul_nonneg k0 (by omega)
    omega
  have nP : 1 ≤ n / P := by rw [Int.le_ediv_iff_mul_le (by omega)]; omega
  have pe := S.p_eq
  refine ⟨by rw [S.G_eq]; exact hG, by rw [pe]; exact hp, by rw [pe, S.P_eq, S.G_eq]; exact S.mul, ?_, ?_, ?_, ?_, ?_, ?_, ?_, ?_, ?_, ?_, ?_, ?_, ?_, ?_, ?_⟩
  · rw [hlo, (L 0 le_rfl (by omega)).1]; exact sLo_one hP
  · rw [hhi, S.P_eq, (L (P - 1) (by omega) (by omega)).2, S.n_eq]
    rw [show P - 1 + 1 + 1 = P + 1 by ring, sLo_end hP]
  · intro c c0 c1
    rw [S.P_eq] at c1
    rw [hlo, hhi, (L c c0 (by omega)).2, (L (c + 1) (by omega) (by omega)).1]
    omega
  · intro c c0 c1
    rw [S.P_eq] at c1
    rw [hlo, hhi, (L c c0 (by omega)).2, (L c c0 (by omega)).1]
    have := sLo_size (n0 := n / P) (np := P - n % P) (i := c + 1)
    split_ifs at this <;> omega
  · intro k r k0 k1 r0 r1
    rw [pe] at r1 ⊢
    rw [S.G_eq] at k1
    have a1 := S.glo k r k0 k1 r0 r1
    have a2 := S.ghi k r k0 k1 r0 r1
    have b1 := S.glo k 0 k0 k1 le_rfl (by omega)
    have b2 := S.ghi k 0 k0 k1 le_rfl (by omega)
    rw [← z0] at b1 b2
    exact ⟨by rw [a1, b1], by rw [a2, b2]⟩
  · have b1 := S.glo 0 0 le_rfl (by omega) le_rfl (by omega)
    simp only [zero_mul, add_zero, zero_add] at b1
    rw [b1]; exact sLo_one hG
  · rw [pe, S.G_eq, z0, S.ghi (G - 1) 0 (by omega) (by omega) le_rfl (by omega), S.n_eq]
    rw [show G - 1 + 1 + 1 = G + 1 by ring, sLo_end hG]
  · intro k k0 k1
    rw [S.G_eq] at k1
    rw [pe, z0 k, z0 (k + 1), S.glo (k + 1) 0 (by omega) k1 le_rfl (by omega), S.ghi k 0 k0 (by omega) le_rfl (by omega)]
    omega
  · intro k k0 k1
    rw [S.G_eq] at k1
    rw [pe, z0 k, S.glo k 0 (by omega) k1 le_rfl (by omega), S.ghi k 0 k0 (by omega) le_rfl (by omega)]
    have a := (groupCells_pos hG hGn k k1).1
    rw [groupCells_eq hG (by omega) k k1] at a
    omega
  · intro k k0 k1
    rw [S.G_eq] at k1
    rw [pe, z0 k, S.glo k 0 (by omega) k1 le_rfl (by omega), S.slo k 0 k0 (by omega) le_rfl (by omega)]
    omega
  · intro k k0 k1
    rw [S.G_eq] at k1
    rw [pe, z0 k, add_zero, S.shi k _ k0 k1 (by omega) (by omega), S.slo k _ k0 (by omega) (by omega) (by omega)]
    rw [z0 k, S.ghi k 0 k0 (by omega) le_rfl (by omega)]
    have hc := groupCells_eq hG (show 0 ≤ n by omega) k k1
    have hb := S.full k (P / G - 1) k0 k1 (by omega) (by omega)
    obtain ⟨c1, c2⟩ := ceil_bounds (N := groupCells n G k + 2 * gg) hp
    generalize (groupCells n G k + 2 * gg + P / G - 1) / (P / G) = b at *
    have e1 : (P / G - 1) * b = P / G * b - b := by ring
    rw [e1] at hb ⊢
    omega
  · intro k r k0 k1 r0 r1
    rw [S.G_eq] at k1
    rw [pe] at r1 ⊢
    rw [S.slo k (r + 1) k0 k1 (by omega) r1, S.shi k r k0 k1 r0 (by omega), S.slo k r k0 k1 r0 (by omega)]
    have hb := S.full k (r + 1) k0 k1 (by omega) (by omega)
    generalize (groupCells n G k + 2 * gg + P / G - 1) / (P / G) = b at *
    have e1 : (r + 1) * b = r * b + b := by ring
    rw [e1] at hb ⊢
    omega
  · intro c c0 c1
    rw [S.P_eq] at c1
    have hc : c = c / (P / G) * (P / G) + c % (P / G) := by
      have := Int.mul_ediv_add_emod c (P / G)
      rw [mul_comm] at this
      omega
    have k0 : 0 ≤ c / (P / G) := Int.ediv_nonneg c0 (by omega)
    have k1 : c / (P / G) < G := by
      rw [Int.ediv_lt_iff_lt_mul (by omega)]
      have := S.mul
      omega
    have r0 := Int.emod_nonneg c (show P / G ≠ 0 by omega)
    have r1 := Int.emod_lt_of_pos c (show 0 < P / G by omega)
    rw [hc, S.shi _ _ k0 k1 r0 r1]
    have hb := S.full _ _ k0 k1 r0 r1
    have hb2 := S.block _ k0 k1
    omega
  · exact ⟨hg, by rw [S.n_eq]; exact S.small⟩
  · rw [S.ng_eq]; exact hng

theorem setup_aligned {n P G gg ng : ℤ} {o : Bool} {lo hi : ℤ → ℤ} {A : Axis} (hG : 1 ≤ G) (hP : 1 ≤ P) (hn : P ≤ n) (hgn : P = G → gg = ng)
    {s : Split} (hs : split n P = .ok s) (hl : ∀ c, 0 ≤ c → c < P → s.cmin.get (c + 1) = .ok (lo c) ∧ s.cmax.get (c + 1) = .ok (hi c))
    (e : setupZ n P G gg ng o lo hi = .ok A) : A.Aligned := by
  obtain ⟨S, hlo, hhi, ho⟩ := setup_of hG hP hn e
  have L := split_of hP hn hs hl
  intro hPG c hc
  rw [S.P_eq, S.G_eq] at hPG
  have hg := hgn hPG
  subst hPG
  have p1 : P / P = 1 := Int.ediv_self (by omega)
  rw [p1] at S
  obtain ⟨c0, c1⟩ := hc
  rw [S.P_eq] at c1
  have e1 := S.slo c 0 c0 c1 le_rfl (by omega)
  have e2 := S.shi c 0 c0 c1 le_rfl (by omega)
  have e3 := groupCells_eq hG (show 0 ≤ n by omega) c c1
  simp only [mul_one, add_zero, zero_mul, Int.ediv_one] at e1 e2
  rw [hlo, hhi, (L c c0 c1).1, (L c c0 c1).2, S.ng_eq, e2, e1]
  omega

/-- Slab and subdomain together are not larger than the domain and one cell more. -/
theorem once_of_small {A : Axis} {g : ℤ} (h : A.Ok g) (hs : A.P ≠ A.G → ∀ s d, A.In s → A.In d → (A.hi s - A.lo s + 1) + (A.shi d - A.slo d + 1) ≤ A.n + 1) :
    A.MeetsOnce := by
  intro hw ho s d hs' hd x y h1 h2 h3 h4 h5 h6 h7 h8
  have hsz := hs hw s d hs' hd
  have hn : 0 < A.n := by have := h.guards; omega
  have ex := Int.mul_ediv_add_emod x A.n
  have ey := Int.mul_ediv_add_emod y A.n
  rcases lt_trichotomy (x / A.n) (y / A.n) with hlt | heq | hlt
  · have : A.n * (x / A.n + 1) ≤ A.n * (y / A.n) := mul_le_mul_of_nonneg_left (by omega) hn.le
    rw [mul_add, mul_one] at this
    omega
  · exact heq
  · have : A.n * (y / A.n + 1) ≤ A.n * (x / A.n) := mul_le_mul_of_nonneg_left (by omega) hn.le
    rw [mul_add, mul_one] at this
    omega

theorem setup_once {n P G gg ng : ℤ} {o : Bool} {lo hi : ℤ → ℤ} {A : Axis} (hG : 1 ≤ G) (hP : 3 ≤ P) (hn : P ≤ n) (hg : 0 ≤ gg) (hng : 0 ≤ ng)
    {s : Split} (hs : split n P = .ok s) (hl : ∀ c, 0 ≤ c → c < P → s.cmin.get (c + 1) = .ok (lo c) ∧ s.cmax.get (c + 1) = .ok (hi c))
    (e : setupZ n P G gg ng o lo hi = .ok A) : A.MeetsOnce := by
  have hA := setup_ok hG (by omega) hn hg hng hs hl e
  obtain ⟨S, hlo, hhi, ho⟩ := setup_of hG (by omega) hn e
  have L := split_of (by omega) hn hs hl
  have hp := S.p_pos
  have hmul := S.mul
  have hGn : G ≤ n := by
    have : G * 1 ≤ G * (P / G) := mul_le_mul_of_nonneg_left hp (by omega)
    omega
  refine once_of_small hA ?_
  intro hw t d ht hd
  have hp2 : 2 ≤ P / G := by
    by_contra hc
    have : P / G = 1 := by omega
    rw [this, mul_one] at hmul
    rw [S.P_eq, S.G_eq] at hw
    exact hw hmul
  have hPG : G + 2 ≤ P := by
    have : G * 2 ≤ G * (P / G) := mul_le_mul_of_nonneg_left hp2 (by omega)
    omega
  have hsub : P * (A.hi t - A.lo t + 1) ≤ n + P - 1 := by
    obtain ⟨t0, t1⟩ := ht
    rw [S.P_eq] at t1
    rw [hlo, hhi, (L t t0 t1).1, (L t t0 t1).2]
    have hz := sLo_size (n0 := n / P) (np := P - n % P) (i := t + 1)
    have hdm := Int.mul_ediv_add_emod n P
    have hm1 := Int.emod_nonneg n (show P ≠ 0 by omega)
    have hm2 := Int.emod_lt_of_pos n (show 0 < P by omega)
    have e2 : sLo (n / P) (P - n % P) (t + 1 + 1) - 1 - sLo (n / P) (P - n % P) (t + 1) + 1 =
      n / P + if P - n % P < t + 1 then 1 else 0 := by omega
    rw [e2, mul_add]
    split_ifs <;> omega
  have hslab : P * (A.shi d - A.slo d + 1) ≤ n + G - 1 + G * (2 * gg) + P - G := by
    obtain ⟨k, r, k0, k1, r0, r1, ed⟩ := hA.split hd
    rw [S.p_eq] at r1 ed
    rw [S.G_eq] at k1
    rw [ed, S.shi k r k0 k1 r0 r1]
    obtain ⟨c1, c2⟩ := ceil_bounds (N := groupCells n G k + 2 * gg) hp
    have hc := (groupCells_pos hG hGn k k1).2
    generalize (groupCells n G k + 2 * gg + P / G - 1) / (P / G) = b at *
    have e1 : A.slo (k * (P / G) + r) - 1 + min b (groupCells n G k + 2 * gg - r * b) - A.slo (k * (P / G) + r) + 1 =
      min b (groupCells n G k + 2 * gg - r * b) := by ring
    rw [e1]
    have m1 : P * min b (groupCells n G k + 2 * gg - r * b) ≤ P * b := mul_le_mul_of_nonneg_left (min_le_left _ _) (by omega)
    have m2 : G * (P / G * b) ≤ G * (groupCells n G k + 2 * gg + P / G - 1) := mul_le_mul_of_nonneg_left c2 (by omega)
    have m3 : P * b = G * (P / G * b) := by conv_lhs => rw [hmul]
                                            ring
    have m4 : G * (groupCells n G k + 2 * gg + P / G - 1) = G * groupCells n G k + G * (2 * gg) + G * (P / G) - G := by ring
    omega
  rw [S.n_eq]
  have hgg : G * (2 * gg) ≤ G * (n - 1) := mul_le_mul_of_nonneg_left (by have := S.small; omega) (by omega)
  rw [mul_sub, mul_one] at hgg
  have hfin : (G + 2) * n ≤ P * n := mul_le_mul_of_nonneg_right hPG (by omega)
  by_contra hc
  have hc' : P * (n + 2) ≤ P * ((A.hi t - A.lo t + 1) + (A.shi d - A.slo d + 1)) := mul_le_mul_of_nonneg_left (by omega) (by omega)
  rw [mul_add, mul_add P (A.hi t - A.lo t + 1)] at hc'
  rw [add_mul] at hfin
  omega

theorem div3 {n x : ℤ} (hn : 0 < n) (h1 : -n ≤ x) (h2 : x < 2 * n) : (x < 0 ∧ x % n = x + n ∧ x / n = -1) ∨ (0 ≤ x ∧ x < n ∧ x % n = x ∧ x / n = 0) ∨
    (n ≤ x ∧ x % n = x - n ∧ x / n = 1) := by
  have ex := Int.mul_ediv_add_emod x n
  rcases lt_or_ge x 0 with h | h
  · left
    have m := mod_low h1 h
    refine ⟨h, m, ?_⟩
    rw [m] at ex
    have : n * (x / n) = n * (-1) := by omega
    exact mul_left_cancel₀ (by omega) this
  rcases lt_or_ge x n with h' | h'
  · right; left
    exact ⟨h, h', mod_mid h h', Int.ediv_eq_zero_of_lt h h'⟩
  · right; right
    have m := mod_high h' h2
    refine ⟨h', m, ?_⟩
    rw [m] at ex
    have : n * (x / n) = n * 1 := by omega
    exact mul_left_cancel₀ (by omega) this

/-- Two processes in one group. -/
theorem setup_two {m gg ng : ℤ} {o : Bool} {lo hi : ℤ → ℤ} {n : ℤ} (hm : n = 2 * m ∨ n = 2 * m + 1) (h1 : 1 ≤ m) (hg : 0 ≤ gg) (hgn : 2 * gg < n) :
    ∃ A, setupZ n 2 1 gg ng o lo hi = .ok A := by
  unfold setupZ
  rw [if_neg (by decide)]
  have q : groupCells n 1 0 = n := by
    rw [groupCells_eq le_rfl (by omega) 0 (by omega), sLo_size]
    simp
  rw [if_neg, if_neg (by omega)]
  · exact ⟨_, rfl⟩
  · rw [List.any_eq_true]
    rintro ⟨c, hc, h⟩
    have hc := List.mem_range.1 hc
    have h := of_decide_eq_true h
    have : c = 0 ∨ c = 1 := by
      have : (2 : ℤ).toNat = 2 := rfl
      omega
    rcases this with rfl | rfl
    · have h : (fftwSlab (groupCells n 1 0 + 2 * gg) 2 0).2 = 0 := h
      rw [q] at h
      unfold fftwSlab at h
      simp only at h
      omega
    · have h : (fftwSlab (groupCells n 1 0 + 2 * gg) 2 1).2 = 0 := h
      rw [q] at h
      unfold fftwSlab at h
      simp only at h
      omega

/-- The split exists. -/
theorem split_exists {n P : ℤ} (hP : 1 ≤ P) (hn : P ≤ n) : ∃ (s : Split) (lo hi : ℤ → ℤ), split n P = .ok s ∧
    ∀ c, 0 ≤ c → c < P → s.cmin.get (c + 1) = .ok (lo c) ∧ s.cmax.get (c + 1) = .ok (hi c) := by
  obtain ⟨s, n0, np, e, I, -⟩ := split_ok hP (show 0 ≤ n by omega)
  exact ⟨s, fun c => sLo n0 np (c + 1), fun c => sHi n0 np (c + 1), e, fun c c0 c1 => sget I (by omega) (by omega)⟩

theorem setup_two_eq {n gg ng : ℤ} {o : Bool} {lo hi : ℤ → ℤ} {A : Axis} (hn : 2 ≤ n) {s : Split} (hs : split n 2 = .ok s)
    (hl : ∀ c, 0 ≤ c → c < 2 → s.cmin.get (c + 1) = .ok (lo c) ∧ s.cmax.get (c + 1) = .ok (hi c)) (hg : 0 ≤ gg)
    (e : setupZ n 2 1 gg ng o lo hi = .ok A) :
    A.lo 0 = 0 ∧ A.hi 0 = n / 2 - 1 ∧ A.lo 1 = n / 2 ∧ A.hi 1 = n - 1 ∧
    A.slo 0 = -gg ∧ A.shi 0 = (n + 1) / 2 - 1 ∧ A.slo 1 = (n + 1) / 2 ∧ A.shi 1 = n - 1 + gg ∧ 2 * gg < n ∧ A.n = n ∧ A.P = 2 ∧ A.G = 1 := by
  obtain ⟨S, hlo, hhi, ho⟩ := setup_of le_rfl (by omega) hn e
  have L := split_of (by omega) hn hs hl
  have p2 : (2 : ℤ) / 1 = 2 := rfl
  rw [p2] at S
  obtain ⟨a1, a2⟩ := L 0 le_rfl (by omega)
  obtain ⟨a3, a4⟩ := L 1 (by omega) (by omega)
  have q : groupCells n 1 0 = n := by
    rw [groupCells_eq le_rfl (by omega) 0 (by omega), sLo_size]
    simp
  have b1 := S.slo 0 0 le_rfl (by omega) le_rfl (by omega)
  have b2 := S.shi 0 0 le_rfl (by omega) le_rfl (by omega)
  have b3 := S.slo 0 1 le_rfl (by omega) (by omega) (by omega)
  have b4 := S.shi 0 1 le_rfl (by omega) (by omega) (by omega)
  have hsm := S.small
  rw [q] at b1 b2 b3 b4
  have z : sLo (n / 1) (1 - n % 1) (0 + 1) = 0 := sLo_one le_rfl
  rw [z] at b1 b3
  simp only [zero_mul, add_zero, zero_add, one_mul] at b1 b2 b3 b4
  unfold sLo at a1 a2 a3 a4
  simp only [zero_add] at a1 a2 a3 a4
  rw [hlo, hhi]
  refine ⟨?_, ?_, ?_, ?_, ?_, ?_, ?_, ?_, hsm, S.n_eq, S.P_eq, S.G_eq⟩ <;> omega

theorem once_two {n gg ng : ℤ} {o : Bool} {lo hi : ℤ → ℤ} {A : Axis} (hn : 2 ≤ n) {s : Split} (hs : split n 2 = .ok s)
    (hl : ∀ c, 0 ≤ c → c < 2 → s.cmin.get (c + 1) = .ok (lo c) ∧ s.cmax.get (c + 1) = .ok (hi c)) (hg : 0 ≤ gg)
    (e : setupZ n 2 1 gg ng o lo hi = .ok A) (heven : n % 2 = 0) : A.MeetsOnce := by
  obtain ⟨e1, e2, e3, e4, e5, e6, e7, e8, e9, e10, e11, -⟩ := setup_two_eq hn hs hl hg e
  intro _ _ s d hs hd x y h1 h2 h3 h4 h5 h6 h7 h8
  unfold Axis.In at hs hd
  rw [e11] at hs hd
  rw [e10] at *
  have hs' : s = 0 ∨ s = 1 := by omega
  have hd' : d = 0 ∨ d = 1 := by omega
  have bx : -n ≤ x ∧ x < 2 * n ∧ -n ≤ y ∧ y < 2 * n := by rcases hd' with rfl | rfl <;> omega
  rcases div3 (by omega) bx.1 bx.2.1 with ⟨x1, x2, x3⟩ | ⟨x1, x1', x2, x3⟩ | ⟨x1, x2, x3⟩ <;>
  rcases div3 (by omega) bx.2.2.1 bx.2.2.2 with ⟨y1, y2, y3⟩ | ⟨y1, y1', y2, y3⟩ | ⟨y1, y2, y3⟩ <;>
  rcases hs' with rfl | rfl <;> rcases hd' with rfl | rfl <;> omega

end Picsar.FftGroups
