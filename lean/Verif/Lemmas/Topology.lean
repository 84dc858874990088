import Verif.Spec.Topology
import Verif.Lemmas.Grid
import Mathlib.Tactic.Linarith
import Mathlib.Tactic.Ring
import Mathlib.Logic.Equiv.Basic

namespace Picsar.Topology
open Picsar Picsar.Grid

/-! ### Split -/

/-- First cell of the `i`-th range. -/
def sLo (n0 np i : ℤ) : ℤ := (i - 1) * n0 + max 0 (i - 1 - np)
/-- Last cell of the `i`-th range. -/
def sHi (n0 np i : ℤ) : ℤ := sLo n0 np (i + 1) - 1

def SInv (n0 np n : ℤ) (m : ℤ) (s : Split) : Prop :=
  s.cmin.n = n ∧ s.cmax.n = n ∧ ∀ i, 1 ≤ i → i < m → s.cmin.val i = some (sLo n0 np i) ∧ s.cmax.val i = some (sHi n0 np i)

theorem splitStep_ok {n0 np n len i : ℤ} {s : Split} (h2 : 2 ≤ i) (hn : i ≤ n) (I : SInv n0 np n i s)
    (hlen : sLo n0 np i + len - 1 = sHi n0 np i) : ∃ s', splitStep len s i = .ok s' ∧ SInv n0 np n (i + 1) s' := by
  obtain ⟨e1, e2, hv⟩ := I
  have a1 : (s.cmax.get (i - 1)) = .ok (sHi n0 np (i - 1)) := by
    unfold IArr.get
    rw [if_pos (by omega), (hv (i - 1) (by omega) (by omega)).2]
  have a2 : s.cmin.set i (sHi n0 np (i - 1) + 1) =
      .ok ⟨s.cmin.n, Function.update s.cmin.val i (some (sHi n0 np (i - 1) + 1))⟩ := by
    unfold IArr.set
    rw [if_pos (by omega)]
  have a3 : sHi n0 np (i - 1) + 1 = sLo n0 np i := by unfold sHi; simp
  have a4 : IArr.get ⟨s.cmin.n, Function.update s.cmin.val i (some (sHi n0 np (i - 1) + 1))⟩ i = .ok (sLo n0 np i) := by
    unfold IArr.get
    rw [if_pos (by show 1 ≤ i ∧ i ≤ s.cmin.n; omega)]
    simp [a3]
  have a5 : s.cmax.set i (sLo n0 np i + len - 1) =
      .ok ⟨s.cmax.n, Function.update s.cmax.val i (some (sLo n0 np i + len - 1))⟩ := by
    unfold IArr.set
    rw [if_pos (by omega)]
  refine ⟨⟨⟨s.cmin.n, Function.update s.cmin.val i (some (sHi n0 np (i - 1) + 1))⟩,
    ⟨s.cmax.n, Function.update s.cmax.val i (some (sLo n0 np i + len - 1))⟩⟩, ?_, ?_⟩
  · unfold splitStep
    rw [a1]; simp only [except_bind_ok]
    rw [a2]; simp only [except_bind_ok]
    rw [a4]; simp only [except_bind_ok]
    rw [a5]; simp only [except_bind_ok, except_pure]
  · refine ⟨e1, e2, fun k h1 h2 => ?_⟩
    show Function.update s.cmin.val i _ k = _ ∧ Function.update s.cmax.val i _ k = _
    by_cases hk : k = i
    · subst hk
      simp [a3, hlen]
    · rw [Function.update_of_ne hk, Function.update_of_ne hk]
      exact hv k h1 (by omega)

theorem split_ok {N n : ℤ} (hn : 1 ≤ n) (hN : 0 ≤ N) : ∃ (s : Split) (n0 np : ℤ), split N n = .ok s ∧
    SInv n0 np n (n + 1) s ∧ n0 = N / n ∧ 0 ≤ n0 ∧ 1 ≤ np ∧ np ≤ n ∧ n * n0 + (n - np) = N := by
  have hq : Int.tdiv N n = N / n := Int.tdiv_eq_ediv_of_nonneg hN
  have hdm := Int.mul_ediv_add_emod N n
  have hm1 := Int.emod_nonneg N (show n ≠ 0 by omega)
  have hm2 := Int.emod_lt_of_pos N (show 0 < n by omega)
  have hq0 : 0 ≤ N / n := Int.ediv_nonneg hN (by omega)
  set q := N / n with hqd
  set np := if q * n ≠ N then (q + 1) * n - N else n with hnp
  have hnq : n * q = q * n := by ring
  have hexp : (q + 1) * n = q * n + n := by ring
  have hb : 1 ≤ np ∧ np ≤ n ∧ n * q + (n - np) = N := by
    rw [hnp]
    split_ifs with h
    · omega
    · omega
  have f1 : IArr.set ⟨n, fun _ => none⟩ 1 0 = .ok ⟨n, Function.update (fun _ => none) 1 (some 0)⟩ := by
    unfold IArr.set
    rw [if_pos (by show 1 ≤ (1 : ℤ) ∧ 1 ≤ n; omega)]
  have f2 : IArr.set ⟨n, fun _ => none⟩ 1 (q - 1) = .ok ⟨n, Function.update (fun _ => none) 1 (some (q - 1))⟩ := by
    unfold IArr.set
    rw [if_pos (by show 1 ≤ (1 : ℤ) ∧ 1 ≤ n; omega)]
  have I0 : SInv q np n 2 ⟨⟨n, Function.update (fun _ => none) 1 (some 0)⟩, ⟨n, Function.update (fun _ => none) 1 (some (q - 1))⟩⟩ := by
    refine ⟨rfl, rfl, fun i h1 h2 => ?_⟩
    have : i = 1 := by omega
    subst this
    have hz : max 0 (1 - np) = 0 := by omega
    have hz' : max 0 (-np) = 0 := by omega
    simp [sLo, sHi, hz, hz']
  obtain ⟨s1, g1, I1⟩ := foldlM_irange_inv (body := splitStep q) (fun i s => SInv q np n i s) _ np rfl (by omega)
    (fun i s h1 h2 I => splitStep_ok h1 (by omega) I (by
      unfold sHi sLo
      have m1 : max 0 (i - 1 - np) = 0 := by omega
      have m2 : max 0 (i + 1 - 1 - np) = 0 := by omega
      rw [m1, m2]; ring)) _ I0
  obtain ⟨s2, g2, I2⟩ := foldlM_irange_inv (body := splitStep (q + 1)) (fun i s => SInv q np n i s) _ n rfl (by omega)
    (fun i s h1 h2 I => splitStep_ok (by omega) (by omega) I (by
      unfold sHi sLo
      have m1 : max 0 (i - 1 - np) = i - 1 - np := by omega
      have m2 : max 0 (i + 1 - 1 - np) = i - np := by omega
      rw [m1, m2]; ring)) _ I1
  refine ⟨s2, q, np, ?_, I2, rfl, hq0, hb.1, hb.2.1, hb.2.2⟩
  unfold split
  simp only [hq]
  rw [← hnp, f1]; simp only [except_bind_ok]
  rw [f2]; simp only [except_bind_ok]
  rw [g1]; simp only [except_bind_ok]
  exact g2

theorem sLo_mono {n0 np : ℤ} (h0 : 0 ≤ n0) {i k : ℤ} (h : i ≤ k) : sLo n0 np i ≤ sLo n0 np k := by
  unfold sLo
  have : (i - 1) * n0 ≤ (k - 1) * n0 := mul_le_mul_of_nonneg_right (by omega) h0
  omega

theorem sLo_size {n0 np i : ℤ} : sLo n0 np (i + 1) - sLo n0 np i = n0 + if np < i then 1 else 0 := by
  unfold sLo
  have : (i + 1 - 1) * n0 = (i - 1) * n0 + n0 := by ring
  split_ifs <;> omega

/-- A monotone sequence that reaches past `c` has a last element not above it. -/
theorem exists_between {f : ℤ → ℤ} (m : ℕ) (a c : ℤ) (h1 : f a ≤ c) (h2 : c < f (a + m)) :
    ∃ i, a ≤ i ∧ i < a + m ∧ f i ≤ c ∧ c < f (i + 1) := by
  induction m with
  | zero => simp at h2; omega
  | succ m ih =>
    by_cases h : c < f (a + m)
    · obtain ⟨i, x1, x2, x3⟩ := ih h
      exact ⟨i, x1, by push_cast; omega, x3⟩
    · exact ⟨a + m, by omega, by push_cast; omega, by omega, by rw [show a + (m : ℤ) + 1 = a + ((m + 1 : ℕ) : ℤ) by push_cast; ring]; exact h2⟩

theorem sSplits {n0 np n N : ℤ} (h0 : 0 ≤ n0) (hn : 1 ≤ n) (h1 : 1 ≤ np) (h2 : np ≤ n) (hN : n * n0 + (n - np) = N)
    (hq : n0 = N / n) : SplitsEvenly n N (sLo n0 np) (sHi n0 np) := by
  have e1 : sLo n0 np 1 = 0 := by unfold sLo; simp; omega
  have e2 : sLo n0 np (n + 1) = N := by
    unfold sLo
    have : (n + 1 - 1) * n0 = n * n0 := by ring
    omega
  refine ⟨e1, ?_, ?_, ?_, ?_, ?_, ?_⟩
  · unfold sHi; omega
  · intro i _ _; unfold sHi; omega
  · intro c c0 cN
    obtain ⟨i, i1, i2, i3, i4⟩ := exists_between (f := sLo n0 np) n.toNat 1 c (by omega) (by
      rw [show (1 : ℤ) + (n.toNat : ℤ) = n + 1 by omega]; omega)
    refine ⟨i, ⟨⟨i1, by omega⟩, i3, by unfold sHi; omega⟩, ?_⟩
    rintro k ⟨⟨k1, k2⟩, k3, k4⟩
    unfold sHi at k4
    by_contra hne
    rcases lt_or_gt_of_ne hne with h | h
    · have := sLo_mono (np := np) h0 (show k + 1 ≤ i by omega); omega
    · have := sLo_mono (np := np) h0 (show i + 1 ≤ k by omega); omega
  · intro i c i1 i2 c1 c2
    have a := sLo_mono (np := np) h0 (show 1 ≤ i by omega)
    have b := sLo_mono (np := np) h0 (show i + 1 ≤ n + 1 by omega)
    unfold sHi at c2
    omega
  · intro i k _ _ _ _
    have a := sLo_size (n0 := n0) (np := np) (i := i)
    have b := sLo_size (n0 := n0) (np := np) (i := k)
    unfold sHi
    split_ifs at a b <;> omega
  · intro hle i _ _
    have a := sLo_size (n0 := n0) (np := np) (i := i)
    have : 1 ≤ n0 := by rw [hq]; exact Int.le_ediv_of_mul_le (by omega) (by omega)
    unfold sHi
    split_ifs at a <;> omega

theorem sget {n0 np n : ℤ} {s : Split} (I : SInv n0 np n (n + 1) s) {i : ℤ} (h1 : 1 ≤ i) (h2 : i ≤ n) :
    s.cmin.get i = .ok (sLo n0 np i) ∧ s.cmax.get i = .ok (sHi n0 np i) := by
  obtain ⟨a, b, c⟩ := I
  unfold IArr.get
  rw [if_pos (by omega), if_pos (by omega), (c i h1 (by omega)).1, (c i h1 (by omega)).2]
  exact ⟨rfl, rfl⟩

/-! ### Ranks and coordinates -/

theorem neight_eq {n c d : ℤ} (hc : 0 ≤ c) (hn : c < n) (h1 : -1 ≤ d) (h2 : d ≤ 1) : neight n c d = (c + d) % n := by
  unfold neight
  split_ifs with a b
  · have : c + d = -1 := by omega
    rw [this, ← Int.add_emod_right, Int.emod_eq_of_lt (by omega) (by omega)]
    omega
  · have : c + d = n := by omega
    rw [this, Int.emod_self]; omega
  · exact (Int.emod_eq_of_lt (by omega) (by omega)).symm

/-- Inverse of `coordsCart`. -/
def rankOf (P : PGrid) (c : I3) : ℤ := c.j + P.nx * c.k + P.nx * P.ny * c.l

theorem inTopo_iff {P : PGrid} {c : I3} :
    InTopo P c ↔ (0 ≤ c.j ∧ c.j < P.nx) ∧ (0 ≤ c.k ∧ c.k < P.ny) ∧ (0 ≤ c.l ∧ c.l < P.nz) := by
  unfold InTopo InBox
  constructor
  · rintro ⟨a, b, c, d, e, f⟩
    exact ⟨⟨a, by simpa using Int.lt_of_le_sub_one b⟩, ⟨c, Int.lt_of_le_sub_one d⟩, ⟨e, Int.lt_of_le_sub_one f⟩⟩
  · rintro ⟨⟨a, b⟩, ⟨c, d⟩, ⟨e, f⟩⟩
    exact ⟨a, Int.le_sub_one_of_lt b, c, Int.le_sub_one_of_lt d, e, Int.le_sub_one_of_lt f⟩

theorem rankOf_rank {P : PGrid} (hP : P.Ok) {c : I3} (hc : InTopo P c) : P.Rank (rankOf P c) := by
  obtain ⟨p1, p2, p3⟩ := hP
  rw [inTopo_iff] at hc
  obtain ⟨⟨a, b⟩, ⟨c', d⟩, ⟨e, f⟩⟩ := hc
  unfold rankOf PGrid.Rank PGrid.nproc
  have x1 : 0 ≤ P.nx * c.k := mul_nonneg (by omega) c'
  have x2 : 0 ≤ P.nx * P.ny * c.l := mul_nonneg (mul_nonneg (by omega) (by omega)) e
  have x3 : P.nx * c.k + P.nx ≤ P.nx * P.ny := by nlinarith
  have x4 : P.nx * P.ny * c.l + P.nx * P.ny ≤ P.nx * P.ny * P.nz := by
    nlinarith [mul_pos (show 0 < P.nx by omega) (show 0 < P.ny by omega)]
  omega

theorem coordsCart_rankOf {P : PGrid} (hP : P.Ok) {c : I3} (hc : InTopo P c) : coordsCart P (rankOf P c) = c := by
  obtain ⟨p1, p2, p3⟩ := hP
  rw [inTopo_iff] at hc
  obtain ⟨⟨a, b⟩, ⟨c', d⟩, ⟨e, f⟩⟩ := hc
  have q0 : rankOf P c = c.j + P.nx * (c.k + P.ny * c.l) := by unfold rankOf; ring
  have q1 : rankOf P c % P.nx = c.j := by
    rw [q0, Int.add_mul_emod_self_left, Int.emod_eq_of_lt a b]
  have q2 : rankOf P c / P.nx = c.k + P.ny * c.l := by
    rw [q0, Int.add_mul_ediv_left _ _ (by omega), Int.ediv_eq_zero_of_lt a b, zero_add]
  have q3 : (c.k + P.ny * c.l) % P.ny = c.k := by
    rw [Int.add_mul_emod_self_left, Int.emod_eq_of_lt c' d]
  have q4 : (c.k + P.ny * c.l) / P.ny = c.l := by
    rw [Int.add_mul_ediv_left _ _ (by omega), Int.ediv_eq_zero_of_lt c' d, zero_add]
  unfold coordsCart
  rw [q1, q2, q3, ← Int.ediv_ediv_of_nonneg (show 0 ≤ P.nx by omega), q2, q4]

theorem coordsCart_in {P : PGrid} (hP : P.Ok) {r : ℤ} (hr : P.Rank r) : InTopo P (coordsCart P r) := by
  obtain ⟨p1, p2, p3⟩ := hP
  obtain ⟨r1, r2⟩ := hr
  rw [inTopo_iff]
  unfold coordsCart
  refine ⟨⟨Int.emod_nonneg _ (by omega), Int.emod_lt_of_pos _ (by omega)⟩,
    ⟨Int.emod_nonneg _ (by omega), Int.emod_lt_of_pos _ (by omega)⟩, Int.ediv_nonneg r1 (by positivity), ?_⟩
  show r / (P.nx * P.ny) < P.nz
  apply Int.ediv_lt_of_lt_mul (mul_pos (by omega) (by omega))
  unfold PGrid.nproc at r2
  linarith [mul_comm (P.nx * P.ny) P.nz]

theorem rankOf_coordsCart {P : PGrid} (hP : P.Ok) {r : ℤ} : rankOf P (coordsCart P r) = r := by
  obtain ⟨p1, p2, p3⟩ := hP
  have a := Int.emod_add_mul_ediv r P.nx
  have b := Int.emod_add_mul_ediv (r / P.nx) P.ny
  unfold rankOf coordsCart
  show r % P.nx + P.nx * (r / P.nx % P.ny) + P.nx * P.ny * (r / (P.nx * P.ny)) = r
  rw [← Int.ediv_ediv_of_nonneg (show 0 ≤ P.nx by omega)]
  calc _ = r % P.nx + P.nx * (r / P.nx % P.ny + P.ny * (r / P.nx / P.ny)) := by ring
    _ = _ := by rw [b, a]

theorem coords1_eq {P : PGrid} (hP : P.Ok) {r : ℤ} (hr : P.Rank r) : coords1 P r = coordsCart P r := by
  obtain ⟨p1, p2, p3⟩ := hP
  obtain ⟨r1, r2⟩ := hr
  have a := Int.emod_add_mul_ediv r P.nx
  have b := Int.emod_add_mul_ediv (r / P.nx) P.ny
  have c := rankOf_coordsCart ⟨p1, p2, p3⟩ (r := r)
  have hnx : P.nx ≠ 0 := by omega
  have x1 : Int.tmod r P.nx = r % P.nx := Int.tmod_eq_emod_of_nonneg r1
  have x2 : r - r % P.nx = P.nx * (r / P.nx) := by omega
  have x3 : Int.tdiv (r - r % P.nx) P.nx = r / P.nx := by
    rw [x2, Int.mul_tdiv_cancel_left _ hnx]
  have x4 : Int.tmod (r / P.nx) P.ny = r / P.nx % P.ny := Int.tmod_eq_emod_of_nonneg (Int.ediv_nonneg r1 (by omega))
  have x5 : r - r % P.nx - (r / P.nx % P.ny) * P.nx = (P.nx * P.ny) * (r / (P.nx * P.ny)) := by
    unfold rankOf coordsCart at c
    have : P.nx * (r / P.nx % P.ny) = (r / P.nx % P.ny) * P.nx := by ring
    simp only at c
    omega
  unfold coords1 coordsCart
  simp only [x1, x3, x4, x5]
  rw [Int.mul_tdiv_cancel_left _ (mul_ne_zero hnx (by omega))]

theorem shifted_in {P : PGrid} (hP : P.Ok) (c d : I3) : InTopo P (shifted P c d) := by
  obtain ⟨p1, p2, p3⟩ := hP
  rw [inTopo_iff]
  exact ⟨⟨Int.emod_nonneg _ (by omega), Int.emod_lt_of_pos _ (by omega)⟩,
    ⟨Int.emod_nonneg _ (by omega), Int.emod_lt_of_pos _ (by omega)⟩,
    ⟨Int.emod_nonneg _ (by omega), Int.emod_lt_of_pos _ (by omega)⟩⟩

theorem shifted_opp {P : PGrid} {c : I3} (hc : InTopo P c) (d : I3) : shifted P (shifted P c d) (opp d) = c := by
  rw [inTopo_iff] at hc
  obtain ⟨⟨a, b⟩, ⟨c', d'⟩, ⟨e, f⟩⟩ := hc
  unfold shifted opp
  have key : ∀ n x y : ℤ, 0 ≤ x → x < n → ((x + y) % n + -y) % n = x := by
    intro n x y h1 h2
    rw [Int.emod_add_emod]
    rw [show x + y + -y = x by ring, Int.emod_eq_of_lt h1 h2]
  simp only
  rw [key _ _ _ a b, key _ _ _ c' d', key _ _ _ e f]

/-- A bijective assignment with the right neighbours. -/
theorem neighbours_of {P : PGrid} (hP : P.Ok) {crd : ℤ → I3} {rk : I3 → ℤ} {nb : ℤ → I3 → ℤ}
    (h1 : ∀ r, P.Rank r → InTopo P (crd r)) (h2 : ∀ r, P.Rank r → rk (crd r) = r)
    (h3 : ∀ c, InTopo P c → P.Rank (rk c) ∧ crd (rk c) = c)
    (h4 : ∀ r d, P.Rank r → Dir d → nb r d = rk (shifted P (crd r) d)) :
    OneEach P crd ∧ Neighbours P crd nb := by
  refine ⟨⟨h1, fun c hc => ⟨rk c, h3 c hc, ?_⟩⟩, fun r d hr hd => ?_⟩
  · rintro r ⟨hr, rfl⟩
    exact (h2 r hr).symm
  · have hs := shifted_in hP (crd r) d
    rw [h4 r d hr hd]
    obtain ⟨x, y⟩ := h3 _ hs
    refine ⟨x, y, ?_⟩
    rw [h4 _ _ x (by unfold Dir InBox opp at *; simp only at *; omega), y, shifted_opp (h1 r hr), h2 r hr]

/-! ### Random topology -/

/-- `t` numbers the subdomains: one rank each. -/
def Perm (P : PGrid) (t : Topo) : Prop :=
  (∀ c, InTopo P c → P.Rank (t c)) ∧ ∀ r, P.Rank r → ∃! c, InTopo P c ∧ t c = r

theorem mem_cells {P : PGrid} {c : I3} : c ∈ cells P ↔ InTopo P c := by
  unfold cells InTopo
  exact mem_box

theorem topoInit_ok {P : PGrid} : ∀ (is : List I3) (t : Topo), (∀ i ∈ is, InTopo P i) →
    ∃ t', topoInit P is t = .ok t' ∧ ∀ c, t' c = if c ∈ is then c.j + c.k * P.nx + c.l * P.ny * P.nx else t c
  | [], t, _ => ⟨t, rfl, fun c => by simp⟩
  | i :: is, t, h => by
    obtain ⟨t', e, hv⟩ := topoInit_ok is (Function.update t i (i.j + i.k * P.nx + i.l * P.ny * P.nx))
      (fun k hk => h k (List.mem_cons_of_mem _ hk))
    refine ⟨t', ?_, fun c => ?_⟩
    · unfold topoInit
      rw [show topoSet P t i (i.j + i.k * P.nx + i.l * P.ny * P.nx) = .ok (Function.update t i _) from if_pos (h i (by simp))]
      exact e
    · rw [hv c]
      by_cases hc : c ∈ is
      · simp [hc]
      · by_cases hci : c = i
        · subst hci; simp [hc]
        · simp [hc, hci]

theorem drawn_in {n : ℤ} (hn : 1 ≤ n) {r : ℝ} (h0 : 0 ≤ r) (h1 : r < 1) : 0 ≤ drawn r n ∧ drawn r n < n := by
  have hn' : (1 : ℝ) ≤ n := by exact_mod_cast hn
  unfold drawn
  constructor
  · exact Int.floor_nonneg.mpr (mul_nonneg h0 (by linarith))
  · rw [Int.floor_lt]
    nlinarith

theorem perm_swap {P : PGrid} {t : Topo} (ht : Perm P t) {a b : I3} (ha : InTopo P a) (hb : InTopo P b) :
    Perm P (Function.update (Function.update t a (t b)) b (t a)) := by
  have e : ∀ c, Function.update (Function.update t a (t b)) b (t a) c = t (Equiv.swap a b c) := by
    intro c
    by_cases h1 : c = b
    · subst h1; simp
    · rw [Function.update_of_ne h1]
      by_cases h2 : c = a
      · subst h2; simp
      · rw [Function.update_of_ne h2, Equiv.swap_apply_of_ne_of_ne h2 h1]
  have hs : ∀ c, InTopo P c → InTopo P (Equiv.swap a b c) := by
    intro c hc
    by_cases h1 : c = b
    · subst h1; simpa using ha
    · by_cases h2 : c = a
      · subst h2; simpa using hb
      · rwa [Equiv.swap_apply_of_ne_of_ne h2 h1]
  refine ⟨fun c hc => ?_, fun r hr => ?_⟩
  · rw [e]; exact ht.1 _ (hs c hc)
  · obtain ⟨c, ⟨c1, c2⟩, cu⟩ := ht.2 r hr
    refine ⟨Equiv.swap a b c, ⟨hs c c1, by rw [e]; simpa using c2⟩, ?_⟩
    rintro k ⟨k1, k2⟩
    rw [e] at k2
    rw [← cu _ ⟨hs k k1, k2⟩]
    simp

theorem topoShuffle_ok {P : PGrid} (hP : P.Ok) {r : ℕ → ℝ} (hr : ∀ n, 0 ≤ r n ∧ r n < 1) :
    ∀ (is : List I3) (n : ℕ) (t : Topo), (∀ i ∈ is, InTopo P i) → Perm P t →
      ∃ t', topoShuffle P r is n t = .ok t' ∧ Perm P t'
  | [], _, t, _, ht => ⟨t, rfl, ht⟩
  | i :: is, n, t, h, ht => by
    have hi := h i (by simp)
    have hc : InTopo P ⟨drawn (r n) P.nx, drawn (r (n + 1)) P.ny, drawn (r (n + 2)) P.nz⟩ := by
      rw [inTopo_iff]
      exact ⟨drawn_in hP.1 (hr _).1 (hr _).2, drawn_in hP.2.1 (hr _).1 (hr _).2, drawn_in hP.2.2 (hr _).1 (hr _).2⟩
    obtain ⟨t', e, hv⟩ := topoShuffle_ok hP hr is (n + 3) _ (fun k hk => h k (List.mem_cons_of_mem _ hk)) (perm_swap ht hi hc)
    refine ⟨t', ?_, hv⟩
    unfold topoShuffle topoGet topoSet
    rw [if_pos hi]; simp only [except_bind_ok]
    rw [if_pos hc]; simp only [except_bind_ok]
    rw [if_pos hi]; simp only [except_bind_ok]
    rw [if_pos hc]; simp only [except_bind_ok]
    exact e

theorem topo_ok {P : PGrid} (hP : P.Ok) {r : ℕ → ℝ} (hr : ∀ n, 0 ≤ r n ∧ r n < 1) (t0 : Topo) :
    ∃ t, topo P r t0 = .ok t ∧ Perm P t := by
  obtain ⟨t1, e1, h1⟩ := topoInit_ok (P := P) (cells P) t0 (fun i hi => mem_cells.mp hi)
  have hp : Perm P t1 := by
    have hv : ∀ c, InTopo P c → t1 c = rankOf P c := by
      intro c hc
      rw [h1 c, if_pos (mem_cells.mpr hc)]
      unfold rankOf; ring
    refine ⟨fun c hc => by rw [hv c hc]; exact rankOf_rank hP hc, fun r hr => ?_⟩
    refine ⟨coordsCart P r, ⟨coordsCart_in hP hr, by rw [hv _ (coordsCart_in hP hr), rankOf_coordsCart hP]⟩, ?_⟩
    rintro c ⟨c1, c2⟩
    rw [hv c c1] at c2
    rw [← c2, coordsCart_rankOf hP c1]
  obtain ⟨t2, e2, h2⟩ := topoShuffle_ok hP hr (cells P) 0 t1 (fun i hi => mem_cells.mp hi) hp
  refine ⟨t2, ?_, h2⟩
  unfold topo
  rw [e1]
  exact e2

theorem coords2_ok {P : PGrid} {t : Topo} {rank : ℤ} {c0 : I3} (hu : ∀ c, InTopo P c → t c = rank → c = c0) (h0 : t c0 = rank) :
    ∀ (is : List I3) (acc : Option I3), (∀ i ∈ is, InTopo P i) → (c0 ∈ is ∨ acc = some c0) →
      coords2 P t rank is acc = some c0
  | [], acc, _, h => by
    rcases h with h | h
    · simp at h
    · exact h
  | i :: is, acc, hin, h => by
    unfold coords2
    apply coords2_ok hu h0 is _ (fun k hk => hin k (List.mem_cons_of_mem _ hk))
    by_cases hi : rank = t i
    · right
      rw [if_pos hi, hu i (hin i (by simp)) hi.symm]
    · rw [if_neg hi]
      rcases h with h | h
      · rcases List.mem_cons.mp h with rfl | h
        · exact absurd h0.symm hi
        · exact Or.inl h
      · exact Or.inr h

end Picsar.Topology
