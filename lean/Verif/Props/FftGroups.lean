import Verif.Lemmas.FftGroupsRun
import Verif.Lemmas.FftGroupsSetup

/-
C126-C131: exchange between the grid of the particles and the grid of the Fourier transforms.
-/
namespace Picsar.Props
open Picsar Picsar.FftGroups Picsar.Mpi Picsar.Topology

variable {Y Z : Axis} {gy gz : ℤ}

/-- Four processes in two groups along z, twelve cells, two guard cells. -/
theorem fgExample : ∃ A : Axis, A.P = 4 ∧ A.G = 2 ∧ A.n = 12 ∧ A.open_ = false ∧ A.Ok 2 ∧ A.Aligned ∧ A.MeetsOnce := by
  obtain ⟨s, lo, hi, hs, hl⟩ := split_exists (n := 12) (P := 4) (by omega) (by omega)
  obtain ⟨A, e⟩ : ∃ A, setupZ 12 4 2 2 2 false lo hi = .ok A := ⟨_, rfl⟩
  have S := (setup_of (by omega) (by omega) (by omega) e)
  exact ⟨A, S.1.P_eq, S.1.G_eq, S.1.n_eq, S.2.2.2, setup_ok (by omega) (by omega) (by omega) (by omega) (by omega) hs hl e,
    setup_aligned (by omega) (by omega) (by omega) (fun _ => rfl) hs hl e,
    setup_once (by omega) (by omega) (by omega) (by omega) (by omega) hs hl e⟩

/-- One process along y. -/
theorem fgOne : ∃ A : Axis, A.P = 1 ∧ A.G = 1 ∧ A.n = 5 ∧ A.Ok 2 ∧ A.Aligned ∧ A.MeetsOnce := by
  obtain ⟨s, lo, hi, hs, hl⟩ := split_exists (n := 5) (P := 1) (by omega) (by omega)
  obtain ⟨A, e⟩ : ∃ A, setupZ 5 1 1 2 2 false lo hi = .ok A := ⟨_, rfl⟩
  have S := (setup_of (by omega) (by omega) (by omega) e)
  refine ⟨A, S.1.P_eq, S.1.G_eq, S.1.n_eq, setup_ok (by omega) (by omega) (by omega) (by omega) (by omega) hs hl e,
    setup_aligned (by omega) (by omega) (by omega) (fun _ => rfl) hs hl e, ?_⟩
  intro h
  rw [S.1.P_eq, S.1.G_eq] at h
  exact absurd rfl h

/-- C126: in both directions of the copy, what a process takes out for another one and the room the other one makes for it have the same
number of elements, and a process sends to another one in a communication exactly if the other one receives from it in the same
communication. -/
theorem C126_messages (hY : Y.Ok gy) (hZ : Z.Ok gz) (w : Way) (s d : Proc Y Z) :
    (w.out Y Z s.1 d.1).length = (w.into Y Z d.1 s.1).length ∧ ∀ k, w.dst Y Z k s = some d ↔ w.from Y Z k d = some s := by
  refine ⟨?_, fun k => pair hY hZ w k s d⟩
  unfold Way.out Way.into cellsOf
  rw [List.length_map, List.length_map, (size_eq hY w s.2.1 d.1.1).1, (size_eq hZ w s.2.2 d.1.2).1]

/-- C126: no process reads or writes outside of its arrays: of the arrays of the particles elements `-guards..cells-1+guards` are
touched, of the arrays of the transforms elements `1..size`. -/
theorem C126_bounds (hY : Y.Ok gy) (hZ : Z.Ok gz) (aY : Y.Aligned) (aZ : Z.Aligned) (s d : Proc Y Z) (p : ℤ × ℤ) :
    (p ∈ Way.toFft.out Y Z s.1 d.1 ∨ p ∈ Way.toGrid.into Y Z s.1 d.1 →
      (-Y.ng ≤ p.1 ∧ p.1 ≤ Y.hi s.1.1 - Y.lo s.1.1 + Y.ng) ∧ -Z.ng ≤ p.2 ∧ p.2 ≤ Z.hi s.1.2 - Z.lo s.1.2 + Z.ng) ∧
    (p ∈ Way.toFft.into Y Z s.1 d.1 ∨ p ∈ Way.toGrid.out Y Z s.1 d.1 →
      (1 ≤ p.1 ∧ p.1 ≤ Y.shi s.1.1 - Y.slo s.1.1 + 1) ∧ 1 ≤ p.2 ∧ p.2 ≤ Z.shi s.1.2 - Z.slo s.1.2 + 1) := by
  have key1 : ∀ {A : Axis} {g a b i : ℤ}, A.Ok g → A.Aligned → A.In a → A.In b → (A.l2gSend a b).first ≤ i →
      i < (A.l2gSend a b).first + (A.l2gSend a b).size → -A.ng ≤ i ∧ i ≤ A.hi a - A.lo a + A.ng := by
    intro A g a b i hA al ha hb h1 h2
    have := sound hA al .toFft ha hb (i := i - (A.l2gSend a b).first) (by omega) (show _ < (A.l2gSend a b).size by omega)
    have h3 : A.Source b _ a ((A.l2gSend a b).first + (i - (A.l2gSend a b).first)) := this
    have ng := hA.guardsL
    obtain ⟨-, h3⟩ := h3
    split_ifs at h3 <;> omega
  have key2 : ∀ {A : Axis} {g a b i : ℤ}, A.Ok g → A.Aligned → A.In a → A.In b → (A.g2lRecv a b).first ≤ i →
      i < (A.g2lRecv a b).first + (A.g2lRecv a b).size → -A.ng ≤ i ∧ i ≤ A.hi a - A.lo a + A.ng := by
    intro A g a b i hA al ha hb h1 h2
    have e : (A.g2lSend b a).size = (A.g2lRecv a b).size := (size_eq hA .toGrid hb a).1
    have := sound hA al .toGrid hb ha (i := i - (A.g2lRecv a b).first) (by omega) (show _ < (A.g2lSend b a).size by omega)
    have h3 : A.Image a ((A.g2lRecv a b).first + (i - (A.g2lRecv a b).first)) b _ := this
    have ng := hA.guardsL
    obtain ⟨-, -, h3⟩ := h3
    split_ifs at h3 <;> omega
  have key3 : ∀ {A : Axis} {g a b i : ℤ}, A.Ok g → A.Aligned → A.In a → A.In b → (A.l2gRecv a b).first ≤ i →
      i < (A.l2gRecv a b).first + (A.l2gRecv a b).size → 1 ≤ i ∧ i ≤ A.shi a - A.slo a + 1 := by
    intro A g a b i hA al ha hb h1 h2
    have e : (A.l2gSend b a).size = (A.l2gRecv a b).size := (size_eq hA .toFft hb a).1
    have := sound hA al .toFft hb ha (i := i - (A.l2gRecv a b).first) (by omega) (show _ < (A.l2gSend b a).size by omega)
    have h3 : A.Source a ((A.l2gRecv a b).first + (i - (A.l2gRecv a b).first)) b _ := this
    have := h3.1
    omega
  have key4 : ∀ {A : Axis} {g a b i : ℤ}, A.Ok g → A.Aligned → A.In a → A.In b → (A.g2lSend a b).first ≤ i →
      i < (A.g2lSend a b).first + (A.g2lSend a b).size → 1 ≤ i ∧ i ≤ A.shi a - A.slo a + 1 := by
    intro A g a b i hA al ha hb h1 h2
    have := sound hA al .toGrid ha hb (i := i - (A.g2lSend a b).first) (by omega) (show _ < (A.g2lSend a b).size by omega)
    have h3 : A.Image b _ a ((A.g2lSend a b).first + (i - (A.g2lSend a b).first)) := this
    have := h3.1
    omega
  constructor
  · rintro (h | h)
    · obtain ⟨⟨a1, a2⟩, b1, b2⟩ := mem_cells.1 h
      exact ⟨key1 hY aY s.2.1 d.2.1 a1 a2, key1 hZ aZ s.2.2 d.2.2 b1 b2⟩
    · obtain ⟨⟨a1, a2⟩, b1, b2⟩ := mem_cells.1 h
      exact ⟨key2 hY aY s.2.1 d.2.1 a1 a2, key2 hZ aZ s.2.2 d.2.2 b1 b2⟩
  · rintro (h | h)
    · obtain ⟨⟨a1, a2⟩, b1, b2⟩ := mem_cells.1 h
      exact ⟨key3 hY aY s.2.1 d.2.1 a1 a2, key3 hZ aZ s.2.2 d.2.2 b1 b2⟩
    · obtain ⟨⟨a1, a2⟩, b1, b2⟩ := mem_cells.1 h
      exact ⟨key4 hY aY s.2.1 d.2.1 a1 a2, key4 hZ aZ s.2.2 d.2.2 b1 b2⟩

example : ∃ Y Z : Axis, Y.Ok 2 ∧ Z.Ok 2 ∧ Y.Aligned ∧ Z.Aligned ∧ Nonempty (Proc Y Z) := by
  obtain ⟨Y, y1, -, -, y2, y3, -⟩ := fgOne
  obtain ⟨Z, z1, -, -, -, z2, z3, -⟩ := fgExample
  exact ⟨Y, Z, y2, z2, y3, z3, ⟨⟨(0, 0), by rw [y1]; omega, by rw [z1]; omega⟩⟩⟩

/-- C126 fails if every process is a group of its own and the guard cells of the groups (`nzg_group`) are not those of the arrays
(`nzguards`): with fewer of them the copy writes behind the end of the array of the transforms; with another number of them every element
is put into the place of another cell. -/
theorem C126_guards_refuted {n P gg ng : ℤ} {o : Bool} {lo hi : ℤ → ℤ} {A : Axis} (hP : 1 ≤ P) (hn : P ≤ n) {s : Split} (hs : split n P = .ok s)
    (hl : ∀ c, 0 ≤ c → c < P → s.cmin.get (c + 1) = .ok (lo c) ∧ s.cmax.get (c + 1) = .ok (hi c)) (e : setupZ n P P gg ng o lo hi = .ok A)
    (c : ℤ) (c0 : 0 ≤ c) (c1 : c < P) :
    (gg < ng → A.shi c - A.slo c + 1 < (A.l2gRecv c c).first + (A.l2gRecv c c).size - 1) ∧
    (gg ≠ ng → ∀ i, A.lo c + ((A.l2gSend c c).first + i) ≠ A.slo c + ((A.l2gRecv c c).first + i) - 1) := by
  obtain ⟨S, hlo, hhi, -⟩ := setup_of hP hP hn e
  obtain ⟨l1, l2⟩ := split_of hP hn hs hl c c0 c1
  have p1 : P / P = 1 := Int.ediv_self (by omega)
  rw [p1] at S
  have e1 := S.slo c 0 c0 c1 le_rfl (by omega)
  have e2 := S.shi c 0 c0 c1 le_rfl (by omega)
  have e3 := groupCells_eq hP (show 0 ≤ n by omega) c c1
  simp only [mul_one, add_zero, zero_mul, Int.ediv_one] at e1 e2
  unfold Axis.l2gRecv Axis.l2gSend Axis.own
  have hw : A.P = A.G := by rw [S.P_eq, S.G_eq]
  simp only [hw, if_true]
  rw [hlo, hhi, l1, l2, S.ng_eq, e2, e1]
  constructor
  · intro h; omega
  · intro h i; omega

example : ∃ (s : Split) (lo hi : ℤ → ℤ) (A : Axis), split 12 3 = .ok s ∧
    (∀ c, 0 ≤ c → c < 3 → s.cmin.get (c + 1) = .ok (lo c) ∧ s.cmax.get (c + 1) = .ok (hi c)) ∧ setupZ 12 3 3 2 4 false lo hi = .ok A := by
  obtain ⟨s, lo, hi, hs, hl⟩ := split_exists (n := 12) (P := 3) (by omega) (by omega)
  exact ⟨s, lo, hi, _, hs, hl, rfl⟩

/-- C127: whenever the set-up of the groups accepts a decomposition with at least as many cells as processes, the slabs of a group follow
each other and cover its cells and guard cells, the groups cover the domain; with the guard cells of the arrays for the groups also, a
process that is a group of its own has its own subdomain as slab. -/
theorem C127_setup {n P G gg ng : ℤ} {o : Bool} {lo hi : ℤ → ℤ} {A : Axis} (hG : 1 ≤ G) (hP : 1 ≤ P) (hn : P ≤ n) (hg : 0 ≤ gg) (hng : 0 ≤ ng)
    {s : Split} (hs : split n P = .ok s) (hl : ∀ c, 0 ≤ c → c < P → s.cmin.get (c + 1) = .ok (lo c) ∧ s.cmax.get (c + 1) = .ok (hi c))
    (e : setupZ n P G gg ng o lo hi = .ok A) :
    A.Ok gg ∧ ((P = G → gg = ng) → A.Aligned) ∧ A.P = P ∧ A.G = G ∧ A.n = n ∧ A.ng = ng ∧ A.open_ = o ∧ A.lo = lo ∧ A.hi = hi := by
  obtain ⟨S, hlo, hhi, ho⟩ := setup_of hG hP hn e
  exact ⟨setup_ok hG hP hn hg hng hs hl e, fun h => setup_aligned hG hP hn h hs hl e, S.P_eq, S.G_eq, S.n_eq, S.ng_eq, ho, hlo, hhi⟩

/-- C127: with three or more processes in the direction, or an even number of cells, no process meets a slab in two periods. -/
theorem C127_once {n P G gg ng : ℤ} {o : Bool} {lo hi : ℤ → ℤ} {A : Axis} (hG : 1 ≤ G) (hP : 1 ≤ P) (hn : P ≤ n) (hg : 0 ≤ gg) (hng : 0 ≤ ng)
    {s : Split} (hs : split n P = .ok s) (hl : ∀ c, 0 ≤ c → c < P → s.cmin.get (c + 1) = .ok (lo c) ∧ s.cmax.get (c + 1) = .ok (hi c))
    (e : setupZ n P G gg ng o lo hi = .ok A) (h : P = G ∨ 3 ≤ P ∨ n % 2 = 0) : A.MeetsOnce := by
  have S := (setup_of hG hP hn e).1
  by_cases hPG : P = G
  · intro hw
    rw [S.P_eq, S.G_eq] at hw
    exact absurd hPG hw
  · rcases lt_or_ge P 3 with h3 | h3
    · have hmul := S.mul
      have hp := S.p_pos
      have h2 : P = 2 ∧ G = 1 := by
        have h12 : P = 1 ∨ P = 2 := by omega
        have hGP : G ≤ P := by
          have : G * 1 ≤ G * (P / G) := mul_le_mul_of_nonneg_left hp (by omega)
          omega
        omega
      obtain ⟨rfl, rfl⟩ := h2
      exact once_two hn hs hl hg e (by rcases h with h | h | h <;> omega)
    · exact setup_once hG h3 hn hg hng hs hl e

example : ∃ (s : Split) (lo hi : ℤ → ℤ) (A : Axis), split 13 6 = .ok s ∧
    (∀ c, 0 ≤ c → c < 6 → s.cmin.get (c + 1) = .ok (lo c) ∧ s.cmax.get (c + 1) = .ok (hi c)) ∧ setupZ 13 6 2 3 5 false lo hi = .ok A := by
  obtain ⟨s, lo, hi, hs, hl⟩ := split_exists (n := 13) (P := 6) (by omega) (by omega)
  exact ⟨s, lo, hi, _, hs, hl, rfl⟩

/-- C128, for decompositions in which no process meets a slab in two periods: after the exchange, whatever the schedule and in the
blocking and the non-blocking version, every element of the arrays of the transforms holds the value of the element that stands for the
same cell; elements beyond an absorbing boundary keep what they had; the arrays of the particles are not changed. -/
theorem C128_transforms_partial (hY : Y.Ok gy) (hZ : Z.Ok gz) (aY : Y.Aligned) (aZ : Z.Aligned) (mY : Y.MeetsOnce) (mZ : Z.MeetsOnce)
    {Q : Prog (Proc Y Z) Mem (List ℝ)} (hQ : Q = blocking .toFft Y Z ∨ Q = nonblocking .toFft Y Z) (m0 : Proc Y Z → Mem) {n : ℕ}
    {c : Conf (Proc Y Z) Mem (List ℝ)} (e : Exec Q n (start fun r => Way.toFft.self Y Z r (m0 r)) c) (hst : Stuck Q c) (d : Proc Y Z) :
    (∀ p (s : Proc Y Z) j, Y.Source d.1.1 p.1 s.1.1 j.1 → Z.Source d.1.2 p.2 s.1.2 j.2 → (c.mem d).f p = (m0 s).l j) ∧
    (∀ p, (¬ ∃ (s : Proc Y Z) (j : ℤ × ℤ), Y.Source d.1.1 p.1 s.1.1 j.1 ∧ Z.Source d.1.2 p.2 s.1.2 j.2) → (c.mem d).f p = (m0 d).f p) ∧
    (c.mem d).l = (m0 d).l := by
  obtain ⟨h1, h2, h3⟩ := result hY hZ aY aZ .toFft hQ m0 e hst d
  refine ⟨fun p s j a b => h3 (fun _ => mY) (fun _ => mZ) p s j ⟨a, b⟩, fun p hp => ?_, h1⟩
  rcases h2 p with ⟨s, j, hr, -⟩ | h
  · exact absurd ⟨s, j, hr.1, hr.2⟩ hp
  · exact h

/-- C128: every element of a slab has such a value, except those beyond an absorbing boundary. -/
theorem C128_everywhere {A : Axis} {g : ℤ} (h : A.Ok g) (ha : A.Aligned) {d p : ℤ} (hd : A.In d) (p1 : 1 ≤ p) (p2 : p ≤ A.shi d - A.slo d + 1)
    (hx : A.P = A.G ∨ A.open_ = false ∨ (0 ≤ A.slo d + p - 1 ∧ A.slo d + p - 1 < A.n)) : ∃ s c, A.In s ∧ A.Source d p s c :=
  source_exists h ha hd p1 p2 hx

example : ∃ Y Z : Axis, Y.Ok 2 ∧ Z.Ok 2 ∧ Y.Aligned ∧ Z.Aligned ∧ Y.MeetsOnce ∧ Z.MeetsOnce ∧ Z.P ≠ Z.G ∧ Z.open_ = false ∧ Nonempty (Proc Y Z) := by
  obtain ⟨Y, y1, -, -, y2, y3, y4⟩ := fgOne
  obtain ⟨Z, z1, z5, -, z6, z2, z3, z4⟩ := fgExample
  exact ⟨Y, Z, y2, z2, y3, z3, y4, z4, by rw [z1, z5]; decide, z6, ⟨⟨(0, 0), by rw [y1]; omega, by rw [z1]; omega⟩⟩⟩

/-- C128 fails for two processes in one periodic group and an odd number of cells: the second process meets the slab of the first one in
two periods, but only the guard cells are sent, and the last element of the slab, which stands for the first cell of the second process,
keeps the value of the previous step. -/
theorem C128_odd_refuted {n gg ng : ℤ} {lo hi : ℤ → ℤ} (hn : 3 ≤ n) (hodd : n % 2 = 1) (hg : 1 ≤ gg) (hgn : 2 * gg < n) {s : Split}
    (hs : split n 2 = .ok s) (hl : ∀ c, 0 ≤ c → c < 2 → s.cmin.get (c + 1) = .ok (lo c) ∧ s.cmax.get (c + 1) = .ok (hi c))
    (hng : 0 ≤ ng) {Y : Axis} {gy : ℤ} (hY : Y.Ok gy) :
    ∃ Z, setupZ n 2 1 gg ng false lo hi = .ok Z ∧ Z.Ok gg ∧ n / 2 + gg + 1 = Z.shi 0 - Z.slo 0 + 1 ∧ Z.Source 0 (n / 2 + gg + 1) 1 0 ∧
      ∀ (Q : Prog (Proc Y Z) Mem (List ℝ)), (Q = blocking .toFft Y Z ∨ Q = nonblocking .toFft Y Z) → ∀ (m0 : Proc Y Z → Mem) (k : ℕ)
        (c : Conf (Proc Y Z) Mem (List ℝ)), Exec Q k (start fun r => Way.toFft.self Y Z r (m0 r)) c → Stuck Q c →
        ∀ d : Proc Y Z, d.1.2 = 0 → ∀ py, (c.mem d).f (py, n / 2 + gg + 1) = (m0 d).f (py, n / 2 + gg + 1) := by
  obtain ⟨Z, e⟩ := setup_two (n := n) (m := n / 2) (gg := gg) (ng := ng) (o := false) (lo := lo) (hi := hi) (by omega) (by omega) (by omega) hgn
  have hZ := setup_ok le_rfl (by omega) (by omega) (by omega) hng hs hl e
  obtain ⟨e1, e2, e3, e4, e5, e6, e7, e8, e9, e10, e11, e12⟩ := setup_two_eq (by omega) hs hl (by omega) e
  have ho : Z.open_ = false := (setup_of le_rfl (by omega) (by omega) e).2.2.2
  have hw : ¬ Z.P = Z.G := by rw [e11, e12]; decide
  refine ⟨Z, e, hZ, by omega, ?_, ?_⟩
  · refine ⟨⟨by omega, by omega⟩, ?_⟩
    rw [if_neg hw, ho]
    exact ⟨le_rfl, by omega, 0, by omega⟩
  · intro Q hQ m0 k c ex hst d hd py
    rw [final_mem hY hZ .toFft hQ m0 ex hst d]
    refine gather_other .toFft m0 d _ (fun t ht => ?_) _
    obtain ⟨-, b1, b2⟩ := mem_cells.1 ht
    have b1 : (Z.l2gRecv d.1.2 t.1.2).first ≤ n / 2 + gg + 1 := b1
    have b2 : n / 2 + gg + 1 < (Z.l2gRecv d.1.2 t.1.2).first + (Z.l2gRecv d.1.2 t.1.2).size := b2
    rw [hd] at b1 b2
    have ht := t.2.2
    have ht : 0 ≤ t.1.2 ∧ t.1.2 < 2 := ⟨ht.1, by have := ht.2; omega⟩
    have m1 : (-gg) % n = n - gg := by rw [mod_low (by omega) (by omega)]; ring
    have sc : selectCase n (-gg) ((n + 1) / 2 - 1) = 2 := by
      unfold selectCase
      split_ifs <;> omega
    unfold Axis.l2gRecv FftGroups.l2gRecv at b1 b2
    rw [if_neg hw, e10, ho, e5, e6, sc] at b1 b2
    have h01 : t.1.2 = 0 ∨ t.1.2 = 1 := by omega
    rcases h01 with h | h
    · rw [h, e1, e2] at b1 b2
      have z1 : common 0 (n / 2 - 1) (-gg % n) (n - 1) = 0 := by rw [m1]; unfold common; omega
      have z2 : common 0 (n / 2 - 1) 0 ((n + 1) / 2 - 1) = n / 2 := by unfold common; omega
      simp only [Bool.false_eq_true, if_false, z1, z2, if_true] at b1 b2
      rw [if_neg (by omega)] at b1 b2
      simp only at b1 b2
      omega
    · rw [h, e3, e4] at b1 b2
      have z1 : common (n / 2) (n - 1) (n - gg) (n - 1) = gg := by unfold common; omega
      have g0 : ¬ gg = 0 := by omega
      simp only [Bool.false_eq_true, if_false, z1, g0, m1] at b1 b2
      omega

example : ∃ (s : Split) (lo hi : ℤ → ℤ), split 9 2 = .ok s ∧
    ∀ c, 0 ≤ c → c < 2 → s.cmin.get (c + 1) = .ok (lo c) ∧ s.cmax.get (c + 1) = .ok (hi c) := by
  obtain ⟨s, lo, hi, hs, hl⟩ := split_exists (n := 9) (P := 2) (by omega) (by omega)
  exact ⟨s, lo, hi, hs, hl⟩

/-- C129: after the exchange back, whatever the schedule, every cell of the array of the particles holds the value of the element of the
arrays of the transforms that stands for the same cell in the group of that cell; nothing else is changed. -/
theorem C129_back (hY : Y.Ok gy) (hZ : Z.Ok gz) (aY : Y.Aligned) (aZ : Z.Aligned) {Q : Prog (Proc Y Z) Mem (List ℝ)}
    (hQ : Q = blocking .toGrid Y Z ∨ Q = nonblocking .toGrid Y Z) (m0 : Proc Y Z → Mem) {n : ℕ} {c : Conf (Proc Y Z) Mem (List ℝ)}
    (e : Exec Q n (start fun r => Way.toGrid.self Y Z r (m0 r)) c) (hst : Stuck Q c) (s : Proc Y Z) :
    (∀ j (d : Proc Y Z) p, Y.Image s.1.1 j.1 d.1.1 p.1 → Z.Image s.1.2 j.2 d.1.2 p.2 → (c.mem s).l j = (m0 d).f p) ∧
    (∀ j : ℤ × ℤ, (¬ ∃ (d : Proc Y Z) (p : ℤ × ℤ), Y.Image s.1.1 j.1 d.1.1 p.1 ∧ Z.Image s.1.2 j.2 d.1.2 p.2) → (c.mem s).l j = (m0 s).l j) ∧
    (c.mem s).f = (m0 s).f := by
  obtain ⟨h1, h2, h3⟩ := result hY hZ aY aZ .toGrid hQ m0 e hst s
  refine ⟨fun j d p a b => h3 (fun h => by cases h) (fun h => by cases h) j d p ⟨a, b⟩, fun j hj => ?_, h1⟩
  rcases h2 j with ⟨d, p, hr, -⟩ | h
  · exact absurd ⟨d, p, hr.1, hr.2⟩ hj
  · exact h

/-- C129: every cell has exactly one such element. -/
theorem C129_unique {A : Axis} {g : ℤ} (h : A.Ok g) (ha : A.Aligned) {s c : ℤ} (hs : A.In s) (c0 : 0 ≤ c) (c1 : c ≤ A.hi s - A.lo s) :
    ∃ d p, A.In d ∧ A.Image s c d p ∧ ∀ d' p', A.In d' → A.Image s c d' p' → d' = d ∧ p' = p := by
  obtain ⟨d, p, hd, hi⟩ := image_of h ha hs c0 c1
  exact ⟨d, p, hd, hi, fun d' p' hd' hi' => rel_uniq h .toGrid hd' hd hi' hi⟩

example : ∃ A : Axis, A.Ok 2 ∧ A.Aligned ∧ A.In 3 ∧ A.P ≠ A.G := by
  obtain ⟨Z, z1, z5, -, -, z2, z3, -⟩ := fgExample
  exact ⟨Z, z2, z3, ⟨by omega, by rw [z1]; omega⟩, by rw [z1, z5]; decide⟩

/-- C130: the copy to the transforms followed by the copy back gives every cell of the particles its value again. -/
theorem C130_round_trip (hY : Y.Ok gy) (hZ : Z.Ok gz) (aY : Y.Aligned) (aZ : Z.Aligned) (mY : Y.MeetsOnce) (mZ : Z.MeetsOnce)
    {Q Q' : Prog (Proc Y Z) Mem (List ℝ)} (hQ : Q = blocking .toFft Y Z ∨ Q = nonblocking .toFft Y Z)
    (hQ' : Q' = blocking .toGrid Y Z ∨ Q' = nonblocking .toGrid Y Z) (m0 : Proc Y Z → Mem) {n n' : ℕ} {c c' : Conf (Proc Y Z) Mem (List ℝ)}
    (e : Exec Q n (start fun r => Way.toFft.self Y Z r (m0 r)) c) (hst : Stuck Q c)
    (e' : Exec Q' n' (start fun r => Way.toGrid.self Y Z r (c.mem r)) c') (hst' : Stuck Q' c') (s : Proc Y Z) (j : ℤ × ℤ)
    (hj : (0 ≤ j.1 ∧ j.1 ≤ Y.hi s.1.1 - Y.lo s.1.1) ∧ 0 ≤ j.2 ∧ j.2 ≤ Z.hi s.1.2 - Z.lo s.1.2) : (c'.mem s).l j = (m0 s).l j := by
  obtain ⟨dy, py, hdy, iy⟩ := image_of hY aY s.2.1 hj.1.1 hj.1.2
  obtain ⟨dz, pz, hdz, iz⟩ := image_of hZ aZ s.2.2 hj.2.1 hj.2.2
  rw [(C129_back hY hZ aY aZ hQ' c.mem e' hst' s).1 j ⟨(dy, dz), hdy, hdz⟩ (py, pz) iy iz]
  exact (C128_transforms_partial hY hZ aY aZ mY mZ hQ m0 e hst ⟨(dy, dz), hdy, hdz⟩).1 (py, pz) s j (source_of_image iy) (source_of_image iz)

example : ∃ Y Z : Axis, Y.Ok 2 ∧ Z.Ok 2 ∧ Y.Aligned ∧ Z.Aligned ∧ Y.MeetsOnce ∧ Z.MeetsOnce ∧
    ∀ w : Way, ∀ m0 : Proc Y Z → Mem, ∃ n c, Exec (blocking w Y Z) n (start fun r => w.self Y Z r (m0 r)) c ∧ Stuck (blocking w Y Z) c := by
  obtain ⟨Y, -, -, -, y2, y3, y4⟩ := fgOne
  obtain ⟨Z, -, -, -, -, z2, z3, z4⟩ := fgExample
  exact ⟨Y, Z, y2, z2, y3, z3, y4, z4, fun w m0 => exec_exists (ok_of y2 z2 w).1 _⟩

/-- C131: both versions of both exchanges end: no run takes more than a fixed number of steps, a run that can go no further has completed
every communication and no message is left over. -/
theorem C131_ends (hY : Y.Ok gy) (hZ : Z.Ok gz) (w : Way) {Q : Prog (Proc Y Z) Mem (List ℝ)} (hQ : Q = blocking w Y Z ∨ Q = nonblocking w Y Z)
    (m0 : Proc Y Z → Mem) : (∃ B, ∀ n c, Exec Q n (start fun r => w.self Y Z r (m0 r)) c → n ≤ B) ∧
    ∀ n c, Exec Q n (start fun r => w.self Y Z r (m0 r)) c → Stuck Q c → (∀ r, c.g r = Q.G) ∧ ∀ s d, c.ch s d = [] := by
  have hok : Q.Ok := by
    rcases hQ with rfl | rfl
    · exact (ok_of hY hZ w).1
    · exact (ok_of hY hZ w).2
  exact ⟨⟨_, fun n c e => exec_bounded hok e⟩, fun n c e hst => ⟨(exec_result hok e hst).2.2, (exec_result hok e hst).2.1⟩⟩

/-- C131: the first entry of the list of communications, which the routines skip, is the process itself, and with `mpicom_curr = 0` the
array of requests has room for every request that is posted. -/
theorem C131_requests (hY : Y.Ok gy) (hZ : Z.Ok gz) (w : Way) (c : Proc Y Z) :
    ((w.cut.work c).head? = some 0 ∧ fwd 0 c = c ∧ bwd 0 c = c) ∧ ∃ n, w.postRequests 0 c = .ok n := by
  refine ⟨⟨?_, fwd_zero c, bwd_zero c⟩, requests_ok hY hZ w c⟩
  rw [work_eq hY hZ]
  rfl

/-- C131 fails for every other value of `mpicom_curr` that takes the non-blocking routines (2, for instance): the requests are stored
through a pointer that was never associated. -/
theorem C131_persistent_refuted (w : Way) (c : Proc Y Z) (mpicom : ℤ) (h0 : mpicom ≠ 0) : w.postRequests mpicom c = .error .nullDeref := by
  unfold Way.postRequests Cut.requests
  rw [if_neg h0]

example : ∃ Y Z : Axis, Y.Ok 2 ∧ Z.Ok 2 ∧ Nonempty (Proc Y Z) := by
  obtain ⟨Y, y1, -, -, y2, -⟩ := fgOne
  obtain ⟨Z, z1, -, -, -, z2, -⟩ := fgExample
  exact ⟨Y, Z, y2, z2, ⟨⟨(0, 0), by rw [y1]; omega, by rw [z1]; omega⟩⟩⟩

end Picsar.Props
