import Verif.Lemmas.Topology
import Mathlib.Tactic.NormNum

/-
C52: the split of the cells; C53: ranks, coordinates and neighbours; C54: the random topology; C86: the start-up check.
-/
namespace Picsar.Props
open Picsar Picsar.Grid Picsar.Topology

/-- C52. The split never reads an unset or missing element, and the ranges it computes are consecutive, cover the global cells
exactly once and differ in size by at most one. -/
theorem C52_split_partitions (ncells nproc : ℤ) (hp : 1 ≤ nproc) (hc : 0 ≤ ncells) :
    ∃ (s : Split) (lo hi : ℤ → ℤ), split ncells nproc = .ok s ∧
      (∀ i, 1 ≤ i → i ≤ nproc → s.cmin.get i = .ok (lo i) ∧ s.cmax.get i = .ok (hi i)) ∧
      SplitsEvenly nproc ncells lo hi := by
  obtain ⟨s, n0, np, e, I, hq, h0, h1, h2, hN⟩ := split_ok hp hc
  exact ⟨s, sLo n0 np, sHi n0 np, e, fun i a b => sget I a b, sSplits h0 hp h1 h2 hN hq⟩

/-- C52, extents. The intervals `[x_min_local, x_max_local)` of the processes along a direction are consecutive: the first starts at
`xmin`, the last ends at `xmax`, and each starts where its predecessor ends, so every position of the domain belongs to exactly one
process. -/
theorem C52_extents_partition (ncells nproc : ℤ) (hp : 1 ≤ nproc) (hc : 1 ≤ ncells) (xmin xmax : ℝ) (hx : xmin < xmax) :
    ∃ (s : Split) (a b : ℤ → ℝ), split ncells nproc = .ok s ∧
      (∀ c, 0 ≤ c → c < nproc → localExtent xmin xmax ncells s c = .ok (a c, b c)) ∧
      a 0 = xmin ∧ b (nproc - 1) = xmax ∧ (∀ c, 0 ≤ c → c < nproc - 1 → a (c + 1) = b c) ∧
      ∀ x, xmin ≤ x → x < xmax → ∃! c, (0 ≤ c ∧ c < nproc) ∧ a c ≤ x ∧ x < b c := by
  obtain ⟨s, lo, hi, e, hg, hs⟩ := C52_split_partitions ncells nproc hp (by omega)
  obtain ⟨s1, s2, s3, s4, s5, -, -⟩ := hs
  have hN : (0 : ℝ) < ncells := by exact_mod_cast (show (0 : ℤ) < ncells by omega)
  have hd : 0 < (xmax - xmin) / ncells := div_pos (by linarith) hN
  refine ⟨s, fun c => xGlobal xmin xmax ncells (lo (c + 1)), fun c => xGlobal xmin xmax ncells (hi (c + 1) + 1), e, ?_, ?_, ?_, ?_, ?_⟩
  · intro c h1 h2
    unfold localExtent
    rw [(hg (c + 1) (by omega) (by omega)).1, (hg (c + 1) (by omega) (by omega)).2]
    rfl
  · show xGlobal _ _ _ (lo (0 + 1)) = _
    rw [zero_add, s1]
    simp [xGlobal]
  · show xGlobal _ _ _ (hi (nproc - 1 + 1) + 1) = _
    rw [sub_add_cancel, s2]
    unfold xGlobal
    rw [sub_add_cancel]
    field_simp
    ring
  · intro c h1 h2
    show xGlobal _ _ _ (lo (c + 1 + 1)) = xGlobal _ _ _ (hi (c + 1) + 1)
    rw [s3 (c + 1) (by omega) (by omega)]
  · intro x hx1 hx2
    -- the cell that contains `x`
    set q : ℤ := ⌊(x - xmin) / ((xmax - xmin) / ncells)⌋ with hq
    have q1 : (q : ℝ) ≤ (x - xmin) / ((xmax - xmin) / ncells) := Int.floor_le _
    have q2 : (x - xmin) / ((xmax - xmin) / ncells) < q + 1 := Int.lt_floor_add_one _
    rw [le_div_iff₀ hd] at q1
    rw [div_lt_iff₀ hd] at q2
    have hcov : xmax - xmin = ncells * ((xmax - xmin) / ncells) := by field_simp
    have q0 : 0 ≤ q := Int.floor_nonneg.mpr (div_nonneg (by linarith) hd.le)
    have qN : q < ncells := by
      by_contra h
      have : (ncells : ℝ) ≤ q := by exact_mod_cast not_lt.mp h
      nlinarith
    have cellOf : ∀ m : ℤ, xGlobal xmin xmax ncells m ≤ x ↔ m ≤ q := by
      intro m
      unfold xGlobal
      constructor
      · intro h
        by_contra hlt
        have : (q : ℝ) + 1 ≤ m := by exact_mod_cast not_le.mp hlt
        nlinarith
      · intro h
        have : (m : ℝ) ≤ q := by exact_mod_cast h
        nlinarith
    have cellOf' : ∀ m : ℤ, x < xGlobal xmin xmax ncells m ↔ q < m := by
      intro m
      rw [← not_le, cellOf, not_le]
    obtain ⟨i, ⟨⟨i1, i2⟩, i3, i4⟩, iu⟩ := s4 q q0 qN
    refine ⟨i - 1, ⟨⟨by omega, by omega⟩, ?_, ?_⟩, ?_⟩
    · show xGlobal _ _ _ (lo (i - 1 + 1)) ≤ x
      rw [sub_add_cancel, cellOf]; exact i3
    · show x < xGlobal _ _ _ (hi (i - 1 + 1) + 1)
      rw [sub_add_cancel, cellOf']; omega
    · rintro c ⟨⟨c1, c2⟩, c3, c4⟩
      have c3' : xGlobal xmin xmax ncells (lo (c + 1)) ≤ x := c3
      have c4' : x < xGlobal xmin xmax ncells (hi (c + 1) + 1) := c4
      rw [cellOf] at c3'
      rw [cellOf'] at c4'
      have := iu (c + 1) ⟨⟨by omega, by omega⟩, c3', by omega⟩
      omega

/-- Seven cells on three processes: 2, 2 and 3 cells. -/
example : ∃ s, split 7 3 = .ok s ∧ s.cmax.get 1 = .ok 1 ∧ s.cmin.get 3 = .ok 4 ∧ s.cmax.get 3 = .ok 6 := by
  refine ⟨_, rfl, ?_, ?_, ?_⟩ <;> decide

/-- C53 (processors ordered by rank, `topology = 1`). -/
theorem C53_ordered (P : PGrid) (hP : P.Ok) : OneEach P (coords1 P) ∧ Neighbours P (coords1 P) (neighbour1 P) := by
  refine neighbours_of hP (rk := rankOf P) ?_ ?_ ?_ ?_
  · intro r hr; rw [coords1_eq hP hr]; exact coordsCart_in hP hr
  · intro r hr; rw [coords1_eq hP hr]; exact rankOf_coordsCart hP
  · intro c hc
    have hr := rankOf_rank hP hc
    exact ⟨hr, by rw [coords1_eq hP hr]; exact coordsCart_rankOf hP hc⟩
  · intro r d hr hd
    have hin := coordsCart_in hP hr
    rw [inTopo_iff] at hin
    obtain ⟨⟨a, b⟩, ⟨c', d'⟩, ⟨e, f⟩⟩ := hin
    obtain ⟨d1, d2, d3, d4, d5, d6⟩ := hd
    unfold neighbour1 rankOf shifted
    rw [coords1_eq hP hr]
    simp only
    rw [neight_eq a b d1 d2, neight_eq c' d' d3 d4, neight_eq e f d5 d6]

/-- C53 (Cartesian topology, the default). -/
theorem C53_cartesian (P : PGrid) (hP : P.Ok) :
    OneEach P (coordsCart P) ∧ Neighbours P (coordsCart P) (neighbourCart P) := by
  refine neighbours_of hP (rk := rankOf P) (fun r hr => coordsCart_in hP hr) (fun r _ => rankOf_coordsCart hP)
    (fun c hc => ⟨rankOf_rank hP hc, coordsCart_rankOf hP hc⟩) ?_
  intro r d hr hd
  unfold neighbourCart cartRank rankOf shifted
  ring

/-- The rank-ordered and the Cartesian topology give every rank the same subdomain and the same neighbours. -/
theorem C53_topologies_agree (P : PGrid) (hP : P.Ok) (r : ℤ) (hr : P.Rank r) (d : I3) (hd : Dir d) :
    coords1 P r = coordsCart P r ∧ neighbour1 P r d = neighbourCart P r d := by
  have e := coords1_eq hP hr
  refine ⟨e, ?_⟩
  obtain ⟨⟨-, u⟩, n1⟩ := C53_ordered P hP
  obtain ⟨-, n2⟩ := C53_cartesian P hP
  obtain ⟨a1, a2, -⟩ := n1 r d hr hd
  obtain ⟨b1, b2, -⟩ := n2 r d hr hd
  obtain ⟨w, -, hw⟩ := u (shifted P (coordsCart P r) d) (shifted_in hP _ _)
  rw [hw _ ⟨a1, by rw [a2, e]⟩, hw _ ⟨b1, by rw [coords1_eq hP b1, b2]⟩]

example : PGrid.Ok ⟨3, 1, 2⟩ ∧ PGrid.Rank ⟨3, 1, 2⟩ 5 ∧ Dir ⟨1, -1, 0⟩ ∧ neighbour1 ⟨3, 1, 2⟩ 5 ⟨1, -1, 0⟩ = 3 := by
  refine ⟨by unfold PGrid.Ok; decide, by unfold PGrid.Rank PGrid.nproc; decide, by unfold Dir; decide, by decide⟩

/-- C54. Whatever numbers in [0,1) are drawn, the table broadcast by rank 0 is built without an access outside the array, every
rank finds exactly one subdomain, every subdomain belongs to exactly one rank, and the neighbours are the ranks of the periodically
shifted subdomains. -/
theorem C54_random_topology (P : PGrid) (hP : P.Ok) (r : ℕ → ℝ) (hr : ∀ n, 0 ≤ r n ∧ r n < 1) (t0 : Topo) :
    ∃ (t : Topo) (crd : ℤ → I3) (nb : ℤ → I3 → ℤ), topo P r t0 = .ok t ∧
      (∀ rank, P.Rank rank → coords2 P t rank (cells P) none = some (crd rank)) ∧
      (∀ rank d, P.Rank rank → Dir d → neighbour2 P t rank d = .ok (nb rank d)) ∧
      OneEach P crd ∧ Neighbours P crd nb := by
  obtain ⟨t, e, ht⟩ := topo_ok hP hr t0
  classical
  let crd : ℤ → I3 := fun k => if h : P.Rank k then (ht.2 k h).choose else ⟨0, 0, 0⟩
  have hcrd : ∀ k, P.Rank k → InTopo P (crd k) ∧ t (crd k) = k ∧ ∀ c, InTopo P c → t c = k → c = crd k := by
    intro k hk
    have h := (ht.2 k hk).choose_spec
    have : crd k = (ht.2 k hk).choose := dif_pos hk
    rw [this]
    exact ⟨h.1.1, h.1.2, fun c c1 c2 => h.2 c ⟨c1, c2⟩⟩
  have hfind : ∀ rank, P.Rank rank → coords2 P t rank (cells P) none = some (crd rank) := by
    intro k hk
    obtain ⟨a, b, c⟩ := hcrd k hk
    exact coords2_ok c b (cells P) none (fun i hi => mem_cells.mp hi) (Or.inl (mem_cells.mpr a))
  refine ⟨t, crd, fun k d => t (shifted P (crd k) d), e, hfind, ?_, ?_⟩
  · intro k d hk hd
    obtain ⟨a, -, -⟩ := hcrd k hk
    rw [inTopo_iff] at a
    obtain ⟨⟨a1, a2⟩, ⟨a3, a4⟩, ⟨a5, a6⟩⟩ := a
    obtain ⟨d1, d2, d3, d4, d5, d6⟩ := hd
    unfold neighbour2
    rw [hfind k hk]
    simp only
    rw [neight_eq a1 a2 d1 d2, neight_eq a3 a4 d3 d4, neight_eq a5 a6 d5 d6]
    exact if_pos (shifted_in hP _ _)
  · refine neighbours_of hP (rk := t) (fun k hk => (hcrd k hk).1) (fun k hk => (hcrd k hk).2.1) ?_ (fun _ _ _ _ => rfl)
    intro c hc
    have hk := ht.1 c hc
    exact ⟨hk, ((hcrd _ hk).2.2 c hc rfl).symm⟩

example : PGrid.Ok ⟨2, 3, 2⟩ ∧ ∀ n : ℕ, 0 ≤ (fun _ => (1 / 2 : ℝ)) n ∧ (fun _ => (1 / 2 : ℝ)) n < 1 := by
  refine ⟨by unfold PGrid.Ok; decide, fun n => ⟨by norm_num, by norm_num⟩⟩

/-- C86 fails: eight grid points on two processes with four guard cells pass the start-up check, but the first process gets only
three cells, fewer than the guard cells it has to provide to its neighbours. -/
theorem C86_check_refuted : ∃ (nglobalGrid nproc nguards : ℤ) (s : Split), 1 ≤ nproc ∧
    splitAccepted nglobalGrid nproc nguards = true ∧ split (nglobalGrid - 1) nproc = .ok s ∧
    ∃ n, localCells s 0 = .ok n ∧ n < nguards := by
  refine ⟨8, 2, 4, _, by decide, by decide, rfl, 3, ?_, by decide⟩
  decide

/-- C86, proved part: after the check every subdomain has at least `nguards - 1` cells, and at least `nguards` if the number of
processes does not divide the number of grid points. Missing: `nguards` cells in every accepted case, which is false. -/
theorem C86_check_partial (nglobalGrid nproc nguards : ℤ) (hp : 1 ≤ nproc) (hg : 1 ≤ nglobalGrid)
    (h : splitAccepted nglobalGrid nproc nguards = true) :
    ∃ s, split (nglobalGrid - 1) nproc = .ok s ∧ ∀ c, 0 ≤ c → c < nproc → ∃ n, localCells s c = .ok n ∧ nguards - 1 ≤ n ∧
      (¬ nproc ∣ nglobalGrid → nguards ≤ n) := by
  obtain ⟨s, n0, np, e, I, hq, h0, h1, h2, hN⟩ := split_ok hp (show 0 ≤ nglobalGrid - 1 by omega)
  have hacc : nguards ≤ nglobalGrid / nproc := by
    unfold splitAccepted at h
    rw [Int.tdiv_eq_ediv_of_nonneg (by omega)] at h
    simpa using h
  refine ⟨s, e, fun c c1 c2 => ?_⟩
  obtain ⟨a, b⟩ := sget I (show 1 ≤ c + 1 by omega) (show c + 1 ≤ nproc by omega)
  have hsz := sLo_size (n0 := n0) (np := np) (i := c + 1)
  refine ⟨sHi n0 np (c + 1) + 1 - sLo n0 np (c + 1) + 1 - 1, ?_, ?_, ?_⟩
  · unfold localCells
    rw [a, b]
    rfl
  · have : nglobalGrid / nproc ≤ n0 + 1 := by
      rw [hq]
      have : nglobalGrid / nproc ≤ (nglobalGrid - 1 + 1 * nproc) / nproc :=
        Int.ediv_le_ediv (by omega) (by omega)
      rwa [Int.add_mul_ediv_right _ _ (by omega)] at this
    unfold sHi
    split_ifs at hsz <;> omega
  · intro hdiv
    have : nglobalGrid / nproc ≤ n0 := by
      rw [hq]
      have hm : nglobalGrid % nproc ≠ 0 := fun h => hdiv (Int.dvd_of_emod_eq_zero h)
      have hm0 := Int.emod_nonneg nglobalGrid (show nproc ≠ 0 by omega)
      have hd := Int.mul_ediv_add_emod nglobalGrid nproc
      apply Int.le_ediv_of_mul_le (by omega)
      have : nglobalGrid / nproc * nproc = nproc * (nglobalGrid / nproc) := by ring
      omega
    unfold sHi
    split_ifs at hsz <;> omega

example : splitAccepted 101 4 8 = true ∧ ¬ (4 : ℤ) ∣ 101 := by decide

end Picsar.Props
