import Verif.Lemmas.ProjLoad
import Verif.Props.LoadBalance
/-
C162: loads of the planes of cells; C163: time per particle and per cell; C164: new split of the domain.
-/
namespace Picsar.Props
open Picsar Picsar.ProjLoad Picsar.Spec.LoadBalance

theorem plane_cells {g : Grid} {a : Axis} (ha : IsAxis g a) : g.n a * planeCells g a = cells g := by
  cases a
  · by_cases h : g.dim2 = true <;> simp [planeCells, cells, h, Nat.mul_assoc]
  · by_cases h : g.dim2 = true
    · exact absurd rfl (ha h)
    · simp [planeCells, cells, h, Nat.mul_left_comm, Nat.mul_assoc]
  · by_cases h : g.dim2 = true <;> simp [planeCells, cells, h, Nat.mul_comm]

/-! ### C162 -/

/-- C162. For every grid, axis, distribution of the particles over processes: if all particles lie in the grid, the load of each plane is the number of
particles of all processes in it times the time per particle plus the number of its cells times the time per cell. -/
theorem C162_loads (g : Grid) (a : Axis) (ha : IsAxis g a) (hd : 0 < g.d a) (tpp tpc : ℝ) (procs : List (List Pos)) (h : AllInside g a procs) :
    ∃ l, projected g a tpp tpc procs = .ok l ∧ l.length = g.n a ∧
      ∀ c, (hc : c < l.length) → l[c] = inPlane g a c procs * tpp + (cells g / g.n a : ℝ) * tpc := by
  obtain ⟨l, e, hl, hv⟩ := projected_ok hd tpp tpc procs h
  refine ⟨l, e, hl, fun c hc => ?_⟩
  have hn : (g.n a : ℝ) ≠ 0 := by
    have : 0 < g.n a := by omega
    exact_mod_cast this.ne'
  rw [hv c hc, ← plane_cells ha]
  push_cast
  rw [mul_div_cancel_left₀ _ hn]

/-- C162, the limits: a single particle of any process outside of the grid, and memory outside of the array is accessed. -/
theorem C162_outside (g : Grid) (a : Axis) (hd : 0 < g.d a) (tpp tpc : ℝ) (procs : List (List Pos)) :
    (∃ l, projected g a tpp tpc procs = .ok l) ↔ AllInside g a procs := by
  constructor
  · rintro ⟨l, e⟩
    by_contra h
    rw [projected_bad hd tpp tpc procs h] at e
    simp at e
  · intro h
    obtain ⟨l, e, -⟩ := projected_ok hd tpp tpc procs h
    exact ⟨l, e⟩

/-- Four cells along x, one along y and z. -/
noncomputable def plGrid : Grid := ⟨false, fun a => match a with | .x => 4 | .y => 1 | .z => 1, fun _ => 0, fun _ => 1⟩

/-- Two processes: one with two particles in the first cell and one in the third, one with a particle in the third cell. -/
noncomputable def plProcs : List (List Pos) := [[⟨1/2, 1/2, 1/2⟩, ⟨1/2, 1/2, 1/2⟩, ⟨5/2, 1/2, 1/2⟩], [⟨5/2, 1/2, 1/2⟩]]

theorem plProcs_inside : AllInside plGrid .x plProcs := by
  intro ps hps p hp
  simp only [plProcs, List.mem_cons, List.not_mem_nil, or_false] at hps
  rcases hps with rfl | rfl <;> simp only [List.mem_cons, List.not_mem_nil, or_false] at hp
  · rcases hp with rfl | rfl | rfl <;> norm_num [plGrid, Pos.get]
  · subst hp; norm_num [plGrid, Pos.get]

/-- The hypotheses are met, and the load of the third plane is that of two particles and one cell. -/
example : ∃ l, projected plGrid .x 2 3 plProcs = .ok l ∧ ∃ h : 2 < l.length, l[2] = 2 * 2 + 1 * 3 := by
  obtain ⟨l, e, hl, hv⟩ := C162_loads plGrid .x (by intro h; simp [plGrid] at h) (by norm_num [plGrid]) 2 3 plProcs plProcs_inside
  have h2 : 2 < l.length := by rw [hl]; norm_num [plGrid]
  refine ⟨l, e, h2, ?_⟩
  rw [hv 2 h2]
  have : inPlane plGrid .x 2 plProcs = 2 := by
    norm_num [inPlane, plProcs, InPlane, plGrid, Pos.get, List.countP_cons]
  rw [this]
  norm_num [cells, plGrid]

/-- A particle at the end of the grid is outside. -/
example : ¬ AllInside plGrid .x [[⟨4, 0, 0⟩]] := by
  intro h
  have := (h [⟨4, 0, 0⟩] (by simp) ⟨4, 0, 0⟩ (by simp)).2
  norm_num [plGrid, Pos.get] at this

/-! ### C163 -/

/-- C163, totals: along every axis the loads of the planes add up to the same total, that of all particles and all cells. -/
theorem C163_total (g : Grid) (a : Axis) (ha : IsAxis g a) (hd : 0 < g.d a) (tpp tpc : ℝ) (procs : List (List Pos)) (h : AllInside g a procs) :
    ∃ l, projected g a tpp tpc procs = .ok l ∧ l.sum = procs.flatten.length * tpp + cells g * tpc := by
  obtain ⟨l, e, -⟩ := projected_ok hd tpp tpc procs h
  exact ⟨l, e, by rw [projected_sum hd tpp tpc procs h l e, plane_cells ha]⟩

/-- C163, time per particle, on processors that do not flush subnormal numbers and for fewer than 2^53 particles: although the numbers of particles are
added as if they were double precision numbers, the result is the time of the processes that have particles over the number of particles, in whatever
order the contributions are added. -/
theorem C163_time_partial (procs : List (ℝ × ℕ)) (hp : procs ≠ []) (hN : (procs.map Prod.snd).sum < 2 ^ 53) (tpp : ℝ) :
    TimePerPart false procs tpp ↔ tpp = if (procs.map Prod.snd).sum = 0 then 0 else
      (procs.map fun q => if q.2 = 0 then 0 else q.1).sum / (procs.map Prod.snd).sum := by
  constructor
  · rintro ⟨t, n, hperm, hg, rfl⟩
    have hs := hperm.sum_eq
    rw [(gives_sum t n (by rw [hs]; exact hN)).mp hg, hs]
  · rintro rfl
    obtain ⟨q, qs, rfl⟩ := List.exists_cons_of_ne_nil hp
    obtain ⟨t, ht⟩ := exists_tree q.2 (qs.map Prod.snd)
    have ht' : t.leaves = (q :: qs).map Prod.snd := ht
    refine ⟨t, _, by rw [ht'], (gives_sum t _ (by rw [ht']; exact hN)).mpr rfl, ?_⟩
    rw [ht']

/-- C163 fails on processors that flush subnormal numbers to zero: with two or more processes the time per particle is zero, whatever the particles and
the times are. -/
theorem C163_flush_refuted (procs : List (ℝ × ℕ)) (hp : 2 ≤ procs.length) (hN : ∀ q ∈ procs, q.2 < 2 ^ 52) (tpp : ℝ) :
    TimePerPart true procs tpp ↔ tpp = 0 := by
  have key : ∀ t : Tree, t.leaves.Perm (procs.map Prod.snd) → ∀ v, Gives true t v ↔ v = 0 := fun t hperm =>
    (gives_flushed t (fun b hb => by
      obtain ⟨q, hq, rfl⟩ := List.mem_map.mp (hperm.mem_iff.mp hb)
      exact hN q hq)).2.2 (by rw [hperm.length_eq, List.length_map]; exact hp)
  constructor
  · rintro ⟨t, n, hperm, hg, rfl⟩
    rw [(key t hperm n).mp hg, if_pos rfl]
  · rintro rfl
    obtain ⟨q, qs, rfl⟩ := List.exists_cons_of_ne_nil (l := procs) (by rintro rfl; simp at hp)
    obtain ⟨t, ht⟩ := exists_tree q.2 (qs.map Prod.snd)
    have hperm : t.leaves.Perm ((q :: qs).map Prod.snd) := by rw [ht]; rfl
    exact ⟨t, 0, hperm, (key t hperm 0).mpr rfl, by rw [if_pos rfl]⟩

/-- Met by two processes with three particles and one: two seconds in one, four in the other, 3/2 seconds for each particle, or none when flushed. -/
example : TimePerPart false [(2, 3), (4, 1)] (3 / 2) ∧ TimePerPart true [(2, 3), (4, 1)] 0 := by
  refine ⟨(C163_time_partial _ (by simp) (by simp) _).mpr ?_, (C163_flush_refuted _ (by simp) (by simp) _).mpr rfl⟩
  norm_num

/-- C163, all together: with the times computed from the measurements, the loads along each axis add up to the time that was measured on all processes,
for particles by those that have particles and for cells by all. -/
theorem C163_measured_partial (g : Grid) (a : Axis) (ha : IsAxis g a) (hd : 0 < g.d a) (hc : 0 < cells g) (procs : List (List Pos)) (h : AllInside g a procs)
    (tp tc : List ℝ) (ht : tp.length = procs.length) (hN : procs.flatten.length < 2 ^ 53) (h1 : 0 < procs.flatten.length) (tpp : ℝ)
    (hp : TimePerPart false (tp.zip (procs.map List.length)) tpp) :
    ∃ l, projected g a tpp (timePerCell g tc) procs = .ok l ∧
      l.sum = ((tp.zip (procs.map List.length)).map fun q => if q.2 = 0 then 0 else q.1).sum + tc.sum := by
  have hs : ((tp.zip (procs.map List.length)).map Prod.snd).sum = procs.flatten.length := by
    rw [List.map_snd_zip (by simp [ht]), List.length_flatten]
  obtain ⟨l, e, hl⟩ := C163_total g a ha hd tpp (timePerCell g tc) procs h
  refine ⟨l, e, ?_⟩
  rw [C163_time_partial _ (by rintro h0; rw [h0] at hs; rw [← hs] at h1; simp at h1) (by rw [hs]; exact hN), hs, if_neg h1.ne'] at hp
  have hr : (procs.flatten.length : ℝ) ≠ 0 := by exact_mod_cast h1.ne'
  have hcr : (cells g : ℝ) ≠ 0 := by exact_mod_cast hc.ne'
  have hcell : timePerCell g tc = tc.sum / cells g := by
    by_cases h2 : g.dim2 = true <;> simp [timePerCell, cells, h2]
  rw [hl, hp, hcell, mul_div_cancel₀ _ hr, mul_div_cancel₀ _ hcr]

/-- The hypotheses are met by the two processes above. -/
example : ∃ tpp l, TimePerPart false [(2, 3), (4, 1)] tpp ∧ projected plGrid .x tpp (timePerCell plGrid [1, 2]) plProcs = .ok l ∧ l.sum = 9 := by
  have h0 : TimePerPart false [(2, 3), (4, 1)] (3 / 2) := (C163_time_partial _ (by simp) (by simp) _).mpr (by norm_num)
  obtain ⟨l, e, hl⟩ := C163_measured_partial plGrid .x (by intro h; simp [plGrid] at h) (by norm_num [plGrid]) (by norm_num [cells, plGrid]) plProcs
    plProcs_inside [2, 4] [1, 2] (by simp [plProcs]) (by simp [plProcs]) (by simp [plProcs]) (3 / 2) (by simpa [plProcs] using h0)
  refine ⟨_, l, h0, e, ?_⟩
  rw [hl]
  norm_num [plProcs]

/-! ### C164 -/

/-- C164 for grids whose planes carry no more than the average load of a process: the new ranges along each axis are a split of the cells. -/
theorem C164_axis {g : Grid} {a : Axis} (ha : IsAxis g a) (hd : 0 < g.d a) (hn : 0 < cells g) {tpp tpc : ℝ} (h1 : 0 ≤ tpp) (h2 : 0 < tpc)
    {P : Axis → ℕ} (hP : 0 < P a) {procs : List (List Pos)} (h : AllInside g a procs)
    (hmax : ∀ c, c < g.n a → (inPlane g a c procs * tpp + (cells g / g.n a : ℝ) * tpc) * P a ≤ procs.flatten.length * tpp + cells g * tpc) :
    ∃ R, splitDir g tpp tpc procs P a = .ok R ∧ IsSplit (g.n a) (P a) R := by
  obtain ⟨l, e, hl, hv⟩ := C162_loads g a ha hd tpp tpc procs h
  obtain ⟨l', e', hs⟩ := C163_total g a ha hd tpp tpc procs h
  obtain rfl : l' = l := by rw [e] at e'; injection e' with e'; exact e'.symm
  have hna : 0 < g.n a := by
    have := plane_cells ha
    rcases Nat.eq_zero_or_pos (g.n a) with h0 | h0
    · rw [h0, Nat.zero_mul] at this; omega
    · exact h0
  have hpos : ∀ c, (hc : c < l'.length) → 0 < l'[c] := fun c hc => by
    rw [hv c hc]
    have : 0 < (cells g : ℝ) / g.n a := by positivity
    positivity
  obtain ⟨R, r1, r2⟩ := C66_split_partial l' (P a) hP
    (fun v hv' => by obtain ⟨c, hc, rfl⟩ := List.mem_iff_getElem.mp hv'; exact (hpos c hc).le)
    (fun v hv' => by
      obtain ⟨c, hc, rfl⟩ := List.mem_iff_getElem.mp hv'
      rw [hv c hc, hs]
      exact hmax c (by omega))
    (by omega) (hpos _ _)
  rw [hl] at r2
  exact ⟨R, by rw [splitDir, e, except_bind_ok, r1], r2⟩

/-- C164 in three dimensions, as far as it goes: non-negative time per particle, positive time per cell, all particles in the grid and no plane with more
than the average load of the processes along its axis: the new ranges along x, y and z are splits of the cells. -/
theorem C164_split_partial (g : Grid) (h3 : g.dim2 = false) (hd : ∀ a, 0 < g.d a) (hn : 0 < cells g) (tpp tpc : ℝ) (h1 : 0 ≤ tpp) (h2 : 0 < tpc)
    (P : Axis → ℕ) (hP : ∀ a, 0 < P a) (procs : List (List Pos)) (h : ∀ a, AllInside g a procs)
    (hmax : ∀ a c, c < g.n a → (inPlane g a c procs * tpp + (cells g / g.n a : ℝ) * tpc) * P a ≤ procs.flatten.length * tpp + cells g * tpc) :
    ∃ X Y Z, newSplit g tpp tpc P procs = .ok (X, Y, Z) ∧ IsSplit (g.n .x) (P .x) X ∧ IsSplit (g.n .y) (P .y) Y ∧ IsSplit (g.n .z) (P .z) Z := by
  have ha : ∀ a, IsAxis g a := fun a h => by rw [h3] at h; simp at h
  obtain ⟨X, x1, x2⟩ := C164_axis (ha .x) (hd _) hn h1 h2 (hP _) (h _) (hmax .x)
  obtain ⟨Y, y1, y2⟩ := C164_axis (ha .y) (hd _) hn h1 h2 (hP _) (h _) (hmax .y)
  obtain ⟨Z, z1, z2⟩ := C164_axis (ha .z) (hd _) hn h1 h2 (hP _) (h _) (hmax .z)
  exact ⟨X, Y, Z, by rw [newSplit, x1, except_bind_ok, y1, except_bind_ok, z1, except_bind_ok], x2, y2, z2⟩

/-- C164 for the routine for two dimensions, under the same conditions. -/
theorem C164_split2d_partial (g : Grid) (hd : ∀ a, 0 < g.d a) (hn : 0 < cells g) (tpp tpc : ℝ) (h1 : 0 ≤ tpp) (h2 : 0 < tpc)
    (P : Axis → ℕ) (hP : ∀ a, 0 < P a) (procs : List (List Pos)) (h : ∀ a, a ≠ .y → AllInside g a procs)
    (hmax : ∀ a c, a ≠ .y → c < g.n a →
      (inPlane g a c procs * tpp + (cells g / g.n a : ℝ) * tpc) * P a ≤ procs.flatten.length * tpp + cells g * tpc) :
    ∃ X Z, newSplit2 g tpp tpc P procs = .ok (X, Z) ∧ IsSplit (g.n .x) (P .x) X ∧ IsSplit (g.n .z) (P .z) Z := by
  obtain ⟨X, x1, x2⟩ := C164_axis (g := g) (a := .x) (fun _ => by simp) (hd _) hn h1 h2 (hP _) (h _ (by simp)) (fun c => hmax .x c (by simp))
  obtain ⟨Z, z1, z2⟩ := C164_axis (g := g) (a := .z) (fun _ => by simp) (hd _) hn h1 h2 (hP _) (h _ (by simp)) (fun c => hmax .z c (by simp))
  exact ⟨X, Z, by rw [newSplit2, x1, except_bind_ok, z1, except_bind_ok], x2, z2⟩

/-- The conditions are met by a grid of 4 × 1 × 1 cells without particles, two processes along x. -/
example : ∃ X Y Z, newSplit plGrid 1 1 (fun a => match a with | .x => 2 | .y => 1 | .z => 1) [[], []] = .ok (X, Y, Z) ∧ IsSplit 4 2 X ∧ IsSplit 1 1 Y ∧ IsSplit 1 1 Z := by
  refine C164_split_partial plGrid rfl (fun a => by norm_num [plGrid]) (by norm_num [cells, plGrid]) 1 1 (by norm_num) (by norm_num) _
    (fun a => by cases a <;> norm_num) [[], []] (fun a ps hps p hp => by simp at hps; subst hps; simp at hp) (fun a c hc => ?_)
  cases a <;> norm_num [inPlane, cells, plGrid]

/-- And by a grid with two particles. -/
example : ∃ X Z, newSplit2 ⟨true, fun _ => 4, fun _ => 0, fun _ => 1⟩ 1 1 (fun _ => 2) [[⟨1/2, 0, 1/2⟩], [⟨7/2, 0, 7/2⟩]] = .ok (X, Z) ∧ IsSplit 4 2 X ∧ IsSplit 4 2 Z := by
  refine C164_split2d_partial ⟨true, fun _ => 4, fun _ => 0, fun _ => 1⟩ (fun a => by norm_num) (by norm_num [cells]) 1 1 (by norm_num) (by norm_num) (fun _ => 2)
    (fun a => by norm_num) _ (fun a ha ps hps p hp => ?_) (fun a c ha hc => ?_)
  · simp only [List.mem_cons, List.not_mem_nil, or_false] at hps
    rcases hps with rfl | rfl <;> (rw [List.mem_singleton] at hp; subst hp; cases a <;> norm_num [Pos.get])
  · simp only at hc
    have hc2 : inPlane ⟨true, fun _ => 4, fun _ => 0, fun _ => 1⟩ a c [[⟨1/2, 0, 1/2⟩], [⟨7/2, 0, 7/2⟩]] ≤ 2 := by
      refine le_trans List.countP_le_length (by simp)
    have : (inPlane ⟨true, fun _ => 4, fun _ => 0, fun _ => 1⟩ a c [[⟨1/2, 0, 1/2⟩], [⟨7/2, 0, 7/2⟩]] : ℝ) ≤ 2 := by exact_mod_cast hc2
    norm_num [cells]
    linarith

/-- C164 fails for a plane with more than the average load: 99 particles in the last of four cells, three processes, and the new ranges of two of them
begin after the end of the grid. -/
theorem C164_beyond_end_refuted : AllInside plGrid .x [List.replicate 99 ⟨7/2, 1/2, 1/2⟩] ∧
    splitDir plGrid 1 1 [List.replicate 99 ⟨7/2, 1/2, 1/2⟩] (fun _ => 3) .x = .ok [(0, 3), (4, 4), (5, 5)] := by
  have hin : AllInside plGrid .x [List.replicate 99 ⟨7/2, 1/2, 1/2⟩] := by
    intro ps hps p hp
    rw [List.mem_singleton] at hps
    subst hps
    rw [List.eq_of_mem_replicate hp]
    norm_num [plGrid, Pos.get]
  refine ⟨hin, ?_⟩
  obtain ⟨l, e, hl, hv⟩ := C162_loads plGrid .x (by intro h; simp [plGrid] at h) (by norm_num [plGrid]) 1 1 _ hin
  have hl4 : l.length = 4 := hl
  have hval : ∀ c, (hc : c < l.length) → l[c] = if c = 3 then 100 else 1 := fun c hc => by
    rw [hv c hc]
    have : inPlane plGrid .x c [List.replicate 99 ⟨7/2, 1/2, 1/2⟩] = if c = 3 then 99 else 0 := by
      rw [inPlane, List.flatten_singleton, List.countP_replicate]
      have : InPlane plGrid .x c (7/2) ↔ c = 3 := by
        rw [← floor_inPlane (by norm_num [plGrid])]
        have : ⌊((7/2 : ℝ) - plGrid.gmin .x) / plGrid.d .x⌋ = 3 := by
          rw [Int.floor_eq_iff]; norm_num [plGrid]
        rw [this]
        omega
      simp only [Pos.get, this, decide_eq_true_eq]
    rw [this]
    by_cases h3 : c = 3 <;> simp [h3, cells, plGrid]
    norm_num
  have hlist : l = [1, 1, 1, 100] := by
    refine List.ext_getElem (by simpa using hl4) fun c h1 h2 => ?_
    rw [hval c h1]
    have : c < 4 := by omega
    interval_cases c <;> simp
  rw [splitDir, e, except_bind_ok, hlist]
  exact C66_beyond_end_refuted.1

end Picsar.Props
