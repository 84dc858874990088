import Verif.Lemmas.GatherAll

/-
C74, C91: field gathering.
-/
namespace Picsar.Props
open Picsar Picsar.Grid Picsar.Deposition Picsar.Gather Picsar.Spec

/-- Particle at cell coordinates `p` in a 3D tile of `N` cells with at least the guard cells needed by the orders. -/
def InTile (o : Opts) (N g : I3) (p : Pos) : Prop :=
  (0 ≤ p.x ∧ p.x < N.j ∧ guardsFor o.nx ≤ g.j) ∧ (0 ≤ p.y ∧ p.y < N.k ∧ guardsFor o.ny ≤ g.k) ∧
    (0 ≤ p.z ∧ p.z < N.l ∧ guardsFor o.nz ≤ g.l)

/-- A 3D simulation with orders 1, 2 or 3 in each direction. -/
def Orders3 (o : Opts) : Prop := o.d2 = false ∧ Order o.nx ∧ Order o.ny ∧ Order o.nz

theorem orders3 {o : Opts} (h : Orders3 o) : Orders o := ⟨h.2.1, Or.inr h.2.2.1, h.2.2.2⟩

theorem gather3_ok {o : Opts} (ho : Orders3 o) {σ : Mem} {N g : I3} (hσ : TileArrays σ N g) {p : Pos} (hp : InTile o N g p)
    (algo : ℤ) (a0 : ℝ) (out : Comp → ℝ) : gather algo o σ p a0 out = .ok (gathered o σ p out) :=
  gather_ok (fits (orders3 ho) hσ hp.1 (Or.inr hp.2.1) hp.2.2) algo (Or.inl ho.1) a0 out

/-- Memory with the value `c q` everywhere in the arrays of component `q`. -/
noncomputable def uniform (N g : I3) (c : Comp → ℝ) : Mem :=
  fun q => ⟨⟨-g.j, -g.k, -g.l⟩, ⟨N.j + g.j, N.k + g.k, N.l + g.l⟩, fun _ => c q⟩

/-! ### C74 -/

/-- **C74** Every gathering algorithm (scalar loops, arbitrary-order loops, unrolled default), orders 1, 2 and 3 in any combination,
Yee or nodal grid, lowered order or not, any position in the tile and any field content: no access outside the arrays, no use of an
undefined value, and each of the six gathered components is the sum over the whole array of the grid values weighted by the
product of the B-spline shape factors of the distances between the particle and the location of the values (the same
splines as in `C48_deposits_density`). -/
theorem C74_gather_splines (o : Opts) (ho : Orders3 o) (σ : Mem) (N g : I3) (hσ : TileArrays σ N g) (p : Pos) (hp : InTile o N g p)
    (algo : ℤ) (a0 : ℝ) : ∃ r, gather algo o σ p a0 (fun _ => 0) = .ok r ∧ ∀ q, IsField q →
      r q = ∑ l ∈ Finset.Icc (-g.l) (N.l + g.l), ∑ k ∈ Finset.Icc (-g.k) (N.k + g.k), ∑ j ∈ Finset.Icc (-g.j) (N.j + g.j),
        spline (orderAlong o.nx o.lower q 0) (p.x - samplePos o.nodal q 0 j) *
          spline (orderAlong o.ny o.lower q 1) (p.y - samplePos o.nodal q 1 k) *
          spline (orderAlong o.nz o.lower q 2) (p.z - samplePos o.nodal q 2 l) * (σ q).val ⟨j, k, l⟩ := by
  refine ⟨_, gather3_ok ho hσ hp algo a0 _, fun q hq => ?_⟩
  unfold gathered
  rw [if_pos (mem_comps.mpr hq), zero_add, gsum_spline (orders3 ho) ho.1 _ q hp.1 hp.2.1 hp.2.2]

/-- **C74** Each gathered component is an average, with non-negative weights of sum one, of grid values at most half the support
of the shape factor away from the particle in each direction. -/
theorem C74_gather_average (o : Opts) (ho : Orders3 o) (σ : Mem) (N g : I3) (hσ : TileArrays σ N g) (p : Pos) (hp : InTile o N g p)
    (algo : ℤ) (a0 : ℝ) : ∃ r, gather algo o σ p a0 (fun _ => 0) = .ok r ∧ ∀ q, IsField q →
      IsAverage (fun i => InBox (σ q).lo (σ q).hi i ∧ |samplePos o.nodal q 0 i.j - p.x| ≤ (o.nx + 1) / 2 ∧
        |samplePos o.nodal q 1 i.k - p.y| ≤ (o.ny + 1) / 2 ∧ |samplePos o.nodal q 2 i.l - p.z| ≤ (o.nz + 1) / 2) (σ q).val (r q) := by
  refine ⟨_, gather3_ok ho hσ hp algo a0 _, fun q hq => ?_⟩
  refine ⟨terms o q p, fun e he => ⟨⟨?_, ?_⟩, terms_nonneg (orders3 ho) e he⟩, terms_sum (orders3 ho) q p, ?_⟩
  · exact fits (orders3 ho) hσ hp.1 (Or.inr hp.2.1) hp.2.2 q hq e he
  · obtain ⟨a, b, c⟩ := terms_near (orders3 ho) e he
    exact ⟨a, b ho.1, c⟩
  · unfold gathered
    rw [if_pos (mem_comps.mpr hq), zero_add]
    rfl

/-- **C74** No new extrema: if the values of the component in the array are between `m` and `M`, so is the gathered field. -/
theorem C74_no_new_extrema (o : Opts) (ho : Orders3 o) (σ : Mem) (N g : I3) (hσ : TileArrays σ N g) (p : Pos) (hp : InTile o N g p)
    (algo : ℤ) (a0 : ℝ) (q : Comp) (hq : IsField q) (m M : ℝ) (hm : ∀ i, InBox (σ q).lo (σ q).hi i → m ≤ (σ q).val i ∧ (σ q).val i ≤ M) :
    ∃ r, gather algo o σ p a0 (fun _ => 0) = .ok r ∧ m ≤ r q ∧ r q ≤ M := by
  obtain ⟨r, h1, h2⟩ := C74_gather_average o ho σ N g hσ p hp algo a0
  exact ⟨r, h1, average_bounds (h2 q hq) (fun i hi => (hm i hi.1).1) fun i hi => (hm i hi.1).2⟩

/-- **C74** A uniform field is gathered exactly, by every particle of a tile: `c q` in the array of component `q`, any list of
positions inside the tile. -/
theorem C74_uniform_exact (o : Opts) (ho : Orders3 o) (σ : Mem) (N g : I3) (hσ : TileArrays σ N g) (c : Comp → ℝ)
    (hc : ∀ q, IsField q → ∀ i, InBox (σ q).lo (σ q).hi i → (σ q).val i = c q) (geo : Geo) (hg : 0 < geo.dx ∧ 0 < geo.dy ∧ 0 < geo.dz)
    (xs : List (ℝ × ℝ × ℝ)) (hx : ∀ r ∈ xs, geo.xmin ≤ r.1 ∧ r.1 < geo.xmin + N.j * geo.dx ∧ geo.ymin ≤ r.2.1 ∧
      r.2.1 < geo.ymin + N.k * geo.dy ∧ geo.zmin ≤ r.2.2 ∧ r.2.2 < geo.zmin + N.l * geo.dz)
    (hgd : guardsFor o.nx ≤ g.j ∧ guardsFor o.ny ≤ g.k ∧ guardsFor o.nz ≤ g.l) (algo : ℤ) (a0 : ℝ) :
    ∃ rs, gatherTile algo o geo σ a0 xs = .ok rs ∧ rs.length = xs.length ∧ ∀ r ∈ rs, ∀ q, IsField q → r q = c q := by
  unfold gatherTile
  have cell : ∀ (u v d : ℝ) (n : ℤ), 0 < d → v ≤ u → u < v + n * d → 0 ≤ (u - v) * (1 / d) ∧ (u - v) * (1 / d) < n := by
    intro u v d n hd h1 h2
    rw [mul_one_div]
    exact ⟨div_nonneg (by linarith) hd.le, by rw [div_lt_iff₀ hd]; linarith⟩
  have hp : ∀ p ∈ xs.map (fun r => cellPos geo r.1 r.2.1 r.2.2), InTile o N g p := by
    intro p hp
    obtain ⟨r, hr, rfl⟩ := List.mem_map.mp hp
    obtain ⟨a1, a2, b1, b2, c1, c2⟩ := hx r hr
    have hX := cell _ _ _ _ hg.1 a1 a2
    have hY := cell _ _ _ _ hg.2.1 b1 b2
    have hZ := cell _ _ _ _ hg.2.2 c1 c2
    exact ⟨⟨hX.1, hX.2, hgd.1⟩, ⟨hY.1, hY.2, hgd.2.1⟩, hZ.1, hZ.2, hgd.2.2⟩
  refine ⟨_, gatherAll_ok algo a0 _ fun p h => gather3_ok ho hσ (hp p h) algo a0 _, by simp, ?_⟩
  intro r hr q hq
  obtain ⟨p, hp', rfl⟩ := List.mem_map.mp hr
  obtain ⟨r', h1, h2⟩ := C74_no_new_extrema o ho σ N g hσ p (hp p hp') algo a0 q hq (c q) (c q)
    fun i hi => by rw [hc q hq i hi]; exact ⟨le_rfl, le_rfl⟩
  rw [gather3_ok ho hσ (hp p hp')] at h1
  cases h1
  exact le_antisymm h2.2 h2.1

/-- **C74** A field varying linearly is gathered exactly, except along a staggered direction treated by the nearest-point rule (order 1 with
`l_lower_order_in_v`). -/
theorem C74_affine_exact (o : Opts) (ho : Orders3 o) (σ : Mem) (N g : I3) (hσ : TileArrays σ N g) (p : Pos) (hp : InTile o N g p)
    (algo : ℤ) (a0 : ℝ) (q : Comp) (hq : IsField q) (c0 cx cy cz : ℝ)
    (hc : ∀ i, InBox (σ q).lo (σ q).hi i →
      (σ q).val i = c0 + cx * samplePos o.nodal q 0 i.j + cy * samplePos o.nodal q 1 i.k + cz * samplePos o.nodal q 2 i.l)
    (hx : cx ≠ 0 → orderAlong o.nx o.lower q 0 ≠ 0) (hy : cy ≠ 0 → orderAlong o.ny o.lower q 1 ≠ 0)
    (hz : cz ≠ 0 → orderAlong o.nz o.lower q 2 ≠ 0) :
    ∃ r, gather algo o σ p a0 (fun _ => 0) = .ok r ∧ r q = c0 + cx * p.x + cy * p.y + cz * p.z := by
  refine ⟨_, gather3_ok ho hσ hp algo a0 _, ?_⟩
  unfold gathered
  rw [if_pos (mem_comps.mpr hq), zero_add]
  rw [gsum_congr (b := fun i => c0 + cx * samplePos o.nodal q 0 i.j + cy * samplePos o.nodal q 1 i.k + cz * samplePos o.nodal q 2 i.l)
    fun e he => hc e.1 (fits (orders3 ho) hσ hp.1 (Or.inr hp.2.1) hp.2.2 q hq e he)]
  have aux : ∀ {n : ℕ} {st : Bool} {d : Fin 3}, yeeStag q d = st → orderAlong n o.lower q d ≠ 0 → ¬ (st = true ∧ o.lower = true ∧ n = 1) := by
    rintro n st d rfl h ⟨h1, h2, h3⟩
    unfold orderAlong at h
    rw [if_pos ⟨h2, h1⟩, h3] at h
    exact h rfl
  refine gsum_affine (orders3 ho) q p c0 cx cy cz (fun h => aux (d := 0) ?_ (hx h)) (fun h => ⟨ho.1, aux (d := 1) ?_ (hy h)⟩)
    fun h => aux (d := 2) ?_ (hz h)
  all_goals cases q <;> rfl

/-- **C74** The algorithms agree: with the orders equal to 1, 2 or 3 the unrolled default routine gives what the loop versions give. -/
theorem C74_algorithms_agree (o : Opts) (ho : Orders3 o) (σ : Mem) (N g : I3) (hσ : TileArrays σ N g) (p : Pos) (hp : InTile o N g p)
    (algo algo' : ℤ) (a0 a0' : ℝ) (out : Comp → ℝ) : gather algo o σ p a0 out = gather algo' o σ p a0' out := by
  rw [gather3_ok ho hσ hp, gather3_ok ho hσ hp]

/-- **C74** The blocked loop over the particles visits each particle exactly once and in order, whatever the block size. -/
theorem C74_blocks_visit_all (np lvect : ℕ) (hl : 0 < lvect) : blocked np lvect (np + 1) 1 = List.range' 1 np := by
  rw [blocked_eq np lvect hl _ _ (by omega), List.range'_eq_map_range, show np + 1 - 1 = np by omega]

/-! Non-vacuity: order 3, one cell, two guard cells, lowered order, a particle that is not at a special point, and values that vary. -/

example : ∃ (o : Opts) (σ : Mem) (N g : I3) (p : Pos), Orders3 o ∧ TileArrays σ N g ∧ InTile o N g p ∧ o.lower = true ∧
    (σ .ex).val ⟨0, 0, 0⟩ ≠ (σ .ex).val ⟨1, 0, 0⟩ :=
  ⟨⟨3, 3, 3, true, false, false⟩, fun _ => ⟨⟨-2, -2, -2⟩, ⟨3, 3, 3⟩, fun i => i.j⟩, ⟨1, 1, 1⟩, ⟨2, 2, 2⟩, ⟨1 / 3, 1 / 4, 1 / 5⟩,
    ⟨rfl, Or.inr (Or.inr rfl), Or.inr (Or.inr rfl), Or.inr (Or.inr rfl)⟩, fun q _ => ⟨rfl, rfl⟩,
    ⟨by norm_num [guardsFor], by norm_num [guardsFor], by norm_num [guardsFor]⟩, rfl, by norm_num⟩

example : ∃ (geo : Geo) (xs : List (ℝ × ℝ × ℝ)), (0 < geo.dx ∧ 0 < geo.dy ∧ 0 < geo.dz) ∧ xs.length = 2 ∧
    (∀ r ∈ xs, geo.xmin ≤ r.1 ∧ r.1 < geo.xmin + (2 : ℤ) * geo.dx ∧ geo.ymin ≤ r.2.1 ∧
      r.2.1 < geo.ymin + (2 : ℤ) * geo.dy ∧ geo.zmin ≤ r.2.2 ∧ r.2.2 < geo.zmin + (2 : ℤ) * geo.dz) :=
  ⟨⟨1, 1, 1, 1, 1, 1, 1, 1⟩, [(1, 2, 1), (5 / 2, 1, 2)], by norm_num, rfl, by
    intro r hr
    simp only [List.mem_cons, List.not_mem_nil, or_false] at hr
    rcases hr with rfl | rfl <;> norm_num⟩

/-! ### C91 -/

/-- Particle in a 2D (x, z) tile. -/
def InTile2 (o : Opts) (N g : I3) (p : Pos) : Prop :=
  (0 ≤ p.x ∧ p.x < N.j ∧ guardsFor o.nx ≤ g.j) ∧ (0 ≤ N.k ∧ 0 ≤ g.k) ∧ (0 ≤ p.z ∧ p.z < N.l ∧ guardsFor o.nz ≤ g.l)

/-- A 2D simulation with orders 1, 2 or 3. -/
def Orders2 (o : Opts) : Prop := o.d2 = true ∧ Order o.nx ∧ Order o.nz

theorem orders2 {o : Opts} (h : Orders2 o) : Orders o := ⟨h.2.1, Or.inl h.1, h.2.2⟩

theorem fits2 {o : Opts} (ho : Orders2 o) {σ : Mem} {N g : I3} (hσ : TileArrays σ N g) {p : Pos} (hp : InTile2 o N g p) : Fits o σ p :=
  fits (orders2 ho) hσ hp.1 (Or.inl ⟨ho.1, hp.2.1⟩) hp.2.2

theorem uniform_gsum {o : Opts} (ho : Orders o) {σ : Mem} {p : Pos} (hf : Fits o σ p) {q : Comp} (hq : IsField q) {c : ℝ}
    (hc : ∀ i, InBox (σ q).lo (σ q).hi i → (σ q).val i = c) : gsum o (σ q).val q p = c := by
  rw [gsum_congr (b := fun _ => c) fun e he => hc e.1 (hf q hq e he)]
  unfold gsum
  rw [List.sum_map_mul_right, terms_sum ho, one_mul]

/-- **C91** 2D gathering is an average of the surrounding values, with the lowered order (the default setting) whatever the algorithm,
and otherwise with the loop algorithms or orders that are not all equal. Missing: the unrolled default algorithm with
`l_lower_order_in_v` false, where it does not hold (`C91_full_order_refuted`). -/
theorem C91_gather2_average_partial (o : Opts) (ho : Orders2 o) (σ : Mem) (N g : I3) (hσ : TileArrays σ N g) (p : Pos) (hp : InTile2 o N g p)
    (algo : ℤ) (ha : o.lower = true ∨ algo = 1 ∨ algo = 2 ∨ ¬ (o.nx = o.ny ∧ o.ny = o.nz)) (a0 : ℝ) :
    ∃ r, gather algo o σ p a0 (fun _ => 0) = .ok r ∧ ∀ q, IsField q →
      IsAverage (fun i => InBox (σ q).lo (σ q).hi i ∧ |samplePos o.nodal q 0 i.j - p.x| ≤ (o.nx + 1) / 2 ∧
        |samplePos o.nodal q 2 i.l - p.z| ≤ (o.nz + 1) / 2) (σ q).val (r q) := by
  refine ⟨_, gather_ok (fits2 ho hσ hp) algo (Or.inr ha) a0 _, fun q hq => ?_⟩
  refine ⟨terms o q p, fun e he => ⟨⟨?_, ?_⟩, terms_nonneg (orders2 ho) e he⟩, terms_sum (orders2 ho) q p, ?_⟩
  · exact fits2 ho hσ hp q hq e he
  · obtain ⟨a, -, c⟩ := terms_near (orders2 ho) e he
    exact ⟨a, c⟩
  · unfold gathered
    rw [if_pos (mem_comps.mpr hq), zero_add]
    rfl

/-- **C91** Uniform fields are gathered exactly, in the same cases. -/
theorem C91_gather2_uniform_partial (o : Opts) (ho : Orders2 o) (σ : Mem) (N g : I3) (hσ : TileArrays σ N g) (c : Comp → ℝ)
    (hc : ∀ q, IsField q → ∀ i, InBox (σ q).lo (σ q).hi i → (σ q).val i = c q) (ps : List Pos) (hp : ∀ p ∈ ps, InTile2 o N g p)
    (algo : ℤ) (ha : o.lower = true ∨ algo = 1 ∨ algo = 2 ∨ ¬ (o.nx = o.ny ∧ o.ny = o.nz)) (a0 : ℝ) :
    ∃ rs, gatherAll algo o σ a0 ps = .ok rs ∧ rs.length = ps.length ∧ ∀ r ∈ rs, ∀ q, IsField q → r q = c q := by
  refine ⟨_, gatherAll_ok algo a0 _ fun p h => gather_ok (fits2 ho hσ (hp p h)) algo (Or.inr ha) a0 _, by simp, ?_⟩
  intro r hr q hq
  obtain ⟨p, hp', rfl⟩ := List.mem_map.mp hr
  unfold gathered
  rw [if_pos (mem_comps.mpr hq), zero_add, uniform_gsum (orders2 ho) (fits2 ho hσ (hp p hp')) hq (hc q hq)]

/-- **C91** The electric field is gathered exactly at orders 1 and 2 by the unrolled algorithm too. -/
theorem C91_gather2_electric_partial (o : Opts) (hd : o.d2 = true) (n : ℕ) (hn : n = 1 ∨ n = 2) (hs : o.nx = n ∧ o.ny = n ∧ o.nz = n)
    (σ : Mem) (N g : I3) (hσ : TileArrays σ N g) (p : Pos) (hp : InTile2 o N g p) (algo : ℤ) (a0 : ℝ) :
    ∃ r, gather algo o σ p a0 (fun _ => 0) = .ok r ∧ ∀ q, q = .ex ∨ q = .ey ∨ q = .ez →
      IsAverage (fun i => InBox (σ q).lo (σ q).hi i ∧ |samplePos o.nodal q 0 i.j - p.x| ≤ (o.nx + 1) / 2 ∧
        |samplePos o.nodal q 2 i.l - p.z| ≤ (o.nz + 1) / 2) (σ q).val (r q) := by
  have hO : Order n := by rcases hn with rfl | rfl <;> simp [Order]
  have ho : Orders2 o := ⟨hd, by rw [hs.1]; exact hO, by rw [hs.2.2]; exact hO⟩
  have conv : ∀ r : Comp → ℝ, (∀ q ∈ [Comp.ex, .ey, .ez], r q = gsum o (σ q).val q p) → ∀ q, q = .ex ∨ q = .ey ∨ q = .ez →
      IsAverage (fun i => InBox (σ q).lo (σ q).hi i ∧ |samplePos o.nodal q 0 i.j - p.x| ≤ (o.nx + 1) / 2 ∧
        |samplePos o.nodal q 2 i.l - p.z| ≤ (o.nz + 1) / 2) (σ q).val (r q) := by
    intro r hr q hq
    have hf : IsField q := by rcases hq with rfl | rfl | rfl <;> simp [IsField]
    refine ⟨terms o q p, fun e he => ⟨⟨fits2 ho hσ hp q hf e he, ?_⟩, terms_nonneg (orders2 ho) e he⟩, terms_sum (orders2 ho) q p, ?_⟩
    · obtain ⟨a, -, c⟩ := terms_near (orders2 ho) e he
      exact ⟨a, c⟩
    · rw [hr q (by simpa using hq)]
      rfl
  by_cases hc : o.lower = true ∨ algo = 1 ∨ algo = 2
  · refine ⟨_, gather_ok (fits2 ho hσ hp) algo (Or.inr (by tauto)) a0 _, conv _ fun q hq => ?_⟩
    unfold gathered
    rw [if_pos (mem_comps.mpr (by simp at hq; rcases hq with rfl | rfl | rfl <;> simp [IsField])), zero_add]
  · push Not at hc
    have hl : o.lower = false := by simpa using hc.1
    have hst : isStencil n o.lower o.d2 [.ex, .ey, .ez] = true := by
      rw [hl, hd]
      rcases hn with rfl | rfl
      · exact stencil_2d_e1
      · exact stencil_2d_e2
    obtain ⟨r, h1, h2, -⟩ := run_stencil ⟨hs.1, hs.2.1, hs.2.2⟩ hO (fits2 ho hσ hp) hst a0 (fun _ => 0)
    refine ⟨r, ?_, conv r fun q hq => by rw [h2 q hq, zero_add]⟩
    unfold gather
    rw [if_neg (by tauto), if_pos ⟨hs.1.trans hs.2.1.symm, hs.2.1.trans hs.2.2.symm, by rw [hs.1]; exact hO⟩, hs.1, h1]

/-- What the unrolled routine leaves in a component, from its terms. -/
theorem run_terms {o : Opts} {n : ℕ} (h : Same o n) (hn : Order n) {σ : Mem} {p : Pos} (hf : Fits o σ p) {q : Comp} {l : List Mono}
    (hs : (symProg n o.lower o.d2).map (·.get q) = some l) (algo : ℤ) (ha : ¬ (algo = 1 ∨ algo = 2)) (a : ℝ) :
    ∃ r, gather algo o σ p a (fun _ => 0) = .ok r ∧ r q = pval σ (genv o p) l := by
  obtain ⟨t, ht, rfl⟩ := Option.map_eq_some_iff.mp hs
  unfold gather
  rw [if_neg ha, if_pos ⟨h.x.trans h.y.symm, h.y.trans h.z.symm, by rw [h.x]; exact hn⟩, h.x]
  refine ⟨_, run_sym (ok := fun m => okField m && okMono n o.lower o.d2 m) ?_ (fun _ => 0) _ none a {} t _ (by simp) ?_ ht, ?_⟩
  · intro m hm
    rw [Bool.and_eq_true] at hm
    exact mok_of_ok h hn hf m (isField_iff.mp hm.1) hm.2
  · intro q
    cases q <;> simp [Acc.get, pval]
  · exact zero_add _

/-- **C91** does not hold for the default algorithm with `l_lower_order_in_v` false: at each of the orders 1, 2 and 3 there are a particle
of the tile and a component whose value is 1 everywhere in the array but is not gathered as 1. -/
theorem C91_full_order_refuted (n : ℕ) (hn : Order n) (a0 : ℝ) : ∃ (p : Pos) (q : Comp) (r : Comp → ℝ),
    InTile2 ⟨n, n, n, false, false, true⟩ ⟨1, 0, 1⟩ ⟨2, 0, 2⟩ p ∧ IsField q ∧
    gather 0 ⟨n, n, n, false, false, true⟩ (uniform ⟨1, 0, 1⟩ ⟨2, 0, 2⟩ fun _ => 1) p a0 (fun _ => 0) = .ok r ∧ r q ≠ 1 := by
  have hσ : TileArrays (uniform ⟨1, 0, 1⟩ ⟨2, 0, 2⟩ fun _ => 1) ⟨1, 0, 1⟩ ⟨2, 0, 2⟩ := fun q _ => ⟨rfl, rfl⟩
  rcases hn with rfl | rfl | rfl
  · have hp : InTile2 ⟨1, 1, 1, false, false, true⟩ ⟨1, 0, 1⟩ ⟨2, 0, 2⟩ ⟨3 / 4, 0, 3 / 4⟩ := by norm_num [InTile2, guardsFor]
    obtain ⟨r, h1, h2⟩ := run_terms (o := ⟨1, 1, 1, false, false, true⟩) (n := 1) ⟨rfl, rfl, rfl⟩ (Or.inl rfl)
      (fits2 ⟨rfl, Or.inl rfl, Or.inl rfl⟩ hσ hp) (q := .by') (l := [⟨[⟨.x, true, 0⟩, ⟨.z, true, 0⟩], .by', (true, 0), (false, 0), (true, 0)⟩])
      (by decide +kernel) 0 (by norm_num) a0
    refine ⟨_, .by', r, hp, by simp [IsField], h1, ?_⟩
    have e : ⌊(3 / 4 - 1 / 2 : ℝ)⌋ = 0 := by rw [Int.floor_eq_iff]; norm_num
    rw [h2]
    norm_num [pval, mval, shv, genv, axisWts, wts0, node0, shift, wts, Opts.cx, Opts.cz, uniform] at e ⊢
  · have hp : InTile2 ⟨2, 2, 2, false, false, true⟩ ⟨1, 0, 1⟩ ⟨2, 0, 2⟩ ⟨1 / 2, 0, 1 / 2⟩ := by norm_num [InTile2, guardsFor]
    obtain ⟨r, h1, h2⟩ := run_terms (o := ⟨2, 2, 2, false, false, true⟩) (n := 2) ⟨rfl, rfl, rfl⟩ (Or.inr (Or.inl rfl))
      (fits2 ⟨rfl, Or.inr (Or.inl rfl), Or.inr (Or.inl rfl)⟩ hσ hp) (q := .by') (l := [
        ⟨[⟨.x, true, 0⟩, ⟨.z, true, 0⟩], .by', (true, 0), (false, 0), (true, 0)⟩,
        ⟨[⟨.x, true, 1⟩, ⟨.z, true, 0⟩], .by', (true, 1), (false, 0), (true, 0)⟩,
        ⟨[⟨.x, true, 0⟩, ⟨.z, true, 1⟩], .by', (true, 0), (false, 0), (true, 1)⟩,
        ⟨[⟨.x, true, 1⟩, ⟨.z, true, 1⟩], .by', (true, 1), (false, 0), (true, 1)⟩])
      (by decide +kernel) 0 (by norm_num) a0
    refine ⟨_, .by', r, hp, by simp [IsField], h1, ?_⟩
    have e : ⌊(1 / 2 + 1 / 2 - 1 / 2 : ℝ)⌋ = 0 := by rw [Int.floor_eq_iff]; norm_num
    have w : axisWts ⟨2, false, false⟩ true (1 / 2) = [(-1, 1 / 8), (0, 3 / 4), (1, 1 / 8)] := by
      simp only [axisWts, wts0, node0, shift, wts, if_true, Bool.false_eq_true, if_false, e]
      norm_num
    rw [h2]
    simp only [pval, List.map_cons, List.map_nil, mval, shv, genv, Opts.cx, Opts.cz, w]
    norm_num [uniform]
  · have hp : InTile2 ⟨3, 3, 3, false, false, true⟩ ⟨1, 0, 1⟩ ⟨2, 0, 2⟩ ⟨1 / 2, 0, 1 / 2⟩ := by norm_num [InTile2, guardsFor]
    obtain ⟨r, h1, h2⟩ := run_terms (o := ⟨3, 3, 3, false, false, true⟩) (n := 3) ⟨rfl, rfl, rfl⟩ (Or.inr (Or.inr rfl))
      (fits2 ⟨rfl, Or.inr (Or.inr rfl), Or.inr (Or.inr rfl)⟩ hσ hp) (q := .ez) (l := [])
      (by decide +kernel) 0 (by norm_num) a0
    refine ⟨_, .ez, r, hp, by simp [IsField], h1, ?_⟩
    rw [h2]
    simp [pval]

/-! Non-vacuity of the partial theorems. -/
example : ∃ (o : Opts) (σ : Mem) (N g : I3) (p : Pos), Orders2 o ∧ TileArrays σ N g ∧ InTile2 o N g p ∧ o.lower = true ∧
    (o.nx = o.ny ∧ o.ny = o.nz) ∧ (σ .by').val ⟨0, 0, 0⟩ ≠ (σ .by').val ⟨1, 0, 0⟩ :=
  ⟨⟨2, 2, 2, true, false, true⟩, fun _ => ⟨⟨-1, 0, -1⟩, ⟨4, 0, 3⟩, fun i => i.j⟩, ⟨3, 0, 2⟩, ⟨1, 0, 1⟩, ⟨7 / 3, 0, 1 / 5⟩,
    ⟨rfl, Or.inr (Or.inl rfl), Or.inr (Or.inl rfl)⟩, fun q _ => ⟨rfl, rfl⟩,
    ⟨by norm_num [guardsFor], by norm_num, by norm_num [guardsFor]⟩, rfl, ⟨rfl, rfl⟩, by norm_num⟩

end Picsar.Props
