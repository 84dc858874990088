import Verif.Lemmas.ChargeVec
import Verif.Spec.DirectJ

namespace Picsar.DirectJ
open Picsar Picsar.Grid Picsar.Deposition Picsar.ChargeVec Picsar.Spec

/-! ### Index arithmetic -/

/-- Cell of `jxcells` number `(ix, iy, iz)`. -/
def cellAt (ix iy iz : ℤ) : I3 := ⟨org + ix - 1, org + iy - 1, org + iz - 1⟩

theorem igrid_eq (F : Frame) (L : Lay) (ix iy iz : ℤ) :
    ix + (iy - 1) * F.ncx + (iz - 1) * F.ncxy + (iy - 1) * F.ngx L + (iz - 1) * F.ngxy L + origin L = position L (cellAt ix iy iz) := by
  unfold Frame.ngx Frame.ngxy origin position cellAt Frame.ncxy Lay.nnxy Lay.ngridy Lay.ngridx
  ring

theorem ic_eq (F : Frame) (ix iy iz : ℤ) :
    ix + (iy - 1) * F.ncx + (iz - 1) * F.ncxy = F.icell (cellAt ix iy iz).j (cellAt ix iy iz).k (cellAt ix iy iz).l := by
  unfold Frame.icell cellAt
  ring

/-- The cells of `jxcells`. -/
def InFrame (F : Frame) (i : I3) : Prop :=
  org ≤ i.j ∧ i.j < org + F.ncx ∧ org ≤ i.k ∧ i.k < org + F.ncy ∧ org ≤ i.l ∧ i.l < org + F.ncz

theorem icell_bounds {F : Frame} {i : I3} (h : InFrame F i) : 1 ≤ F.icell i.j i.k i.l ∧ F.icell i.j i.k i.l ≤ F.ncells := by
  obtain ⟨h1, h2, h3, h4, h5, h6⟩ := h
  have r1 := radix_lt (a := i.k - org) (b := i.l - org) (X := F.ncy) (Y := F.ncz) (by omega) (by omega) (by omega)
  have r2 := radix_lt (a := i.j - org) (X := F.ncx) (by omega) r1 (by omega)
  have e : F.icell i.j i.k i.l = 1 + ((i.j - org) + F.ncx * ((i.k - org) + F.ncy * (i.l - org))) := by
    unfold Frame.icell Frame.ncxy; ring
  have e2 : F.ncells = F.ncx * (F.ncy * F.ncz) := by unfold Frame.ncells; ring
  rw [e, e2]
  constructor
  · have : 0 ≤ F.ncy * (i.l - org) := mul_nonneg (by omega) (by omega)
    have : 0 ≤ F.ncx * ((i.k - org) + F.ncy * (i.l - org)) := mul_nonneg (by omega) (by omega)
    omega
  · omega

theorem icell_inj {F : Frame} {i i' : I3} (h : InFrame F i) (h' : InFrame F i')
    (e : F.icell i.j i.k i.l = F.icell i'.j i'.k i'.l) : i = i' := by
  obtain ⟨h1, h2, h3, h4, h5, h6⟩ := h
  obtain ⟨g1, g2, g3, g4, g5, g6⟩ := h'
  unfold Frame.icell Frame.ncxy at e
  obtain ⟨e1, e2⟩ := radix_inj (X := F.ncx) (a := i.j - org) (a' := i'.j - org) (b := (i.k - org) + F.ncy * (i.l - org))
    (b' := (i'.k - org) + F.ncy * (i'.l - org)) (by omega) (by omega) (by omega) (by omega) (by linarith)
  obtain ⟨e3, e4⟩ := radix_inj (X := F.ncy) (by omega) (by omega) (by omega) (by omega) e2
  cases i; cases i'
  simp only [I3.mk.injEq]
  simp only at e1 e3 e4
  omega


/-! ### The reduction -/

/-- Everything the reduction reaches is in the array. -/
def Reaches (n : ℕ) (F : Frame) (L : Lay) : Prop :=
  ∀ i, InFrame F i → ∀ nv ∈ [1, 2, 3, 4, 5, 6, 7, 8], InBox (tileLo L) (tileHi L) (shift i (offset n nv))

theorem reaches {n : ℕ} (hn : n = 1 ∨ n = 2 ∨ n = 3) {L : Lay} (hg : GuardedJ n L) : Reaches n (frame n L) L := by
  intro i hi nv hv
  obtain ⟨h1, h2, h3, h4, h5, h6⟩ := hi
  obtain ⟨g1, g2, g3, g4, g5, g6⟩ := hg
  simp only [List.mem_cons, List.not_mem_nil, or_false] at hv
  rcases hn with rfl | rfl | rfl <;> rcases hv with rfl | rfl | rfl | rfl | rfl | rfl | rfl | rfl <;>
    simp only [org, frame, InBox, tileLo, tileHi, shift, offset, if_true, OfNat.ofNat_ne_one, OfNat.one_ne_ofNat,
      Nat.reduceEqDiff, if_false] at * <;>
    omega

/-- What the last loop adds to position `i` of the array. -/
noncomputable def gathd (n : ℕ) (F : Frame) (L : Lay) (c : ℕ → ℤ → ℝ) (i : ℤ) : ℝ :=
  ((irange 1 F.ncz).map fun iz => ((irange 1 F.ncy).map fun iy => (([1, 2, 3, 4, 5, 6, 7, 8] : List ℕ).map fun nv =>
    ((irange 1 F.ncx).map fun ix => if position L (shift (cellAt ix iy iz) (offset n nv)) = i then
      c nv (F.icell (cellAt ix iy iz).j (cellAt ix iy iz).k (cellAt ix iy iz).l) else 0).sum).sum).sum).sum

theorem cellAt_box {F : Frame} {ix iy iz : ℤ} (hx : ix ∈ irange 1 F.ncx) (hy : iy ∈ irange 1 F.ncy)
    (hz : iz ∈ irange 1 F.ncz) : InFrame F (cellAt ix iy iz) := by
  rw [mem_irange] at hx hy hz
  unfold InFrame cellAt
  dsimp only
  omega

theorem adds_redLanes {n : ℕ} (hn : n = 1 ∨ n = 2 ∨ n = 3) {F : Frame} {L : Lay} (hg : Reaches n F L) {c : Cells} {iy iz : ℤ}
    (hy : iy ∈ irange 1 F.ncy) (hz : iz ∈ irange 1 F.ncz) {xs : List ℤ} (hx : ∀ x ∈ xs, x ∈ irange 1 F.ncx) (hd : xs.Nodup) :
    Adds L.size (fun r => redLanes n F L c iy iz r xs) (fun i => (([1, 2, 3, 4, 5, 6, 7, 8] : List ℕ).map fun nv =>
      (xs.map fun ix => if position L (shift (cellAt ix iy iz) (offset n nv)) = i then
        c.val nv (F.icell (cellAt ix iy iz).j (cellAt ix iy iz).k (cellAt ix iy iz).l) else 0).sum).sum) := by
  have h := adds_fold (B := L.size) (f := fun (r : Flat) (m : ℤ × ℕ) => r.lanes (xs.map fun ix =>
    (ix + (iy - 1) * F.ncx + (iz - 1) * F.ncxy + (iy - 1) * F.ngx L + (iz - 1) * F.ngxy L + origin L + m.1,
      c.val (m.2 + 1) (ix + (iy - 1) * F.ncx + (iz - 1) * F.ncxy)))) (moff n L).zipIdx
    (F := fun m k => ((xs.map fun ix =>
    (ix + (iy - 1) * F.ncx + (iz - 1) * F.ncxy + (iy - 1) * F.ngx L + (iz - 1) * F.ngxy L + origin L + m.1,
      c.val (m.2 + 1) (ix + (iy - 1) * F.ncx + (iz - 1) * F.ncxy))).map fun t => if t.1 = k then t.2 else 0).sum) (by
      intro m hm
      apply adds_lanes
      · intro t ht
        obtain ⟨ix, hix, rfl⟩ := List.mem_map.mp ht
        rw [igrid_eq]
        obtain ⟨h1, h2⟩ := zip_mem hn L (cellAt ix iy iz) hm
        rw [h2]
        exact position_bounds (hg _ (cellAt_box (hx ix hix) hy hz) _ h1)
      · rw [List.map_map]
        refine hd.map ?_
        intro a b e
        simp only [Function.comp_apply] at e
        linarith)
  intro r hr
  refine (h r hr).trans ?_
  congr 2
  funext i
  congr 1
  have e : ∀ m : ℤ × ℕ, ((xs.map fun ix =>
    (ix + (iy - 1) * F.ncx + (iz - 1) * F.ncxy + (iy - 1) * F.ngx L + (iz - 1) * F.ngxy L + origin L + m.1,
      c.val (m.2 + 1) (ix + (iy - 1) * F.ncx + (iz - 1) * F.ncxy))).map fun t => if t.1 = i then t.2 else 0).sum =
    (xs.map fun ix => if position L (cellAt ix iy iz) + m.1 = i then
        c.val (m.2 + 1) (F.icell (cellAt ix iy iz).j (cellAt ix iy iz).k (cellAt ix iy iz).l) else 0).sum := by
    intro m
    rw [List.map_map]
    congr 1
    apply List.map_congr_left
    intro ix _
    simp only [Function.comp_apply]
    rw [igrid_eq, ic_eq]
  simp only [e]
  rw [sum_comm_list, sum_comm_list [1, 2, 3, 4, 5, 6, 7, 8]]
  congr 1
  apply List.map_congr_left
  intro ix _
  have := congrArg (fun l => (l.map fun t : ℤ × ℕ => if t.1 = i then
        c.val t.2 (F.icell (cellAt ix iy iz).j (cellAt ix iy iz).k (cellAt ix iy iz).l) else 0).sum) (moff_zip hn L (cellAt ix iy iz))
  simpa only [List.map_map, Function.comp_def] using this

theorem adds_reduction {n : ℕ} (hn : n = 1 ∨ n = 2 ∨ n = 3) {F : Frame} {L : Lay} (hg : Reaches n F L) {V : ℕ} (hV : 1 ≤ V) (c : Cells) :
    Adds L.size (fun r => reduction n F L V c r) (gathd n F L c.val) := by
  unfold reduction gathd
  apply adds_fold (F := fun iz i => ((irange 1 F.ncy).map fun iy => (([1, 2, 3, 4, 5, 6, 7, 8] : List ℕ).map fun nv =>
    ((irange 1 F.ncx).map fun ix => if position L (shift (cellAt ix iy iz) (offset n nv)) = i then
      c.val nv (F.icell (cellAt ix iy iz).j (cellAt ix iy iz).k (cellAt ix iy iz).l) else 0).sum).sum).sum)
  intro iz hz
  apply adds_fold (F := fun iy i => (([1, 2, 3, 4, 5, 6, 7, 8] : List ℕ).map fun nv =>
    ((irange 1 F.ncx).map fun ix => if position L (shift (cellAt ix iy iz) (offset n nv)) = i then
      c.val nv (F.icell (cellAt ix iy iz).j (cellAt ix iy iz).k (cellAt ix iy iz).l) else 0).sum).sum)
  intro iy hy
  have h := adds_fold (f := fun (r : Flat) (b : ℕ) => redLanes n F L c iy iz r (block V (irange 1 F.ncx) b))
    (List.range (nblocks V (irange 1 F.ncx).length)) (fun b _ => adds_redLanes hn hg (c := c) hy hz
      (xs := block V (irange 1 F.ncx) b) (fun x hx => mem_block hx) (block_nodup (nodup_irange _ _)))
  intro r hr
  refine (h r hr).trans ?_
  congr 2
  funext i
  congr 1
  dsimp only
  rw [sum_comm_list]
  simp only [sum_blocks hV]

/-! ### What one statement on a cell becomes -/

theorem gathd_zero (n : ℕ) (F : Frame) (L : Lay) (i : ℤ) : gathd n F L (fun _ _ => 0) i = 0 := by
  unfold gathd
  simp

theorem gathd_add (n : ℕ) (F : Frame) (L : Lay) (c d : ℕ → ℤ → ℝ) (i : ℤ) :
    gathd n F L (fun m k => c m k + d m k) i = gathd n F L c i + gathd n F L d i := by
  unfold gathd
  rw [← List.sum_map_add]
  congr 1
  apply List.map_congr_left
  intro iz _
  rw [← List.sum_map_add]
  congr 1
  apply List.map_congr_left
  intro iy _
  rw [← List.sum_map_add]
  congr 1
  apply List.map_congr_left
  intro nv _
  rw [← List.sum_map_add]
  congr 1
  apply List.map_congr_left
  intro ix _
  split_ifs <;> simp

theorem gathd_one {n : ℕ} {F : Frame} {L : Lay} {p : I3} (hp : InFrame F p) {nv : ℕ} (hv : nv ∈ [1, 2, 3, 4, 5, 6, 7, 8]) (v : ℝ) (i : ℤ) :
    gathd n F L (fun m k => if m = nv ∧ k = F.icell p.j p.k p.l then v else 0) i =
      if position L (shift p (offset n nv)) = i then v else 0 := by
  have key : ∀ ix iy iz, ix ∈ irange 1 F.ncx → iy ∈ irange 1 F.ncy → iz ∈ irange 1 F.ncz →
      F.icell (cellAt ix iy iz).j (cellAt ix iy iz).k (cellAt ix iy iz).l = F.icell p.j p.k p.l → cellAt ix iy iz = p :=
    fun ix iy iz hx hy hz e => icell_inj (cellAt_box hx hy hz) hp e
  have hp' := hp
  obtain ⟨h1, h2, h3, h4, h5, h6⟩ := hp'
  have hc : cellAt (p.j - org + 1) (p.k - org + 1) (p.l - org + 1) = p := by
    unfold cellAt; cases p; simp only [I3.mk.injEq]; refine ⟨?_, ?_, ?_⟩ <;> ring
  have jx : p.j - org + 1 ∈ irange 1 F.ncx := by rw [mem_irange]; omega
  have jy : p.k - org + 1 ∈ irange 1 F.ncy := by rw [mem_irange]; omega
  have jz : p.l - org + 1 ∈ irange 1 F.ncz := by rw [mem_irange]; omega
  unfold gathd
  rw [sum_irange_one (mem_irange.mp jz), sum_irange_one (mem_irange.mp jy)]
  · have e : ∀ nv' : ℕ, ((irange 1 F.ncx).map fun ix => if position L (shift (cellAt ix (p.k - org + 1) (p.l - org + 1)) (offset n nv')) = i
        then (if nv' = nv ∧ F.icell (cellAt ix (p.k - org + 1) (p.l - org + 1)).j (cellAt ix (p.k - org + 1) (p.l - org + 1)).k
          (cellAt ix (p.k - org + 1) (p.l - org + 1)).l = F.icell p.j p.k p.l then v else 0) else 0).sum =
        if nv' = nv then (if position L (shift p (offset n nv)) = i then v else 0) else 0 := by
      intro nv'
      rw [sum_irange_one (mem_irange.mp jx)]
      · rw [hc]
        by_cases h : nv' = nv
        · subst h; simp
        · simp [h]
      · intro x x1 x2 hne
        by_cases hq : nv' = nv ∧ F.icell (cellAt x (p.k - org + 1) (p.l - org + 1)).j (cellAt x (p.k - org + 1) (p.l - org + 1)).k
          (cellAt x (p.k - org + 1) (p.l - org + 1)).l = F.icell p.j p.k p.l
        · exfalso
          have := congrArg I3.j (key x _ _ (mem_irange.mpr ⟨x1, x2⟩) jy jz hq.2)
          simp only [cellAt] at this
          apply hne
          linarith
        · rw [if_neg hq]; simp
    simp only [e]
    simp only [List.mem_cons, List.not_mem_nil, or_false] at hv
    rcases hv with rfl | rfl | rfl | rfl | rfl | rfl | rfl | rfl <;> simp
  · intro y y1 y2 hne
    apply List.sum_eq_zero
    intro t ht
    obtain ⟨nv', _, rfl⟩ := List.mem_map.mp ht
    apply List.sum_eq_zero
    intro t ht
    obtain ⟨ix, hix, rfl⟩ := List.mem_map.mp ht
    by_cases hq : nv' = nv ∧ F.icell (cellAt ix y (p.l - org + 1)).j (cellAt ix y (p.l - org + 1)).k
          (cellAt ix y (p.l - org + 1)).l = F.icell p.j p.k p.l
    · exfalso
      have := congrArg I3.k (key ix _ _ hix (mem_irange.mpr ⟨y1, y2⟩) jz hq.2)
      simp only [cellAt] at this
      apply hne
      linarith
    · beta_reduce; rw [if_neg hq]; simp
  · intro z z1 z2 hne
    apply List.sum_eq_zero
    intro t ht
    obtain ⟨iy, hiy, rfl⟩ := List.mem_map.mp ht
    apply List.sum_eq_zero
    intro t ht
    obtain ⟨nv', _, rfl⟩ := List.mem_map.mp ht
    apply List.sum_eq_zero
    intro t ht
    obtain ⟨ix, hix, rfl⟩ := List.mem_map.mp ht
    by_cases hq : nv' = nv ∧ F.icell (cellAt ix iy z).j (cellAt ix iy z).k (cellAt ix iy z).l = F.icell p.j p.k p.l
    · exfalso
      have := congrArg I3.l (key ix _ _ hix hiy (mem_irange.mpr ⟨z1, z2⟩) hq.2)
      simp only [cellAt] at this
      apply hne
      linarith
    · beta_reduce; rw [if_neg hq]; simp


/-! ### Positions -/

/-- The coordinates of a component are less than a cell below the tile and less than half a cell above. -/
def InRange (L : Lay) (X : ℝ × ℝ × ℝ) : Prop :=
  -1 < X.1 ∧ X.1 < L.nx + 1 / 2 ∧ -1 < X.2.1 ∧ X.2.1 < L.ny + 1 / 2 ∧ -1 < X.2.2 ∧ X.2.2 < L.nz + 1 / 2

theorem node_range {n : ℕ} {X : ℝ} {m : ℤ} (h0 : -1 < X) (h1 : X < m + 1 / 2) : -1 ≤ node n X ∧ node n X ≤ m := by
  obtain ⟨a, b⟩ : X - 1 ≤ node n X ∧ (node n X : ℝ) ≤ X + 1 / 2 := ⟨(node_bounds (n := n) X).1, (node_bounds (n := n) X).2.1⟩
  have d : (node n X : ℝ) < m + 1 := by linarith
  have d' : node n X < m + 1 := by exact_mod_cast d
  refine ⟨?_, by omega⟩
  have c : (-2 : ℝ) < node n X := by linarith
  have c' : (-2 : ℤ) < node n X := by exact_mod_cast c
  omega

theorem mid_middle (g : Geo) (p : Part) : ((mid g p).x, (mid g p).y, (mid g p).z) = middle g p := by
  unfold mid middle cells
  simp only [Prod.mk.injEq]
  refine ⟨?_, ?_, ?_⟩ <;> ring

theorem middle_range {L : Lay} {g : Geo} (hg : Geo.Ok g) {p : Part} (ht : InTile L g p) (hs : Slow g p) :
    (-(1 / 2) < (middle g p).1 ∧ (middle g p).1 < L.nx + 1 / 2) ∧ (-(1 / 2) < (middle g p).2.1 ∧ (middle g p).2.1 < L.ny + 1 / 2) ∧
      (-(1 / 2) < (middle g p).2.2 ∧ (middle g p).2.2 < L.nz + 1 / 2) := by
  obtain ⟨h1, h2, h3, h4, h5, h6⟩ := ht
  obtain ⟨s1, s2, s3⟩ := hs
  obtain ⟨g1, g2, g3⟩ := hg
  have key : ∀ x m d v N : ℝ, 0 < d → |g.dt * v| < d → 0 ≤ cells x m d → cells x m d ≤ N →
      -(1 / 2) < cells (x - g.dt / 2 * v) m d ∧ cells (x - g.dt / 2 * v) m d < N + 1 / 2 := by
    intro x m d v N hd hv a b
    have e : cells (x - g.dt / 2 * v) m d = cells x m d - g.dt * v / d / 2 := by unfold cells; ring
    obtain ⟨v1, v2⟩ := abs_lt.mp hv
    have w1 : -1 < g.dt * v / d := by rw [lt_div_iff₀ hd]; linarith
    have w2 : g.dt * v / d < 1 := by rw [div_lt_iff₀ hd]; linarith
    rw [e]
    constructor <;> linarith
  exact ⟨key _ _ _ _ _ g1 s1 h1 h2, key _ _ _ _ _ g2 s2 h3 h4, key _ _ _ _ _ g3 s3 h5 h6⟩

theorem coords_range {L : Lay} {g : Geo} (hg : Geo.Ok g) {p : Part} (ht : InTile L g p) (hs : Slow g p) (nodal : Bool) (c : Comp) :
    InRange L (coords nodal c (mid g p)) := by
  have h := middle_range hg ht hs
  rw [← mid_middle] at h
  obtain ⟨⟨a, b⟩, ⟨c1, d⟩, ⟨e, f⟩⟩ := h
  dsimp only at a b c1 d e f
  have s : 0 ≤ stagger nodal ∧ stagger nodal ≤ 1 / 2 := by unfold stagger; split_ifs <;> norm_num
  unfold InRange coords
  cases c <;> (refine ⟨?_, ?_, ?_, ?_, ?_, ?_⟩ <;> dsimp only <;> linarith)

/-! ### Scalar statements -/

theorem rho_box {n : ℕ} (hn : n = 1 ∨ n = 2 ∨ n = 3) {L : Lay} (hg : Guarded n L) {wq : ℝ} {X : ℝ × ℝ × ℝ} (hX : InRange L X) {s : I3 × ℝ}
    (hs : s ∈ rhoStmts n wq X.1 X.2.1 X.2.2) : InBox (tileLo L) (tileHi L) s.1 := by
  obtain ⟨x1, x2, y1, y2, z1, z2⟩ := hX
  obtain ⟨g1, g2, g3, g4, g5, g6⟩ := hg
  have hx := node_range (n := n) x1 x2
  have hy := node_range (n := n) y1 y2
  have hz := node_range (n := n) z1 z2
  simp only [rhoStmts, List.mem_flatMap, List.mem_map] at hs
  obtain ⟨c, hc, b, hb, a, ha, rfl⟩ := hs
  obtain ⟨a1, a2⟩ := (wts_fst hn (X.1 - node n X.1)).2 a ha
  obtain ⟨b1, b2⟩ := (wts_fst hn (X.2.1 - node n X.2.1)).2 b hb
  obtain ⟨c1, c2⟩ := (wts_fst hn (X.2.2 - node n X.2.2)).2 c hc
  simp only [InBox, tileLo, tileHi]
  rcases hn with rfl | rfl | rfl <;> norm_num at * <;> omega

theorem rho_at {n : ℕ} (hn : n = 1 ∨ n = 2 ∨ n = 3) (wq x y z : ℝ) (i : I3) :
    ((rhoStmts n wq x y z).map fun s => if i = s.1 then s.2 else 0).sum = wq * bspline n (x - i.j) * bspline n (y - i.k) * bspline n (z - i.l) := by
  have h := rhoStmts_sum n wq x y z i.j i.k i.l
  have e : ∀ (X : ℝ) (a : ℤ), shapeFn (wts n (X - node n X)) (node n X) a = bspline n (X - a) := by
    intro X a
    have := shapeFn_bspline hn X 0 a
    simpa using this
  rw [e, e, e] at h
  rw [show (⟨i.j, i.k, i.l⟩ : I3) = i from rfl] at h
  rw [h]
  ring

theorem dirStmts_at {n : ℕ} (hn : n = 1 ∨ n = 2 ∨ n = 3) (nodal : Bool) (g : Geo) (p : Part) {c : Comp} (hc : c = .jx ∨ c = .jy ∨ c = .jz) (i : I3) :
    ((dirStmts n nodal g p c).map fun s => if i = s.1 then s.2 else 0).sum = rhoV n nodal g p c i := by
  unfold dirStmts
  dsimp only
  rw [rho_at hn]
  have h := mid_middle g p
  unfold rhoV
  rw [← h]
  dsimp only [placeOf]
  have e : ∀ a b h : ℝ, a - h - b = a - (b + h) := by intro a b h; ring
  have vx : (mid g p).vx = p.ux * p.gaminv := rfl
  have vy : (mid g p).vy = p.uy * p.gaminv := rfl
  have vz : (mid g p).vz = p.uz * p.gaminv := rfl
  rcases hc with rfl | rfl | rfl <;>
    simp only [coords, vel, velocity, stagger, vx, vy, vz, if_true, reduceCtorEq, if_false, add_zero, e] <;> ring

/-! ### The scalar routine -/

theorem bumpMems_ok {σ : Mem} {c : Comp} : ∀ (ss : List (I3 × ℝ)) (f : Comp → I3 → ℝ), (∀ s ∈ ss, InBox (σ c).lo (σ c).hi s.1) →
    ss.foldlM (fun (σ : Mem) (s : I3 × ℝ) => bumpMem σ c s.1 s.2) (addF σ f) =
      (.ok (addF σ fun c' p => f c' p + if c' = c then (ss.map fun s => if p = s.1 then s.2 else 0).sum else 0) : Res Mem)
  | [], f, _ => by simp
  | s :: ss, f, h => by
    rw [List.foldlM_cons, bumpMem_ok (h s (by simp))]
    simp only [except_bind_ok]
    rw [bumpMems_ok ss _ (fun t ht => h t (by simp [ht]))]
    congr 2
    funext c' p
    simp only [List.map_cons, List.sum_cons, pt]
    by_cases hc : c' = c
    · simp only [hc, true_and, if_true]; ring
    · simp [hc]

/-- What the particles add to each array. -/
noncomputable def added (n : ℕ) (nodal : Bool) (g : Geo) (ps : List Part) (c : Comp) (i : I3) : ℝ :=
  if c = .jx ∨ c = .jy ∨ c = .jz then (ps.map fun p => rhoV n nodal g p c i).sum else 0

theorem direct_go {n : ℕ} (hn : n = 1 ∨ n = 2 ∨ n = 3) (nodal : Bool) {L : Lay} (hl : Guarded n L) {g : Geo} (hg : Geo.Ok g) {σ : Mem}
    (hσ : ∀ c, c = .jx ∨ c = .jy ∨ c = .jz → (σ c).lo = tileLo L ∧ (σ c).hi = tileHi L) :
    ∀ (ps : List Part) (f : Comp → I3 → ℝ), (∀ p ∈ ps, InTile L g p ∧ Slow g p) →
    deposeDirect n nodal g ps (addF σ f) = .ok (addF σ fun c i => f c i + added n nodal g ps c i)
  | [], f, _ => by
    simp [deposeDirect, added]
  | p :: ps, f, h => by
    have hp := h p (by simp)
    have hb : ∀ c, c = .jx ∨ c = .jy ∨ c = .jz → ∀ s ∈ dirStmts n nodal g p c, InBox (σ c).lo (σ c).hi s.1 := by
      intro c hc s hs
      rw [(hσ c hc).1, (hσ c hc).2]
      exact rho_box hn hl (coords_range hg hp.1 hp.2 nodal c) hs
    have ih := direct_go hn nodal hl hg hσ ps
    unfold deposeDirect at ih ⊢
    rw [List.foldlM_cons]
    simp only [List.foldlM_cons, List.foldlM_nil, deposeComp]
    rw [bumpMems_ok _ _ (hb .jx (by simp))]
    simp only [except_bind_ok]
    rw [bumpMems_ok _ _ (hb .jy (by simp))]
    simp only [except_bind_ok]
    rw [bumpMems_ok _ _ (hb .jz (by simp))]
    simp only [except_bind_ok, except_pure]
    simp only [List.foldlM_cons, List.foldlM_nil, deposeComp, except_pure] at ih
    rw [ih _ (fun q hq => h q (by simp [hq]))]
    congr 2
    funext c i
    rw [dirStmts_at hn nodal g p (by simp), dirStmts_at hn nodal g p (by simp), dirStmts_at hn nodal g p (by simp)]
    unfold added
    cases c <;> simp <;> ring

theorem direct_ok {n : ℕ} (hn : n = 1 ∨ n = 2 ∨ n = 3) (nodal : Bool) {L : Lay} (hl : Guarded n L) {g : Geo} (hg : Geo.Ok g) {σ : Mem}
    (hσ : ∀ c, c = .jx ∨ c = .jy ∨ c = .jz → (σ c).lo = tileLo L ∧ (σ c).hi = tileHi L) {ps : List Part} (h : ∀ p ∈ ps, InTile L g p ∧ Slow g p) :
    deposeDirect n nodal g ps σ = .ok (addF σ (added n nodal g ps)) := by
  have := direct_go hn nodal hl hg hσ ps (fun _ _ => 0) h
  have e : addF σ (fun _ _ => 0) = σ := by funext c; simp [addF]
  rw [e] at this
  simpa using this

/-! ### The statements of a particle, by node -/

/-- The statements on `jxcells` are the scalar statements `st`, on cells of the frame. -/
def SpatialJ (n : ℕ) (F : Frame) (ts : List (ℕ × ℤ × ℝ)) (st : List (I3 × ℝ)) : Prop :=
  ∃ C : List (ℕ × I3 × ℝ), ts = C.map (fun s => (s.1, F.icell s.2.1.j s.2.1.k s.2.1.l, s.2.2)) ∧
    (∀ s ∈ C, s.1 ∈ [1, 2, 3, 4, 5, 6, 7, 8] ∧ InFrame F s.2.1) ∧
    ∀ φ : I3 → ℝ, (C.map fun s => φ (shift s.2.1 (offset n s.1)) * s.2.2).sum = (st.map fun s => φ s.1 * s.2).sum

theorem spatialJ1 {L : Lay} {wq v x y z : ℝ} (h : InRange L (x, y, z)) :
    SpatialJ 1 (frame 1 L) (col1 (frame 1 L) wq v x y z) (rhoStmts 1 (wq * v) x y z) := by
  obtain ⟨x1, x2, y1, y2, z1, z2⟩ := h
  have h1 : -1 ≤ ⌊x⌋ ∧ ⌊x⌋ ≤ L.nx := node_range (n := 1) x1 x2
  have h2 : -1 ≤ ⌊y⌋ ∧ ⌊y⌋ ≤ L.ny := node_range (n := 1) y1 y2
  have h3 : -1 ≤ ⌊z⌋ ∧ ⌊z⌋ ≤ L.nz := node_range (n := 1) z1 z2
  refine ⟨corners.map fun c => (c.1, ⟨⌊x⌋, ⌊y⌋, ⌊z⌋⟩, (-c.2.1 + (x - ⌊x⌋)) * (-c.2.2.1 + (y - ⌊y⌋)) * (-c.2.2.2.1 + (z - ⌊z⌋)) * (wq * v) * c.2.2.2.2),
    ?_, ?_, ?_⟩
  · unfold col1
    simp only [List.map_map, Function.comp_def]
  · intro s hs
    obtain ⟨c, hc, rfl⟩ := List.mem_map.mp hs
    refine ⟨?_, ?_⟩
    · simp only [corners, List.mem_cons, List.not_mem_nil, or_false] at hc
      rcases hc with rfl | rfl | rfl | rfl | rfl | rfl | rfl | rfl <;> simp
    · simp only [InFrame, org, frame]
      omega
  · intro φ
    simp only [corners, rhoStmts, wts, node, List.map_cons, List.map_nil, List.flatMap_cons, List.flatMap_nil, List.cons_append, List.nil_append,
      List.sum_cons, List.sum_nil, offset, shift, add_zero, List.append_nil]
    norm_num
    ring

/-- Statements of order 2 on `jxcells`, by cell. -/
noncomputable def cellsJ2 (j k l : ℤ) (sx0 sx1 sx2 sy0 sy1 sy2 sz0 sz1 sz2 w : ℝ) : List (ℕ × I3 × ℝ) :=
  (([(1, sy0 * sz0 * w), (2, sy1 * sz0 * w), (3, sy2 * sz0 * w), (4, sy0 * sz1 * w), (5, sy2 * sz1 * w), (6, sy0 * sz2 * w), (7, sy1 * sz2 * w),
    (8, sy2 * sz2 * w)] : List (ℕ × ℝ)).flatMap
    fun u => [(u.1, ⟨j + -1, k, l⟩, u.2 * sx0), (u.1, ⟨j, k, l⟩, u.2 * sx1), (u.1, ⟨j + 1, k, l⟩, u.2 * sx2)]) ++
  [(1, ⟨j + -1, k + 1, l + 1⟩, sz1 * sy1 * w * sx0), (1, ⟨j, k + 1, l + 1⟩, sz1 * sy1 * w * sx1), (1, ⟨j + 1, k + 1, l + 1⟩, sz1 * sy1 * w * sx2),
    (1, ⟨j + 2, k + 1, l + 1⟩, 0)]

theorem cellsJ2_sum (φ : I3 → ℝ) (j k l : ℤ) (sx0 sx1 sx2 sy0 sy1 sy2 sz0 sz1 sz2 w : ℝ) :
    ((cellsJ2 j k l sx0 sx1 sx2 sy0 sy1 sy2 sz0 sz1 sz2 w).map fun s => φ (shift s.2.1 (offset 2 s.1)) * s.2.2).sum =
    ((([(-1, sz0), (0, sz1), (1, sz2)] : List (ℤ × ℝ)).flatMap fun c => ([(-1, sy0), (0, sy1), (1, sy2)] : List (ℤ × ℝ)).flatMap fun b =>
      ([(-1, sx0), (0, sx1), (1, sx2)] : List (ℤ × ℝ)).map fun a => ((⟨j + a.1, k + b.1, l + c.1⟩ : I3), a.2 * b.2 * c.2 * w)).map
        fun s => φ s.1 * s.2).sum := by
  simp only [cellsJ2, List.map_cons, List.map_nil, List.flatMap_cons, List.flatMap_nil, List.cons_append, List.nil_append,
      List.sum_cons, List.sum_nil, offset, shift, add_zero, List.append_nil, add_assoc, Int.reduceAdd, Int.reduceNeg]
  ring

theorem spatialJ2 {L : Lay} {wq v x y z : ℝ} (h : InRange L (x, y, z)) :
    SpatialJ 2 (frame 2 L) (col2 (frame 2 L) wq v x y z) (rhoStmts 2 (wq * v) x y z) := by
  obtain ⟨x1, x2, y1, y2, z1, z2⟩ := h
  have h1 : -1 ≤ nint x ∧ nint x ≤ L.nx := node_range (n := 2) x1 x2
  have h2 : -1 ≤ nint y ∧ nint y ≤ L.ny := node_range (n := 2) y1 y2
  have h3 : -1 ≤ nint z ∧ nint z ≤ L.nz := node_range (n := 2) z1 z2
  refine ⟨cellsJ2 (nint x) (nint y) (nint z) (1 / 2 * (1 / 2 - (x - nint x)) ^ 2) (3 / 4 - (x - nint x) ^ 2) (1 / 2 * (1 / 2 + (x - nint x)) ^ 2)
    (1 / 2 * (1 / 2 - (y - nint y)) ^ 2) (3 / 4 - (y - nint y) ^ 2) (1 / 2 * (1 / 2 + (y - nint y)) ^ 2)
    (1 / 2 * (1 / 2 - (z - nint z)) ^ 2) (3 / 4 - (z - nint z) ^ 2) (1 / 2 * (1 / 2 + (z - nint z)) ^ 2) (wq * v), ?_, ?_, ?_⟩
  · unfold col2 cellsJ2
    dsimp only
    rw [List.map_append, List.map_flatMap]
    congr 1
    · congr 1
      funext w
      simp only [List.map_cons, List.map_nil, List.cons.injEq, Prod.mk.injEq, true_and, and_true, Frame.icell]
      refine ⟨?_, ?_⟩ <;> ring
    · simp only [List.map_cons, List.map_nil, List.cons.injEq, Prod.mk.injEq, true_and, and_true, Frame.icell, Frame.ncxy]
      refine ⟨?_, ?_, ?_, ?_⟩ <;> ring
  · intro s hs
    simp only [cellsJ2, List.mem_append, List.mem_flatMap, List.mem_cons, List.not_mem_nil, or_false] at hs
    rcases hs with ⟨w, hw, hs⟩ | hs
    · refine ⟨?_, ?_⟩
      · have : s.1 = w.1 := by rcases hs with rfl | rfl | rfl <;> rfl
        rw [this]
        rcases hw with rfl | rfl | rfl | rfl | rfl | rfl | rfl | rfl <;> simp
      · rcases hs with rfl | rfl | rfl <;>
        · simp only [InFrame, org, frame]
          omega
    · rcases hs with rfl | rfl | rfl | rfl <;>
      · simp only [InFrame, org, frame]
        refine ⟨by simp, ?_⟩
        omega
  · intro φ
    rw [cellsJ2_sum]
    simp only [rhoStmts, wts, node, if_true, pow_two]

/-- Statements of order 3 on `jxcells`, by cell. -/
noncomputable def cellsJ3 (j k l : ℤ) (sx1 sx2 sx3 sx4 sy1 sy2 sy3 sy4 sz1 sz2 sz3 sz4 v : ℝ) : List (ℕ × I3 × ℝ) :=
  ([(1, sz1 * sy1, sz1 * sy3), (2, sz2 * sy1, sz2 * sy3), (3, sz3 * sy1, sz3 * sy3), (4, sz4 * sy1, sz4 * sy3),
    (5, sz1 * sy2, sz1 * sy4), (6, sz2 * sy2, sz2 * sy4), (7, sz3 * sy2, sz3 * sy4), (8, sz4 * sy2, sz4 * sy4)] : List (ℕ × ℝ × ℝ)).flatMap
    fun w => [(w.1, ⟨j + -1, k + -1, l⟩, w.2.1 * sx1 * v), (w.1, ⟨j, k + -1, l⟩, w.2.1 * sx2 * v), (w.1, ⟨j + 1, k + -1, l⟩, w.2.1 * sx3 * v),
      (w.1, ⟨j + 2, k + -1, l⟩, w.2.1 * sx4 * v), (w.1, ⟨j + -1, k + 1, l⟩, w.2.2 * sx1 * v), (w.1, ⟨j, k + 1, l⟩, w.2.2 * sx2 * v),
      (w.1, ⟨j + 1, k + 1, l⟩, w.2.2 * sx3 * v), (w.1, ⟨j + 2, k + 1, l⟩, w.2.2 * sx4 * v)]

theorem cellsJ3_sum (φ : I3 → ℝ) (j k l : ℤ) (sx1 sx2 sx3 sx4 sy1 sy2 sy3 sy4 sz1 sz2 sz3 sz4 wq v : ℝ) :
    ((cellsJ3 j k l sx1 sx2 sx3 sx4 sy1 sy2 sy3 sy4 (sz1 * wq) (sz2 * wq) (sz3 * wq) (sz4 * wq) v).map
      fun s => φ (shift s.2.1 (offset 3 s.1)) * s.2.2).sum =
    ((([(-1, sz1), (0, sz2), (1, sz3), (2, sz4)] : List (ℤ × ℝ)).flatMap fun c =>
      ([(-1, sy1), (0, sy2), (1, sy3), (2, sy4)] : List (ℤ × ℝ)).flatMap fun b =>
      ([(-1, sx1), (0, sx2), (1, sx3), (2, sx4)] : List (ℤ × ℝ)).map fun a => ((⟨j + a.1, k + b.1, l + c.1⟩ : I3), a.2 * b.2 * c.2 * (wq * v))).map
        fun s => φ s.1 * s.2).sum := by
  simp only [cellsJ3, List.map_cons, List.map_nil, List.flatMap_cons, List.flatMap_nil, List.cons_append, List.nil_append,
      List.sum_cons, List.sum_nil, offset, shift, add_zero, List.append_nil, add_assoc, Int.reduceAdd, Int.reduceNeg]
  ring

theorem spatialJ3 {L : Lay} {wq v x y z : ℝ} (h : InRange L (x, y, z)) :
    SpatialJ 3 (frame 3 L) (col3 (frame 3 L) wq v x y z) (rhoStmts 3 (wq * v) x y z) := by
  obtain ⟨x1, x2, y1, y2, z1, z2⟩ := h
  have h1 : -1 ≤ ⌊x⌋ ∧ ⌊x⌋ ≤ L.nx := node_range (n := 3) x1 x2
  have h2 : -1 ≤ ⌊y⌋ ∧ ⌊y⌋ ≤ L.ny := node_range (n := 3) y1 y2
  have h3 : -1 ≤ ⌊z⌋ ∧ ⌊z⌋ ≤ L.nz := node_range (n := 3) z1 z2
  have e : ∀ t : ℝ, wts 3 t = [(-1, 1 / 6 * ((1 - t) * (1 - t)) * (1 - t)), (0, 2 / 3 - t * t * (1 - t * (1 / 2))),
      (1, 2 / 3 - (1 - t) * (1 - t) * (1 - (1 - t) * (1 / 2))), (2, 1 / 6 * (t * t) * t)] := by
    intro t
    simp only [wts, div_eq_mul_one_div t, div_eq_mul_one_div (1 - t)]
  refine ⟨cellsJ3 ⌊x⌋ ⌊y⌋ ⌊z⌋ (1 / 6 * ((1 - (x - ⌊x⌋)) * (1 - (x - ⌊x⌋))) * (1 - (x - ⌊x⌋))) (2 / 3 - (x - ⌊x⌋) * (x - ⌊x⌋) * (1 - (x - ⌊x⌋) * (1 / 2)))
    (2 / 3 - (1 - (x - ⌊x⌋)) * (1 - (x - ⌊x⌋)) * (1 - (1 - (x - ⌊x⌋)) * (1 / 2))) (1 / 6 * ((x - ⌊x⌋) * (x - ⌊x⌋)) * (x - ⌊x⌋))
    (1 / 6 * ((1 - (y - ⌊y⌋)) * (1 - (y - ⌊y⌋))) * (1 - (y - ⌊y⌋))) (2 / 3 - (y - ⌊y⌋) * (y - ⌊y⌋) * (1 - (y - ⌊y⌋) * (1 / 2)))
    (2 / 3 - (1 - (y - ⌊y⌋)) * (1 - (y - ⌊y⌋)) * (1 - (1 - (y - ⌊y⌋)) * (1 / 2))) (1 / 6 * ((y - ⌊y⌋) * (y - ⌊y⌋)) * (y - ⌊y⌋))
    (1 / 6 * ((1 - (z - ⌊z⌋)) * (1 - (z - ⌊z⌋))) * (1 - (z - ⌊z⌋)) * wq) ((2 / 3 - (z - ⌊z⌋) * (z - ⌊z⌋) * (1 - (z - ⌊z⌋) * (1 / 2))) * wq)
    ((2 / 3 - (1 - (z - ⌊z⌋)) * (1 - (z - ⌊z⌋)) * (1 - (1 - (z - ⌊z⌋)) * (1 / 2))) * wq) (1 / 6 * ((z - ⌊z⌋) * (z - ⌊z⌋)) * (z - ⌊z⌋) * wq) v,
    ?_, ?_, ?_⟩
  · unfold col3 cellsJ3
    dsimp only
    rw [List.map_flatMap]
    congr 1
    funext w
    simp only [List.map_cons, List.map_nil, List.cons.injEq, Prod.mk.injEq, true_and, and_true, Frame.icell]
    refine ⟨?_, ?_, ?_, ?_, ?_, ?_, ?_, ?_⟩ <;> ring
  · intro s hs
    simp only [cellsJ3, List.mem_flatMap, List.mem_cons, List.not_mem_nil, or_false] at hs
    obtain ⟨w, hw, hs⟩ := hs
    refine ⟨?_, ?_⟩
    · have : s.1 = w.1 := by rcases hs with rfl | rfl | rfl | rfl | rfl | rfl | rfl | rfl <;> rfl
      rw [this]
      rcases hw with rfl | rfl | rfl | rfl | rfl | rfl | rfl | rfl <;> simp
    · rcases hs with rfl | rfl | rfl | rfl | rfl | rfl | rfl | rfl <;>
      · simp only [InFrame, org, frame]
        omega
  · intro φ
    rw [cellsJ3_sum]
    simp only [rhoStmts, e, node, Nat.reduceEqDiff, if_false]

theorem column_spatial {n : ℕ} (hn : n = 1 ∨ n = 2 ∨ n = 3) {L : Lay} {nodal : Bool} {g : Geo} {c : Comp} {p : Part}
    (h : InRange L (coords nodal c (mid g p))) : SpatialJ n (frame n L) (column n (frame n L) nodal g c p) (dirStmts n nodal g p c) := by
  unfold column dirStmts
  dsimp only
  rcases hn with rfl | rfl | rfl
  · exact spatialJ1 h
  · exact spatialJ2 h
  · exact spatialJ3 h

/-! ### One tile -/

theorem gathd_list {n : ℕ} {F : Frame} {L : Lay} (i : ℤ) : ∀ (C : List (ℕ × I3 × ℝ)), (∀ s ∈ C, s.1 ∈ [1, 2, 3, 4, 5, 6, 7, 8] ∧ InFrame F s.2.1) →
    gathd n F L (fun m k => ((C.map fun s => (s.1, F.icell s.2.1.j s.2.1.k s.2.1.l, s.2.2)).map
      fun t => if m = t.1 ∧ k = t.2.1 then t.2.2 else 0).sum) i =
    (C.map fun s => if position L (shift s.2.1 (offset n s.1)) = i then s.2.2 else 0).sum
  | [], _ => by simp [gathd_zero]
  | s :: C, h => by
    simp only [List.map_cons, List.sum_cons]
    rw [gathd_add, gathd_one (h s (by simp)).2 (h s (by simp)).1, ← gathd_list i C (fun t ht => h t (by simp [ht]))]

/-- What the particles of a species add to a column of a cell. -/
noncomputable def heap (n : ℕ) (F : Frame) (nodal : Bool) (g : Geo) (c : Comp) (ps : List Part) (m : ℕ) (i : ℤ) : ℝ :=
  (ps.map fun p => ((column n F nodal g c p).map fun t => if m = t.1 ∧ i = t.2.1 then t.2.2 else 0).sum).sum

theorem columns_ok {n : ℕ} (hn : n = 1 ∨ n = 2 ∨ n = 3) {L : Lay} {nodal : Bool} {g : Geo} {c : Comp} :
    ∀ (ps : List Part) (a : Cells), a.n = (frame n L).ncells → (∀ p ∈ ps, InRange L (coords nodal c (mid g p))) →
    (ps.map (column n (frame n L) nodal g c)).foldlM (fun (a : Cells) (ts : List (ℕ × ℤ × ℝ)) =>
      ts.foldlM (fun (a : Cells) (t : ℕ × ℤ × ℝ) => a.bump t.1 t.2.1 t.2.2) a) a =
      .ok ⟨a.n, fun m i => a.val m i + heap n (frame n L) nodal g c ps m i⟩
  | [], a, _, _ => by simp [heap]
  | p :: ps, a, ha, h => by
    rw [List.map_cons, List.foldlM_cons]
    obtain ⟨C, hC, hc, _⟩ := column_spatial hn (h p (by simp))
    rw [cells_ok]
    · simp only [except_bind_ok]
      refine (columns_ok hn ps _ (by exact ha) (fun q hq => h q (by simp [hq]))).trans ?_
      simp only [heap, List.map_cons, List.sum_cons]
      congr 2
      funext m i
      ring
    · intro t ht
      rw [hC] at ht
      obtain ⟨s, hs, rfl⟩ := List.mem_map.mp ht
      rw [ha]
      exact icell_bounds (hc s hs).2

theorem blocksJ_ok {n : ℕ} (hn : n = 1 ∨ n = 2 ∨ n = 3) {L : Lay} {nodal : Bool} {g : Geo} {c : Comp} {lvect : ℕ} (hl : LVEC ≤ lvect)
    {ps : List Part} (h : ∀ p ∈ ps, InRange L (coords nodal c (mid g p))) :
    ∀ (bs : List ℕ) (a : Cells), a.n = (frame n L).ncells →
    bs.foldlM (fun (a : Cells) (b : ℕ) => blockCells n (frame n L) nodal lvect g c a (block LVEC ps b)) a =
      .ok ⟨a.n, fun m i => a.val m i + heap n (frame n L) nodal g c (bs.flatMap (block LVEC ps)) m i⟩
  | [], a, _ => by simp [heap]
  | b :: bs, a, ha => by
    rw [List.foldlM_cons]
    unfold blockCells
    rw [if_pos]
    · rw [columns_ok hn _ a ha (fun p hp => h p (mem_block hp))]
      simp only [except_bind_ok]
      refine (blocksJ_ok hn hl h bs _ (by exact ha)).trans ?_
      congr 2
      funext m i
      simp only [heap, List.flatMap_cons, List.map_append, List.sum_append]
      ring
    · unfold block
      exact (List.length_take_le _ _).trans hl

theorem vnr_ok {n : ℕ} (hn : n = 1 ∨ n = 2 ∨ n = 3) {L : Lay} {nodal : Bool} {g : Geo} {c : Comp} {lvect : ℕ} (hl : LVEC ≤ lvect)
    {ps : List Part} (h : ∀ p ∈ ps, InRange L (coords nodal c (mid g p))) {a : Cells} (ha : a.n = (frame n L).ncells) :
    vnr n (frame n L) nodal lvect g c ps a = .ok ⟨a.n, fun m i => a.val m i + heap n (frame n L) nodal g c ps m i⟩ := by
  unfold vnr
  rw [blocksJ_ok hn hl h _ a ha, blocks_join (by decide)]

theorem species_ok {n : ℕ} (hn : n = 1 ∨ n = 2 ∨ n = 3) {L : Lay} {nodal : Bool} {g : Geo} {c : Comp} {lvect : ℕ} (hl : LVEC ≤ lvect) :
    ∀ (sps : List Sp) (a : Cells), a.n = (frame n L).ncells → (∀ s ∈ sps, s.ldodepos = true → ∀ p ∈ s.parts, InRange L (coords nodal c (mid g p))) →
    sps.foldlM (fun (a : Cells) (s : Sp) =>
      if s.ldodepos = false then pure a else if s.parts = [] then pure a
      else vnr n (frame n L) nodal lvect { g with q := s.charge } c s.parts a) a =
      (.ok ⟨a.n, fun m i => a.val m i + (sps.map fun s => if s.ldodepos then heap n (frame n L) nodal { g with q := s.charge } c s.parts m i else 0).sum⟩ :
        Res Cells)
  | [], a, _, _ => by simp
  | s :: sps, a, ha, h => by
    rw [List.foldlM_cons]
    have hs : (if s.ldodepos = false then pure a else if s.parts = [] then pure a
      else vnr n (frame n L) nodal lvect { g with q := s.charge } c s.parts a : Res Cells) =
        .ok ⟨a.n, fun m i => a.val m i + if s.ldodepos then heap n (frame n L) nodal { g with q := s.charge } c s.parts m i else 0⟩ := by
      cases hd : s.ldodepos
      · simp
      · simp only [Bool.true_eq_false, if_false, if_true]
        by_cases hp : s.parts = []
        · rw [if_pos hp, hp]; simp [heap]
        · rw [if_neg hp]
          exact vnr_ok (g := { g with q := s.charge }) hn hl (fun p hp => h s (by simp) hd p hp) ha
    rw [hs]
    simp only [except_bind_ok]
    refine (species_ok hn hl sps _ (by exact ha) (fun t ht => h t (by simp [ht]))).trans ?_
    congr 2
    funext m i
    simp only [List.map_cons, List.sum_cons]
    ring

theorem gathd_heap {n : ℕ} (hn : n = 1 ∨ n = 2 ∨ n = 3) {L : Lay} {nodal : Bool} {g : Geo} {c : Comp} (i : ℤ) : ∀ (ps : List Part),
    (∀ p ∈ ps, InRange L (coords nodal c (mid g p))) →
    gathd n (frame n L) L (heap n (frame n L) nodal g c ps) i =
    (ps.map fun p => ((dirStmts n nodal g p c).map fun s => if position L s.1 = i then s.2 else 0).sum).sum
  | [], _ => by
    have : heap n (frame n L) nodal g c [] = fun _ _ => 0 := by funext m i; simp [heap]
    rw [this, gathd_zero]
    simp
  | p :: ps, h => by
    have e : heap n (frame n L) nodal g c (p :: ps) = fun m i => ((column n (frame n L) nodal g c p).map fun t =>
        if m = t.1 ∧ i = t.2.1 then t.2.2 else 0).sum + heap n (frame n L) nodal g c ps m i := by
      funext m i; simp [heap]
    rw [e, gathd_add, gathd_heap hn i ps (fun q hq => h q (by simp [hq]))]
    simp only [List.map_cons, List.sum_cons]
    congr 1
    obtain ⟨C, hC, hc, hs⟩ := column_spatial hn (h p (by simp))
    have h1 := gathd_list (n := n) (L := L) i C hc
    rw [← hC] at h1
    rw [h1]
    have h2 := hs (fun q => if position L q = i then 1 else 0)
    simp only [ite_mul, one_mul, zero_mul] at h2
    exact h2

theorem gathd_species {n : ℕ} (hn : n = 1 ∨ n = 2 ∨ n = 3) {L : Lay} {nodal : Bool} {g : Geo} {c : Comp} (i : ℤ) : ∀ (sps : List Sp),
    (∀ s ∈ sps, s.ldodepos = true → ∀ p ∈ s.parts, InRange L (coords nodal c (mid g p))) →
    gathd n (frame n L) L (fun m k => (sps.map fun s => if s.ldodepos then heap n (frame n L) nodal { g with q := s.charge } c s.parts m k else 0).sum) i =
    (sps.map fun s => if s.ldodepos then (s.parts.map fun p => ((dirStmts n nodal { g with q := s.charge } p c).map
      fun t => if position L t.1 = i then t.2 else 0).sum).sum else 0).sum
  | [], _ => by simp [gathd_zero]
  | s :: sps, h => by
    simp only [List.map_cons, List.sum_cons]
    rw [gathd_add, gathd_species hn i sps (fun t ht => h t (by simp [ht]))]
    congr 1
    cases hd : s.ldodepos
    · simp [gathd_zero]
    · simp only [if_true]
      exact gathd_heap (g := { g with q := s.charge }) hn i s.parts (fun p hp => h s (by simp) hd p hp)

theorem tile_ok {n : ℕ} (hn : n = 1 ∨ n = 2 ∨ n = 3) {L : Lay} (hg : GuardedJ n L) {nodal : Bool} {V lvect : ℕ} (hV : 1 ≤ V) (hl : LVEC ≤ lvect) {g : Geo}
    {sps : List Sp} {c : Comp} (h : ∀ s ∈ sps, s.ldodepos = true → ∀ p ∈ s.parts, InRange L (coords nodal c (mid g p))) :
    tileDirect n nodal L V lvect g sps c = .ok ⟨L.size, fun i => (sps.map fun s => if s.ldodepos then (s.parts.map fun p =>
      ((dirStmts n nodal { g with q := s.charge } p c).map fun t => if position L t.1 = i then t.2 else 0).sum).sum else 0).sum⟩ := by
  unfold tileDirect
  dsimp only
  rw [species_ok hn hl sps _ rfl h]
  simp only [except_bind_ok]
  refine (adds_reduction hn (reaches hn hg) hV _ _ rfl).trans ?_
  congr 2
  funext i
  rw [zero_add]
  simp only [zero_add]
  exact gathd_species hn i sps h

theorem guarded_of {n : ℕ} {L : Lay} (h : GuardedJ n L) : Guarded n L := by
  obtain ⟨a, b, c, d, e, f⟩ := h
  refine ⟨a, b, c, ?_, ?_, ?_⟩ <;> split_ifs at * <;> omega

theorem dirStmts_position {n : ℕ} (hn : n = 1 ∨ n = 2 ∨ n = 3) {L : Lay} (hg : Guarded n L) {nodal : Bool} {g : Geo} {p : Part} {c : Comp}
    (hc : c = .jx ∨ c = .jy ∨ c = .jz) (h : InRange L (coords nodal c (mid g p))) {i : I3} (hi : InBox (tileLo L) (tileHi L) i) :
    ((dirStmts n nodal g p c).map fun t => if position L t.1 = position L i then t.2 else 0).sum = rhoV n nodal g p c i := by
  rw [← dirStmts_at hn nodal g p hc i]
  congr 1
  apply List.map_congr_left
  intro s hs
  have hb := rho_box hn hg h hs
  by_cases e : i = s.1
  · subst e; simp
  · rw [if_neg (fun q => e (position_inj hb hi q).symm), if_neg e]

end Picsar.DirectJ
