import Verif.Lemmas.DirectJ
import Verif.Props.Deposition

/-
C114: the direct current deposition adds charge density times velocity, at the middle of the step and at the place of each component, and nothing
else; its total is that of the particles; it does not satisfy the continuity equation.
C115: the variant that deposits on cells and reduces afterwards gives the same, provided the tile has three guard cells where the columns need them
and the arrays of a block hold eight particles; it fails otherwise, even without particles.
-/
namespace Picsar.Props
open Picsar Picsar.Grid Picsar.Deposition Picsar.ChargeVec Picsar.DirectJ Picsar.Spec

/-! ### C114 -/

/-- **C114** Every node of `jx`, `jy`, `jz` receives `q w v / (dx dy dz)` times the B-splines between the node and the middle of the step of every
particle; the bounds of the arrays and all other fields stay. -/
theorem C114_direct_current {n : ℕ} (hn : n = 1 ∨ n = 2 ∨ n = 3) (nodal : Bool) {L : Lay} (hl : Guarded n L) {g : Geo} (hg : Geo.Ok g) {σ : Mem}
    (hσ : ∀ c, c = .jx ∨ c = .jy ∨ c = .jz → (σ c).lo = tileLo L ∧ (σ c).hi = tileHi L) {ps : List Part} (h : ∀ p ∈ ps, InTile L g p ∧ Slow g p) :
    ∃ τ, deposeDirect n nodal g ps σ = .ok τ ∧ (∀ c, (τ c).lo = (σ c).lo ∧ (τ c).hi = (σ c).hi) ∧
      (∀ c, c ≠ .jx → c ≠ .jy → c ≠ .jz → τ c = σ c) ∧
      ∀ c, c = .jx ∨ c = .jy ∨ c = .jz → ∀ i, (τ c).val i = (σ c).val i + (ps.map fun p => rhoV n nodal g p c i).sum := by
  refine ⟨_, direct_ok hn nodal hl hg hσ h, fun c => ⟨rfl, rfl⟩, ?_, ?_⟩
  · intro c c1 c2 c3
    simp [addF, added, c1, c2, c3]
  · intro c hc i
    simp only [addF, added, if_pos hc]

/-- **C114** The order of the particles has no effect. -/
theorem C114_order {n : ℕ} (hn : n = 1 ∨ n = 2 ∨ n = 3) (nodal : Bool) {L : Lay} (hl : Guarded n L) {g : Geo} (hg : Geo.Ok g) {σ : Mem}
    (hσ : ∀ c, c = .jx ∨ c = .jy ∨ c = .jz → (σ c).lo = tileLo L ∧ (σ c).hi = tileHi L) {ps ps' : List Part} (h : ∀ p ∈ ps, InTile L g p ∧ Slow g p)
    (hp : ps.Perm ps') : deposeDirect n nodal g ps' σ = deposeDirect n nodal g ps σ := by
  rw [direct_ok hn nodal hl hg hσ h, direct_ok hn nodal hl hg hσ (fun p hq => h p (hp.mem_iff.mpr hq))]
  congr 2
  funext c i
  unfold added
  rw [(hp.map _).sum_eq]

theorem spline_sum_range {n : ℕ} (hn : n = 1 ∨ n = 2 ∨ n = 3) {X : ℝ} {m γ : ℤ} (hγ : (if n = 1 then 1 else 2) ≤ γ) (h0 : -1 < X) (h1 : X < m + 1 / 2) :
    ∑ a ∈ Finset.Icc (-γ) (m + γ), bspline n (X - a) = 1 := by
  have e : ∀ a : ℤ, bspline n (X - a) = shapeFn (wts n (X - node n X)) (node n X) a := by
    intro a
    have := shapeFn_bspline hn X 0 a
    simpa using this.symm
  rw [Finset.sum_congr rfl (fun a _ => e a), shapeFn_sum (fun w hw => ?_), wts_sum hn]
  obtain ⟨a1, a2⟩ := (wts_fst hn (X - node n X)).2 w hw
  obtain ⟨b1, b2⟩ := node_range (n := n) h0 h1
  rcases hn with rfl | rfl | rfl <;> norm_num at * <;> omega

/-- **C114** Summed over the array and multiplied by the volume of a cell, each component is the sum of `q w v`. -/
theorem C114_total_current {n : ℕ} (hn : n = 1 ∨ n = 2 ∨ n = 3) (nodal : Bool) {L : Lay} (hl : Guarded n L) {g : Geo} (hg : Geo.Ok g) {σ : Mem}
    (hσ : ∀ c, c = .jx ∨ c = .jy ∨ c = .jz → (σ c).lo = tileLo L ∧ (σ c).hi = tileHi L) {ps : List Part} (h : ∀ p ∈ ps, InTile L g p ∧ Slow g p) :
    ∃ τ, deposeDirect n nodal g ps σ = .ok τ ∧ ∀ c, c = .jx ∨ c = .jy ∨ c = .jz →
      (∑ j ∈ Finset.Icc (-L.gx) (L.nx + L.gx), ∑ k ∈ Finset.Icc (-L.gy) (L.ny + L.gy), ∑ l ∈ Finset.Icc (-L.gz) (L.nz + L.gz),
        ((τ c).val ⟨j, k, l⟩ - (σ c).val ⟨j, k, l⟩)) * (g.dx * g.dy * g.dz) = (ps.map fun p => g.q * p.w * velocity p c).sum := by
  obtain ⟨τ, h1, _, _, h2⟩ := C114_direct_current hn nodal hl hg hσ h
  refine ⟨τ, h1, ?_⟩
  intro c hc
  simp only [h2 c hc, add_sub_cancel_left]
  clear! τ
  induction ps with
  | nil => simp
  | cons p ps ih =>
    have := ih (fun q hq => h q (by simp [hq]))
    simp only [List.map_cons, List.sum_cons, Finset.sum_add_distrib, add_mul] at this ⊢
    rw [this]
    congr 1
    obtain ⟨ht, hs⟩ := h p (by simp)
    obtain ⟨⟨a, b⟩, ⟨a', b'⟩, ⟨a'', b''⟩⟩ := middle_range hg ht hs
    obtain ⟨gx, gy, gz⟩ := hg
    obtain ⟨_, _, _, l1, l2, l3⟩ := hl
    have key : ∀ (X : ℝ) (m γ : ℤ) (s : Prop) [Decidable s], (if n = 1 then 1 else 2) ≤ γ → -(1 / 2) < X → X < m + 1 / 2 →
        ∑ a ∈ Finset.Icc (-γ) (m + γ), bspline n (X - ((a : ℝ) + if s then (if nodal then 0 else 1 / 2) else 0)) = 1 := by
      intro X m γ s _ hγ x1 x2
      have e : ∀ a : ℤ, X - ((a : ℝ) + if s then (if nodal then 0 else 1 / 2) else 0) =
          (X - if s then (if nodal then 0 else 1 / 2) else 0) - a := fun a => by ring
      simp only [e]
      apply spline_sum_range hn hγ
      · split_ifs <;> linarith
      · split_ifs <;> linarith
    simp only [rhoV, placeOf]
    simp only [← Finset.mul_sum, key _ _ _ _ l3 a'' b'', mul_one, key _ _ _ _ l2 a' b', key _ _ _ _ l1 a b]
    field_simp

/-- Tile of 4 × 3 × 2 cells with `m` guard cells. -/
def djLay (m : ℤ) : Lay := ⟨4, 3, 2, m, m, m⟩
noncomputable def djGeo : Geo := ⟨1, 0, 0, 0, 1, 1, 1, 1⟩
/-- Moves from the origin to `(1/2, 1/2, 0)` in a time step. -/
noncomputable def djPart : Part := ⟨1 / 2, 1 / 2, 0, 1 / 2, 1 / 2, 0, 1, 1⟩
def djMem (m : ℤ) : Mem := fun _ => ⟨tileLo (djLay m), tileHi (djLay m), fun _ => 0⟩

theorem dj_ok (m : ℤ) : InTile (djLay m) djGeo djPart ∧ Slow djGeo djPart ∧ Geo.Ok djGeo := by
  have h0 : |(1 / 2 : ℝ)| < 1 := by rw [abs_lt]; norm_num
  refine ⟨?_, ?_, ?_⟩
  · norm_num [InTile, djLay, djGeo, djPart, cells]
  · refine ⟨?_, ?_, ?_⟩ <;> norm_num [djGeo, djPart, h0]
  · norm_num [Geo.Ok, djGeo]

example : (∀ n, n = 1 ∨ n = 2 ∨ n = 3 → Guarded n (djLay 2)) ∧ rhoV 1 false djGeo djPart .jx ⟨0, 0, 0⟩ = 9 / 32 := by
  refine ⟨?_, ?_⟩
  · rintro n (rfl | rfl | rfl) <;> norm_num [Guarded, djLay]
  · simp only [rhoV, placeOf, reduceCtorEq, if_true, if_false]
    norm_num [ velocity, middle, placeOf, cells, djGeo, djPart, bspline, abs_of_pos, abs_of_neg]

/-- **C114** Unlike Esirkepov's, this current does not satisfy the continuity equation: a particle that goes from the origin to `(1/2, 1/2, 0)` leaves
`Δρ/Δt + div J = -3/8` at the node it comes from. -/
theorem C114_continuity_refuted : ∃ (g : Geo) (p : Part) (σ τ : Mem), Geo.Ok g ∧ Slow g p ∧ 0 < g.dt ∧ deposeDirect 1 false g [p] σ = .ok τ ∧
    (density 1 g p 0 0 0 - density 1 g (before g p) 0 0 0) / g.dt + (divJ g.dx g.dy g.dz τ 0 0 0 - divJ g.dx g.dy g.dz σ 0 0 0) = -(3 / 8) := by
  obtain ⟨h1, h2, h3⟩ := dj_ok 2
  obtain ⟨τ, t1, _, _, t2⟩ := C114_direct_current (n := 1) (Or.inl rfl) false (L := djLay 2) (by norm_num [Guarded, djLay]) h3 (σ := djMem 2)
    (fun _ _ => ⟨rfl, rfl⟩) (ps := [djPart]) (by simpa using ⟨h1, h2⟩)
  refine ⟨djGeo, djPart, djMem 2, τ, h3, h2, by norm_num [djGeo], t1, ?_⟩
  unfold divJ at'
  rw [t2 .jx (by simp), t2 .jx (by simp), t2 .jy (by simp), t2 .jy (by simp), t2 .jz (by simp), t2 .jz (by simp)]
  simp only [rhoV, placeOf, reduceCtorEq, if_true, if_false, List.map_cons, List.map_nil]
  norm_num [velocity, middle, placeOf, cells, density, before, djGeo, djPart, djMem, bspline, abs_of_pos, abs_of_neg]

/-! ### C115 -/

/-- **C115** The variant on cells: every place of the array of the tile holds the direct current of the species that deposit, whatever the SIMD width,
provided there are enough guard cells and the arrays of a block hold `LVEC = 8` particles. -/
theorem C115_tile_current_partial {n : ℕ} (hn : n = 1 ∨ n = 2 ∨ n = 3) {L : Lay} (hl : GuardedJ n L) (nodal : Bool) {V lvect : ℕ} (hV : 1 ≤ V)
    (hv : 8 ≤ lvect) {g : Geo} (hg : Geo.Ok g) {sps : List Sp} (h : ∀ s ∈ sps, s.ldodepos = true → ∀ p ∈ s.parts, InTile L g p ∧ Slow g p) {c : Comp}
    (hc : c = .jx ∨ c = .jy ∨ c = .jz) :
    ∃ r, tileDirect n nodal L V lvect g sps c = .ok r ∧ r.size = (L.nx + 1 + 2 * L.gx) * (L.ny + 1 + 2 * L.gy) * (L.nz + 1 + 2 * L.gz) ∧
      ∀ i, InBox (tileLo L) (tileHi L) i → r.val (position L i) = rhoVs n nodal g sps c i := by
  have hr : ∀ s ∈ sps, s.ldodepos = true → ∀ p ∈ s.parts, InRange L (coords nodal c (mid g p)) := by
    intro s hs hd p hp
    exact coords_range hg (h s hs hd p hp).1 (h s hs hd p hp).2 nodal c
  refine ⟨_, tile_ok hn hl hV hv hr, size_eq L, ?_⟩
  intro i hi
  dsimp only [rhoVs]
  congr 1
  apply List.map_congr_left
  intro s hs
  cases hd : s.ldodepos
  · simp
  · simp only [if_true]
    congr 1
    apply List.map_congr_left
    intro p hp
    exact dirStmts_position (g := { g with q := s.charge }) hn (guarded_of hl) hc (hr s hs hd p hp) hi

/-- **C115** It is the array the scalar routine makes of a zero array, species after species. -/
theorem C115_same_as_scalar_partial {n : ℕ} (hn : n = 1 ∨ n = 2 ∨ n = 3) {L : Lay} (hl : GuardedJ n L) (nodal : Bool) {V lvect : ℕ} (hV : 1 ≤ V)
    (hv : 8 ≤ lvect) {g : Geo} (hg : Geo.Ok g) {ps : List Part} (h : ∀ p ∈ ps, InTile L g p ∧ Slow g p) {σ : Mem}
    (hσ : ∀ c, c = .jx ∨ c = .jy ∨ c = .jz → (σ c).lo = tileLo L ∧ (σ c).hi = tileHi L ∧ ∀ i, (σ c).val i = 0) :
    ∃ τ, deposeDirect n nodal g ps σ = .ok τ ∧ ∀ c, c = .jx ∨ c = .jy ∨ c = .jz →
      ∃ r, tileDirect n nodal L V lvect g [⟨true, g.q, ps⟩] c = .ok r ∧ Stored L r (τ c) := by
  obtain ⟨τ, t1, t2, _, t3⟩ := C114_direct_current hn nodal (guarded_of hl) hg (fun c hc => ⟨(hσ c hc).1, (hσ c hc).2.1⟩) h
  refine ⟨τ, t1, ?_⟩
  intro c hc
  obtain ⟨r, r1, r2, r3⟩ := C115_tile_current_partial hn hl nodal hV hv hg (sps := [⟨true, g.q, ps⟩]) (by simpa using h) hc
  refine ⟨r, r1, r2, (t2 c).1.trans (hσ c hc).1, (t2 c).2.trans (hσ c hc).2.1, ?_⟩
  intro i hi
  rw [r3 i hi, t3 c hc i, (hσ c hc).2.2 i]
  simp [rhoVs]

example : GuardedJ 3 (djLay 3) ∧ GuardedJ 2 (djLay 3) ∧ GuardedJ 1 (djLay 2) ∧ ¬GuardedJ 2 (djLay 2) ∧ ¬GuardedJ 3 (djLay 2) ∧
    rhoVs 1 true djGeo [⟨true, -2, [djPart]⟩, ⟨false, 1, [djPart]⟩] .jx ⟨0, 0, 0⟩ = -(9 / 16) := by
  refine ⟨?_, ?_, ?_, ?_, ?_, ?_⟩
  · norm_num [GuardedJ, djLay]
  · norm_num [GuardedJ, djLay]
  · norm_num [GuardedJ, djLay]
  · norm_num [GuardedJ, djLay]
  · norm_num [GuardedJ, djLay]
  · simp only [rhoVs, rhoV, placeOf, reduceCtorEq, if_true, if_false, List.map_cons, List.map_nil]
    norm_num [ velocity, middle, placeOf, cells, djGeo, djPart, bspline, abs_of_pos, abs_of_neg]

/-- **C115** With two guard cells, the number the program starts with, orders 2 and 3 write before the array of the tile, whatever the species, even
without any particle. -/
theorem C115_two_guards_refuted {n : ℕ} (hn : n = 2 ∨ n = 3) {L : Lay} (hx : 0 ≤ L.nx) (hy : 0 ≤ L.ny) (hz : 0 ≤ L.nz) (h1 : L.gx = 2) (h2 : L.gy = 2)
    (h3 : L.gz = 2) (nodal : Bool) {V lvect : ℕ} (hV : 1 ≤ V) (hv : 8 ≤ lvect) {g : Geo} (hg : Geo.Ok g) {sps : List Sp}
    (h : ∀ s ∈ sps, s.ldodepos = true → ∀ p ∈ s.parts, InTile L g p ∧ Slow g p) (c : Comp) :
    tileDirect n nodal L V lvect g sps c = .error .outOfBounds := by
  have hr : ∀ s ∈ sps, s.ldodepos = true → ∀ p ∈ s.parts, InRange L (coords nodal c (mid g p)) := by
    intro s hs hd p hp
    exact coords_range hg (h s hs hd p hp).1 (h s hs hd p hp).2 nodal c
  unfold tileDirect
  dsimp only
  rw [species_ok (by tauto) hv sps _ rfl hr]
  simp only [except_bind_ok]
  have hcons : ∀ m : ℤ, 1 ≤ m → ∃ t, irange 1 m = 1 :: t := by
    intro m hm
    obtain ⟨k, hk⟩ : ∃ k : ℕ, (m - 1 + 1).toNat = k + 1 := ⟨(m - 1).toNat, by omega⟩
    unfold irange
    rw [hk, List.range_succ_eq_map]
    exact ⟨_, rfl⟩
  obtain ⟨tz, ez⟩ := hcons (frame n L).ncz (by rcases hn with rfl | rfl <;> simp only [frame] <;> omega)
  obtain ⟨ty, ey⟩ := hcons (frame n L).ncy (by rcases hn with rfl | rfl <;> simp only [frame] <;> omega)
  obtain ⟨tx, ex⟩ := hcons (frame n L).ncx (by rcases hn with rfl | rfl <;> simp only [frame] <;> omega)
  obtain ⟨b, hb⟩ : ∃ b, nblocks V (irange 1 (frame n L).ncx).length = b + 1 := by
    rw [ex, List.length_cons]
    refine ⟨nblocks V (tx.length + 1) - 1, ?_⟩
    have := nblocks_mul hV (tx.length + 1)
    rcases Nat.eq_zero_or_pos (nblocks V (tx.length + 1)) with e | e
    · rw [e] at this; omega
    · omega
  obtain ⟨V', rfl⟩ : ∃ V', V = V' + 1 := ⟨V - 1, by omega⟩
  have hlane : ∀ a : Cells, ∀ r : Flat, redLanes n (frame n L) L a 1 1 r (block (V' + 1) (irange 1 (frame n L).ncx) 0) = .error .outOfBounds := by
    intro a r
    unfold redLanes block
    rw [ex]
    rcases hn with rfl | rfl <;>
    · simp only [Nat.zero_mul, List.drop_zero, List.take_succ_cons, moff, List.zipIdx_cons, List.foldlM_cons, List.map_cons]
      unfold Flat.lanes
      rw [if_neg]
      · rfl
      · intro hall
        have := (hall _ List.mem_cons_self).1
        simp only [origin, org, Lay.nnxy, Lay.ngridx, Lay.ngridy, h1, h2, h3] at this
        norm_num at this
        nlinarith [mul_nonneg hx hy]
  unfold reduction
  rw [ez, List.foldlM_cons, ey, List.foldlM_cons, hb, List.range_succ_eq_map, List.foldlM_cons, hlane]
  rfl

example : tileDirect 2 false (djLay 2) 4 8 djGeo [⟨true, -1, [djPart]⟩] .jx = .error .outOfBounds :=
  C115_two_guards_refuted (Or.inl rfl) (by norm_num [djLay]) (by norm_num [djLay]) (by norm_num [djLay]) rfl rfl rfl false (by norm_num) (by norm_num)
    (dj_ok 2).2.2 (by simpa using ⟨(dj_ok 2).1, (dj_ok 2).2.1⟩) .jx

/-- **C115** A block length `lvect` below eight does not change the blocks, which have eight particles: with more particles than `lvect` the arrays of the
block are written after their end. -/
theorem C115_short_block_refuted (n : ℕ) (nodal : Bool) (L : Lay) (V : ℕ) {lvect : ℕ} (hv : lvect < 8) (g : Geo) {s : Sp} (hs : s.ldodepos = true)
    (hp : lvect < s.parts.length) (sps : List Sp) (c : Comp) : tileDirect n nodal L V lvect g (s :: sps) c = .error .outOfBounds := by
  unfold tileDirect
  dsimp only
  have hne : s.parts ≠ [] := by intro e; rw [e] at hp; simp at hp
  obtain ⟨b, hb⟩ : ∃ b, nblocks LVEC s.parts.length = b + 1 := by
    refine ⟨nblocks LVEC s.parts.length - 1, ?_⟩
    have := nblocks_mul (v := LVEC) (by decide) s.parts.length
    rcases Nat.eq_zero_or_pos (nblocks LVEC s.parts.length) with e | e
    · rw [e] at this; omega
    · omega
  rw [List.foldlM_cons, hs]
  simp only [Bool.true_eq_false, if_false, if_neg hne]
  unfold vnr
  rw [hb, List.range_succ_eq_map, List.foldlM_cons]
  unfold blockCells
  rw [if_neg]
  · rfl
  · unfold block
    simp only [Nat.zero_mul, List.drop_zero, List.length_take, LVEC]
    omega

example : ∃ s : Sp, s.ldodepos = true ∧ 4 < s.parts.length := ⟨⟨true, 1, List.replicate 5 djPart⟩, rfl, by simp⟩

end Picsar.Props
