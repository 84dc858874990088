import Verif.Lemmas.ChargeVec
import Verif.Props.Deposition

/-
C97: the default, vectorised charge deposition gives the same array as the scalar one, for every block length and every SIMD width: it adds the
charge density of the particles at every node and writes nowhere else. It needs the particles to be in the tile and guard cells even without
particles.
-/
namespace Picsar.Props
open Picsar Picsar.Grid Picsar.Deposition Picsar.ChargeVec Picsar.Spec

/-- The storage of an array goes to the storage of what the scalar routine makes of this array. -/
theorem C97_same_as_scalar {n : ℕ} (hn : n = 1 ∨ n = 2 ∨ n = 3) {L : Lay} (hg : Guarded n L) {V lvect : ℕ} (hV : 1 ≤ V) (hl : 1 ≤ lvect) {g : Geo}
    {ps : List Part} (hp : ∀ p ∈ ps, InTile L g p) {r : Flat} {a : Arr} (hs : Stored L r a) :
    ∃ r' a', deposeVec n L V lvect g ps r = .ok r' ∧ deposeRho n g ps a = .ok a' ∧ Stored L r' a' := by
  obtain ⟨s1, s2, s3, s4⟩ := hs
  obtain ⟨r', h1, h2, h3⟩ := deposeVec_density hn hg hV hl hp (s1.trans (size_eq L).symm)
  refine ⟨r', _, h1, deposeRho_ok hn ps a (fun p h => inside_of hg (hp p h) s2 s3), h2.trans s1, s2, s3, ?_⟩
  intro i hi
  rw [h3 i hi, s4 i hi]
  rfl

/-- Every node receives the density of the particles, B-splines of the order of the deposition. -/
theorem C97_density {n : ℕ} (hn : n = 1 ∨ n = 2 ∨ n = 3) {L : Lay} (hg : Guarded n L) {V lvect : ℕ} (hV : 1 ≤ V) (hl : 1 ≤ lvect) {g : Geo}
    {ps : List Part} (hp : ∀ p ∈ ps, InTile L g p) {r : Flat}
    (hr : r.size = (L.nx + 1 + 2 * L.gx) * (L.ny + 1 + 2 * L.gy) * (L.nz + 1 + 2 * L.gz)) :
    ∃ r', deposeVec n L V lvect g ps r = .ok r' ∧ r'.size = r.size ∧ ∀ i, InBox (tileLo L) (tileHi L) i →
      r'.val (position L i) = r.val (position L i) + (ps.map fun p => g.q * p.w / (g.dx * g.dy * g.dz) *
        bspline n ((p.x - g.xmin) / g.dx - i.j) * bspline n ((p.y - g.ymin) / g.dy - i.k) * bspline n ((p.z - g.zmin) / g.dz - i.l)).sum :=
  deposeVec_density hn hg hV hl hp (hr.trans (size_eq L).symm)

/-- Two different nodes of the tile are at different places of the storage, and every place of the storage is that of a node. -/
theorem C97_positions (L : Lay) (h1 : 0 ≤ L.nx + 2 * L.gx) (h2 : 0 ≤ L.ny + 2 * L.gy) :
    (∀ i i', InBox (tileLo L) (tileHi L) i → InBox (tileLo L) (tileHi L) i' → position L i = position L i' → i = i') ∧
    (∀ m, (∃ i, InBox (tileLo L) (tileHi L) i ∧ position L i = m) ↔ 1 ≤ m ∧
      m ≤ (L.nx + 1 + 2 * L.gx) * (L.ny + 1 + 2 * L.gy) * (L.nz + 1 + 2 * L.gz)) := by
  refine ⟨fun i i' h h' e => position_inj h h' e, fun m => ⟨?_, ?_⟩⟩
  · rintro ⟨i, hi, rfl⟩
    rw [← size_eq]
    exact position_bounds hi
  · rintro ⟨m1, m2⟩
    have hX : 0 < L.nx + 1 + 2 * L.gx := by omega
    have hY : 0 < L.ny + 1 + 2 * L.gy := by omega
    generalize hx : L.nx + 1 + 2 * L.gx = X at *
    generalize hy : L.ny + 1 + 2 * L.gy = Y at *
    have a1 := Int.emod_nonneg (m - 1) hX.ne'
    have a2 := Int.emod_lt_of_pos (m - 1) hX
    have b1 := Int.emod_nonneg ((m - 1) / X) hY.ne'
    have b2 := Int.emod_lt_of_pos ((m - 1) / X) hY
    have c1 : 0 ≤ (m - 1) / X / Y := Int.ediv_nonneg (Int.ediv_nonneg (by omega) hX.le) hY.le
    have c2 : (m - 1) / X / Y < L.nz + 1 + 2 * L.gz := by
      rw [Int.ediv_lt_iff_lt_mul hY, Int.ediv_lt_iff_lt_mul hX]
      have : X * Y * (L.nz + 1 + 2 * L.gz) = (L.nz + 1 + 2 * L.gz) * Y * X := by ring
      omega
    refine ⟨⟨(m - 1) % X - L.gx, (m - 1) / X % Y - L.gy, (m - 1) / X / Y - L.gz⟩, ?_, ?_⟩
    · simp only [InBox, tileLo, tileHi]
      refine ⟨?_, ?_, ?_, ?_, ?_, ?_⟩ <;> omega
    · unfold position
      simp only [hx, hy, sub_add_cancel]
      have e1 := Int.emod_add_mul_ediv ((m - 1) / X) Y
      have e2 := Int.emod_add_mul_ediv (m - 1) X
      rw [e1]
      omega

/-- The block length has no effect, whatever the particles and the array, failures included. -/
theorem C97_block_length (n : ℕ) (L : Lay) (V : ℕ) {lvect lvect' : ℕ} (h : 1 ≤ lvect) (h' : 1 ≤ lvect') (g : Geo) (ps : List Part) (r : Flat) :
    deposeVec n L V lvect g ps r = deposeVec n L V lvect' g ps r := by
  unfold deposeVec
  rw [particles_eq h, particles_eq h', if_neg (by omega), if_neg (by omega)]

/-- A tile of 4 × 3 × 2 cells. -/
def cvLay (m : ℤ) : Lay := ⟨4, 3, 2, m, m, m⟩
def cvGeo : Geo := ⟨-1, 0, 0, 0, 1, 1, 1, 1⟩
noncomputable def cvPart : Part := ⟨4, 1 / 3, 0, 0, 0, 0, 1, 2⟩
noncomputable def cvArr : Arr := ⟨⟨-2, -2, -2⟩, ⟨6, 5, 4⟩, fun i => i.j⟩

example : Guarded 1 (cvLay 2) ∧ Guarded 2 (cvLay 2) ∧ Guarded 3 (cvLay 2) ∧ InTile (cvLay 2) cvGeo cvPart ∧
    density 2 cvGeo cvPart 4 0 0 ≠ 0 := by
  refine ⟨?_, ?_, ?_, ?_, ?_⟩
  · norm_num [Guarded, cvLay]
  · norm_num [Guarded, cvLay]
  · norm_num [Guarded, cvLay]
  · norm_num [InTile, cvLay, cvGeo, cvPart, cells]
  · have : |(1 / 3 : ℝ)| ≤ 1 / 2 := by rw [abs_le]; norm_num
    have h0 : (0 : ℝ) ≤ 1 / 2 := by norm_num
    norm_num [density, bspline, cvGeo, cvPart, this]

example : ∃ r, Stored (cvLay 2) r cvArr := by
  have h := (C97_positions (cvLay 2) (by norm_num [cvLay]) (by norm_num [cvLay])).1
  classical
  refine ⟨⟨_, fun m => if h : ∃ i, InBox (tileLo (cvLay 2)) (tileHi (cvLay 2)) i ∧ position (cvLay 2) i = m then cvArr.val h.choose else 0⟩, rfl, rfl, rfl, ?_⟩
  intro i hi
  have he : ∃ i', InBox (tileLo (cvLay 2)) (tileHi (cvLay 2)) i' ∧ position (cvLay 2) i' = position (cvLay 2) i := ⟨i, hi, rfl⟩
  dsimp only
  rw [dif_pos he]
  exact congrArg cvArr.val (h _ _ he.choose_spec.1 hi he.choose_spec.2)

/-- A particle outside the tile is not reported and its charge goes elsewhere, even when the array holds the node of the particle: at
`x = -2` cells in a tile of 2 × 2 × 2 cells with three guard cells, order 1, the charge goes to the other end of the row before. The scalar
routine deposits it at its place. -/
theorem C97_outside_tile_refuted {V lvect : ℕ} (hV : 1 ≤ V) (hl : 1 ≤ lvect) :
    ∃ (L : Lay) (g : Geo) (p : Part), Guarded 1 L ∧ (∀ r : Flat, r.size = L.size → ∃ r', deposeVec 1 L V lvect g [p] r = .ok r' ∧
      r'.val (position L ⟨-2, 1, 0⟩) = r.val (position L ⟨-2, 1, 0⟩) ∧ r'.val (position L ⟨2, 0, 0⟩) = r.val (position L ⟨2, 0, 0⟩) + 1) ∧
    ∀ a : Arr, a.lo = tileLo L → a.hi = tileHi L → ∃ a', deposeRho 1 g [p] a = .ok a' ∧ a'.val ⟨-2, 1, 0⟩ = a.val ⟨-2, 1, 0⟩ + 1 ∧
      a'.val ⟨2, 0, 0⟩ = a.val ⟨2, 0, 0⟩ := by
  refine ⟨⟨2, 2, 2, 3, 3, 3⟩, ⟨1, 0, 0, 0, 1, 1, 1, 1⟩, ⟨-2, 1, 0, 0, 0, 0, 1, 1⟩, by norm_num [Guarded], ?_, ?_⟩
  · intro r hr
    have ha := deposeVec_alias (n := 1) (Or.inl rfl) ⟨2, 2, 2, 3, 3, 3⟩ V hl ⟨1, 0, 0, 0, 1, 1, 1, 1⟩ (by norm_num) (by norm_num)
      ⟨2, 0, 0, 0, 0, 0, 1, 1⟩ r
    obtain ⟨r', h1, _, h3⟩ := deposeVec_density (n := 1) (Or.inl rfl) (L := ⟨2, 2, 2, 3, 3, 3⟩) (by norm_num [Guarded]) hV hl
      (g := ⟨1, 0, 0, 0, 1, 1, 1, 1⟩) (ps := [⟨2, 0, 0, 0, 0, 0, 1, 1⟩]) (by norm_num [InTile, cells]) hr
    refine ⟨r', ?_, ?_, ?_⟩
    · rw [← h1, ← ha]
      norm_num [ncx]
    · rw [h3 _ (by norm_num [InBox, tileLo, tileHi])]
      norm_num [densities, density, bspline]
    · rw [h3 _ (by norm_num [InBox, tileLo, tileHi])]
      norm_num [densities, density, bspline]
  · intro a hlo hhi
    refine ⟨_, deposeRho_ok (Or.inl rfl) _ a ?_, ?_, ?_⟩
    · intro p hp
      rw [List.mem_singleton] at hp
      subst hp
      norm_num [Inside, reachRho, hlo, hhi, tileLo, tileHi]
    · norm_num [addA, densities, density, bspline]
    · norm_num [addA, densities, density, bspline]

/-- Without guard cells in z the last loop writes before the array even when there is no particle. The scalar routine does nothing. -/
theorem C97_no_guard_refuted {V lvect : ℕ} (hV : 1 ≤ V) (hl : 1 ≤ lvect) {L : Lay} (h1 : 0 ≤ L.nx) (h2 : 0 ≤ L.ny) (h3 : 0 ≤ L.nz) (h4 : 0 ≤ L.gx)
    (h5 : 0 ≤ L.gy) (h6 : L.gz = 0) (g : Geo) {r : Flat} {a : Arr} (_hs : Stored L r a) :
    deposeVec 1 L V lvect g [] r = .error .outOfBounds ∧ deposeRho 1 g [] a = .ok a := by
  refine ⟨?_, rfl⟩
  have hcons : ∀ m : ℤ, 1 ≤ m → ∃ t, irange 1 m = 1 :: t := by
    intro m hm
    obtain ⟨k, hk⟩ : ∃ k : ℕ, (m - 1 + 1).toNat = k + 1 := ⟨(m - 1).toNat, by omega⟩
    unfold irange
    rw [hk, List.range_succ_eq_map]
    exact ⟨_, rfl⟩
  obtain ⟨tz, hz⟩ := hcons (ncz 1 L) (by simp only [ncz]; omega)
  obtain ⟨ty, hy⟩ := hcons (ncy 1 L) (by simp only [ncy]; omega)
  obtain ⟨tx, hx⟩ := hcons (ncx 1 L) (by simp only [ncx]; omega)
  obtain ⟨b, hb⟩ : ∃ b, nblocks V (irange 1 (ncx 1 L)).length = b + 1 := by
    rw [hx, List.length_cons]
    refine ⟨nblocks V (tx.length + 1) - 1, ?_⟩
    have := nblocks_mul hV (tx.length + 1)
    rcases Nat.eq_zero_or_pos (nblocks V (tx.length + 1)) with e | e
    · rw [e] at this; omega
    · omega
  obtain ⟨V', rfl⟩ : ∃ V', V = V' + 1 := ⟨V - 1, by omega⟩
  have hlane : ∀ c : Cells, ∀ r : Flat, reduceLanes 1 L c 1 1 r (block (V' + 1) (irange 1 (ncx 1 L)) 0) = .error .outOfBounds := by
    intro c r
    unfold reduceLanes block
    rw [hx]
    simp only [Nat.zero_mul, List.drop_zero, List.take_succ_cons, moff, List.zipIdx_cons, List.foldlM_cons, List.map_cons]
    unfold Flat.lanes
    rw [if_neg]
    · rfl
    · intro hall
      have := (hall _ List.mem_cons_self).1
      simp only [orig, ngx, ngxy, ncx, ncxy, ncy, jorig, korig, lorig, Lay.nnxy, Lay.ngridx, Lay.ngridy, h6] at this
      norm_num at this
      nlinarith [mul_nonneg h1 h2, mul_nonneg h1 h5, mul_nonneg h4 h2, mul_nonneg h4 h5]
  unfold deposeVec
  rw [if_neg (by omega), particles_eq hl]
  simp only [List.map_nil, List.foldlM_nil, pure_bind]
  unfold reduce
  rw [hz, List.foldlM_cons, hy, List.foldlM_cons, hb, List.range_succ_eq_map, List.foldlM_cons, hlane]
  rfl

example : ∃ (L : Lay) (r : Flat) (a : Arr), L.gz = 0 ∧ 0 ≤ L.nz ∧ Stored L r a ∧ a.val ⟨0, 0, 0⟩ = 1 :=
  ⟨⟨1, 1, 1, 0, 0, 0⟩, ⟨8, fun _ => 1⟩, ⟨⟨0, 0, 0⟩, ⟨1, 1, 1⟩, fun _ => 1⟩, rfl, by norm_num, ⟨by norm_num, rfl, rfl, fun _ _ => rfl⟩, rfl⟩

end Picsar.Props
