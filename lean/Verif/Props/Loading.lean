import Verif.Lemmas.Loading
import Verif.Props.Tiling
import Mathlib.Analysis.SpecialFunctions.Integrals.Basic

/-
C98: the plasma of the start: every cell whose middle is in the region of the species gets exactly the density asked for, all other cells get
nothing; the plasma does not depend on how the domain is cut among processes; the particles are stored in the tiles, with momenta that match
their velocities. The loading needs drift and thermal velocity well below the speed of light; the thermal velocities are not isotropic; random
positions ignore the region; the third distribution reads an undefined pointer.
-/
namespace Picsar.Props
open Picsar Picsar.Grid Picsar.Deposition Picsar.Loading Picsar.Spec

/-- Drift plus seven thermal velocities below the speed of light: the loading does not fail, whatever the random numbers are. -/
theorem C98_no_fault {pdistr dim : ℤ} (hd : pdistr ≠ 3) {m : Dom} {rng : ℕ → ℝ} (_hu : Uniform01 rng) {ss : List Sp}
    (hs : ∀ s ∈ ss, s.antenna = false → BelowLight m.c s) : ∃ res, loadParticles pdistr dim m rng ss = .ok res := by
  unfold loadParticles
  split_ifs
  · exact loadEach_ok fun s h ha n => uniform_ok (hs s h ha) rng n
  · exact loadEach_ok fun s h ha n => uniform2_ok (hs s h ha) rng n
  · exact ⟨_, rfl⟩
  · exact loadEach_ok fun s h ha n => random_ok (hs s h ha) rng n
  · exact ⟨_, rfl⟩

open Classical in
/-- Every cell of the subdomain holds the weight `density × volume` if its middle is in the region of the species and nothing otherwise; every
particle is in a cell of the subdomain; antennas get no plasma. -/
theorem C98_density {m : Dom} {rng : ℕ → ℝ} {ss : List Sp} {res : List (List Part)} (h : loadParticles 1 3 m rng ss = .ok res) {nx ny nz : ℤ}
    (hx : HasCells m.x nx) (hy : HasCells m.y ny) (hz : HasCells m.z nz) :
    List.Forall₂ (fun s ps => (s.antenna = true → ps = []) ∧ (s.antenna = false → 1 ≤ s.npp → ∀ J K L : ℤ, 0 ≤ J ∧ J < nx → 0 ≤ K ∧ K < ny → 0 ≤ L ∧ L < nz →
        (ps.map fun p => if InCell m J K L (siteOf p) then p.w else 0).sum =
          if Filled m.x s.xmin s.xmax J ∧ Filled m.y s.ymin s.ymax K ∧ Filled m.z s.zmin s.zmax L then m.nc * (m.x.d * m.y.d * m.z.d) else 0) ∧
      ∀ p ∈ ps, ∃ J K L : ℤ, (0 ≤ J ∧ J < nx) ∧ (0 ≤ K ∧ K < ny) ∧ (0 ≤ L ∧ L < nz) ∧ InCell m J K L (siteOf p)) ss res := by
  refine (load_forall (.inl rfl) h).imp ?_
  rintro s ps (⟨h1, rfl⟩ | ⟨h1, k, (⟨-, h2⟩ | ⟨h2, -⟩)⟩)
  · exact ⟨fun _ => rfl, fun h2 => by rw [h1] at h2; simp at h2, fun p hp => by simp at hp⟩
  · have hs := uniform_sites h2
    refine ⟨fun h3 => by rw [h1] at h3; simp at h3, fun _ hp J K L hJ hK hL => ?_, fun p hp => ?_⟩
    · have e : (ps.map fun p => if InCell m J K L (siteOf p) then p.w else 0) = (sites m s).map fun p => if InCell m J K L p then p.w else 0 := by
        rw [← hs, List.map_map]
        rfl
      rw [e, cell_weight hx.1 hy.1 hz.1 hp]
      simp only [mem_cellsOf hx, mem_cellsOf hy, mem_cellsOf hz, hJ.1, hJ.2, hK.1, hK.2, hL.1, hL.2, true_and, mul_assoc]
    · have hm : siteOf p ∈ sites m s := by rw [← hs]; exact List.mem_map_of_mem hp
      obtain ⟨l, hl, k, hk, j, hj, ip, hip, e⟩ := mem_sites hm
      rw [mem_cellsOf hx] at hj
      rw [mem_cellsOf hy] at hk
      rw [mem_cellsOf hz] at hl
      rw [mem_irange] at hip
      refine ⟨j, k, l, ⟨hj.1, hj.2.1⟩, ⟨hk.1, hk.2.1⟩, ⟨hl.1, hl.2.1⟩, ?_⟩
      rw [e]
      exact ⟨place_in hx.1 hip.1 hip.2 j, place_in hy.1 hip.1 hip.2 k, place_in hz.1 hip.1 hip.2 l⟩
  · omega

open Classical in
/-- The same in the plane, with the area of the cell. -/
theorem C98_density_plane {m : Dom} {rng : ℕ → ℝ} {ss : List Sp} {res : List (List Part)} (h : loadParticles 1 2 m rng ss = .ok res) {nx nz : ℤ}
    (hx : HasCells m.x nx) (hz : HasCells m.z nz) :
    List.Forall₂ (fun s ps => (s.antenna = true → ps = []) ∧ (s.antenna = false → 1 ≤ s.npp → ∀ J L : ℤ, 0 ≤ J ∧ J < nx → 0 ≤ L ∧ L < nz →
        (ps.map fun p => if InCell1 m.x J p.x ∧ InCell1 m.z L p.z then p.w else 0).sum =
          if Filled m.x s.xmin s.xmax J ∧ Filled m.z s.zmin s.zmax L then m.nc * (m.x.d * m.z.d) else 0) ∧
      ∀ p ∈ ps, p.y = 0 ∧ (m.x.lo ≤ p.x ∧ p.x < m.x.hi) ∧ (m.z.lo ≤ p.z ∧ p.z < m.z.hi)) ss res := by
  refine (load_forall2 h).imp ?_
  rintro s ps (⟨h1, rfl⟩ | ⟨h1, k, h2⟩)
  · exact ⟨fun _ => rfl, fun h2 => by rw [h1] at h2; simp at h2, fun p hp => by simp at hp⟩
  · have hs := uniform2_sites h2
    refine ⟨fun h3 => by rw [h1] at h3; simp at h3, fun _ hp J L hJ hL => ?_, fun p hp => ?_⟩
    · have e : (ps.map fun p => if InCell1 m.x J p.x ∧ InCell1 m.z L p.z then p.w else 0) =
          (sites2 m s).map fun p => if InCell1 m.x J p.x ∧ InCell1 m.z L p.z then p.w else 0 := by
        rw [← hs, List.map_map]
        rfl
      rw [e, cell_weight2 hx.1 hz.1 hp]
      simp only [mem_cellsOf hx, mem_cellsOf hz, hJ.1, hJ.2, hL.1, hL.2, true_and, mul_assoc]
    · have hm : siteOf p ∈ sites2 m s := by rw [← hs]; exact List.mem_map_of_mem hp
      unfold sites2 at hm
      rw [List.mem_flatMap] at hm
      obtain ⟨l, hl, hm⟩ := hm
      rw [List.mem_flatMap] at hm
      obtain ⟨j, hj, hm⟩ := hm
      obtain ⟨ip, hip, e⟩ := List.mem_map.mp hm
      rw [mem_cellsOf hx] at hj
      rw [mem_cellsOf hz] at hl
      rw [mem_irange] at hip
      unfold siteOf at e
      simp only [Site.mk.injEq] at e
      obtain ⟨e1, e2, e3, -⟩ := e
      rw [← e1, ← e2, ← e3]
      exact ⟨rfl, inCell_inside hx hj.1 hj.2.1 (place2_in hx.1 hip.1 hip.2 j), inCell_inside hz hl.1 hl.2.1 (place2_in hz.1 hip.1 hip.2 l)⟩

/-- The plasma does not depend on the decomposition: the positions and weights loaded by the processes of any Cartesian decomposition, taken
together, are those that one process loads for the whole domain, for every species and all random numbers. -/
theorem C98_decomposition {m : Dom} {cx cy cz : ℕ → ℤ} {Rx Ry Rz : ℕ} (hx : Cuts m.x cx Rx) (hy : Cuts m.y cy Ry) (hz : Cuts m.z cz Rz) {ss : List Sp}
    {rng : ℕ → ℕ → ℕ → ℕ → ℝ} {rng0 : ℕ → ℝ} {res : ℕ → ℕ → ℕ → List (List Part)} {res0 : List (List Part)}
    (h : ∀ rx < Rx, ∀ ry < Ry, ∀ rz < Rz, loadParticles 1 3 (subdomain m cx cy cz rx ry rz) (rng rx ry rz) ss = .ok (res rx ry rz))
    (h0 : loadParticles 1 3 m rng0 ss = .ok res0) (i : ℕ) :
    ((List.range Rz).flatMap fun rz => (List.range Ry).flatMap fun ry => (List.range Rx).flatMap fun rx => ((res rx ry rz).getD i []).map siteOf).Perm
      ((res0.getD i []).map siteOf) := by
  have e : ((List.range Rz).flatMap fun rz => (List.range Ry).flatMap fun ry => (List.range Rx).flatMap fun rx => ((res rx ry rz).getD i []).map siteOf) =
      (List.range Rz).flatMap fun rz => (List.range Ry).flatMap fun ry => (List.range Rx).flatMap fun rx =>
        match ss[i]? with
        | none => []
        | some s => if s.antenna then [] else sites (subdomain m cx cy cz rx ry rz) s := by
    refine List.flatMap_congr fun rz hrz => List.flatMap_congr fun ry hry => List.flatMap_congr fun rx hrx => ?_
    exact loaded_sites (h rx (List.mem_range.mp hrx) ry (List.mem_range.mp hry) rz (List.mem_range.mp hrz)) i
  rw [e, loaded_sites h0 i]
  have nil : ((List.range Rz).flatMap fun _ => (List.range Ry).flatMap fun _ => (List.range Rx).flatMap fun _ => ([] : List Site)) = [] := by
    simp
  cases ss[i]? with
  | none => dsimp only; rw [nil]
  | some s =>
    dsimp only
    by_cases ha : s.antenna = true
    · simp only [ha, if_true]
      rw [nil]
    · simp only [ha]
      exact sites_perm hx hy hz s

/-- Inverse gamma and momentum match, the speed is below that of light, and the velocity is the drift plus at most seven thermal velocities in some
direction; without thermal velocity it is the drift. -/
theorem C98_momenta {pdistr : ℤ} (hd : pdistr = 1 ∨ pdistr = 2) {m : Dom} (hc : 0 < m.c) {rng : ℕ → ℝ} {ss : List Sp} {res : List (List Part)}
    (h : loadParticles pdistr 3 m rng ss = .ok res) : List.Forall₂ (fun s ps => ∀ p ∈ ps,
      p.gaminv = 1 / √(1 + (p.ux ^ 2 + p.uy ^ 2 + p.uz ^ 2) / m.c ^ 2) ∧
      (p.ux * p.gaminv) ^ 2 + (p.uy * p.gaminv) ^ 2 + (p.uz * p.gaminv) ^ 2 < m.c ^ 2 ∧
      (∃ R a b : ℝ, 0 ≤ R ∧ R ≤ 7 ∧ p.ux * p.gaminv = s.vdx + s.vtx * (R * (Real.cos a * Real.cos b)) ∧
        p.uy * p.gaminv = s.vdy + s.vty * (R * (Real.cos a * Real.sin b)) ∧ p.uz * p.gaminv = s.vdz + s.vtz * (R * Real.sin a))) ss res := by
  refine (load_forall hd h).imp ?_
  intro s ps hs p hp
  have key : ∃ t r1 r2 r3, particle m.c t (thermal s r1 r2 r3) = .ok p := by
    rcases hs with ⟨-, rfl⟩ | ⟨-, k, (⟨-, h2⟩ | ⟨-, h2⟩)⟩
    · simp at hp
    · unfold Loading.uniform at h2
      obtain ⟨a, -, e⟩ := forall_mem_right (mapM_forall h2) hp
      exact ⟨_, _, _, _, e⟩
    · unfold random at h2
      obtain ⟨a, -, e⟩ := forall_mem_right (mapM_forall h2) hp
      exact ⟨_, _, _, _, e⟩
  obtain ⟨t, r1, r2, r3, e⟩ := key
  obtain ⟨-, g0, e1, e2, e3, e4⟩ := particle_spec e
  rw [← e1, ← e2, ← e3] at e4
  have hc2 : 0 < m.c ^ 2 := by positivity
  have hk : p.gaminv ^ 2 * (1 + (p.ux ^ 2 + p.uy ^ 2 + p.uz ^ 2) / m.c ^ 2) = 1 := by
    have : p.gaminv ^ 2 * (1 + (p.ux ^ 2 + p.uy ^ 2 + p.uz ^ 2) / m.c ^ 2) =
        p.gaminv ^ 2 + ((p.ux * p.gaminv) ^ 2 + (p.uy * p.gaminv) ^ 2 + (p.uz * p.gaminv) ^ 2) / m.c ^ 2 := by ring
    rw [this]
    linarith
  refine ⟨?_, ?_, √(-2 * Real.log (max (1 / 10 ^ 10) r1)), 2 * Real.pi * r2, 2 * Real.pi * r3, Real.sqrt_nonneg _, radius_le r1, ?_, ?_, ?_⟩
  · have hu : 0 ≤ 1 + (p.ux ^ 2 + p.uy ^ 2 + p.uz ^ 2) / m.c ^ 2 := by positivity
    have hg : 1 / √(1 + (p.ux ^ 2 + p.uy ^ 2 + p.uz ^ 2) / m.c ^ 2) = √(p.gaminv ^ 2) := by
      rw [one_div, ← Real.sqrt_inv]
      congr 1
      exact inv_eq_of_mul_eq_one_left hk
    rw [hg, Real.sqrt_sq g0.le]
  · have h1 : ((p.ux * p.gaminv) ^ 2 + (p.uy * p.gaminv) ^ 2 + (p.uz * p.gaminv) ^ 2) / m.c ^ 2 < 1 := by
      have := pow_pos g0 2
      linarith
    rwa [div_lt_one hc2] at h1
  · rw [e1]; unfold thermal; ring
  · rw [e2]; unfold thermal; ring
  · rw [e3]; unfold thermal; ring

/-- The particles are stored in the tiles: all additions succeed and the tiles hold exactly the loaded particles. -/
theorem C98_stored {pdistr : ℤ} (hd : pdistr = 1 ∨ pdistr = 2) {m : Dom} {rng : ℕ → ℝ} (hu : Uniform01 rng) {ss : List Sp} {res : List (List Part)}
    (h : loadParticles pdistr 3 m rng ss = .ok res) {nx ny nz : ℤ} (hx : HasCells m.x nx) (hy : HasCells m.y ny) (hz : HasCells m.z nz)
    {g : Tiling.Geo} {S0 : Tiling.Species 3} (hf : Tiling.Fits g S0.nt)
    (hg : (g.x.xmin = m.x.lo ∧ g.x.xmax = m.x.hi) ∧ (g.y.xmin = m.y.lo ∧ g.y.xmax = m.y.hi) ∧ (g.z.xmin = m.z.lo ∧ g.z.xmax = m.z.hi))
    (h0 : Tiling.HoldsAll S0 fun _ => []) (junk : Fin 3 → ℝ) {ps : List Part} (hp : ps ∈ res) :
    ∃ S L, ps.foldlM (fun S p => Tiling.addSpecies g.idx (stored junk p) S) S0 = .ok S ∧ S.nt = S0.nt ∧ S.npart = S0.npart + ps.length ∧
      Tiling.HoldsAll S L ∧ Tiling.total S.nt L = ((ps.map (stored junk) : List (Tiling.Part 3)) : Multiset (Tiling.Part 3)) := by
  have hin := load_inside hd h hu hx hy hz ps hp
  clear hp
  suffices key : ∀ (qs : List Part), (∀ p ∈ qs, (m.x.lo ≤ p.x ∧ p.x < m.x.hi) ∧ (m.y.lo ≤ p.y ∧ p.y < m.y.hi) ∧ (m.z.lo ≤ p.z ∧ p.z < m.z.hi)) →
      ∀ (S1 : Tiling.Species 3) L1, S1.nt = S0.nt → Tiling.HoldsAll S1 L1 →
      ∃ S L, qs.foldlM (fun S p => Tiling.addSpecies g.idx (stored junk p) S) S1 = .ok S ∧ S.nt = S0.nt ∧ S.npart = S1.npart + qs.length ∧
        Tiling.HoldsAll S L ∧ Tiling.total S.nt L = Tiling.total S1.nt L1 + ((qs.map (stored junk) : List (Tiling.Part 3)) : Multiset (Tiling.Part 3)) by
    obtain ⟨S, L, e1, e2, e3, e4, e5⟩ := key ps hin S0 _ rfl h0
    refine ⟨S, L, e1, e2, e3, e4, ?_⟩
    rw [e5]
    unfold Tiling.total
    simp
  intro qs
  induction qs with
  | nil => exact fun _ S1 L1 hn h1 => ⟨S1, L1, rfl, hn, by simp, h1, by simp⟩
  | cons p qs ih =>
    intro hq S1 L1 hn h1
    obtain ⟨⟨gx1, gx2⟩, ⟨gy1, gy2⟩, ⟨gz1, gz2⟩⟩ := hg
    have hs : Tiling.InSub g (stored junk p) := by
      unfold Tiling.InSub
      rw [gx1, gx2, gy1, gy2, gz1, gz2]
      exact hq p (List.mem_cons_self ..)
    obtain ⟨S2, L2, a1, a2, a3, a4, a5⟩ := PartExchange.addSpecies_ok (idx := g.idx) h1 (p := stored junk p) (by rw [hn]; exact sub_idx hf hs)
    obtain ⟨S, L, e1, e2, e3, e4, e5⟩ := ih (fun x hx => hq x (List.mem_cons_of_mem _ hx)) S2 L2 (a3.trans hn) a2
    refine ⟨S, L, ?_, e2, ?_, e4, ?_⟩
    · rw [List.foldlM_cons, a1, except_bind_ok]
      exact e1
    · rw [e3, a4, List.length_cons]; push_cast; ring
    · rw [e5, a3, a5, List.map_cons, ← Multiset.cons_coe, ← Multiset.singleton_add, add_assoc]

/-- The random distribution loads as many particles of the same weights as the uniform one, inside the subdomain. -/
theorem C98_random {m : Dom} {rng1 rng2 : ℕ → ℝ} (hu : Uniform01 rng2) {ss : List Sp} {res1 res2 : List (List Part)}
    (h1 : loadParticles 1 3 m rng1 ss = .ok res1) (h2 : loadParticles 2 3 m rng2 ss = .ok res2) {nx ny nz : ℤ} (hx : HasCells m.x nx)
    (hy : HasCells m.y ny) (hz : HasCells m.z nz) : (∀ i, (res2.getD i []).map (·.w) = (res1.getD i []).map (·.w)) ∧
      ∀ ps ∈ res2, ∀ p ∈ ps, (m.x.lo ≤ p.x ∧ p.x < m.x.hi) ∧ (m.y.lo ≤ p.y ∧ p.y < m.y.hi) ∧ (m.z.lo ≤ p.z ∧ p.z < m.z.hi) := by
  refine ⟨fun i => ?_, load_inside (.inr rfl) h2 hu hx hy hz⟩
  have e1 : (res1.getD i []).map (·.w) = ((res1.getD i []).map siteOf).map (·.w) := by rw [List.map_map]; rfl
  rw [e1, loaded_sites h1]
  rcases forall_getD (load_forall (.inr rfl) h2) [] i with ⟨a1, a2⟩ | ⟨s, a1, (⟨a2, a3⟩ | ⟨a2, k, (⟨a3, -⟩ | ⟨-, a3⟩)⟩)⟩
  · rw [a1, a2]; rfl
  · rw [a1, a3]; simp [a2]
  · omega
  · rw [a1, random_weights a3]; simp [a2]

/-! ### Cases -/

/-- Four cells in every direction. -/
noncomputable def ldDom : Dom := ⟨⟨0, 4, 1⟩, ⟨0, 4, 1⟩, ⟨0, 4, 1⟩, 8, 3⟩
/-- Two particles per cell in the left half. -/
noncomputable def ldSp : Sp := ⟨false, 2, 0, 2, 0, 4, 0, 4, 0, 0, 1, 1 / 10, 1 / 10, 1 / 10⟩
noncomputable def ldRng : ℕ → ℝ := fun _ => 1 / 2
def ldCut : ℕ → ℤ := fun r => 2 * r

theorem ld_axis : HasCells (⟨0, 4, 1⟩ : Axis) 4 := ⟨by norm_num, by norm_num, by norm_num⟩
theorem ld_uniform : Uniform01 ldRng := fun _ => by unfold ldRng; norm_num
theorem ld_sub : BelowLight ldDom.c ldSp := by
  refine ⟨by norm_num [ldDom], ?_⟩
  norm_num [ldSp, ldDom, abs_of_pos]
theorem ld_cuts : Cuts (⟨0, 4, 1⟩ : Axis) ldCut 2 := ⟨by norm_num, rfl, fun r => by unfold ldCut; push_cast; omega, by norm_num [ldCut]⟩

/-- The conditions of the theorems are met: the plasma is loaded, on the whole domain and by 2 × 2 × 2 processes. -/
example : (∃ res, loadParticles 1 3 ldDom ldRng [ldSp] = .ok res) ∧ (∃ res, loadParticles 2 3 ldDom ldRng [ldSp] = .ok res) ∧
    (∃ res, loadParticles 1 2 ldDom ldRng [ldSp] = .ok res) ∧
    (∀ rx ry rz, ∃ res, loadParticles 1 3 (subdomain ldDom ldCut ldCut ldCut rx ry rz) ldRng [ldSp] = .ok res) ∧
    HasCells ldDom.x 4 ∧ HasCells ldDom.y 4 ∧ HasCells ldDom.z 4 ∧ Cuts ldDom.x ldCut 2 ∧ Cuts ldDom.y ldCut 2 ∧ Cuts ldDom.z ldCut 2 := by
  have hs : ∀ s ∈ [ldSp], s.antenna = false → BelowLight ldDom.c s := by
    intro s h _
    rw [List.mem_singleton] at h
    rw [h]
    exact ld_sub
  exact ⟨C98_no_fault (by norm_num) ld_uniform hs, C98_no_fault (by norm_num) ld_uniform hs, C98_no_fault (by norm_num) ld_uniform hs,
    fun rx ry rz => C98_no_fault (by norm_num) ld_uniform hs, ld_axis, ld_axis, ld_axis, ld_cuts, ld_cuts, ld_cuts⟩

/-- Cell 1 is filled, cell 2 is not. -/
example : Filled ldDom.x ldSp.xmin ldSp.xmax 1 ∧ ¬ Filled ldDom.x ldSp.xmin ldSp.xmax 2 := by
  constructor
  · norm_num [Filled, ldDom, ldSp]
  · norm_num [Filled, ldDom, ldSp]

/-- Tiles for C98_stored: 21 cells in every direction in 3 × 3 × 3 tiles. -/
example : ∃ (m : Dom) (S0 : Tiling.Species 3), HasCells m.x 21 ∧ HasCells m.y 21 ∧ HasCells m.z 21 ∧ Tiling.Fits exGeo3 S0.nt ∧
    ((exGeo3.x.xmin = m.x.lo ∧ exGeo3.x.xmax = m.x.hi) ∧ (exGeo3.y.xmin = m.y.lo ∧ exGeo3.y.xmax = m.y.hi) ∧ (exGeo3.z.xmin = m.z.lo ∧ exGeo3.z.xmax = m.z.hi)) ∧
    Tiling.HoldsAll S0 (fun _ => []) ∧ ∃ res, loadParticles 1 3 m ldRng [ldSp] = .ok res := by
  have hx : HasCells (⟨exGeo.xmin, exGeo.xmax, 1⟩ : Axis) 21 := ⟨by norm_num, by norm_num, by norm_num [exGeo]⟩
  refine ⟨⟨⟨exGeo.xmin, exGeo.xmax, 1⟩, ⟨exGeo.xmin, exGeo.xmax, 1⟩, ⟨exGeo.xmin, exGeo.xmax, 1⟩, 8, 3⟩, ⟨⟨3, 3, 3⟩, fun _ => Tiling.newTile 1, 0⟩, hx, hx, hx, exFits,
    ⟨⟨rfl, rfl⟩, ⟨rfl, rfl⟩, ⟨rfl, rfl⟩⟩, fun u _ => ?_, ?_⟩
  · exact ⟨rfl, by simp [Tiling.newTile, Tiling.allocArrays], fun _ _ => rfl, fun _ => rfl, fun _ _ i hi => absurd hi (Nat.not_lt_zero i)⟩
  · refine C98_no_fault (by norm_num) ld_uniform fun s h _ => ?_
    rw [List.mem_singleton] at h
    rw [h]
    exact ld_sub

/-! ### What does not hold -/

/-- Not every thermal velocity below the speed of light can be loaded: a quarter of it takes the root of a negative number for some random numbers. -/
theorem C98_superluminal_refuted : ∃ (m : Dom) (s : Sp) (rng : ℕ → ℝ), Uniform01 rng ∧ HasCells m.x 4 ∧ HasCells m.y 4 ∧ HasCells m.z 4 ∧ s.antenna = false ∧
    s.vdx = 0 ∧ s.vdy = 0 ∧ s.vdz = 0 ∧ s.vtx = m.c / 4 ∧ s.vty = m.c / 4 ∧ s.vtz = m.c / 4 ∧ 0 < m.c ∧
    loadParticles 1 3 m rng [s] = .error .exception := by
  refine ⟨⟨⟨0, 4, 1⟩, ⟨0, 4, 1⟩, ⟨0, 4, 1⟩, 8, 4⟩, ⟨false, 1, 0, 4, 0, 4, 0, 4, 0, 0, 0, 1, 1, 1⟩, fun _ => 0, fun _ => by norm_num, ld_axis, ld_axis, ld_axis,
    rfl, rfl, rfl, rfl, by norm_num, by norm_num, by norm_num, by norm_num, ?_⟩
  have hc : (0 : ℤ) ∈ cellsOf ⟨0, 4, 1⟩ 0 4 := (mem_cellsOf ld_axis).mpr ⟨le_rfl, by norm_num, by norm_num [Filled]⟩
  have hne : (sites ⟨⟨0, 4, 1⟩, ⟨0, 4, 1⟩, ⟨0, 4, 1⟩, 8, 4⟩ ⟨false, 1, 0, 4, 0, 4, 0, 4, 0, 0, 0, 1, 1, 1⟩).zipIdx ≠ [] := by
    intro h
    rw [List.zipIdx_eq_nil_iff] at h
    have hm : (⟨place ⟨0, 4, 1⟩ 1 0 1, place ⟨0, 4, 1⟩ 1 0 1, place ⟨0, 4, 1⟩ 1 0 1, 8 * 1 * 1 * 1 / ((1 : ℤ) : ℝ)⟩ : Site) ∈
        sites ⟨⟨0, 4, 1⟩, ⟨0, 4, 1⟩, ⟨0, 4, 1⟩, 8, 4⟩ ⟨false, 1, 0, 4, 0, 4, 0, 4, 0, 0, 0, 1, 1, 1⟩ := by
      unfold sites
      exact List.mem_flatMap.mpr ⟨0, hc, List.mem_flatMap.mpr ⟨0, hc, List.mem_flatMap.mpr ⟨0, hc, List.mem_map.mpr ⟨1, by decide, rfl⟩⟩⟩⟩
    rw [h] at hm
    simp at hm
  unfold loadParticles loadEach
  rw [if_pos rfl, if_pos rfl, if_neg (by simp)]
  unfold Loading.uniform
  rw [mapM_error (e := .exception) ?_ hne]
  · rfl
  · intro a
    unfold particle thermal
    dsimp only
    have hR := radius_ge
    rw [if_pos]
    simp only [mul_zero, Real.cos_zero, Real.sin_zero]
    nlinarith

/-- The thermal velocities are not isotropic: with the same thermal velocity asked for in all directions, and for every random number that fixes the
speed, the mean square (over the other two random numbers) along z is twice the one along x. -/
theorem C98_isotropy_refuted (s : Sp) (r1 : ℝ) : (∫ r2 in (0 : ℝ)..1, ∫ r3 in (0 : ℝ)..1, ((thermal s r1 r2 r3).1 - s.vdx) ^ 2) =
      s.vtx ^ 2 * √(-2 * Real.log (max (1 / 10 ^ 10) r1)) ^ 2 / 4 ∧
    (∫ r2 in (0 : ℝ)..1, ∫ r3 in (0 : ℝ)..1, ((thermal s r1 r2 r3).2.2 - s.vdz) ^ 2) =
      s.vtz ^ 2 * √(-2 * Real.log (max (1 / 10 ^ 10) r1)) ^ 2 / 2 ∧
    (r1 < 1 → s.vtx = s.vtz → s.vtx ≠ 0 → (∫ r2 in (0 : ℝ)..1, ∫ r3 in (0 : ℝ)..1, ((thermal s r1 r2 r3).1 - s.vdx) ^ 2) ≠
      ∫ r2 in (0 : ℝ)..1, ∫ r3 in (0 : ℝ)..1, ((thermal s r1 r2 r3).2.2 - s.vdz) ^ 2) := by
  suffices hmain : (∫ r2 in (0 : ℝ)..1, ∫ r3 in (0 : ℝ)..1, ((thermal s r1 r2 r3).1 - s.vdx) ^ 2) =
        s.vtx ^ 2 * √(-2 * Real.log (max (1 / 10 ^ 10) r1)) ^ 2 / 4 ∧
      (∫ r2 in (0 : ℝ)..1, ∫ r3 in (0 : ℝ)..1, ((thermal s r1 r2 r3).2.2 - s.vdz) ^ 2) =
        s.vtz ^ 2 * √(-2 * Real.log (max (1 / 10 ^ 10) r1)) ^ 2 / 2 by
    refine ⟨hmain.1, hmain.2, fun h1 h2 h3 => ?_⟩
    rw [hmain.1, hmain.2, ← h2]
    have hl : Real.log (max (1 / 10 ^ 10) r1) < 0 :=
      Real.log_neg (lt_of_lt_of_le (by norm_num) (le_max_left _ _)) (max_lt (by norm_num) h1)
    have hR : 0 < √(-2 * Real.log (max (1 / 10 ^ 10) r1)) := Real.sqrt_pos.mpr (by linarith)
    have : 0 < s.vtx ^ 2 * √(-2 * Real.log (max (1 / 10 ^ 10) r1)) ^ 2 := by positivity
    intro e
    linarith
  have hpi : (2 * Real.pi) ≠ 0 := by positivity
  have hc : ∫ r in (0 : ℝ)..1, Real.cos (2 * Real.pi * r) ^ 2 = 1 / 2 := by
    rw [intervalIntegral.integral_comp_mul_left (fun x => Real.cos x ^ 2) hpi, integral_cos_sq]
    simp only [mul_zero, mul_one, Real.cos_two_pi, Real.sin_two_pi, Real.sin_zero, Real.cos_zero, smul_eq_mul]
    field_simp
    ring
  have hs : ∫ r in (0 : ℝ)..1, Real.sin (2 * Real.pi * r) ^ 2 = 1 / 2 := by
    rw [intervalIntegral.integral_comp_mul_left (fun x => Real.sin x ^ 2) hpi, integral_sin_sq]
    simp only [mul_zero, mul_one, Real.cos_two_pi, Real.sin_two_pi, Real.sin_zero, Real.cos_zero, smul_eq_mul]
    field_simp
    ring
  unfold thermal
  dsimp only
  generalize √(-2 * Real.log (max (1 / 10 ^ 10) r1)) = R
  constructor
  · have e : ∀ r2 r3 : ℝ, (s.vdx + s.vtx * R * Real.cos (2 * Real.pi * r2) * Real.cos (2 * Real.pi * r3) - s.vdx) ^ 2 =
        s.vtx ^ 2 * R ^ 2 * Real.cos (2 * Real.pi * r2) ^ 2 * Real.cos (2 * Real.pi * r3) ^ 2 := by intro r2 r3; ring
    simp only [e, intervalIntegral.integral_const_mul, intervalIntegral.integral_mul_const, hc]
    ring
  · have e : ∀ r2 : ℝ, (s.vdz + s.vtz * R * Real.sin (2 * Real.pi * r2) - s.vdz) ^ 2 = s.vtz ^ 2 * R ^ 2 * Real.sin (2 * Real.pi * r2) ^ 2 := by
      intro r2; ring
    simp only [e, intervalIntegral.integral_const_mul, intervalIntegral.integral_const, sub_zero, one_smul, hs]
    ring

/-- Random positions are not limited to the region of the species. -/
theorem C98_random_region_refuted : ∃ (m : Dom) (s : Sp) (rng : ℕ → ℝ) (ps : List Part) (p : Part), Uniform01 rng ∧ HasCells m.x 4 ∧ HasCells m.y 4 ∧
    HasCells m.z 4 ∧ BelowLight m.c s ∧ loadParticles 2 3 m rng [s] = .ok [ps] ∧ p ∈ ps ∧ s.xmax < p.x := by
  have hsub : BelowLight (3 : ℝ) ⟨false, 1, 0, 1, 0, 4, 0, 4, 0, 0, 0, 0, 0, 0⟩ := ⟨by norm_num, by norm_num⟩
  obtain ⟨res, hr⟩ := C98_no_fault (pdistr := 2) (dim := 3) (m := ldDom) (ss := [⟨false, 1, 0, 1, 0, 4, 0, 4, 0, 0, 0, 0, 0, 0⟩]) (by norm_num) ld_uniform
    (fun s h _ => by rw [List.mem_singleton] at h; rw [h]; exact hsub)
  have hf := load_forall (.inr rfl) hr
  cases hf with
  | @cons _ ps _ t h1 h2 =>
    cases h2
    rcases h1 with ⟨h1, -⟩ | ⟨-, k, (⟨h1, -⟩ | ⟨-, h1⟩)⟩
    · simp at h1
    · omega
    · have hl := random_length h1
      have hc : (0 : ℤ) ∈ cellsOf ⟨0, 4, 1⟩ 0 4 := (mem_cellsOf ld_axis).mpr ⟨le_rfl, by norm_num, by norm_num [Filled]⟩
      have hc1 : (0 : ℤ) ∈ cellsOf ⟨0, 4, 1⟩ 0 1 := (mem_cellsOf ld_axis).mpr ⟨le_rfl, by norm_num, by norm_num [Filled]⟩
      have hm : () ∈ slots ldDom ⟨false, 1, 0, 1, 0, 4, 0, 4, 0, 0, 0, 0, 0, 0⟩ := by
        unfold slots
        exact List.mem_flatMap.mpr ⟨0, hc, List.mem_flatMap.mpr ⟨0, hc, List.mem_flatMap.mpr ⟨0, hc1, List.mem_map.mpr ⟨1, by decide, rfl⟩⟩⟩⟩
      cases ps with
      | nil =>
        rw [List.length_nil] at hl
        rw [List.eq_nil_of_length_eq_zero hl.symm] at hm
        simp at hm
      | cons p ps =>
        refine ⟨_, _, _, p :: ps, p, ld_uniform, ld_axis, ld_axis, ld_axis, hsub, hr, List.mem_cons_self .., ?_⟩
        unfold random at h1
        obtain ⟨a, -, e⟩ := forall_mem_right (mapM_forall h1) (List.mem_cons_self ..)
        have e' := (particle_spec e).1
        unfold siteOf at e'
        simp only [Site.mk.injEq] at e'
        rw [e'.1]
        norm_num [anywhere, ldRng, ldDom]

/-- The third distribution reads an undefined pointer as soon as there is a species. -/
theorem C98_third_distribution_refuted (dim : ℤ) (m : Dom) (rng : ℕ → ℝ) (s : Sp) (ss : List Sp) :
    loadParticles 3 dim m rng (s :: ss) = .error .uninitialised := by
  unfold loadParticles
  rw [if_neg (by norm_num), if_neg (by norm_num), if_pos rfl]
  rfl

end Picsar.Props
