import Verif.Lemmas.CircGather

/-
Gathering of fields given by azimuthal modes (C136, C137).
-/
namespace Picsar.Props
open Picsar Picsar.Grid Picsar.Deposition Picsar.Gather Picsar.Spec Picsar.CircGather

/-- The stencils of every mode are those of the component. -/
def PlacedAt (o : Opt) (n : ℕ) : Prop := n = 1 ∨ ModesPlaced o.nr o.nz o.lower o.nodal

theorem inRz_cells {g : RzGeo} (hd : 0 < g.dr ∧ 0 < g.dz) {nr nz : ℤ} {p : Pt} (h : InRz g nr nz p) :
    0 ≤ (√(p.1 ^ 2 + p.2.1 ^ 2) - g.rmin) / g.dr ∧ (√(p.1 ^ 2 + p.2.1 ^ 2) - g.rmin) / g.dr < nr ∧
      0 ≤ (p.2.2 - g.zmin) / g.dz ∧ (p.2.2 - g.zmin) / g.dz < nz := by
  obtain ⟨h1, h2, h3, h4⟩ := h
  refine ⟨div_nonneg (by linarith) hd.1.le, ?_, div_nonneg (by linarith) hd.2.le, ?_⟩
  · rw [div_lt_iff₀ hd.1]; linarith
  · rw [div_lt_iff₀ hd.2]; linarith

theorem gather_allIn {o : Opt} (hr : Order o.nr) (hz : Order o.nz) (vr vz lr lz : Bool) {R Z : ℝ} {nr nz gr gz : ℤ} {F : Fld} {n : ℕ}
    (hF : HoldsTile F nr nz gr gz n) (h : 0 ≤ R ∧ R < nr ∧ 0 ≤ Z ∧ Z < nz) (hg : guardsFor o.nr ≤ gr) (hg' : guardsFor o.nz ≤ gz) :
    AllIn o vr vz lr lz n F R Z := fun _ hm =>
  ⟨inside_tile hr hz hm (hF F.r (by simp)) h hg hg', inside_tile hr hz hm (hF F.t (by simp)) h hg hg',
    inside_tile hr hz hm (hF F.z (by simp)) h hg hg'⟩

/-- The sum over the modes of what the loops compute. -/
noncomputable def loopField (o : Opt) (vr vz lr lz : Bool) (n : ℕ) (g : RzGeo) (F : Fld) (p : Pt) : Out :=
  ((List.range n).map (modeOut o vr vz lr lz F (Real.cos (azimuth g.dr p.1 p.2.1)) (Real.sin (azimuth g.dr p.1 p.2.1))
    ((√(p.1 ^ 2 + p.2.1 ^ 2) - g.rmin) / g.dr) ((p.2.2 - g.zmin) / g.dz)
    ⟨Real.cos (azimuth g.dr p.1 p.2.1), -Real.sin (azimuth g.dr p.1 p.2.1)⟩)).sum

theorem gather_loop {o : Opt} (hr : Order o.nr) (hz : Order o.nz) (vr vz lr lz : Bool) {nr nz gr gz : ℤ} {F : Fld} {n : ℕ} (hn : 1 ≤ n)
    (hF : HoldsTile F nr nz gr gz n) {g : RzGeo} (hd : 0 < g.dr ∧ 0 < g.dz) (hg : guardsFor o.nr ≤ gr) (hg' : guardsFor o.nz ≤ gz)
    (ps : List (Pt × Out)) (hp : ∀ p ∈ ps, InRz g nr nz p.1) :
    gatherAll o vr vz lr lz n g F ps = .ok (ps.map fun p => p.2 + loopField o vr vz lr lz n g F p.1) := by
  refine gatherAll_ok ps fun p hpp v => ?_
  rw [gatherOne_ok hn rfl rfl (gather_allIn hr hz vr vz lr lz hF (by
    have := inRz_cells hd (hp p hpp)
    rw [pow_two, pow_two, div_eq_mul_one_div, div_eq_mul_one_div _ g.dz] at this
    exact this) hg hg'), cosSin_eq]
  unfold loopField
  rw [pow_two, pow_two, ← div_eq_mul_one_div, ← div_eq_mul_one_div]

theorem placed_node {o : Opt} (hr : Order o.nr) (hz : Order o.nz) {n : ℕ} (hp : PlacedAt o n) {R Z : ℝ} (hR : 0 ≤ R) (hZ : 0 ≤ Z) (sr sz : Bool)
    {m : ℕ} (hm : m < n) : nodeOf o.cr sr m R = base o.cr sr R ∧ nodeOf o.cz sz m Z = base o.cz sz Z := by
  unfold nodeOf
  rcases hp with rfl | hp
  · simp [show m = 0 by omega]
  · split_ifs with h0
    · exact ⟨rfl, rfl⟩
    · refine ⟨(base_placed (c := o.cr) hr hR ?_ sr).symm, (base_placed (c := o.cz) hz hZ ?_ sz).symm⟩
      · rcases hp with ⟨a, b, c, -⟩ | h
        · exact Or.inl ⟨a, b, c⟩
        · exact Or.inr h
      · rcases hp with ⟨a, b, -, c⟩ | h
        · exact Or.inl ⟨a, b, c⟩
        · exact Or.inr h

theorem loopField_cyl {o : Opt} (hr : Order o.nr) (hz : Order o.nz) (q qz : Comp) {nr nz gr gz : ℤ} {F : Fld} {n : ℕ}
    (hF : HoldsTile F nr nz gr gz n) {g : RzGeo} (hd : 0 < g.dr ∧ 0 < g.dz) (hg : guardsFor o.nr ≤ gr) (hg' : guardsFor o.nz ≤ gz)
    (hpl : PlacedAt o n) {p : Pt} (hp : InRz g nr nz p) :
    loopField o (yeeStag q 0) (yeeStag q 2) (yeeStag qz 0) (yeeStag qz 2) n g F p = cylField o.nr o.nz o.lower o.nodal q q qz n g F p := by
  have hc := inRz_cells hd hp
  have hin := gather_allIn hr hz (yeeStag q 0) (yeeStag q 2) (yeeStag qz 0) (yeeStag qz 2) hF hc hg hg'
  have key : ∀ (s : Comp) (a : CArr) (m : ℕ), m < n →
      Inside o (yeeStag s 0) (yeeStag s 2) ((√(p.1 ^ 2 + p.2.1 ^ 2) - g.rmin) / g.dr) ((p.2.2 - g.zmin) / g.dz)
        (nodeOf o.cr (yeeStag s 0) m ((√(p.1 ^ 2 + p.2.1 ^ 2) - g.rmin) / g.dr)) (nodeOf o.cz (yeeStag s 2) m ((p.2.2 - g.zmin) / g.dz)) a m →
      mval o (yeeStag s 0) (yeeStag s 2) ((√(p.1 ^ 2 + p.2.1 ^ 2) - g.rmin) / g.dr) ((p.2.2 - g.zmin) / g.dz) a
        ⟨Real.cos (azimuth g.dr p.1 p.2.1), -Real.sin (azimuth g.dr p.1 p.2.1)⟩ m =
      (modeValue o.nr o.nz o.lower o.nodal s a ((√(p.1 ^ 2 + p.2.1 ^ 2) - g.rmin) / g.dr) ((p.2.2 - g.zmin) / g.dz) m *
        Complex.exp (-(m * azimuth g.dr p.1 p.2.1) * Complex.I)).re := by
    intro s a m hm hi
    obtain ⟨e1, e2⟩ := placed_node hr hz hpl hc.1 hc.2.2.1 (yeeStag s 0) (yeeStag s 2) hm
    rw [e1, e2] at hi
    unfold mval
    rw [e1, e2, modeValue_re hr hz s hi, phase_pow]
  unfold loopField cylField cartesian modeSum
  dsimp only
  have e : (List.range n).map (modeOut o (yeeStag q 0) (yeeStag q 2) (yeeStag qz 0) (yeeStag qz 2) F (Real.cos (azimuth g.dr p.1 p.2.1))
      (Real.sin (azimuth g.dr p.1 p.2.1)) ((√(p.1 ^ 2 + p.2.1 ^ 2) - g.rmin) / g.dr) ((p.2.2 - g.zmin) / g.dz)
      ⟨Real.cos (azimuth g.dr p.1 p.2.1), -Real.sin (azimuth g.dr p.1 p.2.1)⟩) = (List.range n).map fun m =>
      (((modeValue o.nr o.nz o.lower o.nodal q F.r ((√(p.1 ^ 2 + p.2.1 ^ 2) - g.rmin) / g.dr) ((p.2.2 - g.zmin) / g.dz) m *
        Complex.exp (-(m * azimuth g.dr p.1 p.2.1) * Complex.I)).re * Real.cos (azimuth g.dr p.1 p.2.1) -
        (modeValue o.nr o.nz o.lower o.nodal q F.t ((√(p.1 ^ 2 + p.2.1 ^ 2) - g.rmin) / g.dr) ((p.2.2 - g.zmin) / g.dz) m *
        Complex.exp (-(m * azimuth g.dr p.1 p.2.1) * Complex.I)).re * Real.sin (azimuth g.dr p.1 p.2.1),
        (modeValue o.nr o.nz o.lower o.nodal q F.r ((√(p.1 ^ 2 + p.2.1 ^ 2) - g.rmin) / g.dr) ((p.2.2 - g.zmin) / g.dz) m *
        Complex.exp (-(m * azimuth g.dr p.1 p.2.1) * Complex.I)).re * Real.sin (azimuth g.dr p.1 p.2.1) +
        (modeValue o.nr o.nz o.lower o.nodal q F.t ((√(p.1 ^ 2 + p.2.1 ^ 2) - g.rmin) / g.dr) ((p.2.2 - g.zmin) / g.dz) m *
        Complex.exp (-(m * azimuth g.dr p.1 p.2.1) * Complex.I)).re * Real.cos (azimuth g.dr p.1 p.2.1),
        (modeValue o.nr o.nz o.lower o.nodal qz F.z ((√(p.1 ^ 2 + p.2.1 ^ 2) - g.rmin) / g.dr) ((p.2.2 - g.zmin) / g.dz) m *
        Complex.exp (-(m * azimuth g.dr p.1 p.2.1) * Complex.I)).re) : Out) := by
    refine List.map_congr_left fun m hm => ?_
    have hm := List.mem_range.mp hm
    unfold modeOut
    rw [key q F.r m hm (hin m hm).1, key q F.t m hm (hin m hm).2.1, key qz F.z m hm (hin m hm).2.2]
  rw [e, sum3, range_sum, range_sum, range_sum, Finset.sum_sub_distrib, Finset.sum_add_distrib, Finset.sum_mul, Finset.sum_mul, Finset.sum_mul,
    Finset.sum_mul]

/-! ### C136 -/

/-- **C136** (part that holds) Where the modes above 0 are not displaced, every particle of the tile receives, added to what it had, the value at its
position of the field `Re Σ_m a_m exp(-imθ)`, each mode being interpolated by splines of the stated orders between the grid points; the azimuthal
component is read where the radial one lives. Missing: the azimuthal component on a Yee grid (`C136_theta_refuted`) and the other options
(`C136_modes_refuted`). -/
theorem C136_gather_partial (o : Opt) (hr : Order o.nr) (hz : Order o.nz) (nr nz gr gz : ℤ) (E B : Fld) (n : ℕ) (hn : 1 ≤ n)
    (hE : HoldsTile E nr nz gr gz n) (hB : HoldsTile B nr nz gr gz n) (g : RzGeo) (hd : 0 < g.dr ∧ 0 < g.dz) (hg : guardsFor o.nr ≤ gr)
    (hg' : guardsFor o.nz ≤ gz) (hpl : n = 1 ∨ ModesPlaced o.nr o.nz o.lower o.nodal) (ps : List (Pt × Out × Out))
    (hp : ∀ p ∈ ps, InRz g nr nz p.1) :
    getEB o n g E B ps = .ok (ps.map fun p => plus p.2.1 (cylField o.nr o.nz o.lower o.nodal .ex .ex .ez n g E p.1),
      ps.map fun p => plus p.2.2 (cylField o.nr o.nz o.lower o.nodal .bx .bx .bz n g B p.1)) := by
  unfold getEB gatherE gatherB
  rw [gather_loop hr hz true false false true hn hE hd hg hg' _ (by
    intro p h
    obtain ⟨q, hq, rfl⟩ := List.mem_map.mp h
    exact hp q hq)]
  simp only [except_bind_ok]
  rw [gather_loop hr hz false true true false hn hB hd hg hg' _ (by
    intro p h
    obtain ⟨q, hq, rfl⟩ := List.mem_map.mp h
    exact hp q hq)]
  simp only [except_bind_ok]
  refine congrArg Except.ok ?_
  rw [List.map_map, List.map_map]
  congr 1
  · refine List.map_congr_left fun p h => ?_
    show p.2.1 + loopField o true false false true n g E p.1 = _
    rw [← loopField_cyl hr hz .ex .ez hE hd hg hg' hpl (hp p h)]
    rfl
  · refine List.map_congr_left fun p h => ?_
    show p.2.2 + loopField o false true true false n g B p.1 = _
    rw [← loopField_cyl hr hz .bx .bz hB hd hg hg' hpl (hp p h)]
    rfl

/-- **C136** On a grid whose values all live at the nodes, and without lowered orders, this is the field for every number of modes. -/
theorem C136_gather_nodal (nr' nz' : ℕ) (hr : Order nr') (hz : Order nz') (nr nz gr gz : ℤ) (E B : Fld) (n : ℕ) (hn : 1 ≤ n)
    (hE : HoldsTile E nr nz gr gz n) (hB : HoldsTile B nr nz gr gz n) (g : RzGeo) (hd : 0 < g.dr ∧ 0 < g.dz) (hg : guardsFor nr' ≤ gr)
    (hg' : guardsFor nz' ≤ gz) (ps : List (Pt × Out × Out)) (hp : ∀ p ∈ ps, InRz g nr nz p.1) :
    getEB ⟨nr', nz', false, true⟩ n g E B ps =
      .ok (ps.map fun p => plus p.2.1 (cylField nr' nz' false true .ex .ey .ez n g E p.1),
        ps.map fun p => plus p.2.2 (cylField nr' nz' false true .bx .by' .bz n g B p.1)) := by
  rw [C136_gather_partial ⟨nr', nz', false, true⟩ hr hz nr nz gr gz E B n hn hE hB g hd hg hg' (Or.inr (Or.inr ⟨rfl, rfl⟩)) ps hp]
  rfl

/-- **C136** With any options, no element outside the arrays is read, and every particle gets a field. -/
theorem C136_in_bounds (o : Opt) (hr : Order o.nr) (hz : Order o.nz) (nr nz gr gz : ℤ) (E B : Fld) (n : ℕ) (hn : 1 ≤ n)
    (hE : HoldsTile E nr nz gr gz n) (hB : HoldsTile B nr nz gr gz n) (g : RzGeo) (hd : 0 < g.dr ∧ 0 < g.dz) (hg : guardsFor o.nr ≤ gr)
    (hg' : guardsFor o.nz ≤ gz) (ps : List (Pt × Out × Out)) (hp : ∀ p ∈ ps, InRz g nr nz p.1) :
    ∃ e b, getEB o n g E B ps = .ok (e, b) ∧ e.length = ps.length ∧ b.length = ps.length := by
  unfold getEB gatherE gatherB
  rw [gather_loop hr hz true false false true hn hE hd hg hg' _ (by
    intro p h
    obtain ⟨q, hq, rfl⟩ := List.mem_map.mp h
    exact hp q hq)]
  simp only [except_bind_ok]
  rw [gather_loop hr hz false true true false hn hB hd hg hg' _ (by
    intro p h
    obtain ⟨q, hq, rfl⟩ := List.mem_map.mp h
    exact hp q hq)]
  exact ⟨_, _, rfl, by simp, by simp⟩

/-! Non-vacuity: orders 3 and 1, two modes, a particle off the axis, values that vary. -/

example : ∃ (o : Opt) (E B : Fld) (g : RzGeo) (p : Pt), Order o.nr ∧ Order o.nz ∧ HoldsTile E 2 1 2 1 2 ∧ HoldsTile B 2 1 2 1 2 ∧
    0 < g.dr ∧ 0 < g.dz ∧ guardsFor o.nr ≤ 2 ∧ guardsFor o.nz ≤ 1 ∧ ModesPlaced o.nr o.nz o.lower o.nodal ∧ InRz g 2 1 p ∧ p.2.1 ≠ 0 ∧
    E.r.val 0 0 1 ≠ E.r.val 1 0 1 := by
  refine ⟨⟨3, 1, true, false⟩, ⟨⟨-2, 4, -1, 2, 2, fun j _ _ => j⟩, ⟨-2, 4, -1, 2, 2, fun j _ _ => j⟩, ⟨-2, 4, -1, 2, 2, fun j _ _ => j⟩⟩,
    ⟨⟨-2, 4, -1, 2, 2, fun j _ _ => j⟩, ⟨-2, 4, -1, 2, 2, fun j _ _ => j⟩, ⟨-2, 4, -1, 2, 2, fun j _ _ => j⟩⟩, ⟨0, 0, 1, 1⟩, (3 / 5, 4 / 5, 1 / 2),
    Or.inr (Or.inr rfl), Or.inl rfl, ?_, ?_, by norm_num, by norm_num, by decide, by decide, Or.inl ⟨rfl, rfl, by decide, by decide⟩, ?_, by norm_num, ?_⟩
  · rintro a (rfl | rfl | rfl) <;> exact ⟨rfl, rfl, rfl, rfl, rfl⟩
  · rintro a (rfl | rfl | rfl) <;> exact ⟨rfl, rfl, rfl, rfl, rfl⟩
  · have : √((3 / 5 : ℝ) ^ 2 + (4 / 5) ^ 2) = 1 := by norm_num
    refine ⟨?_, ?_, ?_, ?_⟩ <;> dsimp only <;> (try rw [this]) <;> norm_num
  · norm_num

/-! ### Where it is not the field -/

/-- An array of a tile of 4 by 4 cells with 2 guard cells. -/
def wide (n : ℕ) (f : ℤ → ℤ → ℕ → ℂ) : CArr := ⟨-2, 6, -2, 6, n, f⟩

/-- Unit cells, axis at the lower bound. -/
def unitGeo : RzGeo := ⟨0, 0, 1, 1⟩

theorem holds_wide (n : ℕ) (f1 f2 f3 : ℤ → ℤ → ℕ → ℂ) : HoldsTile ⟨wide n f1, wide n f2, wide n f3⟩ 4 4 2 2 n := by
  rintro a (rfl | rfl | rfl) <;> exact ⟨rfl, rfl, rfl, rfl, rfl⟩

theorem guards_two {k : ℕ} : guardsFor k ≤ 2 := by unfold guardsFor; split_ifs <;> norm_num

theorem azimuth_line {x : ℝ} (h : 0 ≤ x) : azimuth 1 x 0 = 0 := by
  unfold azimuth
  split_ifs
  · exact Complex.arg_ofReal_of_nonneg h
  · rfl

theorem line_radius {x : ℝ} (h : 0 ≤ x) : √(x ^ 2 + 0 ^ 2) = x := by
  rw [zero_pow two_ne_zero, add_zero, Real.sqrt_sq h]

theorem wsum_line {o : Opt} (hr : Order o.nr) (hz : Order o.nz) (sr sz : Bool) (R Z : ℝ) (br bz : ℤ) :
    wsum o sr sz R Z br bz (fun j _ => (j : ℝ)) = br + ((axisWts o.cr sr R).map fun w => w.2 * (w.1 : ℝ)).sum ∧
    wsum o sr sz R Z br bz (fun _ l => (l : ℝ)) = bz + ((axisWts o.cz sz Z).map fun w => w.2 * (w.1 : ℝ)).sum := by
  have h1 := axis_sum (c := o.cr) hr sr R
  have h2 := axis_sum (c := o.cz) hz sz Z
  unfold wsum
  constructor
  · have e : ∀ wz : ℤ × ℝ, ((axisWts o.cr sr R).map fun wr => wz.2 * wr.2 * ((br + wr.1 : ℤ) : ℝ)).sum =
        wz.2 * (br + ((axisWts o.cr sr R).map fun w => w.2 * (w.1 : ℝ)).sum) := by
      intro wz
      rw [show (fun wr : ℤ × ℝ => wz.2 * wr.2 * ((br + wr.1 : ℤ) : ℝ)) = fun wr => wz.2 * (wr.2 * br + wr.2 * (wr.1 : ℝ)) by
        funext wr; push_cast; ring, List.sum_map_mul_left, List.sum_map_add, List.sum_map_mul_right, h1, one_mul]
    simp only [e, List.sum_map_mul_right, h2, one_mul]
  · have e : ∀ wz : ℤ × ℝ, ((axisWts o.cr sr R).map fun wr => wz.2 * wr.2 * ((bz + wz.1 : ℤ) : ℝ)).sum = wz.2 * bz + wz.2 * (wz.1 : ℝ) := by
      intro wz
      rw [show (fun wr : ℤ × ℝ => wz.2 * wr.2 * ((bz + wz.1 : ℤ) : ℝ)) = fun wr => wr.2 * (wz.2 * bz + wz.2 * (wz.1 : ℝ)) by
        funext wr; push_cast; ring, List.sum_map_mul_right, h1, one_mul]
    simp only [e]
    rw [List.sum_map_add, List.sum_map_mul_right, h2, one_mul]

theorem bad_position {c : Cfg} (hn : Order c.n) (h : ¬ ((c.lower = true ∧ c.nodal = false ∧ c.n ≠ 2) ∨ (c.lower = false ∧ c.nodal = true))) :
    ∃ x : ℝ, 0 < x ∧ x < 1 ∧ base c true x ≠ base c false x := by
  obtain ⟨n, lower, nodal⟩ := c
  dsimp only at hn h
  have f1 : ⌊(3 / 4 : ℝ)⌋ = 0 := by norm_num
  have f2 : ⌊(3 / 4 + 1 / 2 : ℝ)⌋ = 1 := by norm_num
  have f3 : ⌊(1 / 4 : ℝ)⌋ = 0 := by norm_num
  have f4 : ⌊(1 / 4 - 1 / 2 : ℝ)⌋ = -1 := by norm_num
  have f5 : ⌊(3 / 4 - 1 / 2 : ℝ)⌋ = 0 := by norm_num
  have f6 : nint (3 / 4) = 1 := by rw [nint_floor (by norm_num), f2]
  have f7 : ⌊(3 / 4 + 1 / 2 - 1 / 2 : ℝ)⌋ = 0 := by norm_num
  unfold base node0 shift node
  cases lower <;> cases nodal
  · rcases hn with rfl | rfl | rfl
    · exact ⟨1 / 4, by norm_num, by norm_num, by simp only [Bool.false_eq_true, if_false, if_true, f4, f3]; norm_num⟩
    · exact ⟨3 / 4, by norm_num, by norm_num, by simp only [Bool.false_eq_true, if_false, if_true, f7, f6]; norm_num⟩
    · exact ⟨1 / 4, by norm_num, by norm_num, by simp only [Bool.false_eq_true, if_false, if_true, f4, f3]; norm_num⟩
  · exact absurd (Or.inr ⟨rfl, rfl⟩) h
  · rcases hn with rfl | rfl | rfl
    · exact absurd (Or.inl ⟨rfl, rfl, by decide⟩) h
    · exact ⟨3 / 4, by norm_num, by norm_num, by simp only [Bool.false_eq_true, if_false, if_true, f5, f6]; norm_num⟩
    · exact absurd (Or.inl ⟨rfl, rfl, by decide⟩) h
  · rcases hn with rfl | rfl | rfl
    · exact ⟨3 / 4, by norm_num, by norm_num, by simp only [if_true, Bool.false_eq_true, if_false, sub_zero, f2, f1]; norm_num⟩
    · exact ⟨3 / 4, by norm_num, by norm_num, by simp only [if_true, Bool.false_eq_true, if_false, sub_zero, f6, f1]; norm_num⟩
    · exact ⟨3 / 4, by norm_num, by norm_num, by simp only [if_true, Bool.false_eq_true, if_false, sub_zero, f2, f1]; norm_num⟩

theorem line_loop {o : Opt} (vr vz lr lz : Bool) (n : ℕ) (F : Fld) {x : ℝ} (hx : 0 ≤ x) (z : ℝ) :
    loopField o vr vz lr lz n unitGeo F (x, 0, z) =
      (∑ m ∈ Finset.range n, wsum o vr vz x z (nodeOf o.cr vr m x) (nodeOf o.cz vz m z) (fun j l => (F.r.val j l m).re),
       ∑ m ∈ Finset.range n, wsum o vr vz x z (nodeOf o.cr vr m x) (nodeOf o.cz vz m z) (fun j l => (F.t.val j l m).re),
       ∑ m ∈ Finset.range n, wsum o lr lz x z (nodeOf o.cr lr m x) (nodeOf o.cz lz m z) (fun j l => (F.z.val j l m).re)) := by
  unfold loopField unitGeo
  dsimp only
  rw [azimuth_line hx, line_radius hx, Real.cos_zero, Real.sin_zero, sub_zero, sub_zero, div_one, div_one, ← range_sum, ← range_sum, ← range_sum, ← sum3]
  congr 1
  refine List.map_congr_left fun m _ => ?_
  unfold modeOut mval
  have e1 : (⟨1, -0⟩ : ℂ) = 1 := by simp [Complex.ext_iff]
  simp only [e1, one_pow, mul_one, mul_zero, sub_zero, zero_add]

theorem line_cyl (nr nz : ℕ) (lower nodal : Bool) (qr qt qz : Comp) (n : ℕ) (F : Fld) {x : ℝ} (hx : 0 ≤ x) (z : ℝ) :
    cylField nr nz lower nodal qr qt qz n unitGeo F (x, 0, z) =
      (∑ m ∈ Finset.range n, (modeValue nr nz lower nodal qr F.r x z m * 1).re, ∑ m ∈ Finset.range n, (modeValue nr nz lower nodal qt F.t x z m * 1).re,
        ∑ m ∈ Finset.range n, (modeValue nr nz lower nodal qz F.z x z m * 1).re) := by
  unfold cylField unitGeo cartesian modeSum
  dsimp only
  rw [azimuth_line hx, line_radius hx]
  simp

theorem line_in {x z : ℝ} (hx : 0 ≤ x ∧ x < 4) (hz : 0 ≤ z ∧ z < 4) : InRz unitGeo 4 4 (x, 0, z) := by
  unfold InRz unitGeo
  dsimp only
  rw [line_radius hx.1]
  push_cast
  exact ⟨hx.1, by linarith [hx.2], hz.1, by linarith [hz.2]⟩

theorem getEB_loop {o : Opt} (hr : Order o.nr) (hz : Order o.nz) {n : ℕ} (hn : 1 ≤ n) (E B : Fld) (hE : HoldsTile E 4 4 2 2 n)
    (hB : HoldsTile B 4 4 2 2 n) {p : Pt} (hp : InRz unitGeo 4 4 p) :
    getEB o n unitGeo E B [(p, 0, 0)] = .ok ([loopField o true false false true n unitGeo E p], [loopField o false true true false n unitGeo B p]) := by
  have hd : 0 < unitGeo.dr ∧ 0 < unitGeo.dz := by unfold unitGeo; norm_num
  unfold getEB gatherE gatherB
  rw [gather_loop hr hz true false false true hn hE hd guards_two guards_two _ (by simpa using hp)]
  simp only [except_bind_ok]
  rw [gather_loop hr hz false true true false hn hB hd guards_two guards_two _ (by simpa using hp)]
  simp [except_pure]

theorem inside_wide {o : Opt} (hr : Order o.nr) (hz : Order o.nz) (sr sz : Bool) {x z : ℝ} (hx : 0 ≤ x ∧ x < 4) (hzz : 0 ≤ z ∧ z < 4)
    {n : ℕ} (f : ℤ → ℤ → ℕ → ℂ) {m : ℕ} (hm : m < n) : Inside o sr sz x z (base o.cr sr x) (base o.cz sz z) (wide n f) m := by
  intro wz hwz wr hwr
  have k1 := axis_in (c := o.cr) (N := 4) hr sr hx.1 (by exact_mod_cast hx.2) guards_two wr hwr
  have k2 := axis_in (c := o.cz) (N := 4) hz sz hzz.1 (by exact_mod_cast hzz.2) guards_two wz hwz
  unfold CArr.Has wide
  dsimp only
  exact ⟨k1.1, by linarith [k1.2], k2.1, by linarith [k2.2], hm⟩

/-- **C136** (negation of the unrestricted statement) For every other combination of orders, `l_lower_order_in_v` and `l_nodal` the modes above 0 are
read from displaced cells: there are fields with a mode 1 that grows linearly and a particle whose electric field is not the interpolated one. -/
theorem C136_modes_refuted (o : Opt) (hr : Order o.nr) (hz : Order o.nz) (h : ¬ ModesPlaced o.nr o.nz o.lower o.nodal) :
    ∃ (E B : Fld) (p : Pt) (e b : List Out), HoldsTile E 4 4 2 2 2 ∧ HoldsTile B 4 4 2 2 2 ∧ InRz unitGeo 4 4 p ∧
      getEB o 2 unitGeo E B [(p, 0, 0)] = .ok (e, b) ∧ e ≠ [cylField o.nr o.nz o.lower o.nodal .ex .ex .ez 2 unitGeo E p] := by
  by_cases h1 : (o.cr.lower = true ∧ o.cr.nodal = false ∧ o.cr.n ≠ 2) ∨ (o.cr.lower = false ∧ o.cr.nodal = true)
  · have h2 : ¬ ((o.cz.lower = true ∧ o.cz.nodal = false ∧ o.cz.n ≠ 2) ∨ (o.cz.lower = false ∧ o.cz.nodal = true)) := by
      intro h2
      apply h
      unfold ModesPlaced
      unfold Opt.cr at h1
      unfold Opt.cz at h2
      rcases h1 with ⟨a, b, c⟩ | h1
      · rcases h2 with ⟨-, -, d⟩ | ⟨d, -⟩
        · exact Or.inl ⟨a, b, c, d⟩
        · exact absurd (a.symm.trans d) (by decide)
      · exact Or.inr h1
    obtain ⟨z, z0, z1, hb⟩ := bad_position (c := o.cz) hz h2
    refine ⟨⟨wide 2 fun _ _ _ => 0, wide 2 fun _ _ _ => 0, wide 2 fun _ l m => if m = 1 then (l : ℂ) else 0⟩,
      ⟨wide 2 fun _ _ _ => 0, wide 2 fun _ _ _ => 0, wide 2 fun _ _ _ => 0⟩, (0, 0, z), _, _, holds_wide _ _ _ _, holds_wide _ _ _ _,
      line_in (by norm_num) ⟨z0.le, by linarith⟩,
      getEB_loop hr hz (by norm_num) _ _ (holds_wide _ _ _ _) (holds_wide _ _ _ _) (line_in (by norm_num) ⟨z0.le, by linarith⟩), ?_⟩
    intro hc
    have hc := congrArg (fun v : Out => v.2.2) (List.singleton_inj.mp hc)
    rw [line_loop _ _ _ _ _ _ le_rfl, line_cyl _ _ _ _ _ _ _ _ _ le_rfl] at hc
    dsimp only at hc
    rw [Finset.sum_range_succ, Finset.sum_range_one, Finset.sum_range_succ, Finset.sum_range_one,
      modeValue_re hr hz .ez (inside_wide hr hz _ _ (by norm_num) ⟨z0.le, by linarith⟩ _ (by norm_num)),
      modeValue_re hr hz .ez (inside_wide hr hz _ _ (by norm_num) ⟨z0.le, by linarith⟩ _ (by norm_num))] at hc
    simp only [wide, zero_ne_one, if_false, if_true, mul_one, Complex.zero_re, Complex.intCast_re, wsum_zero, zero_add, nodeOf, one_ne_zero,
      (wsum_line hr hz _ _ _ _ _ _).2, show yeeStag .ez 0 = false from rfl, show yeeStag .ez 2 = true from rfl] at hc
    exact hb (by exact_mod_cast (add_right_cancel hc).symm)
  · obtain ⟨x, x0, x1, hb⟩ := bad_position (c := o.cr) hr h1
    refine ⟨⟨wide 2 fun j _ m => if m = 1 then (j : ℂ) else 0, wide 2 fun _ _ _ => 0, wide 2 fun _ _ _ => 0⟩,
      ⟨wide 2 fun _ _ _ => 0, wide 2 fun _ _ _ => 0, wide 2 fun _ _ _ => 0⟩, (x, 0, 0), _, _, holds_wide _ _ _ _, holds_wide _ _ _ _,
      line_in ⟨x0.le, by linarith⟩ (by norm_num),
      getEB_loop hr hz (by norm_num) _ _ (holds_wide _ _ _ _) (holds_wide _ _ _ _) (line_in ⟨x0.le, by linarith⟩ (by norm_num)), ?_⟩
    intro hc
    have hc := congrArg (fun v : Out => v.1) (List.singleton_inj.mp hc)
    rw [line_loop _ _ _ _ _ _ x0.le, line_cyl _ _ _ _ _ _ _ _ _ x0.le] at hc
    dsimp only at hc
    rw [Finset.sum_range_succ, Finset.sum_range_one, Finset.sum_range_succ, Finset.sum_range_one,
      modeValue_re hr hz .ex (inside_wide hr hz _ _ ⟨x0.le, by linarith⟩ (by norm_num) _ (by norm_num)),
      modeValue_re hr hz .ex (inside_wide hr hz _ _ ⟨x0.le, by linarith⟩ (by norm_num) _ (by norm_num))] at hc
    simp only [wide, zero_ne_one, if_false, if_true, mul_one, Complex.zero_re, Complex.intCast_re, wsum_zero, zero_add, nodeOf, one_ne_zero,
      (wsum_line hr hz _ _ _ _ _ _).1, show yeeStag .ex 0 = true from rfl, show yeeStag .ex 2 = false from rfl] at hc
    exact hb (by exact_mod_cast (add_right_cancel hc).symm)

example : ¬ ModesPlaced 2 2 true false ∧ ¬ ModesPlaced 1 1 false false ∧ ¬ ModesPlaced 3 3 true true := by
  unfold ModesPlaced; decide

theorem line_moment {o : Opt} (hr : Order o.nr) (hz : Order o.nz) (ho : o.nodal = false) (sz : Bool) (z : ℝ) (bz : ℤ) :
    wsum o true sz (1 / 4) z (base o.cr true (1 / 4)) bz (fun j _ => (j : ℝ)) ≠ 1 / 4 ∧
    wsum o false sz (1 / 4) z (base o.cr false (1 / 4)) bz (fun j _ => (j : ℝ)) = 1 / 4 := by
  have e : ∀ sr, (base o.cr sr (1 / 4) : ℝ) + ((axisWts o.cr sr (1 / 4)).map fun w => w.2 * (w.1 : ℝ)).sum + off o.cr sr =
      ((axisWts o.cr sr (1 / 4)).map fun w => w.2 * (((base o.cr sr (1 / 4) + w.1 : ℤ) : ℝ) + off o.cr sr)).sum := by
    intro sr
    rw [show (fun w : ℤ × ℝ => w.2 * (((base o.cr sr (1 / 4) + w.1 : ℤ) : ℝ) + off o.cr sr)) =
      fun w => w.2 * ((base o.cr sr (1 / 4) : ℝ) + off o.cr sr) + w.2 * (w.1 : ℝ) by funext w; push_cast; ring, List.sum_map_add,
      List.sum_map_mul_right, axis_sum (c := o.cr) hr sr]
    ring
  have hoff : off o.cr true = 1 / 2 := by unfold off shift Opt.cr; simp [ho]
  have hoff' : off o.cr false = 0 := by unfold off; simp
  rw [(wsum_line hr hz _ _ _ _ _ _).1, (wsum_line hr hz _ _ _ _ _ _).1]
  refine ⟨?_, ?_⟩
  · by_cases h1 : o.lower = true ∧ o.nr = 1
    · have f : ⌊(1 / 4 + 1 / 2 - 1 / 2 : ℝ)⌋ = 0 := by norm_num
      have hb : base o.cr true (1 / 4) = 0 := by
        unfold base node0 shift Opt.cr
        simp only [if_true, h1.1, h1.2, ho, Bool.false_eq_true, if_false, show (1 : ℕ) ≠ 2 by decide, f]
      have hw : axisWts o.cr true (1 / 4) = [(0, 1)] := by
        unfold axisWts wts0 Opt.cr
        simp only [if_true, h1.1, h1.2]
      rw [hb, hw]
      norm_num
    · have := axis_moment (c := o.cr) hr true (1 / 4) (by
        rintro ⟨-, a, b⟩
        exact h1 ⟨a, b⟩)
      rw [← e, hoff] at this
      intro hc
      rw [hc] at this
      norm_num at this
  · have := axis_moment (c := o.cr) hr false (1 / 4) (by simp)
    rw [← e, hoff', add_zero] at this
    exact this

/-- **C136** (negation) On a Yee grid, whatever the orders, the azimuthal components are read half a cell away in radius from where they live: with an
axisymmetric field whose azimuthal component is the radius (in cells), neither E nor B is the interpolated field. -/
theorem C136_theta_refuted (o : Opt) (hr : Order o.nr) (hz : Order o.nz) (ho : o.nodal = false) :
    ∃ (E B : Fld) (p : Pt) (e b : List Out), HoldsTile E 4 4 2 2 1 ∧ HoldsTile B 4 4 2 2 1 ∧ InRz unitGeo 4 4 p ∧
      getEB o 1 unitGeo E B [(p, 0, 0)] = .ok (e, b) ∧ e ≠ [cylField o.nr o.nz o.lower o.nodal .ex .ey .ez 1 unitGeo E p] ∧
      b ≠ [cylField o.nr o.nz o.lower o.nodal .bx .by' .bz 1 unitGeo B p] := by
  refine ⟨⟨wide 1 fun _ _ _ => 0, wide 1 fun j _ _ => (j : ℂ), wide 1 fun _ _ _ => 0⟩,
    ⟨wide 1 fun _ _ _ => 0, wide 1 fun j _ _ => (j : ℂ), wide 1 fun _ _ _ => 0⟩, (1 / 4, 0, 1), _, _, holds_wide _ _ _ _, holds_wide _ _ _ _,
    line_in (by norm_num) (by norm_num),
    getEB_loop hr hz le_rfl _ _ (holds_wide _ _ _ _) (holds_wide _ _ _ _) (line_in (by norm_num) (by norm_num)), ?_, ?_⟩
  · intro hc
    have hc := congrArg (fun v : Out => v.2.1) (List.singleton_inj.mp hc)
    rw [line_loop _ _ _ _ _ _ (by norm_num), line_cyl _ _ _ _ _ _ _ _ _ (by norm_num)] at hc
    dsimp only at hc
    rw [Finset.sum_range_one, Finset.sum_range_one,
      modeValue_re hr hz .ey (inside_wide hr hz _ _ (by norm_num) (by norm_num) _ (by norm_num))] at hc
    simp only [wide, mul_one, Complex.intCast_re, nodeOf, if_true, show yeeStag .ey 0 = false from rfl] at hc
    rw [(line_moment hr hz ho _ _ _).2] at hc
    exact (line_moment hr hz ho _ _ _).1 hc
  · intro hc
    have hc := congrArg (fun v : Out => v.2.1) (List.singleton_inj.mp hc)
    rw [line_loop _ _ _ _ _ _ (by norm_num), line_cyl _ _ _ _ _ _ _ _ _ (by norm_num)] at hc
    dsimp only at hc
    rw [Finset.sum_range_one, Finset.sum_range_one,
      modeValue_re hr hz .by' (inside_wide hr hz _ _ (by norm_num) (by norm_num) _ (by norm_num))] at hc
    simp only [wide, mul_one, Complex.intCast_re, nodeOf, if_true, show yeeStag .by' 0 = true from rfl] at hc
    rw [(line_moment hr hz ho _ _ _).2] at hc
    exact (line_moment hr hz ho _ _ _).1 hc.symm

/-! ### C137 -/

/-- The modes of the uniform field with Cartesian components `u`: `u_x` and `u_y` are in mode 1 of the radial and azimuthal components, `u_z` in mode 0
of the longitudinal one. -/
def UniformModes (F : Fld) (u : Out) : Prop :=
  (∀ j l m, F.r.Has j l m → F.r.val j l m = if m = 1 then ⟨u.1, u.2.1⟩ else 0) ∧
  (∀ j l m, F.t.Has j l m → F.t.val j l m = if m = 1 then ⟨u.2.1, -u.1⟩ else 0) ∧
  (∀ j l m, F.z.Has j l m → F.z.val j l m = if m = 0 then (u.2.2 : ℂ) else 0)

theorem wsum_const {o : Opt} (hr : Order o.nr) (hz : Order o.nz) {sr sz : Bool} {R Z : ℝ} {br bz : ℤ} {F : ℤ → ℤ → ℝ} {c : ℝ}
    (h : ∀ wz ∈ axisWts o.cz sz Z, ∀ wr ∈ axisWts o.cr sr R, F (br + wr.1) (bz + wz.1) = c) : wsum o sr sz R Z br bz F = c := by
  unfold wsum
  have e : ∀ wz ∈ axisWts o.cz sz Z, ((axisWts o.cr sr R).map fun wr => wz.2 * wr.2 * F (br + wr.1) (bz + wz.1)).sum = wz.2 * c := by
    intro wz hwz
    rw [List.map_congr_left (g := fun wr : ℤ × ℝ => wr.2 * (wz.2 * c)) fun wr hwr => by rw [h wz hwz wr hwr]; ring, List.sum_map_mul_right,
      axis_sum (c := o.cr) hr sr, one_mul]
  rw [List.map_congr_left e, List.sum_map_mul_right, axis_sum (c := o.cz) hz sz, one_mul]

theorem sum_two {n : ℕ} (hn : 2 ≤ n) (k : ℕ) (hk : k < 2) (f : ℕ → ℝ) (h : ∀ m < n, m ≠ k → f m = 0) : ∑ m ∈ Finset.range n, f m = f k :=
  Finset.sum_eq_single k (fun m hm hne => h m (Finset.mem_range.mp hm) hne) fun hc => absurd (Finset.mem_range.mpr (by omega)) hc

theorem loopField_uniform {o : Opt} (hr : Order o.nr) (hz : Order o.nz) (vr vz lr lz : Bool) {nr nz gr gz : ℤ} {F : Fld} {n : ℕ} (hn : 2 ≤ n)
    (hF : HoldsTile F nr nz gr gz n) {g : RzGeo} (hd : 0 < g.dr ∧ 0 < g.dz) (hg : guardsFor o.nr ≤ gr) (hg' : guardsFor o.nz ≤ gz)
    {p : Pt} (hp : InRz g nr nz p) {u : Out} (hu : UniformModes F u) : loopField o vr vz lr lz n g F p = u := by
  have hin := gather_allIn hr hz vr vz lr lz hF (inRz_cells hd hp) hg hg'
  obtain ⟨u1, u2, u3⟩ := hu
  obtain ⟨ux, uy, uz⟩ := u
  dsimp only at u1 u2 u3
  unfold loopField
  set θ := azimuth g.dr p.1 p.2.1
  set R := (√(p.1 ^ 2 + p.2.1 ^ 2) - g.rmin) / g.dr
  set Z := (p.2.2 - g.zmin) / g.dz
  have k1 : ∀ m < n, mval o vr vz R Z F.r ⟨Real.cos θ, -Real.sin θ⟩ m = if m = 1 then ux * Real.cos θ + uy * Real.sin θ else 0 := by
    intro m hm
    refine wsum_const hr hz fun wz hwz wr hwr => ?_
    rw [u1 _ _ _ ((hin m hm).1 wz hwz wr hwr)]
    split_ifs with h
    · subst h; rw [pow_one, Complex.mul_re]; ring
    · simp
  have k2 : ∀ m < n, mval o vr vz R Z F.t ⟨Real.cos θ, -Real.sin θ⟩ m = if m = 1 then uy * Real.cos θ - ux * Real.sin θ else 0 := by
    intro m hm
    refine wsum_const hr hz fun wz hwz wr hwr => ?_
    rw [u2 _ _ _ ((hin m hm).2.1 wz hwz wr hwr)]
    split_ifs with h
    · subst h; rw [pow_one, Complex.mul_re]; ring
    · simp
  have k3 : ∀ m < n, mval o lr lz R Z F.z ⟨Real.cos θ, -Real.sin θ⟩ m = if m = 0 then uz else 0 := by
    intro m hm
    refine wsum_const hr hz fun wz hwz wr hwr => ?_
    rw [u3 _ _ _ ((hin m hm).2.2 wz hwz wr hwr)]
    split_ifs with h
    · subst h; simp
    · simp
  have e : (List.range n).map (modeOut o vr vz lr lz F (Real.cos θ) (Real.sin θ) R Z ⟨Real.cos θ, -Real.sin θ⟩) = (List.range n).map fun m =>
      ((if m = 1 then ux else 0, if m = 1 then uy else 0, if m = 0 then uz else 0) : Out) := by
    refine List.map_congr_left fun m hm => ?_
    have hm := List.mem_range.mp hm
    unfold modeOut
    rw [k1 m hm, k2 m hm, k3 m hm]
    have hcs := Real.sin_sq_add_cos_sq θ
    split_ifs with h1 h2
    · omega
    · refine Prod.ext ?_ (Prod.ext ?_ rfl)
      · dsimp only; linear_combination ux * hcs
      · dsimp only; linear_combination uy * hcs
    · simp
    · simp
  rw [e, sum3, range_sum, range_sum, range_sum, sum_two hn 1 (by norm_num) _ fun m _ h => if_neg h, sum_two hn 1 (by norm_num) _ fun m _ h => if_neg h,
    sum_two hn 0 (by norm_num) _ fun m _ h => if_neg h]
  simp

/-- **C137** Uniform electric and magnetic fields, given by their modes 0 and 1, are gathered exactly by every particle of the tile, at every angle and
also on the axis, with any orders and options and any number of modes from 2. -/
theorem C137_uniform_exact (o : Opt) (hr : Order o.nr) (hz : Order o.nz) (nr nz gr gz : ℤ) (E B : Fld) (n : ℕ) (hn : 2 ≤ n)
    (hE : HoldsTile E nr nz gr gz n) (hB : HoldsTile B nr nz gr gz n) (g : RzGeo) (hd : 0 < g.dr ∧ 0 < g.dz) (hg : guardsFor o.nr ≤ gr)
    (hg' : guardsFor o.nz ≤ gz) (e b : Out) (he : UniformModes E e) (hb : UniformModes B b) (ps : List (Pt × Out × Out))
    (hp : ∀ p ∈ ps, InRz g nr nz p.1) :
    getEB o n g E B ps = .ok (ps.map fun p => plus p.2.1 e, ps.map fun p => plus p.2.2 b) := by
  unfold getEB gatherE gatherB
  rw [gather_loop hr hz true false false true (by omega) hE hd hg hg' _ (by
    intro p h
    obtain ⟨q, hq, rfl⟩ := List.mem_map.mp h
    exact hp q hq)]
  simp only [except_bind_ok]
  rw [gather_loop hr hz false true true false (by omega) hB hd hg hg' _ (by
    intro p h
    obtain ⟨q, hq, rfl⟩ := List.mem_map.mp h
    exact hp q hq)]
  simp only [except_bind_ok]
  refine congrArg Except.ok ?_
  rw [List.map_map, List.map_map]
  congr 1
  · refine List.map_congr_left fun p h => ?_
    show p.2.1 + loopField o true false false true n g E p.1 = _
    rw [loopField_uniform hr hz true false false true hn hE hd hg hg' (hp p h) he]
    rfl
  · refine List.map_congr_left fun p h => ?_
    show p.2.2 + loopField o false true true false n g B p.1 = _
    rw [loopField_uniform hr hz false true true false hn hB hd hg hg' (hp p h) hb]
    rfl

/-! Non-vacuity: a field with three different components, on a tile, with a particle on the axis. -/

example : UniformModes ⟨wide 2 fun _ _ m => if m = 1 then ⟨3, 4⟩ else 0, wide 2 fun _ _ m => if m = 1 then ⟨4, -3⟩ else 0,
    wide 2 fun _ _ m => if m = 0 then ((5 : ℝ) : ℂ) else 0⟩ (3, 4, 5) ∧ InRz unitGeo 4 4 (0, 0, 1) :=
  ⟨⟨fun _ _ _ _ => rfl, fun _ _ _ _ => rfl, fun _ _ _ _ => rfl⟩, line_in (by norm_num) (by norm_num)⟩

end Picsar.Props
