import Verif.Lemmas.CircVolume

/-
Current deposition on azimuthal modes (C138), division by the cell volumes (C139) and the row on the axis (C140).
-/
namespace Picsar.Props
open Picsar Picsar.Grid Picsar.Deposition Picsar.Deposition2d Picsar.CircGather Picsar.RzVolume Picsar.CircDeposit Picsar.Spec

/-! ### A case that meets the hypotheses: a particle that turns around the axis, and a faster one off the axis -/

noncomputable def cdGeo (rmin : ℝ) : Geo := ⟨1, rmin, 0, 0, 1, 1, 1, 1⟩
noncomputable def cdP : Part := ⟨0, 1 / 4, 0, -(1 / 4), 1 / 4, 0, 1, 1⟩
noncomputable def cdQ : Part := ⟨3 / 5, 4 / 5, 1 / 3, 3 / 5, 0, 4 / 5, 1, 2⟩
def cdArr (n : ℕ) : CArr := ⟨-4, 5, -4, 5, n, fun _ _ _ => 0⟩

theorem cd_sub : ∀ p ∈ [cdP, cdQ], Subluminal 1 p := by
  intro p hp
  simp only [List.mem_cons, List.not_mem_nil, or_false] at hp
  rcases hp with rfl | rfl <;> norm_num [Subluminal, cdP, cdQ]

theorem sqrt_bounds {u v : ℝ} (h : u ^ 2 + v ^ 2 ≤ 1) : 0 ≤ √(u ^ 2 + v ^ 2) ∧ √(u ^ 2 + v ^ 2) ≤ 1 :=
  ⟨Real.sqrt_nonneg _, by rw [Real.sqrt_le_one]; exact h⟩

theorem cd_fit {a b : ℕ} (ha : a ≤ 3) (hb : b ≤ 3) (n : ℕ) {rmin : ℝ} (h0 : 0 ≤ rmin) (h1 : rmin ≤ 1) :
    ∀ p ∈ [cdP, cdQ], FitC a b n (cdGeo rmin) (cdArr n) p := by
  have ha' : (a : ℝ) ≤ 3 := by exact_mod_cast ha
  have hb' : (b : ℝ) ≤ 3 := by exact_mod_cast hb
  intro p hp
  simp only [List.mem_cons, List.not_mem_nil, or_false] at hp
  have key : ∀ q : Part, q.x ^ 2 + q.y ^ 2 ≤ 1 → -1 ≤ q.z → q.z ≤ 1 → FitsC a b (cdGeo rmin) (cdArr n) q := by
    intro q h2 h3 h4
    have := sqrt_bounds h2
    simp only [FitsC, Fits, cells, across, cdGeo, cdArr, if_true, Int.cast_neg, Int.cast_ofNat, div_one, sub_zero]
    refine ⟨⟨?_, ?_⟩, ?_, ?_⟩ <;> linarith
  refine ⟨rfl, key p ?_ ?_ ?_, key _ ?_ ?_ ?_⟩ <;> rcases hp with rfl | rfl <;> norm_num [before, cdP, cdQ, cdGeo]

theorem cd_fits {a b : ℕ} (ha : a ≤ 3) (hb : b ≤ 3) (n : ℕ) {rmin : ℝ} (h0 : 0 ≤ rmin) (h1 : rmin ≤ 1) : ∀ p ∈ [cdP, cdQ],
    FitC a b n (cdGeo rmin) (cdArr n) p ∧ FitC a b n (cdGeo rmin) (cdArr n) p ∧ FitC a b n (cdGeo rmin) (cdArr n) p := fun p hp =>
  ⟨cd_fit ha hb n h0 h1 p hp, cd_fit ha hb n h0 h1 p hp, cd_fit ha hb n h0 h1 p hp⟩

/-- C138. For particles not faster than light whose shape fits the arrays, the routine writes inside of its arrays and adds the stated current on every
mode, for orders 0 to 3 in each direction and any number of modes. -/
theorem C138_deposits {clight : ℝ} {a b n : ℕ} (ha : a ≤ 3) (hb : b ≤ 3) (hn : 1 ≤ n) {g : Geo} (hx : 0 < g.dx) (hz : 0 < g.dz) (ht : 0 < g.dt)
    {ps : List Part} {jr jt jz : CArr} (h1 : ∀ p ∈ ps, Subluminal clight p)
    (h2 : ∀ p ∈ ps, FitC a b n g jr p ∧ FitC a b n g jt p ∧ FitC a b n g jz p) :
    deposeC clight a b n g ps jr jt jz =
      .ok (addedC n jr (total (currentR a b g) ps), addedC n jt (total (currentT a b g) ps), addedC n jz (total (currentZ a b g) ps)) :=
  deposeC_ok ha hb hn hx hz ht h1 h2

example : ∃ R, deposeC 1 3 2 4 (cdGeo 0) [cdP, cdQ] (cdArr 4) (cdArr 4) (cdArr 4) = .ok R :=
  ⟨_, C138_deposits (by norm_num) (by norm_num) (by norm_num) (by norm_num [cdGeo]) (by norm_num [cdGeo]) (by norm_num [cdGeo]) cd_sub
    (cd_fits (by norm_num) (by norm_num) 4 (by norm_num) (by norm_num))⟩

/-- C138, continuity: on every mode, the change of what was deposited obeys the discrete continuity equation with the charge of the particles after and
before the move, at every node off the axis (for mode 0 at every node). -/
theorem C138_continuity {clight : ℝ} {a b n : ℕ} (ha : a ≤ 3) (hb : b ≤ 3) (hn : 1 ≤ n) {g : Geo} (hx : 0 < g.dx) (hz : 0 < g.dz) (ht : 0 < g.dt)
    {ps : List Part} {jr jt jz : CArr} (h1 : ∀ p ∈ ps, Subluminal clight p)
    (h2 : ∀ p ∈ ps, FitC a b n g jr p ∧ FitC a b n g jt p ∧ FitC a b n g jz p) :
    ∃ R T Z, deposeC clight a b n g ps jr jt jz = .ok (R, T, Z) ∧
      ∀ m < n, ∀ j l : ℤ, (m ≠ 0 → g.xmin + j * g.dx ≠ 0) →
        let r := fun j l => R.val j l m - jr.val j l m
        let t := fun j l => T.val j l m - jt.val j l m
        let z := fun j l => Z.val j l m - jz.val j l m
        (r j l - r (j - 1) l) / (g.dx : ℂ) + (z j l - z j (l - 1)) / (g.dz : ℂ) - Complex.I * m * t j l / ((g.xmin + j * g.dx : ℝ) : ℂ) =
          -(densityM a b g ps m j l - densityM a b g (ps.map (before g)) m j l) / (g.dt : ℂ) := by
  refine ⟨_, _, _, deposeC_ok ha hb hn hx hz ht h1 h2, ?_⟩
  intro m hm j l hr
  simp only [addedC, if_pos hm, add_sub_cancel_left]
  exact total_continuity hx hz ht m j l hr ps

example : (∀ p ∈ [cdP, cdQ], Subluminal 1 p) ∧
    ∀ p ∈ [cdP, cdQ], FitC 3 2 4 (cdGeo 0) (cdArr 4) p ∧ FitC 3 2 4 (cdGeo 0) (cdArr 4) p ∧ FitC 3 2 4 (cdGeo 0) (cdArr 4) p :=
  ⟨cd_sub, cd_fits (by norm_num) (by norm_num) 4 (by norm_num) (by norm_num)⟩

/-- C139 on a grid that starts off the axis: after the division by the volumes the current of every mode obeys the continuity equation in cylindrical
coordinates at every node above the axis. -/
theorem C139_wall {clight : ℝ} {a b n : ℕ} (ha : a ≤ 3) (hb : b ≤ 3) (hn : 1 ≤ n) {g : Geo} (hx : 0 < g.dx) (hz : 0 < g.dz) (ht : 0 < g.dt)
    {ps : List Part} {jr jt jz : CArr} (h1 : ∀ p ∈ ps, Subluminal clight p)
    (h2 : ∀ p ∈ ps, FitC a b n g jr p ∧ FitC a b n g jt p ∧ FitC a b n g jz p) (er : EmptyC jr) (et : EmptyC jt) (ez : EmptyC jz) (ty : ℤ)
    (h0 : g.xmin ≠ 0) (nr : NoAxis (1 / 2) g.xmin g.dx jr) (nt : NoAxis 0 g.xmin g.dx jt) (nz : NoAxis 0 g.xmin g.dx jz) :
    ∃ R T Z, (deposeC clight a b n g ps jr jt jz >>= fun s => scaleC ty g.xmin g.dx s.1 s.2.1 s.2.2) = .ok (R, T, Z) ∧
      ∀ m < n, ∀ j l : ℤ, jr.jlo + 1 ≤ j → j ≤ jr.jhi → jt.jlo ≤ j → j ≤ jt.jhi → jz.jlo ≤ j → j ≤ jz.jhi → 0 < g.xmin + (j - 1 / 2) * g.dx →
        divergenceM g.xmin g.dx g.dz R T Z m j l =
          -(ringDensity a b g ps m j l - ringDensity a b g (ps.map (before g)) m j l) / (g.dt : ℂ) := by
  rw [deposeC_ok ha hb hn hx hz ht h1 h2]
  obtain ⟨R, T, Z, e, eR, eT, eZ⟩ := scaleC_wall (ty := ty) h0 (jr := addedC n jr (total (currentR a b g) ps))
    (jt := addedC n jt (total (currentT a b g) ps)) (jz := addedC n jz (total (currentZ a b g) ps)) nr nt nz
  refine ⟨R, T, Z, e, ?_⟩
  intro m hm j l b1 b2 b3 b4 b5 b6 hpos
  have hj : 0 < g.xmin + j * g.dx := by linarith
  have hj2 : 0 < g.xmin + ((j : ℝ) + 1 / 2) * g.dx := by linarith
  have hc := total_continuity (a := a) (b := b) hx hz ht m j l (fun _ => hj.ne') ps
  have r1 := eR j l m (by show jr.jlo ≤ j; omega) b2
  have r2 := eR (j - 1) l m (by show jr.jlo ≤ j - 1; omega) (by show j - 1 ≤ jr.jhi; omega)
  have t1 := eT j l m b3 b4
  have z1 := eZ j l m b5 b6
  have z2 := eZ j (l - 1) m b5 b6
  have e1 : g.xmin + (((j - 1 : ℤ) : ℝ) + 1 / 2) * g.dx = g.xmin + ((j : ℝ) - 1 / 2) * g.dx := by push_cast; ring
  rw [abs_of_pos hj2] at r1
  rw [e1, abs_of_pos hpos] at r2
  rw [abs_of_pos hj] at t1 z1 z2
  simp only [addedC, if_pos hm, er _ _ _, et _ _ _, ez _ _ _, zero_add] at r1 r2 t1 z1 z2
  unfold divergenceM ringDensity
  rw [r1, r2, t1, z1, z2, if_neg h0, if_neg h0, add_zero, add_zero]
  have n1 : ((g.xmin + ((j : ℝ) + 1 / 2) * g.dx : ℝ) : ℂ) ≠ 0 := by exact_mod_cast hj2.ne'
  have n2 : ((g.xmin + ((j : ℝ) - 1 / 2) * g.dx : ℝ) : ℂ) ≠ 0 := by exact_mod_cast hpos.ne'
  have n3 : ((g.xmin + (j : ℝ) * g.dx : ℝ) : ℂ) ≠ 0 := by exact_mod_cast hj.ne'
  have n4 : (Real.pi : ℂ) ≠ 0 := by exact_mod_cast Real.pi_pos.ne'
  have n5 : (g.dx : ℂ) ≠ 0 := by exact_mod_cast hx.ne'
  have n6 : (g.dz : ℂ) ≠ 0 := by exact_mod_cast hz.ne'
  have n7 : (g.dt : ℂ) ≠ 0 := by exact_mod_cast ht.ne'
  have f : ∀ x : ℝ, ((2 * Real.pi * x : ℝ) : ℂ) = 2 * Real.pi * (x : ℂ) := fun x => by push_cast; ring
  simp only [f]
  generalize ((g.xmin + ((j : ℝ) + 1 / 2) * g.dx : ℝ) : ℂ) = A at *
  generalize ((g.xmin + ((j : ℝ) - 1 / 2) * g.dx : ℝ) : ℂ) = B at *
  generalize ((g.xmin + (j : ℝ) * g.dx : ℝ) : ℂ) = C at *
  have k : ∀ x y : ℂ, x = y → x / (2 * Real.pi * C) = y / (2 * Real.pi * C) := fun x y h => by rw [h]
  have hc' := k _ _ hc
  rw [show -(densityM a b g ps m j l / (2 * Real.pi * C) - densityM a b g (ps.map (before g)) m j l / (2 * Real.pi * C)) / (g.dt : ℂ) =
    -(densityM a b g ps m j l - densityM a b g (ps.map (before g)) m j l) / (g.dt : ℂ) / (2 * Real.pi * C) by ring, ← hc']
  field_simp
  ring

theorem cd_noAxis : NoAxis (1 / 2) (1 / 4) 1 (cdArr 3) ∧ NoAxis 0 (1 / 4) 1 (cdArr 3) := by
  refine ⟨⟨by simp [cdArr], by simp [cdArr], fun j _ _ h => ?_⟩, ⟨by simp [cdArr], by simp [cdArr], fun j _ _ h => ?_⟩⟩
  · have : ((4 * j + 3 : ℤ) : ℝ) = 0 := by push_cast; linarith
    have : (4 * j + 3 : ℤ) = 0 := by exact_mod_cast this
    omega
  · have : ((4 * j + 1 : ℤ) : ℝ) = 0 := by push_cast; linarith
    have : (4 * j + 1 : ℤ) = 0 := by exact_mod_cast this
    omega

example : ∃ R, (deposeC 1 3 3 3 (cdGeo (1 / 4)) [cdP, cdQ] (cdArr 3) (cdArr 3) (cdArr 3) >>=
    fun s => scaleC 0 (cdGeo (1 / 4)).xmin (cdGeo (1 / 4)).dx s.1 s.2.1 s.2.2) = .ok R := by
  obtain ⟨R, T, Z, h, _⟩ := C139_wall (clight := 1) (a := 3) (b := 3) (n := 3) (g := cdGeo (1 / 4)) (by norm_num) (by norm_num) (by norm_num)
    (by norm_num [cdGeo]) (by norm_num [cdGeo]) (by norm_num [cdGeo]) cd_sub (cd_fits (by norm_num) (by norm_num) 3 (by norm_num) (by norm_num))
    (fun _ _ _ => rfl) (fun _ _ _ => rfl) (fun _ _ _ => rfl) 0 (by norm_num [cdGeo]) cd_noAxis.1 cd_noAxis.2 cd_noAxis.2
  exact ⟨_, h⟩

/-- C139 on a grid that starts on the axis, at the nodes off the axis: what holds in general. The divergence differs from the change of the charge by
twice the azimuthal current that was deposited below the axis, which is folded back with the wrong sign. -/
theorem C139_axis_partial {clight : ℝ} {a b n : ℕ} (ha : a ≤ 3) (hb : b ≤ 3) (hn : 1 ≤ n) {g : Geo} (hx : 0 < g.dx) (hz : 0 < g.dz) (ht : 0 < g.dt)
    {ps : List Part} {jr jt jz : CArr} (h1 : ∀ p ∈ ps, Subluminal clight p)
    (h2 : ∀ p ∈ ps, FitC a b n g jr p ∧ FitC a b n g jt p ∧ FitC a b n g jz p) (er : EmptyC jr) (et : EmptyC jt) (ez : EmptyC jz) (ty : ℤ)
    (h0 : g.xmin = 0) (hl : jr.llo = jt.llo ∧ jr.lhi = jt.lhi ∧ jr.nm = jt.nm) (nr : AxisArr jr) (nt : AxisArr jt) (nz : AxisArr jz) :
    ∃ R T Z, (deposeC clight a b n g ps jr jt jz >>= fun s => scaleC ty g.xmin g.dx s.1 s.2.1 s.2.2) = .ok (R, T, Z) ∧
      ∀ m < n, ∀ j l : ℤ, 1 ≤ j → j ≤ jr.jhi → j ≤ jt.jhi → j ≤ jz.jhi →
        divergenceM g.xmin g.dx g.dz R T Z m j l =
          -(ringDensity a b g ps m j l - ringDensity a b g (ps.map (before g)) m j l) / (g.dt : ℂ) -
            (-1) ^ m * Complex.I * m * total (currentT a b g) ps m (-j) l / ((Real.pi * (j * g.dx) ^ 2 : ℝ) : ℂ) := by
  rw [deposeC_ok ha hb hn hx hz ht h1 h2, h0]
  obtain ⟨R, T, Z, e, eR, eT, eZ, _⟩ := scaleC_axis (ty := ty) hx (jr := addedC n jr (total (currentR a b g) ps))
    (jt := addedC n jt (total (currentT a b g) ps)) (jz := addedC n jz (total (currentZ a b g) ps)) nr nt nz
    (fun h => ⟨hl.1, hl.2.1, by show 1 < jr.nm; rw [hl.2.2]; exact h⟩)
  refine ⟨R, T, Z, e, ?_⟩
  intro m hm j l b1 b2 b3 b4
  have jp : (0 : ℝ) < j := by exact_mod_cast (by omega : (0 : ℤ) < j)
  have jp1 : (1 : ℝ) ≤ j := by exact_mod_cast b1
  have hj : 0 < (j : ℝ) * g.dx := by positivity
  have hj2 : 0 < ((j : ℝ) + 1 / 2) * g.dx := by positivity
  have hj3 : 0 < ((j : ℝ) - 1 / 2) * g.dx := mul_pos (by linarith) hx
  have hc := total_continuity (a := a) (b := b) hx hz ht m j l (fun _ => by rw [h0, zero_add]; exact hj.ne') ps
  have hd := total_continuity (a := a) (b := b) hx hz ht m (-j) l (fun _ => by
    rw [h0, zero_add]; push_cast; rw [neg_mul]; exact neg_ne_zero.mpr hj.ne') ps
  have zR : ∀ j l, j < jr.jlo → total (currentR a b g) ps m j l = 0 := fun j l h => total_zero fun p hp => (out_low ha (h2 p hp).1 h l m).1
  have zT : ∀ j l, j < jt.jlo → total (currentT a b g) ps m j l = 0 := fun j l h => total_zero fun p hp => (out_low ha (h2 p hp).2.1 h l m).2.1
  have zZ : ∀ j l, j < jz.jlo → total (currentZ a b g) ps m j l = 0 := fun j l h => total_zero fun p hp => (out_low ha (h2 p hp).2.2 h l m).2.2
  have r1 := eR j l m (by show jr.jlo ≤ j; have := nr.1; omega) b2
  have r2 := eR (j - 1) l m (by show jr.jlo ≤ j - 1; have := nr.1; omega) (by show j - 1 ≤ jr.jhi; omega)
  have t1 := eT j l m b1 b3
  have z1 := eZ j l m b1 b4
  have z2 := eZ j (l - 1) m b1 b4
  rw [mirC_added er hm zR (by omega)] at r1 r2
  rw [mirN_added et hm zT b1] at t1
  rw [mirN_added ez hm zZ b1] at z1 z2
  have e1 : (((j - 1 : ℤ) : ℝ) + 1 / 2) * g.dx = ((j : ℝ) - 1 / 2) * g.dx := by push_cast; ring
  rw [abs_of_pos hj2] at r1
  rw [e1, abs_of_pos hj3, show (-1 : ℤ) - (j - 1) = -j by ring] at r2
  rw [show (-1 : ℤ) - j = -j - 1 by ring] at r1
  unfold divergenceM ringDensity
  rw [r1, r2, t1, z1, z2, if_pos h0, if_pos h0, h0]
  have n1 : ((((j : ℝ) + 1 / 2) * g.dx : ℝ) : ℂ) ≠ 0 := by exact_mod_cast hj2.ne'
  have n2 : ((((j : ℝ) - 1 / 2) * g.dx : ℝ) : ℂ) ≠ 0 := by exact_mod_cast hj3.ne'
  have n3 : (((j : ℝ) * g.dx : ℝ) : ℂ) ≠ 0 := by exact_mod_cast hj.ne'
  have n4 : (Real.pi : ℂ) ≠ 0 := by exact_mod_cast Real.pi_pos.ne'
  have n5 : (g.dx : ℂ) ≠ 0 := by exact_mod_cast hx.ne'
  have n6 : (g.dz : ℂ) ≠ 0 := by exact_mod_cast hz.ne'
  have n7 : (g.dt : ℂ) ≠ 0 := by exact_mod_cast ht.ne'
  have f : ∀ x : ℝ, ((2 * Real.pi * x : ℝ) : ℂ) = 2 * Real.pi * (x : ℂ) := fun x => by push_cast; ring
  have f' : ∀ x : ℝ, ((Real.pi * x ^ 2 : ℝ) : ℂ) = Real.pi * (x : ℂ) ^ 2 := fun x => by push_cast; ring
  simp only [f, f', zero_add]
  rw [h0, zero_add] at hc hd
  rw [show (((-j : ℤ) : ℝ) * g.dx) = -((j : ℝ) * g.dx) by push_cast; ring, Complex.ofReal_neg] at hd
  generalize ((((j : ℝ) + 1 / 2) * g.dx : ℝ) : ℂ) = A at *
  generalize ((((j : ℝ) - 1 / 2) * g.dx : ℝ) : ℂ) = B at *
  generalize (((j : ℝ) * g.dx : ℝ) : ℂ) = C at *
  have hs : (-(densityM a b g ps m j l - densityM a b g (ps.map (before g)) m j l) / (g.dt : ℂ) +
      (-1) ^ m * (-(densityM a b g ps m (-j) l - densityM a b g (ps.map (before g)) m (-j) l) / (g.dt : ℂ))) / (2 * Real.pi * C) =
      -((densityM a b g ps m j l + (-1) ^ m * densityM a b g ps m (-j) l) / (2 * Real.pi * C) -
        (densityM a b g (ps.map (before g)) m j l + (-1) ^ m * densityM a b g (ps.map (before g)) m (-j) l) / (2 * Real.pi * C)) / (g.dt : ℂ) := by
    ring
  rw [← hs, ← hc, ← hd]
  generalize total (currentT a b g) ps m (-j) l = T1
  generalize total (currentT a b g) ps m j l = T2
  generalize ((-1 : ℂ)) ^ m = s
  field_simp
  ring

theorem cd_axis (n : ℕ) : AxisArr (cdArr n) := by simp [AxisArr, cdArr]

example : ∃ R, (deposeC 1 3 3 3 (cdGeo 0) [cdP, cdQ] (cdArr 3) (cdArr 3) (cdArr 3) >>=
    fun s => scaleC 0 (cdGeo 0).xmin (cdGeo 0).dx s.1 s.2.1 s.2.2) = .ok R := by
  obtain ⟨R, T, Z, h, _⟩ := C139_axis_partial (clight := 1) (a := 3) (b := 3) (n := 3) (g := cdGeo 0) (by norm_num) (by norm_num) (by norm_num)
    (by norm_num [cdGeo]) (by norm_num [cdGeo]) (by norm_num [cdGeo]) cd_sub (cd_fits (by norm_num) (by norm_num) 3 (by norm_num) (by norm_num))
    (fun _ _ _ => rfl) (fun _ _ _ => rfl) (fun _ _ _ => rfl) 0 rfl ⟨rfl, rfl, rfl⟩ (cd_axis 3) (cd_axis 3) (cd_axis 3)
  exact ⟨_, h⟩

theorem cd_root : √((1 / 4 : ℝ) ^ 2) = 1 / 4 := Real.sqrt_sq (by norm_num)

theorem cd_current : total (currentT 2 1 (cdGeo 0)) [cdP] 1 (-1) 0 = ⟨-(1 / 16), -(1 / 16)⟩ := by
  have x1 : cells (across true cdP) 0 1 = 1 / 4 := by
    have : (0 : ℝ) ^ 2 + (1 / 4) ^ 2 = (1 / 4) ^ 2 := by norm_num
    simp only [cells, across, cdP, if_true, this, cd_root]
    norm_num
  have e : before (cdGeo 0) cdP = ⟨1 / 4, 0, 0, -(1 / 4), 1 / 4, 0, 1, 1⟩ := by
    simp only [before, cdGeo, cdP]
    norm_num
  have x2 : cells (across true (before (cdGeo 0) cdP)) 0 1 = 1 / 4 := by
    have : (1 / 4 : ℝ) ^ 2 + 0 ^ 2 = (1 / 4) ^ 2 := by norm_num
    rw [e]
    simp only [cells, across, if_true, this, cd_root]
    norm_num
  have u1 : unitOf (cdGeo 0) cdP = ⟨0, 1⟩ := by
    have : (0 : ℝ) ^ 2 + (1 / 4) ^ 2 = (1 / 4) ^ 2 := by norm_num
    simp only [unitOf, unitAt, cdP, cdGeo, this, cd_root]
    rw [if_pos (by norm_num)]
    norm_num
  have u2 : unitOf (cdGeo 0) (before (cdGeo 0) cdP) = ⟨1, 0⟩ := by
    have : (1 / 4 : ℝ) ^ 2 + 0 ^ 2 = (1 / 4) ^ 2 := by norm_num
    rw [e]
    simp only [unitOf, unitAt, cdGeo, this, cd_root]
    rw [if_pos (by norm_num)]
    norm_num
  have s1 : shape 2 (1 / 4) (-1) = 1 / 32 := by
    have : |(1 / 4 : ℝ) - ((-1 : ℤ) : ℝ)| = 5 / 4 := by rw [abs_of_pos] <;> norm_num
    simp only [shape, bspline, this]
    norm_num
  have s2 : shape 1 0 0 = 1 := by simp [shape, bspline]
  have z1 : cells cdP.z 0 1 = 0 := by simp [cells, cdP]
  have z2 : cells (before (cdGeo 0) cdP).z 0 1 = 0 := by rw [e]; simp [cells]
  simp only [total, List.map_cons, List.map_nil, List.sum_cons, List.sum_nil, add_zero, currentT, one_ne_zero, if_false]
  rw [show (cdGeo 0).xmin = 0 from rfl, show (cdGeo 0).dx = 1 from rfl, show (cdGeo 0).zmin = 0 from rfl, show (cdGeo 0).dz = 1 from rfl,
    show (cdGeo 0).dt = 1 from rfl, show (cdGeo 0).q = 1 from rfl, show cdP.w = 1 from rfl, x1, x2, z1, z2, u1, u2, s1, s2]
  generalize unitMid (cdGeo 0) cdP = u
  have : (((1 / 32 * 1 : ℝ) : ℂ) * ((⟨0, 1⟩ : ℂ) ^ 1 - u ^ 1) + ((1 / 32 * 1 : ℝ) : ℂ) * (u ^ 1 - (⟨1, 0⟩ : ℂ) ^ 1)) = ⟨-(1 / 32), 1 / 32⟩ := by
    rw [← mul_add]
    have : (⟨0, 1⟩ : ℂ) ^ 1 - u ^ 1 + (u ^ 1 - (⟨1, 0⟩ : ℂ) ^ 1) = ⟨-1, 1⟩ := by
      apply Complex.ext <;> simp
    rw [this]
    apply Complex.ext <;> simp
  rw [this]
  apply Complex.ext <;> norm_num [Complex.mul_re, Complex.mul_im]

/-- C139 refuted on the axis: a particle of order 2 in r that turns around the axis by a quarter of a circle; on mode 1 at the first node off the axis the
current does not balance the change of the charge. -/
theorem C139_axis_refuted : ∃ (clight : ℝ) (g : Geo) (p : Part) (A : CArr), Subluminal clight p ∧ FitC 2 1 2 g A p ∧ EmptyC A ∧ AxisArr A ∧
    g.xmin = 0 ∧ 0 < g.dx ∧ 0 < g.dz ∧ 0 < g.dt ∧
    ∃ R T Z, (deposeC clight 2 1 2 g [p] A A A >>= fun s => scaleC 0 g.xmin g.dx s.1 s.2.1 s.2.2) = .ok (R, T, Z) ∧
      divergenceM g.xmin g.dx g.dz R T Z 1 1 0 ≠
        -(ringDensity 2 1 g [p] 1 1 0 - ringDensity 2 1 g ([p].map (before g)) 1 1 0) / (g.dt : ℂ) := by
  have hs : ∀ p ∈ [cdP], Subluminal 1 p := fun p hp => cd_sub p (by simp at hp; simp [hp])
  have hf : ∀ p ∈ [cdP], FitC 2 1 2 (cdGeo 0) (cdArr 2) p ∧ FitC 2 1 2 (cdGeo 0) (cdArr 2) p ∧ FitC 2 1 2 (cdGeo 0) (cdArr 2) p :=
    fun p hp => cd_fits (by norm_num) (by norm_num) 2 (by norm_num) (by norm_num) p (by simp at hp; simp [hp])
  obtain ⟨R, T, Z, e, h⟩ := C139_axis_partial (clight := 1) (a := 2) (b := 1) (n := 2) (g := cdGeo 0) (by norm_num) (by norm_num) (by norm_num)
    (by norm_num [cdGeo]) (by norm_num [cdGeo]) (by norm_num [cdGeo]) hs hf
    (fun _ _ _ => rfl) (fun _ _ _ => rfl) (fun _ _ _ => rfl) 0 rfl ⟨rfl, rfl, rfl⟩ (cd_axis 2) (cd_axis 2) (cd_axis 2)
  refine ⟨1, cdGeo 0, cdP, cdArr 2, hs cdP (by simp), (hf cdP (by simp)).1, fun _ _ _ => rfl, cd_axis 2, rfl, by norm_num [cdGeo], by norm_num [cdGeo],
    by norm_num [cdGeo], R, T, Z, e, ?_⟩
  rw [h 1 (by norm_num) 1 0 (by norm_num) (by simp [cdArr]) (by simp [cdArr]) (by simp [cdArr]), cd_current]
  intro h'
  rw [sub_eq_self, div_eq_zero_iff] at h'
  rcases h' with h' | h'
  · have := congrArg Complex.re h'
    norm_num [Complex.mul_re, Complex.mul_im] at this
  · have : Real.pi * (((1 : ℤ) : ℝ) * (cdGeo 0).dx) ^ 2 = 0 := by exact_mod_cast h'
    rw [show (cdGeo 0).dx = 1 from rfl] at this
    have hp := Real.pi_pos
    norm_num at this

/-- C139 on a grid that starts on the axis: for mode 0, and for order 0 or 1 in r on every mode, the current obeys the continuity equation at every
node off the axis. -/
theorem C139_axis_low_order {clight : ℝ} {a b n : ℕ} (ha : a ≤ 3) (hb : b ≤ 3) (hn : 1 ≤ n) {g : Geo} (hx : 0 < g.dx) (hz : 0 < g.dz)
    (ht : 0 < g.dt) {ps : List Part} {jr jt jz : CArr} (h1 : ∀ p ∈ ps, Subluminal clight p)
    (h2 : ∀ p ∈ ps, FitC a b n g jr p ∧ FitC a b n g jt p ∧ FitC a b n g jz p) (er : EmptyC jr) (et : EmptyC jt) (ez : EmptyC jz) (ty : ℤ)
    (h0 : g.xmin = 0) (hl : jr.llo = jt.llo ∧ jr.lhi = jt.lhi ∧ jr.nm = jt.nm) (nr : AxisArr jr) (nt : AxisArr jt) (nz : AxisArr jz) :
    ∃ R T Z, (deposeC clight a b n g ps jr jt jz >>= fun s => scaleC ty g.xmin g.dx s.1 s.2.1 s.2.2) = .ok (R, T, Z) ∧
      ∀ m < n, m = 0 ∨ a ≤ 1 → ∀ j l : ℤ, 1 ≤ j → j ≤ jr.jhi → j ≤ jt.jhi → j ≤ jz.jhi →
        divergenceM g.xmin g.dx g.dz R T Z m j l =
          -(ringDensity a b g ps m j l - ringDensity a b g (ps.map (before g)) m j l) / (g.dt : ℂ) := by
  obtain ⟨R, T, Z, e, h⟩ := C139_axis_partial ha hb hn hx hz ht h1 h2 er et ez ty h0 hl nr nt nz
  refine ⟨R, T, Z, e, fun m hm hma j l b1 b2 b3 b4 => ?_⟩
  rw [h m hm j l b1 b2 b3 b4]
  rcases hma with rfl | ha1
  · simp
  · rw [total_zero (fun p _ => currentT_left ha1 h0 hx p m (by omega) l)]
    simp

example : (∀ p ∈ [cdP, cdQ], FitC 1 3 3 (cdGeo 0) (cdArr 3) p) ∧ AxisArr (cdArr 3) ∧ EmptyC (cdArr 3) :=
  ⟨cd_fit (by norm_num) (by norm_num) 3 (by norm_num) (by norm_num), cd_axis 3, fun _ _ _ => rfl⟩

/-- C139 on the axis, mode 0: the flux through the surface of the cylinder around the axis, the flux along z and the charge in it balance. -/
theorem C139_axis_row {clight : ℝ} {a b n : ℕ} (ha : a ≤ 3) (hb : b ≤ 3) (hn : 1 ≤ n) {g : Geo} (hx : 0 < g.dx) (hz : 0 < g.dz)
    (ht : 0 < g.dt) {ps : List Part} {jr jt jz : CArr} (h1 : ∀ p ∈ ps, Subluminal clight p)
    (h2 : ∀ p ∈ ps, FitC a b n g jr p ∧ FitC a b n g jt p ∧ FitC a b n g jz p) (er : EmptyC jr) (ez : EmptyC jz) (ty : ℤ)
    (h0 : g.xmin = 0) (hl : jr.llo = jt.llo ∧ jr.lhi = jt.lhi ∧ jr.nm = jt.nm) (nr : AxisArr jr) (nt : AxisArr jt) (nz : AxisArr jz) :
    ∃ R T Z, (deposeC clight a b n g ps jr jt jz >>= fun s => scaleC ty g.xmin g.dx s.1 s.2.1 s.2.2) = .ok (R, T, Z) ∧
      ∀ l : ℤ, (if ty = 1 then 3 else 4) / (g.dx : ℂ) * R.val 0 l 0 + (Z.val 0 l 0 - Z.val 0 (l - 1) 0) / (g.dz : ℂ) =
        -(axisDensity ty a b g ps l - axisDensity ty a b g (ps.map (before g)) l) / (g.dt : ℂ) := by
  rw [deposeC_ok ha hb hn hx hz ht h1 h2, h0]
  obtain ⟨R, T, Z, e, eR, _, _, eZ, _⟩ := scaleC_axis (ty := ty) hx (jr := addedC n jr (total (currentR a b g) ps))
    (jt := addedC n jt (total (currentT a b g) ps)) (jz := addedC n jz (total (currentZ a b g) ps)) nr nt nz
    (fun h => ⟨hl.1, hl.2.1, by show 1 < jr.nm; rw [hl.2.2]; exact h⟩)
  refine ⟨R, T, Z, e, ?_⟩
  intro l
  have hm : 0 < n := hn
  have hc := total_continuity (a := a) (b := b) hx hz ht 0 0 l (fun h => (h rfl).elim) ps
  have zR : ∀ j l, j < jr.jlo → total (currentR a b g) ps 0 j l = 0 := fun j l h => total_zero fun p hp => (out_low ha (h2 p hp).1 h l 0).1
  have r1 := eR 0 l 0 nr.1 nr.2.1
  have z1 := eZ l
  have z2 := eZ (l - 1)
  rw [mirC_added er hm zR (le_refl _)] at r1
  simp only [addedC, if_pos hm, ez _ _ _, zero_add] at z1 z2
  rw [r1, z1, z2]
  have h2x : 0 < (((0 : ℤ) : ℝ) + 1 / 2) * g.dx := by simp only [Int.cast_zero]; positivity
  rw [abs_of_pos h2x]
  unfold axisDensity axisFactor
  have n4 : (Real.pi : ℂ) ≠ 0 := by exact_mod_cast Real.pi_pos.ne'
  have n5 : (g.dx : ℂ) ≠ 0 := by exact_mod_cast hx.ne'
  have n6 : (g.dz : ℂ) ≠ 0 := by exact_mod_cast hz.ne'
  have n7 : (g.dt : ℂ) ≠ 0 := by exact_mod_cast ht.ne'
  simp only [Nat.cast_zero, mul_zero, zero_mul, zero_div, sub_zero, pow_zero, one_mul] at hc ⊢
  by_cases hty : ty = 1
  · simp only [if_pos hty]
    push_cast
    rw [show -(densityM a b g ps 0 0 l / (Real.pi * (g.dx : ℂ) / 3) - densityM a b g (ps.map (before g)) 0 0 l / (Real.pi * (g.dx : ℂ) / 3)) / (g.dt : ℂ) =
      -(densityM a b g ps 0 0 l - densityM a b g (ps.map (before g)) 0 0 l) / (g.dt : ℂ) / (Real.pi * (g.dx : ℂ) / 3) by ring, ← hc]
    field_simp
    ring_nf
  · simp only [if_neg hty]
    push_cast
    rw [show -(densityM a b g ps 0 0 l / (Real.pi * (g.dx : ℂ) / 4) - densityM a b g (ps.map (before g)) 0 0 l / (Real.pi * (g.dx : ℂ) / 4)) / (g.dt : ℂ) =
      -(densityM a b g ps 0 0 l - densityM a b g (ps.map (before g)) 0 0 l) / (g.dt : ℂ) / (Real.pi * (g.dx : ℂ) / 4) by ring, ← hc]
    field_simp
    ring_nf

example : (∀ p ∈ [cdP, cdQ], FitC 3 3 3 (cdGeo 0) (cdArr 3) p) ∧ AxisArr (cdArr 3) ∧ EmptyC (cdArr 3) :=
  ⟨cd_fit (by norm_num) (by norm_num) 3 (by norm_num) (by norm_num), cd_axis 3, fun _ _ _ => rfl⟩

/-- C140. The row on the axis after the division: `Jz` vanishes on modes above 0, `Jtheta` on all modes but 1, and on mode 1 `Jr` (next to the axis) and
`Jtheta` are the components of one vector that does not depend on the angle. For any contents of the arrays. -/
theorem C140_axis_regular {dr : ℝ} (hdr : 0 < dr) (ty : ℤ) {jr jt jz : CArr} (nr : AxisArr jr) (nt : AxisArr jt) (nz : AxisArr jz)
    (hl : jr.llo = jt.llo ∧ jr.lhi = jt.lhi ∧ jr.nm = jt.nm) (hn : 1 < jt.nm) :
    ∃ R T Z, scaleC ty 0 dr jr jt jz = .ok (R, T, Z) ∧ ∀ l : ℤ,
      (∀ m, m ≠ 0 → Z.val 0 l m = 0) ∧ (∀ m, m ≠ 1 → T.val 0 l m = 0) ∧
      ∀ θ θ' : ℝ, cartesian θ (R.val 0 l 1 * Complex.exp (-θ * Complex.I)).re (T.val 0 l 1 * Complex.exp (-θ * Complex.I)).re 0 =
        cartesian θ' (R.val 0 l 1 * Complex.exp (-θ' * Complex.I)).re (T.val 0 l 1 * Complex.exp (-θ' * Complex.I)).re 0 := by
  obtain ⟨R, T, Z, e, _, _, _, _, hZ, hT, hT1⟩ := scaleC_axis (ty := ty) hdr nr nt nz (fun h => ⟨hl.1, hl.2.1, by rw [hl.2.2]; exact h⟩)
  refine ⟨R, T, Z, e, fun l => ⟨hZ l, hT l, ?_⟩⟩
  have key : ∀ θ : ℝ, cartesian θ (R.val 0 l 1 * Complex.exp (-θ * Complex.I)).re (T.val 0 l 1 * Complex.exp (-θ * Complex.I)).re 0 =
      ((R.val 0 l 1).re, (R.val 0 l 1).im, 0) := by
    intro θ
    rw [hT1 hn]
    have ex : Complex.exp (-θ * Complex.I) = ⟨Real.cos θ, -Real.sin θ⟩ := by
      rw [← Complex.ofReal_neg, Complex.exp_mul_I, ← Complex.ofReal_cos, ← Complex.ofReal_sin]
      apply Complex.ext <;> simp [Complex.cos_ofReal_re, Complex.sin_ofReal_re]
    rw [ex]
    have h2 := Real.sin_sq_add_cos_sq θ
    unfold cartesian
    simp only [Complex.mul_re, Complex.mul_im, Complex.neg_re, Complex.neg_im, Complex.I_re, Complex.I_im, Prod.mk.injEq, and_true]
    constructor
    · linear_combination (R.val 0 l 1).re * h2
    · linear_combination (R.val 0 l 1).im * h2
  intro θ θ'
  rw [key, key]

example : AxisArr (cdArr 3) ∧ 1 < (cdArr 3).nm := ⟨cd_axis 3, by simp [cdArr]⟩

end Picsar.Props
