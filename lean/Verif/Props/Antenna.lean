import Verif.Lemmas.Antenna

/-
C99: laser antennas.
-/
namespace Picsar.Props
open Picsar Picsar.Grid Picsar.Deposition Picsar.Loading Picsar.Antenna Picsar.Spec

/-! ### Examples -/

def anK : Consts := ⟨1, 1, 1, 1⟩

noncomputable def anS : Settings where
  vec := ![0, 0, 1]
  pol := ![1, 0, 0]
  spot := ![1 / 2, 1 / 2, 1 / 4]
  a1 := 1
  a2 := 0
  lam := 2 * Real.pi
  w0 := 1
  ctau := 1
  tpeak := 2 * Real.pi
  polangle := 0
  order := 2
  window := 0

/-- Two cells of size 1/2 in each direction. -/
noncomputable def anM : Fin 3 → Axis := fun _ => ⟨0, 1, 1 / 2⟩

theorem an_usable : Usable anK anS := by
  constructor <;> simp [anK, anS, dot, Real.pi_pos]

theorem an_pulsed : Pulsed anS := by constructor <;> simp [anS]

theorem an_cells : ∀ i, HasCells (anM i) 2 := fun _ => ⟨by norm_num [anM], by norm_num, by norm_num [anM]⟩

theorem an_along : LastDir anS.vec 2 := ⟨by simp [anS], fun i hi => by fin_cases i <;> exact absurd hi (by decide)⟩

/-- The settings of the example are those of a laser of peak field 1 and frequency 1. -/
theorem an_peak : peakField anK anS 1 = 1 ∧ omegaL anK anS = 1 ∧ topField anK anS = 1 := by
  have hp := Real.pi_pos.ne'
  have ho : omegaL anK anS = 1 := by
    simp only [omegaL, anK, anS]
    field_simp
  have h1 : peakField anK anS 1 = 1 := by
    simp only [peakField, ho]
    simp [anK]
  refine ⟨h1, ho, ?_⟩
  have h0 : peakField anK anS 0 = 0 := by simp [peakField]
  simp only [topField]
  rw [show anS.a1 = 1 from rfl, show anS.a2 = 0 from rfl, h1, h0]
  norm_num

/-! ### Where the emitters are -/

theorem dir_dot (v d : V3) : dot (dirOf v) d = dot v d / √(dot v v) := by
  unfold dirOf
  generalize √(dot v v) = r
  unfold dot
  ring

theorem plane_iff {K : Consts} {s : Settings} (h : Usable K s) (P : V3) : dot (laserOf K s).vec P = (laserOf K s).intercept ↔ dot s.vec (rel s P) = 0 := by
  have hs := (Real.sqrt_pos.mpr h.vec).ne'
  show dot (dirOf s.vec) P = dirOf s.vec 0 * s.spot 0 + dirOf s.vec 1 * s.spot 1 + dirOf s.vec 2 * s.spot 2 ↔ _
  rw [← sub_eq_zero]
  have e : dot (dirOf s.vec) P - (dirOf s.vec 0 * s.spot 0 + dirOf s.vec 1 * s.spot 1 + dirOf s.vec 2 * s.spot 2) = dot s.vec (rel s P) / √(dot s.vec s.vec) := by
    have e1 : dirOf s.vec 0 * s.spot 0 + dirOf s.vec 1 * s.spot 1 + dirOf s.vec 2 * s.spot 2 = dot (dirOf s.vec) s.spot := rfl
    rw [e1, dir_dot, dir_dot, ← sub_div]
    congr 1
    unfold dot rel
    ring
  rw [e, div_eq_zero_iff, or_iff_left hs]

theorem along_unit {K : Consts} {s : Settings} (h : Usable K s) {n : Fin 3} (hn : LastDir s.vec n) : LastDir (laserOf K s).vec n := by
  have hs := (Real.sqrt_pos.mpr h.vec).ne'
  refine ⟨div_ne_zero hn.1 hs, fun i hi => ?_⟩
  show s.vec i / _ = 0
  rw [hn.2 i hi, zero_div]

theorem load_eq {K : Consts} {s : Settings} (h : Usable K s) (m : Fin 3 → Axis) : loadAntenna 3 K s m = .ok (emitters 3 K (laserOf K s) m) := by
  unfold loadAntenna
  rw [prepare_ok h]
  rfl

/-- The polarisation vectors and the direction of the laser are orthogonal unit vectors. -/
theorem C99_frame (K : Consts) (s : Settings) (h : Usable K s) :
    dot (dirOf s.vec) (dirOf s.vec) = 1 ∧ dot (polA s) (polA s) = 1 ∧ dot (polB s) (polB s) = 1 ∧
      dot (dirOf s.vec) (polA s) = 0 ∧ dot (dirOf s.vec) (polB s) = 0 ∧ dot (polA s) (polB s) = 0 :=
  ⟨dot_unit h.vec, polA_unit h, polB_unit h, dot_dirs h.orth, cross_orth_left _ _, polAB⟩

example : dot (polA anS) (polB anS) = 0 := (C99_frame anK anS an_usable).2.2.2.2.2

/-- Loading an antenna puts exactly one emitter at rest in each point of the plane through the spot, orthogonal to the direction of the laser, that is in the
local domain and over (or under) the middle of a cell; its two attributes are its coordinates in the plane along the polarisations. -/
theorem C99_plane (K : Consts) (s : Settings) (h : Usable K s) (n : Fin 3) (hn : LastDir s.vec n) (m : Fin 3 → Axis) (N : Fin 3 → ℤ) (hN : ∀ i, HasCells (m i) (N i)) :
    ∃ ps, loadAntenna 3 K s m = .ok ps ∧ (ps.map (·.pos)).Nodup ∧
      (∀ P : V3, P ∈ ps.map (·.pos) ↔ (∀ i, i ≠ n → Middle (m i) (N i) (P i)) ∧ dot s.vec (rel s P) = 0 ∧ (m n).lo ≤ P n ∧ P n < (m n).hi) ∧
      ∀ p ∈ ps, (∀ i, p.u i = 0) ∧ p.gaminv = 1 ∧ ∀ i, p.pos i = s.spot i + p.X * polA s i + p.Y * polB s i := by
  have hl := along_unit h hn
  refine ⟨_, load_eq h m, nodup_positions hl hN, fun P => ?_, fun p hp => ?_⟩
  · rw [mem_positions hl hN, plane_iff h]
  · obtain ⟨i1, i2, hs⟩ := split_along hl
    obtain ⟨l, -, j, -, -, -, rfl⟩ := (mem_emitters hs hN).mp hp
    refine ⟨fun i => rfl, rfl, fun i => ?_⟩
    have hd : dot (dirOf s.vec) (rel s (point 3 (laserOf K s) m l j)) = 0 := by
      have h1 := (plane_iff h _).mp (on_plane hs m l j)
      rw [dir_dot, h1, zero_div]
    have := in_plane (dot_unit h.vec) (dot_unit h.pol) (dot_dirs h.orth) hd i
    show point 3 (laserOf K s) m l j i = _
    have hr : point 3 (laserOf K s) m l j i = s.spot i + rel s (point 3 (laserOf K s) m l j) i := by unfold rel; ring
    rw [hr, this]
    show _ = s.spot i + dot (fun i => point 3 (laserOf K s) m l j i - s.spot i) (polA s) * polA s i +
      dot (fun i => point 3 (laserOf K s) m l j i - s.spot i) (polB s) * polB s i
    have hB : cross (dirOf s.vec) (dirOf s.pol) = polB s := rfl
    rw [hB]
    unfold polA rel
    ring

/-- The example has an emitter at (1/4, 3/4, 1/4). -/
example : ∃ ps, loadAntenna 3 anK anS anM = .ok ps ∧ (![1 / 4, 3 / 4, 1 / 4] : V3) ∈ ps.map (·.pos) := by
  obtain ⟨ps, h1, -, h2, -⟩ := C99_plane anK anS an_usable 2 an_along anM (fun _ => 2) an_cells
  refine ⟨ps, h1, (h2 _).mpr ⟨fun i hi => ?_, ?_, ?_, ?_⟩⟩
  · fin_cases i
    · exact ⟨0, by norm_num, by norm_num, by norm_num [anM]⟩
    · exact ⟨1, by norm_num, by norm_num, by norm_num [anM]⟩
    · exact absurd rfl hi
  · simp [dot, rel, anS]
  · show (0 : ℝ) ≤ 1 / 4
    norm_num
  · show (1 / 4 : ℝ) < 1
    norm_num

/-- The emitters of the processes are those of a run with one process, whatever the decomposition. -/
theorem C99_decomposition (K : Consts) (s : Settings) (h : Usable K s) (m : Fin 3 → Axis) (c : Fin 3 → ℕ → ℤ) (R : Fin 3 → ℕ)
    (hc : ∀ i, Cuts (m i) (c i) (R i)) : ∃ ps, loadAntenna 3 K s m = .ok ps ∧ ∃ f : ℕ → ℕ → ℕ → List APart,
      (∀ rx ry rz, loadAntenna 3 K s (piece m c ![rx, ry, rz]) = .ok (f rx ry rz)) ∧
      ((List.range (R 2)).flatMap fun rz => (List.range (R 1)).flatMap fun ry => (List.range (R 0)).flatMap fun rx => f rx ry rz).Perm ps := by
  obtain ⟨n, hn⟩ := exists_along h.vec
  exact ⟨_, load_eq h m, fun rx ry rz => emitters 3 K (laserOf K s) (piece m c ![rx, ry, rz]), fun _ _ _ => load_eq h _, emitters_perm (along_unit h hn) K hc⟩

example : ∀ i, Cuts (anM i) (fun r => r) 2 := fun _ => ⟨by norm_num [anM], rfl, fun r => by simp, by norm_num [anM]⟩

/-- Without amplitude there is no emitter. -/
theorem C99_silent (K : Consts) (s : Settings) (hv : 0 < dot s.vec s.vec) (hp : 0 < dot s.pol s.pol) (hl : s.lam ≠ 0) (h1 : s.a1 = 0) (h2 : s.a2 = 0)
    (m : Fin 3 → Axis) : loadAntenna 3 K s m = .ok [] := by
  unfold loadAntenna prepare flat
  simp only [show ¬ (3 : ℤ) = 2 by norm_num, if_false]
  rw [normalise_ok hv, except_bind_ok, normalise_ok hp, except_bind_ok, if_neg hl, h1, h2]
  simp [dot]

example : loadAntenna 3 anK { anS with a1 := 0 } anM = .ok [] :=
  C99_silent anK { anS with a1 := 0 } an_usable.vec an_usable.pol an_usable.lam.ne' rfl rfl anM

/-! ### What they do -/

/-- Every emitter follows the asked field: at each step its velocity is the field at the middle of the step, at the coordinates of the emitter at rest, scaled so
that the largest field gives one hundredth of the speed of light, and its position moves with that velocity. -/
theorem C99_path (K : Consts) (s : Settings) (h : Usable K s) (hp : Pulsed s) (charge dt : ℝ) (its : List ℤ) (tiles : List (List APart)) :
    ∃ L, prepare 3 K s = .ok (some L) ∧
      its.foldlM (fun ts it => pushSpecies 3 K s L charge dt it ts) tiles = .ok (tiles.map fun ps => ps.map (moved K s charge dt its)) :=
  ⟨laserOf K s, prepare_ok h, steps_ok h hp charge dt its tiles⟩

example : Usable anK anS ∧ Pulsed anS := ⟨an_usable, an_pulsed⟩

/-- Field of the example at the spot, a quarter of a period before the peak. -/
example : asked anK anS 0 0 (2 * Real.pi - Real.pi / 2) 0 = -Real.exp (-(Real.pi / 2) ^ 2) := by
  have h1 := an_peak
  have : asked anK anS 0 0 (2 * Real.pi - Real.pi / 2) = fieldAt anK anS Real.sin (pulse anK anS (2 * Real.pi - Real.pi / 2)) 0 0 (2 * Real.pi - Real.pi / 2) := by
    simp [asked, anS]
  rw [this]
  simp only [fieldAt, h1.2.1]
  rw [show anS.a1 = 1 from rfl, show anS.a2 = 0 from rfl, h1.1]
  have ep : polA anS 0 = 1 := by simp [polA, dirOf, anS, dot]
  have e0 : peakField anK anS 0 = 0 := by simp [peakField]
  rw [ep, e0]
  have et : 1 * (2 * Real.pi - Real.pi / 2 - anS.tpeak) = -(Real.pi / 2) := by simp only [anS]; ring
  have ew : waist anS 0 0 = 1 := by simp [waist]
  have eu : pulse anK anS (2 * Real.pi - Real.pi / 2) = Real.exp (-(Real.pi / 2) ^ 2) := by
    simp only [pulse, anS, anK]
    norm_num
  rw [et, Real.sin_neg, Real.sin_pi_div_two, ew, eu]
  ring

/-- The length of the blocks has no effect. -/
theorem C99_blocks (K : Consts) (s : Settings) (L : Laser) (charge dt t : ℝ) (lv lv' : ℕ) (h : 1 ≤ lv) (h' : 1 ≤ lv') (ps : List APart) :
    pushTile 3 K s L charge dt t lv ps = pushTile 3 K s L charge dt t lv' ps := by
  rw [pushTile_eq _ _ _ _ _ _ _ h, pushTile_eq _ _ _ _ _ _ _ h']

/-- With an even order, or a Hann window, the emitters of charge one never move faster than one hundredth of the speed of light. -/
theorem C99_speed (K : Consts) (s : Settings) (h : Usable K s) (he : s.window = 0 → Even s.order) (charge X Y t : ℝ) :
    dot (quiver K s charge X Y t) (quiver K s charge X Y t) ≤ (charge * (K.c / 100)) ^ 2 := by
  have h1 := asked_le h he X Y t
  have ht := top_pos h
  have e : dot (quiver K s charge X Y t) (quiver K s charge X Y t) =
      (charge * (K.c / 100)) ^ 2 * (dot (asked K s X Y t) (asked K s X Y t) / topField K s ^ 2) := by
    unfold quiver dot
    ring
  rw [e]
  refine mul_le_of_le_one_right (sq_nonneg _) ?_
  rw [div_le_one (by positivity)]
  exact h1

example : anS.window = 0 → Even anS.order := fun _ => ⟨1, rfl⟩

/-- The two species of an antenna (charges 1 and -1, same plane) move symmetrically: the mean position of the two emitters of a point does not move and their
velocities are opposite. -/
theorem C99_symmetric (K : Consts) (s : Settings) (dt : ℝ) (its : List ℤ) (p : APart) (hu : ∀ i, p.u i = 0) (i : Fin 3) :
    (moved K s 1 dt its p).pos i + (moved K s (-1) dt its p).pos i = 2 * p.pos i ∧ (moved K s (-1) dt its p).u i = -(moved K s 1 dt its p).u i := by
  have hq : ∀ t i, quiver K s (-1) p.X p.Y t i = -quiver K s 1 p.X p.Y t i := by
    intro t i
    unfold quiver
    ring
  constructor
  · unfold moved
    dsimp only
    have : (its.map fun it : ℤ => dt * quiver K s (-1) p.X p.Y ((it - 1 / 2) * dt) i).sum = -(its.map fun it : ℤ => dt * quiver K s 1 p.X p.Y ((it - 1 / 2) * dt) i).sum := by
      induction its with
      | nil => simp
      | cons a l ih => rw [List.map_cons, List.map_cons, List.sum_cons, List.sum_cons, ih, hq]; ring
    rw [this]
    ring
  · unfold moved
    dsimp only
    cases its.getLast? with
    | none => dsimp only; rw [hu i, neg_zero]
    | some it => exact hq _ i

example : ∃ p : APart, (∀ i, p.u i = 0) ∧ p.X = 1 := ⟨⟨fun _ => 0, fun _ => 0, 1, 1, 1, 0⟩, fun _ => rfl, rfl⟩

/-- With the direction and the polarisation along axes, and cells of size at most one, the current of the two species over the area of a cell is the one that
radiates the asked field on both sides: twice the field times the permittivity times the speed of light. -/
theorem C99_current_partial (K : Consts) (s : Settings) (h : Usable K s) (n a b : Fin 3) (hna : n ≠ a) (hnb : n ≠ b) (hab : a ≠ b) (hv : OnAxis s.vec n)
    (hp : OnAxis s.pol a) (m : Fin 3 → Axis) (N : Fin 3 → ℤ) (hN : ∀ i, HasCells (m i) (N i)) (hd : ∀ i, (m i).d ≤ 1) :
    ∃ ps, loadAntenna 3 K s m = .ok ps ∧ ∀ p ∈ ps, ∀ t i,
      (1 * p.w * quiver K s 1 p.X p.Y t i + (-1) * p.w * quiver K s (-1) p.X p.Y t i) / ((m a).d * (m b).d) = 2 * K.eps0 * K.c * asked K s p.X p.Y t i := by
  refine ⟨_, load_eq h m, fun p hpm t i => ?_⟩
  obtain ⟨k, hk⟩ := exists_along h.vec
  obtain ⟨i1, i2, hs⟩ := split_along (along_unit h hk)
  obtain ⟨l, -, j, -, -, -, rfl⟩ := (mem_emitters hs hN).mp hpm
  have hw : (born 3 K (laserOf K s) m l j).w = 100 * K.eps0 * topField K s * ((m a).d * (m b).d) :=
    weight_axis h hna hnb hab hv hp (fun i => ⟨(hN i).1, hd i⟩)
  rw [hw]
  have := (hN a).1
  have := (hN b).1
  have := top_pos h
  unfold quiver
  field_simp
  ring

example : OnAxis anS.vec 2 ∧ OnAxis anS.pol 0 ∧ ∀ i, (anM i).d ≤ 1 := by
  refine ⟨⟨by simp [anS], ?_⟩, ⟨by simp [anS], ?_⟩, fun i => by norm_num [anM]⟩
  · intro i hi
    fin_cases i
    · rfl
    · rfl
    · exact absurd rfl hi
  · intro i hi
    fin_cases i
    · exact absurd rfl hi
    · rfl
    · rfl

/-! ### Amplitudes given from outside -/

/-- With amplitudes given from outside, the k-th emitter in the order of the tiles takes the k-th amplitude; too few amplitudes are read out of bounds. -/
theorem C99_given (charge dt : ℝ) (amp : List V3) (src : V3) (tiles : List (List APart)) :
    (tiles.flatten.length ≤ amp.length → ∃ out, pushGiven charge dt amp src tiles = .ok out ∧ out.map List.length = tiles.map List.length ∧
      out.flatten = List.zipWith (driven charge dt src) tiles.flatten amp) ∧
    (amp.length < tiles.flatten.length → pushGiven charge dt amp src tiles = .error .outOfBounds) := by
  constructor
  · intro h
    obtain ⟨out, h1, h2, h3⟩ := give_from charge dt amp src tiles 0 (by omega)
    exact ⟨out, h1, h2, by rw [h3, List.drop_zero]⟩
  · intro h
    exact give_from_error charge dt amp src tiles 0 (by omega) (by omega)

/-- Three emitters in two tiles, three amplitudes. -/
example (p q r : APart) (a b c : V3) : ∃ out, pushGiven 1 1 [a, b, c] (fun _ => 0) [[p], [q, r]] = .ok out ∧
    out.flatten = [driven 1 1 (fun _ => 0) p a, driven 1 1 (fun _ => 0) q b, driven 1 1 (fun _ => 0) r c] := by
  obtain ⟨out, h1, -, h2⟩ := (C99_given 1 1 [a, b, c] (fun _ => 0) [[p], [q, r]]).1 (by simp)
  exact ⟨out, h1, h2⟩

/-! ### What does not hold -/

/-- A null direction is not reported: the division by its length comes before the check. -/
theorem C99_null_vector_refuted : ¬ ∀ (K : Consts) (s : Settings), (∀ i, s.vec i = 0) → prepare 3 K s = .error .exception := by
  intro h
  have h1 := h anK { anS with vec := fun _ => 0 } (fun _ => rfl)
  unfold prepare flat normalise at h1
  simp [dot] at h1

/-- With an odd order the pulse has no beginning: the emitters move faster than one hundredth of the speed of light (here already at the first steps). -/
theorem C99_odd_order_refuted : ¬ ∀ (K : Consts) (s : Settings), Usable K s → Pulsed s → ∀ X Y t,
    dot (quiver K s 1 X Y t) (quiver K s 1 X Y t) ≤ (1 * (K.c / 100)) ^ 2 := by
  intro h
  have hu : Usable anK { anS with order := 1 } := ⟨an_usable.c, an_usable.me, an_usable.e, an_usable.vec, an_usable.pol, an_usable.orth, an_usable.lam, an_usable.w0, an_usable.amp⟩
  have h1 := h anK { anS with order := 1 } hu (by constructor <;> simp [anS]) 0 0 (2 * Real.pi - 3 * (Real.pi / 2))
  have hk := an_peak
  have hq : quiver anK { anS with order := 1 } 1 0 0 (2 * Real.pi - 3 * (Real.pi / 2)) 0 = 1 / 100 * Real.exp (3 * (Real.pi / 2)) := by
    have ha : asked anK { anS with order := 1 } 0 0 (2 * Real.pi - 3 * (Real.pi / 2)) 0 = Real.exp (3 * (Real.pi / 2)) := by
      have : asked anK { anS with order := 1 } 0 0 (2 * Real.pi - 3 * (Real.pi / 2)) =
          fieldAt anK { anS with order := 1 } Real.sin (pulse anK { anS with order := 1 } (2 * Real.pi - 3 * (Real.pi / 2))) 0 0 (2 * Real.pi - 3 * (Real.pi / 2)) := by
        simp [asked, anS]
      rw [this]
      show waist anS 0 0 * pulse anK { anS with order := 1 } (2 * Real.pi - 3 * (Real.pi / 2)) *
        (peakField anK anS 1 * Real.sin (omegaL anK anS * (2 * Real.pi - 3 * (Real.pi / 2) - 2 * Real.pi)) * polA anS 0 +
          peakField anK anS 0 * Real.sin (omegaL anK anS * (2 * Real.pi - 3 * (Real.pi / 2) - 2 * Real.pi) + 2 * Real.pi * 0) * polB anS 0) = _
      have ep : polA anS 0 = 1 := by simp [polA, dirOf, anS, dot]
      have e0 : peakField anK anS 0 = 0 := by simp [peakField]
      have ew : waist anS 0 0 = 1 := by simp [waist]
      have eu : pulse anK { anS with order := 1 } (2 * Real.pi - 3 * (Real.pi / 2)) = Real.exp (3 * (Real.pi / 2)) := by
        simp only [pulse, anS, anK]
        norm_num
      have es : Real.sin (1 * (2 * Real.pi - 3 * (Real.pi / 2) - 2 * Real.pi)) = 1 := by
        have : 1 * (2 * Real.pi - 3 * (Real.pi / 2) - 2 * Real.pi) = Real.pi / 2 - 2 * Real.pi := by ring
        rw [this, Real.sin_sub_two_pi, Real.sin_pi_div_two]
      rw [ep, e0, ew, eu, hk.1, hk.2.1, es]
      ring
    unfold quiver
    rw [ha, show topField anK { anS with order := 1 } = 1 from hk.2.2]
    simp only [anK]
    ring
  have hc : anK.c = 1 := rfl
  rw [hc] at h1
  have hx : 1 < Real.exp (3 * (Real.pi / 2)) := Real.one_lt_exp_iff.mpr (by have := Real.pi_pos; linarith)
  unfold dot at h1
  rw [hq] at h1
  nlinarith [mul_self_nonneg (quiver anK { anS with order := 1 } 1 0 0 (2 * Real.pi - 3 * (Real.pi / 2)) 1),
    mul_self_nonneg (quiver anK { anS with order := 1 } 1 0 0 (2 * Real.pi - 3 * (Real.pi / 2)) 2)]

/-- A wave without end (order 0) ignores the phase between the polarisations: a circular polarisation becomes linear. -/
theorem C99_continuous_phase_refuted : ¬ ∀ (K : Consts) (s : Settings) (L : Laser), Usable K s → s.window = 0 → s.order = 0 → prepare 3 K s = .ok (some L) →
    ∀ X Y t, profile K s L X Y t = .ok (fieldAt K s Real.sin 1 X Y t) := by
  intro h
  have hu : Usable anK { anS with order := 0, a2 := 1, polangle := 1 / 4 } :=
    ⟨an_usable.c, an_usable.me, an_usable.e, an_usable.vec, an_usable.pol, an_usable.orth, an_usable.lam, an_usable.w0, Or.inr one_ne_zero⟩
  have h1 := h anK _ _ hu rfl rfl (prepare_ok hu) 0 0 (2 * Real.pi)
  rw [profile_ok hu (by constructor <;> simp [anS])] at h1
  injection h1 with h1
  have h2 := congrFun h1 1
  have hk := an_peak
  have ha : asked anK { anS with order := 0, a2 := 1, polangle := 1 / 4 } 0 0 (2 * Real.pi) 1 = 0 := by
    simp [asked, fieldAt, anS]
  have hb : polB anS 1 = 1 := by
    simp [polB, dirOf, anS, dot]
  have hb' : polA anS 1 = 0 := by
    simp [polA, dirOf, anS, dot]
  have hf : fieldAt anK { anS with order := 0, a2 := 1, polangle := 1 / 4 } Real.sin 1 0 0 (2 * Real.pi) 1 = 1 := by
    show waist anS 0 0 * 1 * (peakField anK anS 1 * Real.sin (omegaL anK anS * (2 * Real.pi - 2 * Real.pi)) * polA anS 1 +
          peakField anK anS 1 * Real.sin (omegaL anK anS * (2 * Real.pi - 2 * Real.pi) + 2 * Real.pi * (1 / 4)) * polB anS 1) = _
    have ew : waist anS 0 0 = 1 := by simp [waist]
    have es : 1 * (2 * Real.pi - 2 * Real.pi) + 2 * Real.pi * (1 / 4) = Real.pi / 2 := by ring
    rw [hb, hb', ew, hk.1, hk.2.1, es, Real.sin_pi_div_two]
    ring
  rw [ha, hf] at h2
  exact zero_ne_one h2

/-- A Hann window with a peak at time 0 divides by zero at the first step. -/
theorem C99_hann_zero_peak_refuted : ¬ ∀ (K : Consts) (s : Settings) (L : Laser), Usable K s → s.window = 1 → prepare 3 K s = .ok (some L) →
    ∀ X Y, ∃ E, profile K s L X Y (realTime 0 1) = .ok E := by
  intro h
  have hu : Usable anK { anS with window := 1, tpeak := 0 } :=
    ⟨an_usable.c, an_usable.me, an_usable.e, an_usable.vec, an_usable.pol, an_usable.orth, an_usable.lam, an_usable.w0, an_usable.amp⟩
  obtain ⟨E, hE⟩ := h anK _ _ hu rfl (prepare_ok hu) 0 0
  unfold profile hanning realTime at hE
  simp at hE

theorem an_spacing (v : V3) (i : Fin 3) (h : v i ≠ 0) : spacing anM v i = 1 / 2 / |v i| := by
  unfold spacing
  rw [if_pos h, abs_div]
  show |(1 / 2 : ℝ)| / _ = _
  rw [abs_of_pos (by norm_num)]

theorem an_top' (p : V3) : topField anK { anS with pol := p } = 1 := an_peak.2.2

/-- With a polarisation that is not along an axis the current is wrong: for (3,4,0) and square cells it is 25/16 of the one that radiates the asked field. -/
theorem C99_rotated_polarisation_refuted : ¬ ∀ (K : Consts) (s : Settings), Usable K s → OnAxis s.vec 2 → ∀ (m : Fin 3 → Axis) (N : Fin 3 → ℤ),
    (∀ i, HasCells (m i) (N i)) → (∀ i, (m i).d ≤ 1) → ∃ ps, loadAntenna 3 K s m = .ok ps ∧ ∀ p ∈ ps, p.w = 100 * K.eps0 * topField K s * ((m 0).d * (m 1).d) := by
  intro h
  have hu : Usable anK { anS with pol := ![3, 4, 0] } :=
    ⟨an_usable.c, an_usable.me, an_usable.e, an_usable.vec, by simp [dot]; norm_num, by simp [dot, anS], an_usable.lam, an_usable.w0, an_usable.amp⟩
  have hax : OnAxis anS.vec 2 := by
    refine ⟨by simp [anS], fun i hi => ?_⟩
    fin_cases i
    · rfl
    · rfl
    · exact absurd rfl hi
  obtain ⟨ps, h1, h2⟩ := h anK _ hu hax anM (fun _ => 2) an_cells (fun i => by norm_num [anM])
  rw [load_eq hu] at h1
  injection h1 with h1
  obtain ⟨i1, i2, hs⟩ := split_along (along_unit hu an_along)
  obtain ⟨ps', g1, -, g2, -⟩ := C99_plane anK _ hu 2 an_along anM (fun _ => 2) an_cells
  have hin : (![1 / 4, 3 / 4, 1 / 4] : V3) ∈ ps'.map (·.pos) := by
    refine (g2 _).mpr ⟨fun i hi => ?_, ?_, ?_, ?_⟩
    · fin_cases i
      · exact ⟨0, by norm_num, by norm_num, by norm_num [anM]⟩
      · exact ⟨1, by norm_num, by norm_num, by norm_num [anM]⟩
      · exact absurd rfl hi
    · simp [dot, rel, anS]
    · show (0 : ℝ) ≤ 1 / 4
      norm_num
    · show (1 / 4 : ℝ) < 1
      norm_num
  rw [load_eq hu] at g1
  injection g1 with g1
  rw [← g1, List.mem_map] at hin
  obtain ⟨p, hp, -⟩ := hin
  have hw := h2 p (h1 ▸ hp)
  obtain ⟨l, -, j, -, -, -, rfl⟩ := (mem_emitters hs an_cells).mp hp
  have hs5 : √(3 * 3 + 4 * 4 : ℝ) = 5 := by
    rw [show (3 * 3 + 4 * 4 : ℝ) = 5 ^ 2 by norm_num]
    exact Real.sqrt_sq (by norm_num)
  have pa : polA { anS with pol := ![3, 4, 0] } = ![3 / 5, 4 / 5, 0] := by
    funext i
    fin_cases i <;> simp [polA, dirOf, dot, hs5]
  have pb : polB { anS with pol := ![3, 4, 0] } = ![-(4 / 5), 3 / 5, 0] := by
    funext i
    fin_cases i <;> simp [polB, dirOf, dot, hs5, anS]
  have hw' : weight 3 anK (laserOf anK { anS with pol := ![3, 4, 0] }) anM = 100 * (25 / 64) := by
    unfold weight
    rw [if_pos rfl]
    show anK.eps0 * topField anK { anS with pol := ![3, 4, 0] } / (1 / 100) * minval (spacing anM (polA { anS with pol := ![3, 4, 0] })) *
      minval (spacing anM (polB { anS with pol := ![3, 4, 0] })) = _
    have m1 : minval (spacing anM ![3 / 5, 4 / 5, 0]) = 5 / 8 := by
      unfold minval
      rw [an_spacing _ 0 (show (3 / 5 : ℝ) ≠ 0 by norm_num), an_spacing _ 1 (show (4 / 5 : ℝ) ≠ 0 by norm_num), show spacing anM ![3 / 5, 4 / 5, 0] 2 = 1 from if_neg (by simp)]
      show min (1 / 2 / |(3 / 5 : ℝ)|) (min (1 / 2 / |(4 / 5 : ℝ)|) 1) = _
      rw [abs_of_pos (by norm_num), abs_of_pos (by norm_num)]
      norm_num
    have m2 : minval (spacing anM ![-(4 / 5), 3 / 5, 0]) = 5 / 8 := by
      unfold minval
      rw [an_spacing _ 0 (show (-(4 / 5) : ℝ) ≠ 0 by norm_num), an_spacing _ 1 (show (3 / 5 : ℝ) ≠ 0 by norm_num), show spacing anM ![-(4 / 5), 3 / 5, 0] 2 = 1 from if_neg (by simp)]
      show min (1 / 2 / |(-(4 / 5) : ℝ)|) (min (1 / 2 / |(3 / 5 : ℝ)|) 1) = _
      rw [abs_neg, abs_of_pos (by norm_num), abs_of_pos (by norm_num)]
      norm_num
    rw [pa, pb, m1, m2, an_top']
    norm_num [anK]
  have hw2 : weight 3 anK (laserOf anK { anS with pol := ![3, 4, 0] }) anM = 100 * anK.eps0 * topField anK { anS with pol := ![3, 4, 0] } * ((anM 0).d * (anM 1).d) := hw
  rw [hw', an_top'] at hw2
  norm_num [anK, anM] at hw2

/-- With cells larger than one (in the unit of length) the current is too small: the components of the polarisations that are zero count as a size of one. -/
theorem C99_large_cells_refuted : ¬ ∀ (K : Consts) (s : Settings), Usable K s → OnAxis s.vec 2 → OnAxis s.pol 0 → ∀ (m : Fin 3 → Axis) (N : Fin 3 → ℤ),
    (∀ i, HasCells (m i) (N i)) → ∃ ps, loadAntenna 3 K s m = .ok ps ∧ ∀ p ∈ ps, p.w = 100 * K.eps0 * topField K s * ((m 0).d * (m 1).d) := by
  intro h
  have hu := an_usable
  have hax : OnAxis anS.vec 2 := by
    refine ⟨by simp [anS], fun i hi => ?_⟩
    fin_cases i
    · rfl
    · rfl
    · exact absurd rfl hi
  have hap : OnAxis anS.pol 0 := by
    refine ⟨by simp [anS], fun i hi => ?_⟩
    fin_cases i
    · exact absurd rfl hi
    · rfl
    · rfl
  have hc : ∀ i : Fin 3, HasCells ((fun _ => ⟨0, 4, 2⟩ : Fin 3 → Axis) i) 2 := fun _ => ⟨by norm_num, by norm_num, by norm_num⟩
  obtain ⟨ps, h1, h2⟩ := h anK _ hu hax hap (fun _ => ⟨0, 4, 2⟩) (fun _ => 2) hc
  rw [load_eq hu] at h1
  injection h1 with h1
  obtain ⟨i1, i2, hs⟩ := split_along (along_unit hu an_along)
  obtain ⟨ps', g1, -, g2, -⟩ := C99_plane anK _ hu 2 an_along (fun _ => ⟨0, 4, 2⟩) (fun _ => 2) hc
  have hin : (![1, 1, 1 / 4] : V3) ∈ ps'.map (·.pos) := by
    refine (g2 _).mpr ⟨fun i hi => ?_, ?_, ?_, ?_⟩
    · fin_cases i
      · exact ⟨0, by norm_num, by norm_num, by norm_num⟩
      · exact ⟨0, by norm_num, by norm_num, by norm_num⟩
      · exact absurd rfl hi
    · simp [dot, rel, anS]
    · show (0 : ℝ) ≤ 1 / 4
      norm_num
    · show (1 / 4 : ℝ) < 4
      norm_num
  rw [load_eq hu] at g1
  injection g1 with g1
  rw [← g1, List.mem_map] at hin
  obtain ⟨p, hp, -⟩ := hin
  have hw := h2 p (h1 ▸ hp)
  obtain ⟨l, -, j, -, -, -, rfl⟩ := (mem_emitters hs hc).mp hp
  have pa : polA anS = ![1, 0, 0] := by
    funext i
    fin_cases i <;> simp [polA, dirOf, dot, anS]
  have pb : polB anS = ![0, 1, 0] := by
    funext i
    fin_cases i <;> simp [polB, dirOf, dot, anS]
  have hw' : weight 3 anK (laserOf anK anS) (fun _ => ⟨0, 4, 2⟩) = 100 := by
    unfold weight
    rw [if_pos rfl]
    show anK.eps0 * topField anK anS / (1 / 100) * minval (spacing (fun _ => ⟨0, 4, 2⟩) (polA anS)) * minval (spacing (fun _ => ⟨0, 4, 2⟩) (polB anS)) = _
    have m1 : minval (spacing (fun _ => ⟨0, 4, 2⟩) ![1, 0, 0]) = 1 := by
      simp [minval, spacing]
    have m2 : minval (spacing (fun _ => ⟨0, 4, 2⟩) ![0, 1, 0]) = 1 := by
      simp [minval, spacing]
    rw [pa, pb, m1, m2, an_peak.2.2]
    norm_num [anK]
  have hw2 : weight 3 anK (laserOf anK anS) (fun _ => ⟨0, 4, 2⟩) = 100 * anK.eps0 * topField anK anS * (2 * 2) := hw
  rw [hw', an_peak.2.2] at hw2
  norm_num [anK] at hw2

end Picsar.Props
