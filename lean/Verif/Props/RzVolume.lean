import Verif.Lemmas.RzVolume
import Verif.Props.Deposition2d

/-
C96: the division by the cell volumes turns what the particles deposited on an r-z grid into densities: charge density times ring volume is the
deposited charge, mirrored below the axis and counted once, and the scaled densities and currents satisfy the cylindrical continuity equation the
r-z field solver needs, on and off the axis. It fails for the "corrected" axis volume and for a grid whose guard rows reach the axis.
-/
namespace Picsar.Props
open Picsar Picsar.Grid Picsar.Deposition Picsar.Deposition2d Picsar.RzVolume Picsar.Spec

/-- On a grid that starts on the axis: density times volume of the ring is the charge deposited at the node and at its mirror image, for every
row from the axis to the last one. -/
theorem C96_density_times_volume {ty : ℤ} (ht : ty ≠ 1) {dr dz : ℝ} (hdr : 0 < dr) {rho : Arr} (h1 : rho.lo.j ≤ 0) (h2 : 0 ≤ rho.hi.j)
    (h3 : -rho.lo.j ≤ rho.hi.j) :
    ∃ rho', scaleRho ty 0 dr rho = .ok rho' ∧ rho'.lo = rho.lo ∧ rho'.hi = rho.hi ∧
      ∀ j l : ℤ, 0 ≤ j → j ≤ rho.hi.j →
        rho'.val ⟨j, 0, l⟩ * ringVolume 0 dr dz j =
          (rho.val ⟨j, 0, l⟩ + if 1 ≤ j ∧ rho.lo.j ≤ -j then rho.val ⟨-j, 0, l⟩ else 0) * (dr * dz) :=
  ⟨_, scaleRho_axis hdr.ne' h1 h2 h3, rfl, rfl, fun _ l g1 g2 => density_volume ht hdr l g1 g2 h1⟩

/-- No charge is lost or counted twice: the sum over the rings is the sum over all the rows the particles deposited on, guard rows included. -/
theorem C96_total_charge {ty : ℤ} (ht : ty ≠ 1) {dr dz : ℝ} (hdr : 0 < dr) {rho : Arr} (h1 : rho.lo.j ≤ 0) (h2 : 0 ≤ rho.hi.j)
    (h3 : -rho.lo.j ≤ rho.hi.j) :
    ∃ rho', scaleRho ty 0 dr rho = .ok rho' ∧
      ∀ l : ℤ, ∑ j ∈ Finset.Icc 0 rho.hi.j, rho'.val ⟨j, 0, l⟩ * ringVolume 0 dr dz j =
        (∑ j ∈ Finset.Icc rho.lo.j rho.hi.j, rho.val ⟨j, 0, l⟩) * (dr * dz) := by
  refine ⟨_, scaleRho_axis hdr.ne' h1 h2 h3, fun l => ?_⟩
  have e := fold_sum (fun j => rho.val ⟨j, 0, l⟩) (m := -rho.lo.j) (n := rho.hi.j) (by omega) h3
  rw [neg_neg] at e
  rw [← e, Finset.sum_mul]
  apply Finset.sum_congr rfl
  intro j hj
  rw [Finset.mem_Icc] at hj
  exact density_volume ht hdr l hj.1 hj.2 h1

/-- A particle spread over rows -1 to 2. -/
noncomputable def rvArr : Arr := ⟨⟨-2, 0, -2⟩, ⟨6, 0, 6⟩, fun i => if i.j = -1 then 1 else if i.j = 0 then 4 else if i.j = 1 then 2 else 0⟩

example : rvArr.lo.j ≤ 0 ∧ 0 ≤ rvArr.hi.j ∧ -rvArr.lo.j ≤ rvArr.hi.j ∧ rvArr.val ⟨-1, 0, 0⟩ ≠ 0 := by
  norm_num [rvArr]

/-- With `type_rz_depose = 1` the axis row is divided by `π dr/3`, which is not the volume of the axis cell: a quarter of the charge
deposited there is missing from the sum over the rings. -/
theorem C96_corrected_volume_refuted {dr dz : ℝ} (hdr : 0 < dr) {rho : Arr} (h1 : rho.lo.j ≤ 0) (h2 : 0 ≤ rho.hi.j)
    (h3 : -rho.lo.j ≤ rho.hi.j) :
    ∃ rho', scaleRho 1 0 dr rho = .ok rho' ∧
      ∀ l : ℤ, rho'.val ⟨0, 0, l⟩ * ringVolume 0 dr dz 0 = 3 / 4 * (rho.val ⟨0, 0, l⟩ * (dr * dz)) := by
  refine ⟨_, scaleRho_axis hdr.ne' h1 h2 h3, fun l => ?_⟩
  have hp := Real.pi_pos
  simp only [divided, foldedNodes]
  rw [if_pos (by omega), if_neg (by omega), ring_axis hdr, nodeRow, if_pos rfl, axisFactor, if_pos rfl]
  field_simp

/-- On a grid away from the axis: density times volume of the ring is the deposited charge, on every row, guard rows included, as long as the
rings do not reach the axis. -/
theorem C96_density_off_axis (ty : ℤ) {rmin dr dz : ℝ} (hr : 0 < rmin) (hdr : 0 < dr) {rho : Arr} (h1 : rho.lo.j ≤ 0) (h2 : 0 ≤ rho.hi.j)
    (h3 : dr / 2 ≤ rmin + rho.lo.j * dr) :
    ∃ rho', scaleRho ty rmin dr rho = .ok rho' ∧ rho'.lo = rho.lo ∧ rho'.hi = rho.hi ∧
      ∀ j l : ℤ, rho.lo.j ≤ j → j ≤ rho.hi.j → rho'.val ⟨j, 0, l⟩ * ringVolume rmin dr dz j = rho.val ⟨j, 0, l⟩ * (dr * dz) := by
  have hp := Real.pi_pos
  have low : ∀ j : ℤ, rho.lo.j ≤ j → dr / 2 ≤ rmin + j * dr := by
    intro j hj
    have : (rho.lo.j : ℝ) ≤ j := by exact_mod_cast hj
    nlinarith
  refine ⟨_, scaleRho_off hr.ne' h1 h2 (fun j g _ => ?_), rfl, rfl, fun j l g1 g2 => ?_⟩
  · have := low j g; linarith
  · have g := low j g1
    simp only [divided]
    rw [if_pos ⟨g1, g2⟩, ring_pos (by linarith), abs_of_nonneg (by linarith)]
    have : 0 < rmin + j * dr := by linarith
    field_simp

example : (0 : ℝ) < 5 ∧ (0 : ℝ) < 1 ∧ rvArr.lo.j ≤ 0 ∧ 0 ≤ rvArr.hi.j ∧ (1 : ℝ) / 2 ≤ 5 + rvArr.lo.j * 1 := by
  norm_num [rvArr]

/-- A grid whose first row is `k` cells away from the axis, with at least `k` guard rows: the guard row on the axis is divided by zero. -/
theorem C96_guard_row_on_axis_refuted (ty : ℤ) {dr : ℝ} (hdr : 0 < dr) {rho : Arr} {k : ℤ} (h1 : 1 ≤ k) (h2 : k ≤ -rho.lo.j) (rho' : Arr) :
    scaleRho ty (k * dr) dr rho ≠ .ok rho' := by
  have hk : (1 : ℝ) ≤ k := by exact_mod_cast h1
  refine scaleRho_fail (j := -k) (by have : 0 < (k : ℝ) * dr := by positivity
                                     exact this.ne') (by omega) (by omega) ?_ rho'
  push_cast
  ring

example : (1 : ℤ) ≤ 2 ∧ (2 : ℤ) ≤ -rvArr.lo.j := by norm_num [rvArr]

/-- The azimuthal current vanishes on the axis and the radial current times the circumference is what crossed the cell face, mirrored below the
axis with the opposite sign. -/
theorem C96_current_scaling (ty : ℤ) {dr : ℝ} (hdr : 0 < dr) {jr jt jz : Arr} (r3 : -jr.lo.j ≤ jr.hi.j)
    (t1 : jt.lo.j ≤ 0) (t2 : 0 ≤ jt.hi.j) (t3 : -jt.lo.j ≤ jt.hi.j) (z1 : jz.lo.j = jt.lo.j) (z2 : jz.hi.j = jt.hi.j) :
    ∃ jr' jt' jz', scaleJ ty 0 dr jr jt jz = .ok (jr', jt', jz') ∧
      (∀ j l : ℤ, 0 ≤ j → jr.lo.j ≤ j → j ≤ jr.hi.j → jr'.val ⟨j, 0, l⟩ * (2 * Real.pi * ((j + 1 / 2) * dr)) =
        jr.val ⟨j, 0, l⟩ - if jr.lo.j ≤ -1 - j then jr.val ⟨-1 - j, 0, l⟩ else 0) ∧
      (∀ l, jt'.val ⟨0, 0, l⟩ = 0) ∧
      (∀ j l : ℤ, 1 ≤ j → j ≤ jt.hi.j → jt'.val ⟨j, 0, l⟩ * (2 * Real.pi * (j * dr)) =
        jt.val ⟨j, 0, l⟩ + if jt.lo.j ≤ -j then jt.val ⟨-j, 0, l⟩ else 0) ∧
      (∀ j l : ℤ, 1 ≤ j → j ≤ jz.hi.j → jz'.val ⟨j, 0, l⟩ * (2 * Real.pi * (j * dr)) =
        jz.val ⟨j, 0, l⟩ + if jz.lo.j ≤ -j then jz.val ⟨-j, 0, l⟩ else 0) ∧
      (ty ≠ 1 → ∀ l : ℤ, jz'.val ⟨0, 0, l⟩ * (Real.pi * (dr / 2) ^ 2) = jz.val ⟨0, 0, l⟩ * dr) := by
  have hp := Real.pi_pos
  refine ⟨_, _, _, scaleJ_axis hdr.ne' r3 t1 t2 t3 z1 z2, ?_, ?_, ?_, ?_, ?_⟩
  · intro j l g0 g1 g2
    have hj : (0 : ℝ) ≤ j := by exact_mod_cast g0
    simp only [divided, foldedCentres]
    rw [if_pos ⟨g1, g2⟩, abs_of_nonneg (by positivity)]
    by_cases h : jr.lo.j ≤ -1 - j
    · rw [if_pos (by omega), if_pos h]; field_simp
    · rw [if_neg (by omega), if_neg h, sub_zero]; field_simp
  · intro l; simp [withoutAxis]
  · intro j l g1 g2
    have hj : (1 : ℝ) ≤ j := by exact_mod_cast g1
    simp only [divided, withoutAxis, foldedNodes]
    rw [if_neg (by omega), if_pos (by omega), nodeRow_pos hdr g1]
    by_cases h : jt.lo.j ≤ -j
    · rw [if_pos (by omega), if_pos h]; field_simp
    · rw [if_neg (by omega), if_neg h, add_zero]; field_simp
  · intro j l g1 g2
    have hj : (1 : ℝ) ≤ j := by exact_mod_cast g1
    simp only [divided, foldedNodes]
    rw [if_pos (by omega), nodeRow_pos hdr g1]
    by_cases h : jz.lo.j ≤ -j
    · rw [if_pos (by omega), if_pos h]; field_simp
    · rw [if_neg (by omega), if_neg h, add_zero]; field_simp
  · intro ht l
    simp only [divided, foldedNodes]
    rw [if_pos (by omega), if_neg (by omega), nodeRow, if_pos rfl, axisFactor, if_neg ht]
    field_simp
    norm_num

/-- Charge conservation in r-z, on a grid that starts on the axis, from the particles to the scaled arrays: the particles deposit their charge
before and after their move and the current of the move on blank arrays, the volumes are divided out, and the result satisfies the cylindrical
continuity equation at every node of the grid, with the axis cell at the axis: exactly what the field solver needs (`C45_yee_rz`). -/
theorem C96_continuity {clight : ℝ} {a b : ℕ} (ha : a ≤ 3) (hb : b ≤ 3) {g : Geo} (hx : 0 < g.dx) (hz : 0 < g.dz) (ht : 0 < g.dt)
    (hr : g.xmin = 0) {ty : ℤ} (hty : ty ≠ 1) {ps : List Part} {σ : Mem} {r0 r1 : Arr}
    (hσ : ∀ c i, (σ c).val i = 0) (hr0 : ∀ i, r0.val i = 0) (hr1 : ∀ i, r1.val i = 0)
    (h1 : ∀ p ∈ ps, Subluminal clight p) (h2 : ∀ p ∈ ps, Fit3 a b true g σ p)
    (h3 : ∀ p ∈ ps, Fits2 a b true g r0 (before g p)) (h4 : ∀ p ∈ ps, Fits2 a b true g r1 p)
    (bx : (σ .jx).lo.j ≤ 0 ∧ 0 ≤ (σ .jx).hi.j ∧ -(σ .jx).lo.j ≤ (σ .jx).hi.j)
    (bz : (σ .jz).lo.j ≤ 0 ∧ 0 ≤ (σ .jz).hi.j ∧ -(σ .jz).lo.j ≤ (σ .jz).hi.j)
    (by' : (σ .jy).lo.j = (σ .jz).lo.j ∧ (σ .jy).hi.j = (σ .jz).hi.j)
    (b0 : r0.lo.j ≤ 0 ∧ 0 ≤ r0.hi.j ∧ -r0.lo.j ≤ r0.hi.j) (b1 : r1.lo.j ≤ 0 ∧ 0 ≤ r1.hi.j ∧ -r1.lo.j ≤ r1.hi.j) :
    ∃ σ' q0 q1 jr jt jz R0 R1, deposeN clight a b true g ps σ = .ok σ' ∧ deposeRho2 a b true g (ps.map (before g)) r0 = .ok q0 ∧
      deposeRho2 a b true g ps r1 = .ok q1 ∧
      scaleJ ty g.xmin g.dx (σ' .jx) (σ' .jy) (σ' .jz) = .ok (jr, jt, jz) ∧ scaleRho ty g.xmin g.dx q0 = .ok R0 ∧
      scaleRho ty g.xmin g.dx q1 = .ok R1 ∧
      (∀ l : ℤ, (R1.val ⟨0, 0, l⟩ - R0.val ⟨0, 0, l⟩) / g.dt + divAxisRz .jx .jz g.dx g.dz (currentsOf jr jt jz) l = 0) ∧
      ∀ j l : ℤ, 1 ≤ j → j ≤ (σ .jx).hi.j → j ≤ (σ .jz).hi.j → j ≤ r0.hi.j → j ≤ r1.hi.j →
        (R1.val ⟨j, 0, l⟩ - R0.val ⟨j, 0, l⟩) / g.dt + divNodeRz .jx .jz g.xmin g.dx g.dz (currentsOf jr jt jz) j l = 0 := by
  have hp := Real.pi_pos
  rw [hr]
  refine ⟨_, _, _, _, _, _, _, _, deposeN_ok ha hb hx hz ht true h1 h2,
    deposeRho2_ok ha hb _ _ (fun p hp => by obtain ⟨q, hq, rfl⟩ := List.mem_map.mp hp; exact h3 q hq),
    deposeRho2_ok ha hb _ _ h4,
    scaleJ_axis hx.ne' bx.2.2 (by show (σ .jy).lo.j ≤ 0; omega) (by show 0 ≤ (σ .jy).hi.j; omega)
      (by show -(σ .jy).lo.j ≤ (σ .jy).hi.j; omega) (by show (σ .jz).lo.j = (σ .jy).lo.j; omega)
      (by show (σ .jz).hi.j = (σ .jy).hi.j; omega),
    scaleRho_axis hx.ne' b0.1 b0.2.1 b0.2.2, scaleRho_axis hx.ne' b1.1 b1.2.1 b1.2.2, ?_, ?_⟩
  · intro l
    have e := currents2_div (a := a) (b := b) (rz := true) hx hz ht.ne' ps 0 l
    have v1 : ∀ (r : Arr) (qs : List Part), (∀ i, r.val i = 0) → ∀ m,
        (addA r fun i => if i.k = 0 then densities2 a b true g qs i.j i.l else 0).val ⟨m, 0, l⟩ = densities2 a b true g qs m l := by
      intro r qs h m
      simp [addA, h]
    have v2 : ∀ c n m, ((addF σ (currents2 a b true g ps)) c).val ⟨m, 0, n⟩ = currents2 a b true g ps c ⟨m, 0, n⟩ := by
      intro c n m
      simp [addF, hσ]
    simp only [divAxisRz, currentsOf, at']
    rw [axis_val (A := addA r1 _) (v1 r1 ps hr1) b1.1 b1.2.1, axis_val (A := addA r0 _) (v1 r0 _ hr0) b0.1 b0.2.1,
      axis_val (A := addF σ _ .jz) (v2 .jz l) bz.1 bz.2.1, axis_val (A := addF σ _ .jz) (v2 .jz (l - 1)) bz.1 bz.2.1,
      centre_val (A := addF σ _ .jx) hx (v2 .jx l) (fun m hm => jx_out ha h2 l hm) bx.1 (le_refl 0) bx.2.1]
    rw [axisFactor, if_neg hty]
    have := axis_algebra hx.ne' hz.ne' ht.ne' e
    push_cast
    rw [zero_add]
    exact this
  · intro j l g1 g2 g3 g4 g5
    have hj : (1 : ℝ) ≤ j := by exact_mod_cast g1
    have e := currents2_div (a := a) (b := b) (rz := true) hx hz ht.ne' ps j l
    have e' := currents2_div (a := a) (b := b) (rz := true) hx hz ht.ne' ps (-j) l
    have v1 : ∀ (r : Arr) (qs : List Part), (∀ i, r.val i = 0) → ∀ m,
        (addA r fun i => if i.k = 0 then densities2 a b true g qs i.j i.l else 0).val ⟨m, 0, l⟩ = densities2 a b true g qs m l := by
      intro r qs h m
      simp [addA, h]
    have v2 : ∀ c n m, ((addF σ (currents2 a b true g ps)) c).val ⟨m, 0, n⟩ = currents2 a b true g ps c ⟨m, 0, n⟩ := by
      intro c n m
      simp [addF, hσ]
    simp only [divNodeRz, currentsOf, at', Spec.radius]
    rw [node_val (A := addA r1 _) hx (v1 r1 ps hr1) (fun m hm => rho_out ha h4 l hm) b1.1 g1 g5,
      node_val (A := addA r0 _) hx (v1 r0 _ hr0) (fun m hm => rho_out ha (A := r0)
        (fun p hp => by obtain ⟨q, hq, rfl⟩ := List.mem_map.mp hp; exact h3 q hq) l hm) b0.1 g1 g4,
      node_val (A := addF σ _ .jz) hx (v2 .jz l) (fun m hm => jz_out ha h2 l hm) bz.1 g1 g3,
      node_val (A := addF σ _ .jz) hx (v2 .jz (l - 1)) (fun m hm => jz_out ha h2 (l - 1) hm) bz.1 g1 g3,
      centre_val (A := addF σ _ .jx) hx (v2 .jx l) (fun m hm => jx_out ha h2 l hm) bx.1 (by omega) g2,
      centre_val (A := addF σ _ .jx) hx (v2 .jx l) (fun m hm => jx_out ha h2 l hm) bx.1 (by omega) (by show j - 1 ≤ (σ .jx).hi.j; omega)]
    have hm := mirror_algebra (r := (j : ℝ) * g.dx) (by positivity) hx.ne' hz.ne' ht.ne' (by positivity) (by nlinarith) e e'
    rw [show (-1 : ℤ) - j = -j - 1 by ring, show (-1 : ℤ) - (j - 1) = -j by ring]
    push_cast
    rw [show ((j : ℝ) + 1 / 2) * g.dx = j * g.dx + g.dx / 2 by ring, show ((j : ℝ) - 1 / 2) * g.dx = j * g.dx - g.dx / 2 by ring,
      show ((j : ℝ) - 1 + 1 / 2) * g.dx = j * g.dx - g.dx / 2 by ring]
    simp only [zero_add]
    exact hm

/-- The grid of the example of C95, moved to the axis; one of the two particles is half a cell from it, its shape of order 3 reaches row -1. -/
noncomputable def rvGeo : Geo := ⟨2, 0, 0, 0, 1, 1, 1, 1 / 2⟩

theorem rv_fit : ∀ p ∈ [d2P, d2Q], Fit3 3 3 true rvGeo d2Mem p := by
  have s1 : √((3:ℝ) ^ 2 + 4 ^ 2) < 10 := by rw [Real.sqrt_lt' (by norm_num)]; norm_num
  have s2 : √((1 / 2:ℝ) ^ 2 + 0 ^ 2) < 10 := by rw [Real.sqrt_lt' (by norm_num)]; norm_num
  have s3 : √(((3:ℝ) - 1 / 2 * (3 / 5 * 1)) ^ 2 + (4 - 1 / 2 * (2 / 5 * 1)) ^ 2) < 10 := by rw [Real.sqrt_lt' (by norm_num)]; norm_num
  have s4 : √(((1 / 2:ℝ) - 1 / 2 * (0 * 1)) ^ 2 + (0 - 1 / 2 * (0 * 1)) ^ 2) < 10 := by rw [Real.sqrt_lt' (by norm_num)]; norm_num
  have key : ∀ r : ℝ, 0 ≤ r → r < 10 → Fits 3 (-5) 15 ((r - 0) / 1) := by
    intro r r1 r2
    unfold Fits
    push_cast
    constructor <;> linarith
  intro p hp c _
  simp only [List.mem_cons, List.not_mem_nil, or_false] at hp
  have t := fun u : ℝ => Real.sqrt_nonneg u
  rcases hp with rfl | rfl <;>
    simp only [Fits2, cells, across, before, d2Mem, d2Arr, rvGeo, d2P, d2Q, if_true] <;>
    refine ⟨⟨by norm_num, by norm_num, ?_, ?_⟩, by norm_num, by norm_num, ?_, ?_⟩ <;>
    first
      | exact key _ (t _) s1
      | exact key _ (t _) s2
      | exact key _ (t _) s3
      | exact key _ (t _) s4
      | (unfold Fits; push_cast; constructor <;> linarith)

example : rvGeo.xmin = 0 ∧ (∀ p ∈ [d2P, d2Q], Subluminal 1 p) ∧ (∀ p ∈ [d2P, d2Q], Fit3 3 3 true rvGeo d2Mem p) ∧
    (∀ p ∈ [d2P, d2Q], Fits2 3 3 true rvGeo d2Arr (before rvGeo p)) ∧ (∀ p ∈ [d2P, d2Q], Fits2 3 3 true rvGeo d2Arr p) ∧
    d2Arr.lo.j ≤ 0 ∧ 0 ≤ d2Arr.hi.j ∧ -d2Arr.lo.j ≤ d2Arr.hi.j :=
  ⟨rfl, d2_sub, rv_fit, fun p hp => (rv_fit p hp .jx (by simp)).2, fun p hp => (rv_fit p hp .jx (by simp)).1, by norm_num [d2Arr]⟩

/-- The same on a grid away from the axis: at every node whose cell lies on one side of the axis. No blank arrays are needed to state it for
the change each routine makes; it is stated for blank arrays to match the previous theorem. -/
theorem C96_continuity_off_axis {clight : ℝ} {a b : ℕ} (ha : a ≤ 3) (hb : b ≤ 3) {g : Geo} (hx : 0 < g.dx) (hz : 0 < g.dz) (ht : 0 < g.dt)
    (hr : 0 < g.xmin) (ty : ℤ) {ps : List Part} {σ : Mem} {r0 r1 : Arr}
    (hσ : ∀ c i, (σ c).val i = 0) (hr0 : ∀ i, r0.val i = 0) (hr1 : ∀ i, r1.val i = 0)
    (h1 : ∀ p ∈ ps, Subluminal clight p) (h2 : ∀ p ∈ ps, Fit3 a b true g σ p)
    (h3 : ∀ p ∈ ps, Fits2 a b true g r0 (before g p)) (h4 : ∀ p ∈ ps, Fits2 a b true g r1 p)
    (bz : (σ .jz).lo.j ≤ 0 ∧ 0 ≤ (σ .jz).hi.j)
    (by' : (σ .jy).lo.j = (σ .jz).lo.j ∧ (σ .jy).hi.j = (σ .jz).hi.j)
    (b0 : r0.lo.j ≤ 0 ∧ 0 ≤ r0.hi.j) (b1 : r1.lo.j ≤ 0 ∧ 0 ≤ r1.hi.j)
    (hA : ∀ A : Arr, A = σ .jx ∨ A = σ .jz ∨ A = r0 ∨ A = r1 → 0 < g.xmin + A.lo.j * g.dx) :
    ∃ σ' q0 q1 jr jt jz R0 R1, deposeN clight a b true g ps σ = .ok σ' ∧ deposeRho2 a b true g (ps.map (before g)) r0 = .ok q0 ∧
      deposeRho2 a b true g ps r1 = .ok q1 ∧
      scaleJ ty g.xmin g.dx (σ' .jx) (σ' .jy) (σ' .jz) = .ok (jr, jt, jz) ∧ scaleRho ty g.xmin g.dx q0 = .ok R0 ∧
      scaleRho ty g.xmin g.dx q1 = .ok R1 ∧
      ∀ j l : ℤ, (∀ A : Arr, A = σ .jx ∨ A = σ .jz ∨ A = r0 ∨ A = r1 → A.lo.j ≤ j ∧ j ≤ A.hi.j) → (σ .jx).lo.j < j →
        (R1.val ⟨j, 0, l⟩ - R0.val ⟨j, 0, l⟩) / g.dt + divNodeRz .jx .jz g.xmin g.dx g.dz (currentsOf jr jt jz) j l = 0 := by
  have hp := Real.pi_pos
  have pos : ∀ A : Arr, A = σ .jx ∨ A = σ .jz ∨ A = r0 ∨ A = r1 → ∀ j : ℤ, A.lo.j ≤ j → 0 < g.xmin + j * g.dx := by
    intro A h j hj
    have := hA A h
    have : (A.lo.j : ℝ) ≤ j := by exact_mod_cast hj
    nlinarith
  refine ⟨_, _, _, _, _, _, _, _, deposeN_ok ha hb hx hz ht true h1 h2,
    deposeRho2_ok ha hb _ _ (fun p hp => by obtain ⟨q, hq, rfl⟩ := List.mem_map.mp hp; exact h3 q hq),
    deposeRho2_ok ha hb _ _ h4,
    scaleJ_off hr.ne' (by show (σ .jy).lo.j ≤ 0; omega) (by show 0 ≤ (σ .jy).hi.j; omega)
      (by show (σ .jz).lo.j = (σ .jy).lo.j; omega) (by show (σ .jz).hi.j = (σ .jy).hi.j; omega) 
      (fun j g1 _ => (pos _ (Or.inr (Or.inl rfl)) j (le_trans by'.1.ge g1)).ne')
      (fun j g1 _ => by have := pos _ (Or.inl rfl) j g1; nlinarith),
    scaleRho_off hr.ne' b0.1 b0.2 (fun j g1 _ => (pos _ (Or.inr (Or.inr (Or.inl rfl))) j g1).ne'),
    scaleRho_off hr.ne' b1.1 b1.2 (fun j g1 _ => (pos _ (Or.inr (Or.inr (Or.inr rfl))) j g1).ne'), ?_⟩
  intro j l hA hlo
  have hj : 0 < g.xmin + ((j : ℝ) - 1 / 2) * g.dx := by
    have := pos _ (Or.inl rfl) (j - 1) (by omega)
    push_cast at this
    nlinarith
  have e := currents2_div (a := a) (b := b) (rz := true) hx hz ht.ne' ps j l
  have a1 := hA _ (Or.inl rfl)
  have a2 := hA _ (Or.inr (Or.inl rfl))
  have a3 := hA _ (Or.inr (Or.inr (Or.inl rfl)))
  have a4 := hA _ (Or.inr (Or.inr (Or.inr rfl)))
  have hr1' : 0 < g.xmin + j * g.dx := by nlinarith
  have hr2' : 0 < g.xmin + ((j : ℝ) + 1 / 2) * g.dx := by nlinarith
  simp only [divNodeRz, currentsOf, at', Spec.radius, divided, addA, addF, hσ, hr0, hr1, if_true, zero_add]
  rw [if_pos a4, if_pos a3, if_pos a2, if_pos a1, if_pos (by omega), if_pos a2]
  push_cast
  rw [show (j : ℝ) - 1 + 1 / 2 = j - 1 / 2 by ring, abs_of_pos hr1', abs_of_pos hr2', abs_of_pos hj]
  generalize g.xmin + ((j : ℝ) + 1 / 2) * g.dx = rp at hr2'
  generalize g.xmin + ((j : ℝ) - 1 / 2) * g.dx = rm at hj
  generalize g.xmin + (j : ℝ) * g.dx = r at hr1'
  have := hz
  have := ht
  generalize currents2 a b true g ps .jx ⟨j, 0, l⟩ = x1 at *
  generalize currents2 a b true g ps .jx ⟨j - 1, 0, l⟩ = x2 at *
  generalize currents2 a b true g ps .jz ⟨j, 0, l⟩ = z1 at *
  generalize currents2 a b true g ps .jz ⟨j, 0, l - 1⟩ = z2 at *
  generalize densities2 a b true g ps j l = d1 at *
  generalize densities2 a b true g (ps.map (before g)) j l = d0 at *
  have k1 : rp * (x1 / (2 * Real.pi * rp)) = x1 / (2 * Real.pi) := by field_simp
  have k2 : rm * (x2 / (2 * Real.pi * rm)) = x2 / (2 * Real.pi) := by field_simp
  rw [k1, k2]
  have : (d1 / (2 * Real.pi * r) - d0 / (2 * Real.pi * r)) / g.dt +
      ((x1 / (2 * Real.pi) - x2 / (2 * Real.pi)) / (r * g.dx) + (z1 / (2 * Real.pi * r) - z2 / (2 * Real.pi * r)) / g.dz) =
      ((x1 - x2) / g.dx + (z1 - z2) / g.dz - (d0 - d1) / g.dt) / (2 * Real.pi * r) := by
    field_simp
    ring
  rw [this, e]
  simp

example : (0 : ℝ) < 6 ∧ ∀ A : Arr, A = d2Mem .jx ∨ A = d2Mem .jz ∨ A = d2Arr ∨ A = d2Arr → (0 : ℝ) < 6 + A.lo.j * 1 := by
  refine ⟨by norm_num, ?_⟩
  intro A h
  have : A = d2Arr := by rcases h with h | h | h | h <;> exact h
  subst this
  norm_num [d2Arr]

/-- With `type_rz_depose = 1` the axis rows of charge and axial current are divided by `π dr/3` while the field solver takes the divergence over
the axis cell: whenever a net radial current leaves the axis, the continuity equation of the solver fails there. -/
theorem C96_corrected_volume_breaks_continuity_refuted {dr dz dt : ℝ} (hdr : 0 < dr) {q0 q1 jr jt jz : Arr}
    (b0 : q0.lo.j ≤ 0 ∧ 0 ≤ q0.hi.j ∧ -q0.lo.j ≤ q0.hi.j) (b1 : q1.lo.j ≤ 0 ∧ 0 ≤ q1.hi.j ∧ -q1.lo.j ≤ q1.hi.j)
    (br : jr.lo.j ≤ -1 ∧ -jr.lo.j ≤ jr.hi.j) (bt : jt.lo.j ≤ 0 ∧ 0 ≤ jt.hi.j ∧ -jt.lo.j ≤ jt.hi.j)
    (bz : jz.lo.j = jt.lo.j ∧ jz.hi.j = jt.hi.j) :
    ∃ R0 R1 jr' jt' jz', scaleRho 1 0 dr q0 = .ok R0 ∧ scaleRho 1 0 dr q1 = .ok R1 ∧ scaleJ 1 0 dr jr jt jz = .ok (jr', jt', jz') ∧
      ∀ l : ℤ, (q1.val ⟨0, 0, l⟩ - q0.val ⟨0, 0, l⟩) / dt + (jr.val ⟨0, 0, l⟩ - jr.val ⟨-1, 0, l⟩) / dr +
          (jz.val ⟨0, 0, l⟩ - jz.val ⟨0, 0, l - 1⟩) / dz = 0 → jr.val ⟨0, 0, l⟩ ≠ jr.val ⟨-1, 0, l⟩ →
        (R1.val ⟨0, 0, l⟩ - R0.val ⟨0, 0, l⟩) / dt + divAxisRz .jx .jz dr dz (currentsOf jr' jt' jz') l ≠ 0 := by
  have hp := Real.pi_pos
  refine ⟨_, _, _, _, _, scaleRho_axis hdr.ne' b0.1 b0.2.1 b0.2.2, scaleRho_axis hdr.ne' b1.1 b1.2.1 b1.2.2,
    scaleJ_axis hdr.ne' br.2 bt.1 bt.2.1 bt.2.2 bz.1 bz.2, ?_⟩
  intro l e hj
  simp only [divAxisRz, currentsOf, at']
  rw [axis_val (A := q1) (f := fun m => q1.val ⟨m, 0, l⟩) (fun _ => rfl) b1.1 b1.2.1,
    axis_val (A := q0) (f := fun m => q0.val ⟨m, 0, l⟩) (fun _ => rfl) b0.1 b0.2.1,
    axis_val (A := jz) (f := fun m => jz.val ⟨m, 0, l⟩) (fun _ => rfl) (by omega) (by omega),
    axis_val (A := jz) (f := fun m => jz.val ⟨m, 0, l - 1⟩) (fun _ => rfl) (by omega) (by omega)]
  have ec : (divided (foldedCentres jr) jr.lo.j jr.hi.j (fun j => 2 * Real.pi * |((j : ℝ) + 1 / 2) * dr|)).val ⟨0, 0, l⟩ =
      (jr.val ⟨0, 0, l⟩ - jr.val ⟨-1, 0, l⟩) / (Real.pi * dr) := by
    simp only [divided, foldedCentres]
    rw [if_pos (by omega), if_pos (by omega)]
    push_cast
    rw [abs_of_nonneg (by positivity)]
    congr 1
    ring
  rw [ec, axisFactor, if_pos rfl]
  generalize jr.val ⟨0, 0, l⟩ = jp at *
  generalize jr.val ⟨-1, 0, l⟩ = jm at *
  generalize jz.val ⟨0, 0, l⟩ = zp at *
  generalize jz.val ⟨0, 0, l - 1⟩ = zm at *
  generalize q1.val ⟨0, 0, l⟩ = n at *
  generalize q0.val ⟨0, 0, l⟩ = o at *
  have : (n / (Real.pi * dr / 3) - o / (Real.pi * dr / 3)) / dt +
      (4 * ((jp - jm) / (Real.pi * dr)) / dr + (zp / (Real.pi * dr / 3) - zm / (Real.pi * dr / 3)) / dz) =
      ((n - o) / dt + (jp - jm) / dr + (zp - zm) / dz) / (Real.pi * dr / 3) + (jp - jm) / (Real.pi * dr ^ 2) := by
    field_simp
    ring
  rw [this, e, zero_div, zero_add]
  exact div_ne_zero (sub_ne_zero.mpr hj) (by positivity)

/-- Arrays for it: one unit of charge leaves the axis in a time step of one. -/
noncomputable def rvOut : Arr := ⟨⟨-2, 0, -2⟩, ⟨6, 0, 6⟩, fun i => if i.j = 0 then 1 else 0⟩
noncomputable def rvBlank : Arr := ⟨⟨-2, 0, -2⟩, ⟨6, 0, 6⟩, fun _ => 0⟩

example : (rvBlank.val ⟨0, 0, 0⟩ - rvOut.val ⟨0, 0, 0⟩) / 1 + (rvOut.val ⟨0, 0, 0⟩ - rvOut.val ⟨-1, 0, 0⟩) / 1 +
    (rvBlank.val ⟨0, 0, 0⟩ - rvBlank.val ⟨0, 0, 0 - 1⟩) / 1 = 0 ∧ rvOut.val ⟨0, 0, 0⟩ ≠ rvOut.val ⟨-1, 0, 0⟩ := by
  norm_num [rvOut, rvBlank]

end Picsar.Props
