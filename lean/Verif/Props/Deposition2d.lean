import Verif.Lemmas.Deposition2d
import Mathlib.Algebra.BigOperators.Group.List.Basic

/-
C95: in a plane (x-z, or r-z before the division by the cell volumes) the charge and current deposition routines of order 0 to 3 deposit the
standard shapes and Esirkepov's current, stay inside their arrays, and conserve charge; the unrolled routines do the same for particles that
move less than a cell, and read and write outside their local arrays for particles that move two cells or more.
-/
namespace Picsar.Props
open Picsar Picsar.Grid Picsar.Deposition Picsar.Deposition2d Picsar.Spec

/-! Example data: five cells each way, two particles. -/

noncomputable def d2Geo : Geo := ⟨2, -1, 0, 0, 1, 1, 1, 1 / 2⟩
noncomputable def d2P : Part := ⟨3, 4, 7 / 2, 3 / 5, 2 / 5, -3 / 5, 1, 3⟩
noncomputable def d2Q : Part := ⟨1 / 2, 0, 9 / 4, 0, 0, 1 / 2, 1, 1⟩
noncomputable def d2Arr : Arr := ⟨⟨-5, 0, -5⟩, ⟨15, 0, 15⟩, fun _ => 0⟩
noncomputable def d2Mem : Mem := fun _ => d2Arr

theorem d2_sub : ∀ p ∈ [d2P, d2Q], Subluminal 1 p := by
  intro p hp
  simp only [List.mem_cons, List.not_mem_nil, or_false] at hp
  rcases hp with rfl | rfl <;> norm_num [Subluminal, d2P, d2Q]

theorem d2_slow : ∀ p ∈ [d2P, d2Q], SlowPlane d2Geo p := by
  intro p hp
  simp only [List.mem_cons, List.not_mem_nil, or_false] at hp
  rcases hp with rfl | rfl <;> norm_num [SlowPlane, d2P, d2Q, d2Geo, abs_lt]

theorem d2_fit (n : ℕ) (hn : n ≤ 3) (rz : Bool) : ∀ p ∈ [d2P, d2Q], Fit3 n n rz d2Geo d2Mem p := by
  have h1 : (0 : ℝ) ≤ n := by positivity
  have h2 : (n : ℝ) ≤ 3 := by exact_mod_cast hn
  have s1 : √((3:ℝ) ^ 2 + 4 ^ 2) < 10 := by rw [Real.sqrt_lt' (by norm_num)]; norm_num
  have s2 : √((1 / 2:ℝ) ^ 2 + 0 ^ 2) < 10 := by rw [Real.sqrt_lt' (by norm_num)]; norm_num
  have s3 : √(((3:ℝ) - 1 / 2 * (3 / 5 * 1)) ^ 2 + (4 - 1 / 2 * (2 / 5 * 1)) ^ 2) < 10 := by rw [Real.sqrt_lt' (by norm_num)]; norm_num
  have s4 : √(((1 / 2:ℝ) - 1 / 2 * (0 * 1)) ^ 2 + (0 - 1 / 2 * (0 * 1)) ^ 2) < 10 := by rw [Real.sqrt_lt' (by norm_num)]; norm_num
  have key : ∀ r : ℝ, 0 ≤ r → r < 10 → Fits n (-5) 15 ((r - -1) / 1) := by
    intro r r1 r2
    unfold Fits
    push_cast
    constructor <;> linarith
  intro p hp c _
  simp only [List.mem_cons, List.not_mem_nil, or_false] at hp
  have t := fun u : ℝ => Real.sqrt_nonneg u
  cases rz <;> rcases hp with rfl | rfl <;>
    simp only [Fits2, cells, across, before, d2Mem, d2Arr, d2Geo, d2P, d2Q, Bool.false_eq_true, if_false, if_true] <;>
    refine ⟨⟨by norm_num, by norm_num, ?_, ?_⟩, by norm_num, by norm_num, ?_, ?_⟩ <;>
    first
      | exact key _ (t _) s1
      | exact key _ (t _) s2
      | exact key _ (t _) s3
      | exact key _ (t _) s4
      | (unfold Fits; push_cast; constructor <;> linarith)

/-- The routine of any order, in x-z and in r-z: it stays inside its arrays and adds the specified current to them, wherever the particles are
and whatever the time step, as long as no particle is faster than light and the grid arrays contain its shape before and after its move. -/
theorem C95_deposits_current {clight : ℝ} {a b : ℕ} (ha : a ≤ 3) (hb : b ≤ 3) {g : Geo} (hx : 0 < g.dx) (hz : 0 < g.dz) (ht : 0 < g.dt)
    (rz : Bool) {ps : List Part} {σ : Mem} (h1 : ∀ p ∈ ps, Subluminal clight p) (h2 : ∀ p ∈ ps, Fit3 a b rz g σ p) :
    ∃ σ', deposeN clight a b rz g ps σ = .ok σ' ∧ ∀ c, (σ' c).lo = (σ c).lo ∧ (σ' c).hi = (σ c).hi ∧
      ∀ i, (σ' c).val i = (σ c).val i + currents2 a b rz g ps c i :=
  ⟨_, deposeN_ok ha hb hx hz ht rz h1 h2, fun _ => ⟨rfl, rfl, fun _ => rfl⟩⟩

example : (∀ p ∈ [d2P, d2Q], Subluminal 1 p) ∧ (∀ p ∈ [d2P, d2Q], Fit3 3 3 true d2Geo d2Mem p) ∧
    0 < d2Geo.dx ∧ 0 < d2Geo.dz ∧ 0 < d2Geo.dt :=
  ⟨d2_sub, d2_fit 3 (by norm_num) true, by norm_num [d2Geo], by norm_num [d2Geo], by norm_num [d2Geo]⟩

/-- The unrolled routines of order 1, 2 and 3 add the same current for particles that move less than a cell. -/
theorem C95_unrolled_deposits_current {n : ℕ} (hn : n = 1 ∨ n = 2 ∨ n = 3) {g : Geo} (hx : 0 < g.dx) (hz : 0 < g.dz) {ps : List Part}
    {σ : Mem} (h1 : ∀ p ∈ ps, SlowPlane g p) (h2 : ∀ p ∈ ps, Fit3 n n false g σ p) :
    ∃ σ', deposeU n g ps σ = .ok σ' ∧ ∀ c, (σ' c).lo = (σ c).lo ∧ (σ' c).hi = (σ c).hi ∧
      ∀ i, (σ' c).val i = (σ c).val i + currents2 n n false g ps c i :=
  ⟨_, deposeU_ok hn hx hz h1 h2, fun _ => ⟨rfl, rfl, fun _ => rfl⟩⟩

example : (∀ p ∈ [d2P, d2Q], SlowPlane d2Geo p) ∧ ∀ p ∈ [d2P, d2Q], Fit3 2 2 false d2Geo d2Mem p :=
  ⟨d2_slow, d2_fit 2 (by norm_num) false⟩

/-- Light crossing less than a cell per step, the choice of routine from the orders makes no difference. -/
theorem C95_choice_of_routine {clight : ℝ} {a b : ℕ} (ha : a ≤ 3) (hb : b ≤ 3) {g : Geo} (hx : 0 < g.dx) (hz : 0 < g.dz) (ht : 0 < g.dt)
    (cx : clight * g.dt < g.dx) (cz : clight * g.dt < g.dz) {ps : List Part} {σ : Mem} (h1 : ∀ p ∈ ps, Subluminal clight p)
    (h2 : ∀ p ∈ ps, Fit3 a b false g σ p) :
    ∃ σ', depose2d clight a b g ps σ = .ok σ' ∧ ∀ c, (σ' c).lo = (σ c).lo ∧ (σ' c).hi = (σ c).hi ∧
      ∀ i, (σ' c).val i = (σ c).val i + currents2 a b false g ps c i := by
  have slow : ∀ p ∈ ps, SlowPlane g p := by
    intro p hp
    have e1 := across_near g false ht (h1 p hp)
    have e2 := z_near ht (h1 p hp)
    simp only [across, before, Bool.false_eq_true, if_false] at e1 e2
    have f : ∀ u v : ℝ, |u - v - u| = |v| := by intro u v; rw [show u - v - u = -v by ring, abs_neg]
    rw [f] at e1 e2
    exact ⟨by linarith, by linarith⟩
  unfold depose2d
  split_ifs with c1 c2 c3
  · obtain ⟨rfl, rfl⟩ := c1
    exact C95_unrolled_deposits_current (by simp) hx hz slow h2
  · obtain ⟨rfl, rfl⟩ := c2
    exact C95_unrolled_deposits_current (by simp) hx hz slow h2
  · obtain ⟨rfl, rfl⟩ := c3
    exact C95_unrolled_deposits_current (by simp) hx hz slow h2
  · exact C95_deposits_current ha hb hx hz ht false h1 h2

example : (1 : ℝ) * d2Geo.dt < d2Geo.dx ∧ (1 : ℝ) * d2Geo.dt < d2Geo.dz := by norm_num [d2Geo]

/-- A particle that moves two cells or more in a step makes an unrolled routine leave its local arrays: the run does not end normally. -/
theorem C95_fast_particle_leaves_arrays {n : ℕ} (hn : n = 1 ∨ n = 2 ∨ n = 3) {g : Geo} (hx : 0 < g.dx) (hz : 0 < g.dz) {ps : List Part}
    {σ : Mem} (h : ∃ p ∈ ps, 2 * g.dx ≤ |g.dt * (p.ux * p.gaminv)| ∨ 2 * g.dz ≤ |g.dt * (p.uz * p.gaminv)|) (σ' : Mem) :
    deposeU n g ps σ ≠ .ok σ' :=
  deposeU_fast hn hx hz h σ'

example : ∃ p ∈ [d2P, ⟨0, 0, 0, 5, 0, 0, 1, 1⟩], 2 * d2Geo.dx ≤ |d2Geo.dt * (p.ux * p.gaminv)| :=
  ⟨⟨0, 0, 0, 5, 0, 0, 1, 1⟩, by simp, by norm_num [d2Geo]⟩

/-- The deposited charge density: the product of the two shape factors, of the present positions and of the positions one step earlier. -/
theorem C95_deposits_charge {a b : ℕ} (ha : a ≤ 3) (hb : b ≤ 3) {rz : Bool} {g : Geo} {ps : List Part} {rho : Arr}
    (h : ∀ p ∈ ps, Fits2 a b rz g rho p) :
    ∃ rho', deposeRho2 a b rz g ps rho = .ok rho' ∧ rho'.lo = rho.lo ∧ rho'.hi = rho.hi ∧
      ∀ j l, rho'.val ⟨j, 0, l⟩ = rho.val ⟨j, 0, l⟩ + densities2 a b rz g ps j l :=
  ⟨_, deposeRho2_ok ha hb ps rho h, rfl, rfl, fun j l => by simp [addA]⟩

theorem C95_deposits_old_charge {a b : ℕ} (ha : a ≤ 3) (hb : b ≤ 3) {g : Geo} {ps : List Part} {rho : Arr}
    (h : ∀ p ∈ ps, Fits2 a b false g rho (before g p)) :
    ∃ rho', deposeRhoOld2 a b g ps rho = .ok rho' ∧ rho'.lo = rho.lo ∧ rho'.hi = rho.hi ∧
      ∀ j l, rho'.val ⟨j, 0, l⟩ = rho.val ⟨j, 0, l⟩ + densities2 a b false g (ps.map (before g)) j l :=
  ⟨_, deposeRhoOld2_ok ha hb ps rho h, rfl, rfl, fun j l => by simp [addA]⟩

example : (∀ p ∈ [d2P, d2Q], Fits2 3 3 true d2Geo d2Arr p) ∧ ∀ p ∈ [d2P, d2Q], Fits2 1 1 false d2Geo d2Arr (before d2Geo p) :=
  ⟨fun p hp => (d2_fit 3 (by norm_num) true p hp .jx (by simp)).1, fun p hp => (d2_fit 1 (by norm_num) false p hp .jx (by simp)).2⟩

/-- Charge conservation: for every node the divergence of the deposited current is the decrease of the deposited density over the step,
deposited by the same program: density of the old positions, density of the new positions, current of the move. -/
theorem C95_continuity {clight : ℝ} {a b : ℕ} (ha : a ≤ 3) (hb : b ≤ 3) {g : Geo} (hx : 0 < g.dx) (hz : 0 < g.dz) (ht : 0 < g.dt)
    (rz : Bool) {ps : List Part} {σ : Mem} {r0 r1 : Arr} (h1 : ∀ p ∈ ps, Subluminal clight p) (h2 : ∀ p ∈ ps, Fit3 a b rz g σ p)
    (h3 : ∀ p ∈ ps, Fits2 a b rz g r0 (before g p)) (h4 : ∀ p ∈ ps, Fits2 a b rz g r1 p) :
    ∃ σ' r0' r1', deposeN clight a b rz g ps σ = .ok σ' ∧ deposeRho2 a b rz g (ps.map (before g)) r0 = .ok r0' ∧
      deposeRho2 a b rz g ps r1 = .ok r1' ∧
      ∀ j l : ℤ, let jx := fun j l => (σ' .jx).val ⟨j, 0, l⟩ - (σ .jx).val ⟨j, 0, l⟩
        let jz := fun j l => (σ' .jz).val ⟨j, 0, l⟩ - (σ .jz).val ⟨j, 0, l⟩
        let old := r0'.val ⟨j, 0, l⟩ - r0.val ⟨j, 0, l⟩
        let new := r1'.val ⟨j, 0, l⟩ - r1.val ⟨j, 0, l⟩
        (new - old) / g.dt + (jx j l - jx (j - 1) l) / g.dx + (jz j l - jz j (l - 1)) / g.dz = 0 := by
  refine ⟨_, _, _, deposeN_ok ha hb hx hz ht rz h1 h2, deposeRho2_ok ha hb (ps.map (before g)) r0 ?_, deposeRho2_ok ha hb ps r1 h4, ?_⟩
  · intro q hq
    rw [List.mem_map] at hq
    obtain ⟨p, hp, rfl⟩ := hq
    exact h3 p hp
  · intro j l
    have h := currents2_div (a := a) (b := b) (rz := rz) hx hz ht.ne' ps j l
    simp only [addF, addA, if_true, add_sub_cancel_left]
    have e : (densities2 a b rz g ps j l - densities2 a b rz g (ps.map (before g)) j l) / g.dt =
        -((densities2 a b rz g (ps.map (before g)) j l - densities2 a b rz g ps j l) / g.dt) := by ring
    rw [e, ← h]
    ring

/-- The same for the routine the code picks and its own routine for the old density. -/
theorem C95_continuity_as_run {clight : ℝ} {a b : ℕ} (ha : a ≤ 3) (hb : b ≤ 3) {g : Geo} (hx : 0 < g.dx) (hz : 0 < g.dz) (ht : 0 < g.dt)
    (cx : clight * g.dt < g.dx) (cz : clight * g.dt < g.dz) {ps : List Part} {σ : Mem} {r0 r1 : Arr}
    (h1 : ∀ p ∈ ps, Subluminal clight p) (h2 : ∀ p ∈ ps, Fit3 a b false g σ p)
    (h3 : ∀ p ∈ ps, Fits2 a b false g r0 (before g p)) (h4 : ∀ p ∈ ps, Fits2 a b false g r1 p) :
    ∃ σ' r0' r1', depose2d clight a b g ps σ = .ok σ' ∧ deposeRhoOld2 a b g ps r0 = .ok r0' ∧
      deposeRho2 a b false g ps r1 = .ok r1' ∧
      ∀ j l : ℤ, let jx := fun j l => (σ' .jx).val ⟨j, 0, l⟩ - (σ .jx).val ⟨j, 0, l⟩
        let jz := fun j l => (σ' .jz).val ⟨j, 0, l⟩ - (σ .jz).val ⟨j, 0, l⟩
        let old := r0'.val ⟨j, 0, l⟩ - r0.val ⟨j, 0, l⟩
        let new := r1'.val ⟨j, 0, l⟩ - r1.val ⟨j, 0, l⟩
        (new - old) / g.dt + (jx j l - jx (j - 1) l) / g.dx + (jz j l - jz j (l - 1)) / g.dz = 0 := by
  obtain ⟨σ', e, hσ⟩ := C95_choice_of_routine ha hb hx hz ht cx cz h1 h2
  refine ⟨σ', _, _, e, deposeRhoOld2_ok ha hb ps r0 h3, deposeRho2_ok ha hb ps r1 h4, ?_⟩
  intro j l
  have h := currents2_div (a := a) (b := b) (rz := false) hx hz ht.ne' ps j l
  simp only [(hσ .jx).2.2, (hσ .jz).2.2, addA, if_true, add_sub_cancel_left]
  have e : (densities2 a b false g ps j l - densities2 a b false g (ps.map (before g)) j l) / g.dt =
      -((densities2 a b false g (ps.map (before g)) j l - densities2 a b false g ps j l) / g.dt) := by ring
  rw [e, ← h]
  ring

example : (∀ p ∈ [d2P, d2Q], Fits2 3 3 true d2Geo d2Arr (before d2Geo p)) ∧ ∀ p ∈ [d2P, d2Q], Fits2 3 3 true d2Geo d2Arr p :=
  ⟨fun p hp => (d2_fit 3 (by norm_num) true p hp .jx (by simp)).2, fun p hp => (d2_fit 3 (by norm_num) true p hp .jx (by simp)).1⟩

/-- Totals of one particle: all its charge is deposited, and the current sums to charge times velocity (in r-z: the rate of change of the radius,
and the azimuthal velocity). Orders 1 to 3 in the direction of the current; order 0 moves all the charge from node to node. -/
theorem C95_totals {a b : ℕ} (ha : a ≤ 3) (hb : b ≤ 3) {rz : Bool} {g : Geo} (hx : 0 < g.dx) (hz : 0 < g.dz) (ht : g.dt ≠ 0)
    {p : Part} {A : Arr} (h : Fits2 a b rz g A p) (ho : Fits2 a b rz g A (before g p)) :
    let S := fun f : ℤ → ℤ → ℝ => (∑ j ∈ Finset.Icc A.lo.j A.hi.j, ∑ l ∈ Finset.Icc A.lo.l A.hi.l, f j l) * (g.dx * g.dz)
    S (fun j l => densities2 a b rz g [p] j l) = g.q * p.w ∧
    (1 ≤ a → S (fun j l => currents2 a b rz g [p] .jx ⟨j, 0, l⟩) = g.q * p.w * ((across rz p - across rz (before g p)) / g.dt)) ∧
    S (fun j l => currents2 a b rz g [p] .jy ⟨j, 0, l⟩) = g.q * p.w * sideways rz g p ∧
    (1 ≤ b → S (fun j l => currents2 a b rz g [p] .jz ⟨j, 0, l⟩) = g.q * p.w * (p.uz * p.gaminv)) := by
  have e1 : ∀ c i, currents2 a b rz g [p] c i = current2 a b rz g p c i := by intro c i; simp [currents2]
  have e2 : ∀ j l, densities2 a b rz g [p] j l = density2 a b rz g p j l := by intro j l; simp [densities2]
  simp only [e1, e2]
  obtain ⟨t1, t2, t3⟩ := current2_total ha hb hx hz ht h ho
  exact ⟨density2_total ha hb hx hz h, t1, t2, t3⟩

example : Fits2 3 3 true d2Geo d2Arr d2P ∧ Fits2 3 3 true d2Geo d2Arr (before d2Geo d2P) :=
  d2_fit 3 (by norm_num) true d2P (by simp) .jx (by simp)

/-- The result does not depend on the order of the particles, for the routine of any order: nothing it keeps between particles is read. -/
theorem C95_order_irrelevant {clight : ℝ} {a b : ℕ} (ha : a ≤ 3) (hb : b ≤ 3) {g : Geo} (hx : 0 < g.dx) (hz : 0 < g.dz) (ht : 0 < g.dt)
    (rz : Bool) {ps qs : List Part} (hp : ps.Perm qs) {σ : Mem} (h1 : ∀ p ∈ ps, Subluminal clight p) (h2 : ∀ p ∈ ps, Fit3 a b rz g σ p) :
    deposeN clight a b rz g ps σ = deposeN clight a b rz g qs σ := by
  rw [deposeN_ok ha hb hx hz ht rz h1 h2, deposeN_ok ha hb hx hz ht rz (fun p h => h1 p (hp.mem_iff.mpr h)) (fun p h => h2 p (hp.mem_iff.mpr h))]
  congr 2
  funext c i
  exact (hp.map _).sum_eq

example : [d2P, d2Q].Perm [d2Q, d2P] := List.Perm.swap _ _ _

end Picsar.Props
