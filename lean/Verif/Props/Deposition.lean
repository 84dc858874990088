import Verif.Lemmas.Esirkepov
import Verif.Spec.PicLoop
import Verif.Props.Maxwell

/-
C46, C47, C48: charge and current deposition.
-/
namespace Picsar.Props
open Picsar Picsar.Grid Picsar.Deposition Picsar.PicLoop Picsar.Maxwell Picsar.Spec

/-! ### C48 -/

/-- **C48** Charge deposition of order 1, 2 or 3, any particles: it stays inside the array and adds, at every node, exactly the
B-spline charge density of the particles. -/
theorem C48_deposits_density (n : ℕ) (hn : n = 1 ∨ n = 2 ∨ n = 3) (g : Geo) (ps : List Part) (rho : Arr)
    (hi : ∀ p ∈ ps, Inside (reachRho n) g rho p) :
    ∃ rho', deposeRho n g ps rho = .ok rho' ∧ rho'.lo = rho.lo ∧ rho'.hi = rho.hi ∧
      ∀ j k l, rho'.val ⟨j, k, l⟩ = rho.val ⟨j, k, l⟩ + densities n g ps j k l :=
  ⟨_, deposeRho_ok hn ps rho hi, rfl, rfl, fun _ _ _ => rfl⟩

/-- **C48** The order of the particles is irrelevant. -/
theorem C48_order_irrelevant (n : ℕ) (hn : n = 1 ∨ n = 2 ∨ n = 3) (g : Geo) (ps qs : List Part) (hp : ps.Perm qs) (rho : Arr)
    (hi : ∀ p ∈ ps, Inside (reachRho n) g rho p) : deposeRho n g ps rho = deposeRho n g qs rho := by
  rw [deposeRho_ok hn ps rho hi, deposeRho_ok hn qs rho (fun p h => hi p (hp.mem_iff.mpr h))]
  have : ∀ j k l, densities n g ps j k l = densities n g qs j k l := by
    intro j k l
    exact (hp.map _).sum_eq
  simp only [this]

theorem bspline_nonneg (n : ℕ) (u : ℝ) : 0 ≤ bspline n u := by
  unfold bspline
  have h0 := abs_nonneg u
  split
  · split_ifs <;> linarith
  · split_ifs with h1 h2
    · have := abs_le.mp h1
      nlinarith
    · positivity
    · exact le_rfl
  · split_ifs with h1 h2
    · have h3 : u ^ 2 = |u| ^ 2 := (sq_abs u).symm
      have h4 : 0 ≤ |u| ^ 3 := by positivity
      have h5 : |u| ^ 2 ≤ 1 := by nlinarith
      nlinarith [mul_nonneg h0 (sub_nonneg.mpr h1), sq_nonneg (|u| - 1), mul_nonneg h0 (sq_nonneg (|u| - 1))]
    · have : 0 ≤ 2 - |u| := by linarith
      positivity
    · exact le_rfl
  · exact le_rfl

theorem bspline_support (n : ℕ) (u : ℝ) (h : ((n : ℝ) + 1) / 2 ≤ |u|) : bspline n u = 0 := by
  unfold bspline
  split
  · norm_num at h
    split_ifs with h1
    · linarith
    · rfl
  · norm_num at h
    split_ifs with h1 h2
    · linarith
    · have : |u| = 3 / 2 := le_antisymm h2 h
      rw [this]; norm_num
    · rfl
  · norm_num at h
    split_ifs with h1 h2
    · linarith
    · have : |u| = 2 := le_antisymm h2 h
      rw [this]; norm_num
    · rfl
  · rfl

/-- **C48** Positive charges give a non-negative density, and a particle contributes nothing to nodes at `(n+1)/2` cells or more
in some direction. -/
theorem C48_sign_and_support (n : ℕ) (g : Geo) (hg : Geo.Ok g) (p : Part) (j k l : ℤ) :
    (0 ≤ g.q → 0 ≤ p.w → 0 ≤ density n g p j k l) ∧
    (((n : ℝ) + 1) / 2 ≤ |(p.x - g.xmin) / g.dx - j| ∨ ((n : ℝ) + 1) / 2 ≤ |(p.y - g.ymin) / g.dy - k| ∨
      ((n : ℝ) + 1) / 2 ≤ |(p.z - g.zmin) / g.dz - l| → density n g p j k l = 0) := by
  obtain ⟨gx, gy, gz⟩ := hg
  constructor
  · intro hq hw
    unfold density
    have a := bspline_nonneg n ((p.x - g.xmin) / g.dx - j)
    have b := bspline_nonneg n ((p.y - g.ymin) / g.dy - k)
    have c := bspline_nonneg n ((p.z - g.zmin) / g.dz - l)
    positivity
  · intro h
    unfold density
    rcases h with h | h | h
    · rw [bspline_support n _ h]; ring
    · rw [bspline_support n _ h]; ring
    · rw [bspline_support n _ h]; ring

theorem bspline_sum {n : ℕ} (hn : n = 1 ∨ n = 2 ∨ n = 3) {X : ℝ} {lo hi : ℤ} (h1 : lo + reachRho n ≤ X)
    (h2 : X ≤ hi - reachRho n) : ∑ a ∈ Finset.Icc lo hi, bspline n (X - a) = 1 := by
  have e : ∀ a : ℤ, bspline n (X - a) = shapeFn (wts n (X - node n X)) (node n X) a := by
    intro a
    have := shapeFn_bspline hn X 0 a
    simpa using this.symm
  rw [Finset.sum_congr rfl (fun a _ => e a), shapeFn_sum (fun w hw => ?_), wts_sum hn]
  have := rho_dir hn h1 h2 hw
  constructor <;> omega

/-- **C48** Summed over the array and multiplied by the cell volume, the density is the charge of the particles. -/
theorem C48_total_charge (n : ℕ) (hn : n = 1 ∨ n = 2 ∨ n = 3) (g : Geo) (hg : Geo.Ok g) (ps : List Part) (rho : Arr)
    (hi : ∀ p ∈ ps, Inside (reachRho n) g rho p) :
    ∃ rho', deposeRho n g ps rho = .ok rho' ∧
      (∑ j ∈ Finset.Icc rho.lo.j rho.hi.j, ∑ k ∈ Finset.Icc rho.lo.k rho.hi.k, ∑ l ∈ Finset.Icc rho.lo.l rho.hi.l,
        (rho'.val ⟨j, k, l⟩ - rho.val ⟨j, k, l⟩)) * (g.dx * g.dy * g.dz) = (ps.map fun p => g.q * p.w).sum := by
  refine ⟨_, deposeRho_ok hn ps rho hi, ?_⟩
  simp only [addA, add_sub_cancel_left]
  induction ps with
  | nil => simp [densities]
  | cons p ps ih =>
    have := ih (fun q hq => hi q (by simp [hq]))
    simp only [densities, List.map_cons, List.sum_cons, Finset.sum_add_distrib, add_mul] at this ⊢
    rw [this]
    congr 1
    obtain ⟨i1, i2, i3, i4, i5, i6⟩ := hi p (by simp)
    obtain ⟨gx, gy, gz⟩ := hg
    simp only [density]
    simp only [← Finset.mul_sum, bspline_sum hn i5 i6, mul_one, bspline_sum hn i3 i4, bspline_sum hn i1 i2]
    field_simp

/-! ### C46 -/

/-- **C46** Esirkepov deposition of order 1, 2 or 3 of any list of particles that moved less than a cell: it stays inside the
arrays, changes nothing but the currents, and the current it adds satisfies `(rho_new - rho_old)/dt + div J = 0` at every node,
where `rho` is the B-spline density of the particles after and before their move. -/
theorem C46_continuity (n : ℕ) (hn : n = 1 ∨ n = 2 ∨ n = 3) (g : Geo) (hg : Geo.Ok g) (hdt : g.dt ≠ 0) (ps : List Part)
    (hs : ∀ p ∈ ps, Slow g p) (σ : Mem)
    (hi : ∀ p ∈ ps, ∀ c, c = .jx ∨ c = .jy ∨ c = .jz → Inside (reach n) g (σ c) p) :
    ∃ τ, deposeJ n g ps σ = .ok τ ∧ (∀ c, (τ c).lo = (σ c).lo ∧ (τ c).hi = (σ c).hi) ∧
      (∀ c, c ≠ .jx → c ≠ .jy → c ≠ .jz → τ c = σ c) ∧
      ∀ j k l, (densities n g ps j k l - densities n g (ps.map (before g)) j k l) / g.dt +
        (divJ g.dx g.dy g.dz τ j k l - divJ g.dx g.dy g.dz σ j k l) = 0 := by
  obtain ⟨s', f, e1, m1, o1, d1⟩ := deposeLoop_ok hn hg hdt ps
    ⟨0, 0, fun _ => 0, fun _ => 0, fun _ _ => 0, fun _ _ => 0, σ⟩ hs hi
  refine ⟨s'.mem, ?_, ?_, ?_, ?_⟩
  · unfold deposeJ
    rw [e1]
    rfl
  · intro c; rw [m1]; exact ⟨rfl, rfl⟩
  · intro c c1 c2 c3
    rw [m1]
    simp [addF, o1 c c1 c2 c3]
  · intro j k l
    have := d1 j k l
    rw [m1]
    simp only [divJ, at', addF]
    have e : ∀ a b : ℝ, (a - b) / g.dt = -((b - a) / g.dt) := by intro a b; ring
    rw [e, ← this]
    ring

/-- **C46** The same with the charge densities actually deposited by the charge deposition routine of the same order. -/
theorem C46_continuity_deposited (n : ℕ) (hn : n = 1 ∨ n = 2 ∨ n = 3) (g : Geo) (hg : Geo.Ok g) (hdt : g.dt ≠ 0)
    (ps : List Part) (hs : ∀ p ∈ ps, Slow g p) (σ : Mem)
    (hi : ∀ p ∈ ps, ∀ c, c = .jx ∨ c = .jy ∨ c = .jz → Inside (reach n) g (σ c) p) (rho : Arr)
    (hr : ∀ p ∈ ps, Inside (reachRho n) g rho p ∧ Inside (reachRho n) g rho (before g p)) :
    ∃ τ r0 r1, deposeJ n g ps σ = .ok τ ∧ deposeRho n g (ps.map (before g)) rho = .ok r0 ∧ deposeRho n g ps rho = .ok r1 ∧
      ∀ j k l, (r1.val ⟨j, k, l⟩ - r0.val ⟨j, k, l⟩) / g.dt +
        (divJ g.dx g.dy g.dz τ j k l - divJ g.dx g.dy g.dz σ j k l) = 0 := by
  obtain ⟨τ, h1, _, _, h4⟩ := C46_continuity n hn g hg hdt ps hs σ hi
  refine ⟨τ, _, _, h1, deposeRho_ok hn _ rho (fun p hp => ?_), deposeRho_ok hn ps rho (fun p hp => (hr p hp).1), ?_⟩
  · obtain ⟨q, hq, rfl⟩ := List.mem_map.mp hp
    exact (hr q hq).2
  · intro j k l
    simp only [addA, add_sub_add_left_eq_sub]
    exact h4 j k l

/-- **C46** The hypothesis is needed: a particle whose nearest node moved by two cells or more along x makes the routine write
outside its local arrays. -/
theorem C46_fast_particle_faults (n : ℕ) (hn : n = 1 ∨ n = 2 ∨ n = 3) (g : Geo) (p : Part) (ps : List Part) (σ : Mem)
    (hf : 2 ≤ |node n ((p.x - g.xmin) * (1 / g.dx) - g.dt * (1 / g.dx) * (p.ux * p.gaminv)) -
      node n ((p.x - g.xmin) * (1 / g.dx))|) : deposeJ n g (p :: ps) σ = .error .outOfBounds := by
  have hfill : ∀ x : ℝ, fill n 0 (wts n (x - node n x)) = .ok (shapeFn (wts n (x - node n x)) 0) := by
    intro x
    obtain ⟨nd, of⟩ := wts_fst hn (x - node n x)
    refine fill_ok nd (fun w hw => ?_)
    have := of w hw
    rcases hn with rfl | rfl | rfl <;> norm_num [locLo, locHi] at * <;> omega
  have hbad : ∀ (d : ℤ) (ξ : ℝ), 2 ≤ |d| → fill n d (wts n ξ) = .error .outOfBounds := by
    intro d ξ hd
    have hd' : d ≤ -2 ∨ 2 ≤ d := by
      rcases abs_cases d with ⟨h, _⟩ | ⟨h, _⟩ <;> omega
    unfold fill
    rcases hn with rfl | rfl | rfl
    · simp only [wts, List.foldlM_cons, List.foldlM_nil]
      by_cases h : locLo 1 ≤ (0 : ℤ) + d ∧ (0 : ℤ) + d ≤ locHi 1
      · rw [if_pos h]
        simp only [except_bind_ok]
        rw [if_neg (by norm_num [locLo, locHi] at h ⊢; omega)]
        rfl
      · rw [if_neg h]; rfl
    · simp only [wts, List.foldlM_cons, List.foldlM_nil]
      by_cases h : locLo 2 ≤ (-1 : ℤ) + d ∧ (-1 : ℤ) + d ≤ locHi 2
      · rw [if_pos h]
        simp only [except_bind_ok]
        by_cases h2 : locLo 2 ≤ (0 : ℤ) + d ∧ (0 : ℤ) + d ≤ locHi 2
        · rw [if_pos h2]
          simp only [except_bind_ok]
          rw [if_neg (by norm_num [locLo, locHi] at h h2 ⊢; omega)]
          rfl
        · rw [if_neg h2]; rfl
      · rw [if_neg h]; rfl
    · simp only [wts, List.foldlM_cons, List.foldlM_nil]
      by_cases h : locLo 3 ≤ (-1 : ℤ) + d ∧ (-1 : ℤ) + d ≤ locHi 3
      · rw [if_pos h]
        simp only [except_bind_ok]
        by_cases h2 : locLo 3 ≤ (0 : ℤ) + d ∧ (0 : ℤ) + d ≤ locHi 3
        · rw [if_pos h2]
          simp only [except_bind_ok]
          by_cases h3 : locLo 3 ≤ (1 : ℤ) + d ∧ (1 : ℤ) + d ≤ locHi 3
          · rw [if_pos h3]
            simp only [except_bind_ok]
            rw [if_neg (by norm_num [locLo, locHi] at h h2 h3 ⊢; omega)]
            rfl
          · rw [if_neg h3]; rfl
        · rw [if_neg h2]; rfl
      · rw [if_neg h]; rfl
  unfold deposeJ deposeLoop prep
  simp only [hfill, except_bind_ok]
  rw [hbad _ _ hf]
  rfl

/-! ### C47 -/

theorem zeroJ_bounds (σ : Mem) (c : Comp) : (zeroJ σ c).lo = (σ c).lo ∧ (zeroJ σ c).hi = (σ c).hi := by
  cases c <;> exact ⟨rfl, rfl⟩

theorem divJ_zeroJ (σ : Mem) (dx dy dz : ℝ) (j k l : ℤ) : divJ dx dy dz (zeroJ σ) j k l = 0 := by
  simp [divJ, at', zeroJ]

theorem inside_congr {m : ℝ} {g : Geo} {a b : Arr} {p : Part} (h : b.lo = a.lo ∧ b.hi = a.hi) (hi : Inside m g a p) :
    Inside m g b p := by
  unfold Inside at *
  rw [h.1, h.2]
  exact hi

theorem deposeAll_ok {n : ℕ} (hn : n = 1 ∨ n = 2 ∨ n = 3) {g : Geo} (hg : Geo.Ok g) (hdt : g.dt ≠ 0) :
    ∀ (ss : List (ℝ × List Part)) (σ : Mem),
    (∀ sp ∈ ss, ∀ p ∈ sp.2, Slow g p ∧ ∀ c, c = .jx ∨ c = .jy ∨ c = .jz → Inside (reach n) g (σ c) p) →
    ∃ τ, deposeAll n g ss σ = .ok τ ∧ (∀ c, (τ c).lo = (σ c).lo ∧ (τ c).hi = (σ c).hi) ∧
      (∀ c, c ≠ .jx → c ≠ .jy → c ≠ .jz → τ c = σ c) ∧
      ∀ j k l, (totalDensity n g ss j k l - totalDensity n g (ss.map fun s => (s.1, s.2.map (before g))) j k l) / g.dt +
        (divJ g.dx g.dy g.dz τ j k l - divJ g.dx g.dy g.dz σ j k l) = 0
  | [], σ, _ => ⟨σ, rfl, fun _ => ⟨rfl, rfl⟩, fun _ _ _ _ => rfl, fun j k l => by simp [totalDensity]⟩
  | s :: ss, σ, h => by
    have hs := h s (by simp)
    obtain ⟨τ1, a1, a2, a3, a4⟩ := C46_continuity n hn { g with q := s.1 } hg hdt s.2 (fun p hp => (hs p hp).1) σ
      (fun p hp c hc => (hs p hp).2 c hc)
    obtain ⟨τ, b1, b2, b3, b4⟩ := deposeAll_ok hn hg hdt ss τ1 (fun sp hsp p hp =>
      ⟨(h sp (by simp [hsp]) p hp).1, fun c hc => inside_congr (a2 c) ((h sp (by simp [hsp]) p hp).2 c hc)⟩)
    refine ⟨τ, ?_, fun c => ⟨(b2 c).1.trans (a2 c).1, (b2 c).2.trans (a2 c).2⟩,
      fun c c1 c2 c3 => (b3 c c1 c2 c3).trans (a3 c c1 c2 c3), ?_⟩
    · unfold deposeAll
      rw [a1]
      simp only [except_bind_ok]
      exact b1
    · intro j k l
      have u := a4 j k l
      have v := b4 j k l
      simp only [totalDensity, List.map_cons, List.sum_cons] at v ⊢
      have e : ∀ u v w x : ℝ, (u + w - (v + x)) / g.dt = (u - v) / g.dt + (w - x) / g.dt := by intro u v w x; ring
      rw [e]
      have hb : (before { g with q := s.1 }) = before g := rfl
      rw [hb] at u
      simp only at u
      linarith

theorem density_place {n : ℕ} {g : Geo} {as bs : List Part} (h : (as.map place).Perm (bs.map place)) (j k l : ℤ) :
    densities n g as j k l = densities n g bs j k l := by
  let φ : ℝ × ℝ × ℝ × ℝ → ℝ := fun t => g.q * t.2.2.2 / (g.dx * g.dy * g.dz) * bspline n ((t.1 - g.xmin) / g.dx - j) *
    bspline n ((t.2.1 - g.ymin) / g.dy - k) * bspline n ((t.2.2.1 - g.zmin) / g.dz - l)
  have e : ∀ cs : List Part, densities n g cs j k l = ((cs.map place).map φ).sum := by
    intro cs
    rw [List.map_map]
    rfl
  rw [e, e]
  exact (h.map φ).sum_eq

theorem moved_density {n : ℕ} {g : Geo} {prev cur : List (ℝ × List Part)} (h : Moved g prev cur) (j k l : ℤ) :
    totalDensity n g (cur.map fun s => (s.1, s.2.map (before g))) j k l = totalDensity n g prev j k l := by
  unfold Moved at h
  induction h with
  | nil => rfl
  | cons hab _ ih =>
    simp only [totalDensity, List.map_cons, List.sum_cons] at ih ⊢
    rw [ih, hab.1]
    congr 1
    exact density_place hab.2 j k l

theorem margins_congr {σ τ : Mem} {r : Ranges} (hb : ∀ c, (τ c).lo = (σ c).lo ∧ (τ c).hi = (σ c).hi) (hm : Margins 1 σ r) :
    Margins 1 τ r := by
  unfold Margins Margin at *
  simpa only [fun c => (hb c).1, fun c => (hb c).2] using hm

theorem picStep_ok {n : ℕ} (hn : n = 1 ∨ n = 2 ∨ n = 3) {g : Geo} (hg : Geo.Ok g) (hdt : g.dt ≠ 0) {c mu0 eps0 : ℝ}
    (hc : eps0 * mu0 * c ^ 2 = 1) {rb re : Ranges} {σ : Mem} (hb : Margins 1 σ rb) (he : Margins 1 σ re) {s : StepData}
    (ho : StepOk n g rb re σ s) {prev : List (ℝ × List Part)} (hm : Moved g prev s.species) :
    ∃ τ, picStep n g c mu0 s σ = .ok τ ∧ (∀ c, (τ c).lo = (σ c).lo ∧ (τ c).hi = (σ c).hi) ∧
      ∀ j k l, NodeUpdated re j k l → divE g.dx g.dy g.dz τ j k l - totalDensity n g s.species j k l / eps0 =
        divE g.dx g.dy g.dz σ j k l - totalDensity n g prev j k l / eps0 := by
  obtain ⟨ob1, oe, ob2, hp⟩ := ho
  obtain ⟨σ1, a1, a2, a3, a4⟩ := deposeAll_ok hn hg hdt s.species (zeroJ σ)
    (fun sp hsp p hp' => ⟨(hp sp hsp p hp').1, fun c hc => inside_congr (zeroJ_bounds σ c) ((hp sp hsp p hp').2 c hc)⟩)
  have b1 : ∀ c, (σ1 c).lo = (σ c).lo ∧ (σ1 c).hi = (σ c).hi := fun c =>
    ⟨(a2 c).1.trans (zeroJ_bounds σ c).1, (a2 c).2.trans (zeroJ_bounds σ c).2⟩
  obtain ⟨σ2, c1, c2⟩ := bvec3_ok (dtsdx := 0.5 * g.dt / g.dx) (dtsdy := 0.5 * g.dt / g.dy) (dtsdz := 0.5 * g.dt / g.dz) ob1
    (margins_congr b1 hb)
  have b2 : ∀ c, (σ2 c).lo = (σ c).lo ∧ (σ2 c).hi = (σ c).hi := fun c =>
    ⟨(c2.bounds c).1.trans (b1 c).1, (c2.bounds c).2.trans (b1 c).2⟩
  obtain ⟨σ3, d1, d2, d3⟩ := C45_yee_3d g.dx g.dy g.dz g.dt c mu0 eps0 hdt hc re s.e oe σ2 (margins_congr b2 he)
  have b3 : ∀ c, (σ3 c).lo = (σ c).lo ∧ (σ3 c).hi = (σ c).hi := by
    obtain ⟨σ3', e1, e2⟩ := evec3_ok (mudt := c ^ 2 * mu0 * g.dt) (dtsdx := c ^ 2 * g.dt / g.dx)
      (dtsdy := c ^ 2 * g.dt / g.dy) (dtsdz := c ^ 2 * g.dt / g.dz) oe (margins_congr b2 he)
    have : σ3' = σ3 := Except.ok.inj (e1.symm.trans d1)
    subst this
    exact fun c => ⟨(e2.bounds c).1.trans (b2 c).1, (e2.bounds c).2.trans (b2 c).2⟩
  obtain ⟨σ4, f1, f2⟩ := bvec3_ok (dtsdx := 0.5 * g.dt / g.dx) (dtsdy := 0.5 * g.dt / g.dy) (dtsdz := 0.5 * g.dt / g.dz) ob2
    (margins_congr b3 hb)
  refine ⟨σ4, ?_, fun c => ⟨(f2.bounds c).1.trans (b3 c).1, (f2.bounds c).2.trans (b3 c).2⟩, ?_⟩
  · unfold picStep
    rw [a1]
    simp only [except_bind_ok]
    rw [c1]
    simp only [except_bind_ok]
    rw [d1]
    simp only [except_bind_ok]
    exact f1
  · intro j k l hN
    have e4 : divE g.dx g.dy g.dz σ4 j k l = divE g.dx g.dy g.dz σ3 j k l := by
      simp only [divE, at', f2.other .ex (by decide) (by decide) (by decide), f2.other .ey (by decide) (by decide) (by decide),
        f2.other .ez (by decide) (by decide) (by decide)]
    have e2 : divE g.dx g.dy g.dz σ2 j k l = divE g.dx g.dy g.dz σ j k l := by
      simp only [divE, at', c2.other .ex (by decide) (by decide) (by decide), c2.other .ey (by decide) (by decide) (by decide),
        c2.other .ez (by decide) (by decide) (by decide), a3 .ex (by decide) (by decide) (by decide),
        a3 .ey (by decide) (by decide) (by decide), a3 .ez (by decide) (by decide) (by decide)]
      rfl
    have eJ : divJ g.dx g.dy g.dz σ2 j k l = divJ g.dx g.dy g.dz σ1 j k l := by
      simp only [divJ, at', c2.other .jx (by decide) (by decide) (by decide), c2.other .jy (by decide) (by decide) (by decide),
        c2.other .jz (by decide) (by decide) (by decide)]
    rw [e4, ← e2]
    apply d3 _ _ j k l hN
    have := a4 j k l
    rw [moved_density hm, divJ_zeroJ, sub_zero] at this
    rw [eJ]
    exact this

/-- **C47** Any number of steps of current deposition and field update, any number of species and particles moving less than a
cell per step: no fault, and at every node whose edges are updated the defect `div E - rho/eps0` of the discrete Gauss law is
the one of the initial state; so if Gauss's law holds initially it holds at the end. -/
theorem C47_gauss_law (n : ℕ) (hn : n = 1 ∨ n = 2 ∨ n = 3) (g : Geo) (hg : Geo.Ok g) (hdt : g.dt ≠ 0) (c mu0 eps0 : ℝ)
    (hc : eps0 * mu0 * c ^ 2 = 1) (rb re : Ranges) (σ : Mem) (hb : Margins 1 σ rb) (he : Margins 1 σ re)
    (steps : List StepData) (ho : ∀ s ∈ steps, StepOk n g rb re σ s) (start : List (ℝ × List Part))
    (hl : Linked g start steps) :
    ∃ τ, picRun n g c mu0 steps σ = .ok τ ∧ ∀ j k l, NodeUpdated re j k l →
      divE g.dx g.dy g.dz τ j k l - totalDensity n g (lastSpecies start steps) j k l / eps0 =
          divE g.dx g.dy g.dz σ j k l - totalDensity n g start j k l / eps0 ∧
      (divE g.dx g.dy g.dz σ j k l = totalDensity n g start j k l / eps0 →
        divE g.dx g.dy g.dz τ j k l = totalDensity n g (lastSpecies start steps) j k l / eps0) := by
  suffices H : ∀ (steps : List StepData) (σ' : Mem) (start : List (ℝ × List Part)),
      (∀ c, (σ' c).lo = (σ c).lo ∧ (σ' c).hi = (σ c).hi) → (∀ s ∈ steps, StepOk n g rb re σ s) → Linked g start steps →
      ∃ τ, picRun n g c mu0 steps σ' = .ok τ ∧ ∀ j k l, NodeUpdated re j k l →
        divE g.dx g.dy g.dz τ j k l - totalDensity n g (lastSpecies start steps) j k l / eps0 =
          divE g.dx g.dy g.dz σ' j k l - totalDensity n g start j k l / eps0 by
    obtain ⟨τ, h1, h2⟩ := H steps σ start (fun _ => ⟨rfl, rfl⟩) ho hl
    exact ⟨τ, h1, fun j k l hN => ⟨h2 j k l hN, fun h => by have := h2 j k l hN; linarith⟩⟩
  intro steps
  induction steps with
  | nil => intro σ' start _ _ _; exact ⟨σ', rfl, fun _ _ _ _ => rfl⟩
  | cons s ss ih =>
    intro σ' start hbd ho hl
    obtain ⟨o1, o2, o3, o4⟩ := ho s (by simp)
    obtain ⟨τ1, a1, a2, a3⟩ := picStep_ok hn hg hdt (c := c) (mu0 := mu0) hc (margins_congr hbd hb) (margins_congr hbd he)
      (s := s) ⟨o1, o2, o3, fun sp hsp p hp => ⟨(o4 sp hsp p hp).1, fun c hc => inside_congr (hbd c) ((o4 sp hsp p hp).2 c hc)⟩⟩
      hl.1
    obtain ⟨τ, b1, b2⟩ := ih τ1 s.species (fun c => ⟨(a2 c).1.trans (hbd c).1, (a2 c).2.trans (hbd c).2⟩)
      (fun s' hs' => ho s' (by simp [hs'])) hl.2
    refine ⟨τ, ?_, fun j k l hN => ?_⟩
    · unfold picRun
      rw [a1]
      simp only [except_bind_ok]
      exact b1
    · exact (b2 j k l hN).trans (a3 j k l hN)

/-! ### Non-vacuity -/

/-- A unit grid and time step. -/
def demoGeo : Geo := ⟨-1, 0, 0, 0, 1, 1, 1, 1⟩

/-- A particle that crosses a cell face in x and in y. -/
noncomputable def demoPart : Part := ⟨21 / 10, 32 / 10, 25 / 10, 1, -2, 0, 3 / 10, 2⟩

noncomputable def demoGrid : Mem := fun _ => ⟨⟨-4, -4, -4⟩, ⟨9, 9, 9⟩, fun i => i.j⟩

example : Geo.Ok demoGeo ∧ Slow demoGeo demoPart ∧ Inside (reach 3) demoGeo (demoGrid .jx) demoPart ∧
    Inside (reachRho 3) demoGeo (demoGrid .f) demoPart ∧
    ⌊demoPart.x⌋ ≠ ⌊(before demoGeo demoPart).x⌋ ∧ ⌊demoPart.y⌋ = ⌊(before demoGeo demoPart).y⌋ := by
  refine ⟨?_, ?_, ?_, ?_, ?_, ?_⟩
  · norm_num [Geo.Ok, demoGeo]
  · norm_num [Slow, demoGeo, demoPart, abs_lt]
  · norm_num [Inside, reach, demoGeo, demoGrid, demoPart]
  · norm_num [Inside, reachRho, demoGeo, demoGrid, demoPart]
  · have h1 : ⌊demoPart.x⌋ = 2 := Int.floor_eq_iff.mpr (by norm_num [demoPart])
    have h2 : ⌊(before demoGeo demoPart).x⌋ = 1 := Int.floor_eq_iff.mpr (by norm_num [demoPart, demoGeo, before])
    rw [h1, h2]
    decide
  · have h1 : ⌊demoPart.y⌋ = 3 := Int.floor_eq_iff.mpr (by norm_num [demoPart])
    have h2 : ⌊(before demoGeo demoPart).y⌋ = 3 := Int.floor_eq_iff.mpr (by norm_num [demoPart, demoGeo, before])
    rw [h1, h2]

/-- One step of one moving particle, on the ranges of the solver manager. -/
noncomputable def demoStep : StepData :=
  ⟨[(-1, [demoPart])], ⟨box ⟨0, 0, 0⟩ ⟨4, 4, 4⟩, box ⟨0, 0, 0⟩ ⟨4, 4, 4⟩, box ⟨0, 0, 0⟩ ⟨4, 4, 4⟩⟩,
    ⟨box ⟨0, 0, 0⟩ ⟨4, 4, 4⟩, box ⟨0, 0, 0⟩ ⟨4, 4, 4⟩, box ⟨0, 0, 0⟩ ⟨4, 4, 4⟩⟩,
    ⟨box ⟨0, 0, 0⟩ ⟨4, 4, 4⟩, box ⟨0, 0, 0⟩ ⟨4, 4, 4⟩, box ⟨0, 0, 0⟩ ⟨4, 4, 4⟩⟩⟩

example : Linked demoGeo [(-1, [before demoGeo demoPart])] [demoStep] ∧ StepOk 2 demoGeo demoRange demoRange demoGrid demoStep ∧
    Margins 1 demoGrid demoRange ∧ NodeUpdated demoRange 2 3 2 := by
  refine ⟨⟨List.Forall₂.cons ⟨rfl, ?_⟩ List.Forall₂.nil, trivial⟩, ⟨?_, ?_, ?_, ?_⟩, ⟨fun c => ?_, fun c => ?_, fun c => ?_⟩, ?_⟩
  · simp
  · exact ⟨List.Perm.refl _, List.Perm.refl _, List.Perm.refl _⟩
  · exact ⟨List.Perm.refl _, List.Perm.refl _, List.Perm.refl _⟩
  · exact ⟨List.Perm.refl _, List.Perm.refl _, List.Perm.refl _⟩
  · intro sp hsp p hp
    simp only [demoStep, List.mem_singleton] at hsp
    subst hsp
    simp only [List.mem_singleton] at hp
    subst hp
    refine ⟨by norm_num [Slow, demoGeo, demoPart, abs_lt], fun c _ => ?_⟩
    norm_num [Inside, reach, demoGeo, demoGrid, demoPart]
  · simp [demoGrid, demoRange, uniform]
  · simp [demoGrid, demoRange, uniform]
  · simp [demoGrid, demoRange, uniform]
  · unfold NodeUpdated demoRange uniform InBox
    decide

example : ∃ (g : Geo) (p : Part), 2 ≤ |node 1 ((p.x - g.xmin) * (1 / g.dx) - g.dt * (1 / g.dx) * (p.ux * p.gaminv)) -
    node 1 ((p.x - g.xmin) * (1 / g.dx))| := by
  refine ⟨demoGeo, { demoPart with ux := 10 }, ?_⟩
  have h1 : node 1 (((21 / 10 : ℝ) - 0) * (1 / 1) - 1 * (1 / 1) * (10 * (3 / 10))) = -1 := by
    rw [node_floor (Or.inl rfl)]
    exact Int.floor_eq_iff.mpr (by norm_num)
  have h2 : node 1 (((21 / 10 : ℝ) - 0) * (1 / 1)) = 2 := by
    rw [node_floor (Or.inl rfl)]
    exact Int.floor_eq_iff.mpr (by norm_num)
  show 2 ≤ |node 1 (((21 / 10 : ℝ) - 0) * (1 / 1) - 1 * (1 / 1) * (10 * (3 / 10))) - node 1 (((21 / 10 : ℝ) - 0) * (1 / 1))|
  rw [h1, h2]
  decide

end Picsar.Props
