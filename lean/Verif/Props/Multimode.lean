import Verif.Lemmas.Multimode
import Verif.Lemmas.CircDeposit
import Verif.Props.CircDeposit

/-
C146: the solver on azimuthal modes advances Maxwell's equations in cylindrical coordinates, mode by mode. C147: it keeps the divergences.
C148: its fields are regular on the axis. C149: with the charge-conserving deposition on modes, Gauss's law.
-/
namespace Picsar.Props
open Picsar Picsar.Spec Picsar.Multimode
open Picsar.Multimode.Fld
open Picsar.Grid (irange)

/-- A grid that starts on the axis, 5 x 4 points advanced, one guard point on each side, two modes. -/
def Multimode_box : Box := ⟨0, 4, 0, 3⟩
def Multimode_mem : Mem := fun _ => ⟨⟨-1, 5, -1, 4⟩, fun j k m => if m = 1 then ⟨j, k⟩ else j⟩
noncomputable def Multimode_grid : RzGrid := ⟨0, 1 / 2, 1⟩

theorem Multimode_clear : ClearHalves Multimode_grid Multimode_box ∧ ClearNodes Multimode_grid Multimode_box := by
  constructor
  · intro j h1 h2
    have : (0 : ℝ) ≤ j := by exact_mod_cast h1
    unfold RzGrid.half Multimode_grid
    simp only
    positivity
  · intro j h1 h2
    by_cases hj : j = 0
    · exact Or.inl ⟨rfl, hj⟩
    · right
      unfold RzGrid.node Multimode_grid
      simp [hj]

theorem Multimode_room : RoomFor Multimode_mem Multimode_box 1 0 ∧ RoomFor Multimode_mem Multimode_box 0 1 := by
  constructor <;> intro f <;> simp [Multimode_mem, Multimode_box]

theorem Multimode_same {σ τ : Mem} {f : Fld} (hb : ∀ x, (τ x).box = (σ x).box) (h : ∀ m, look τ m f = look σ m f) : τ f = σ f := by
  have h1 := hb f
  have h2 : (τ f).val = (σ f).val := by
    funext j k m
    exact congrFun (congrFun (h m) j) k
  cases hτ : τ f
  cases hσ : σ f
  rw [hτ, hσ] at h1 h2
  simp only at h1 h2
  rw [h1, h2]

/-! ### C146 -/

/-- **C146** A step of the electric field advances Ampère's law on every mode, in cylindrical coordinates, at every point of the boxes off
the axis, stays inside the arrays and changes nothing else. -/
theorem C146_ampere (g : RzGrid) (hd : g.dr ≠ 0) (c mu0 dt : ℝ) (r t z : Box) (n : ℕ) (hr : ClearHalves g r) (hz : ClearNodes g z) (σ : Mem)
    (r1 : RoomFor σ r 1 0) (r2 : RoomFor σ t 1 0) (r3 : RoomFor σ z 1 0) :
    ∃ τ, evec (argsE g c mu0 dt r t z n) σ = .ok τ ∧ (∀ f, (τ f).box = (σ f).box) ∧
      (∀ f, f ≠ er → f ≠ et → f ≠ ez → τ f = σ f) ∧ ∀ m j k,
      (m < n → InsideM r j k → modeOf τ er m j k = modeOf σ er m j k +
        dt * (c ^ 2 * curlBr g m (modeOf σ br m) (modeOf σ bt m) (modeOf σ bz m) j k - mu0 * c ^ 2 * modeOf σ jr m j k)) ∧
      (m < n → InsideM t j k → ¬ OnAxisM g j → modeOf τ et m j k = modeOf σ et m j k +
        dt * (c ^ 2 * curlBt g (modeOf σ br m) (modeOf σ bt m) (modeOf σ bz m) j k - mu0 * c ^ 2 * modeOf σ jt m j k)) ∧
      (m < n → InsideM z j k → ¬ OnAxisM g j → modeOf τ ez m j k = modeOf σ ez m j k +
        dt * (c ^ 2 * curlBz g m (modeOf σ br m) (modeOf σ bt m) (modeOf σ bz m) j k - mu0 * c ^ 2 * modeOf σ jz m j k)) ∧
      (n ≤ m ∨ ¬ InsideM r j k → modeOf τ er m j k = modeOf σ er m j k) ∧
      (n ≤ m ∨ ¬ InsideM t j k → modeOf τ et m j k = modeOf σ et m j k) ∧
      (n ≤ m ∨ ¬ InsideM z j k → modeOf τ ez m j k = modeOf σ ez m j k) := by
  obtain ⟨τ, e, hb, hs, hk⟩ := evec_ok (okE_of hd c mu0 dt (n := n) hr hz r1 r2 r3)
  refine ⟨τ, e, hb, ?_, ?_⟩
  · intro f f1 f2 f3
    refine Multimode_same hb fun m => ?_
    by_cases hm : m < n
    · rw [hs m hm]
      cases f <;> first | exact absurd rfl f1 | exact absurd rfl f2 | exact absurd rfl f3 | rfl
    · rw [hk m (not_lt.1 hm)]
  · intro m j k
    have one : m < n → ∀ f, modeOf τ f m = stepE (argsE g c mu0 dt r t z n) m (look σ m) f := fun hm f => congrFun (hs m hm) f
    have keep : ∀ (f : Fld) (P : Prop), (m < n → ¬ P → stepE (argsE g c mu0 dt r t z n) m (look σ m) f j k = look σ m f j k) →
        n ≤ m ∨ ¬ P → modeOf τ f m j k = modeOf σ f m j k := by
      intro f P hP h
      by_cases hm : m < n
      · rw [one hm]
        exact hP hm (h.resolve_left (by omega))
      · exact congrFun (congrFun (congrFun (hk m (not_lt.1 hm)) f) j) k
    refine ⟨?_, ?_, ?_, keep er _ ?_, keep et _ ?_, keep ez _ ?_⟩
    · intro hm hi
      rw [one hm]
      exact stepE_er hd c mu0 dt _ hi (hr j hi.1.1 hi.1.2)
    · intro hm hi h0
      rw [one hm]
      exact stepE_et c mu0 dt _ hi h0
    · intro hm hi h0
      rw [one hm]
      exact stepE_ez hd c mu0 dt _ hi h0 ((hz j hi.1.1 hi.1.2).resolve_left h0)
    · intro _ h
      simp only [stepE]
      exact if_neg h
    · intro _ h
      simp only [stepE]
      exact if_neg h
    · intro _ h
      simp only [stepE]
      exact if_neg h

/-- **C146** A step of the magnetic field advances Faraday's law on every mode at every point of the boxes off the axis. -/
theorem C146_faraday (g : RzGrid) (hd : g.dr ≠ 0) (dt : ℝ) (r t z : Box) (n : ℕ) (hr : ClearNodes g r) (hz : ClearHalves g z) (σ : Mem)
    (r1 : RoomFor σ r 0 1) (r2 : RoomFor σ t 0 1) (r3 : RoomFor σ z 0 1) :
    ∃ τ, bvec (argsB g dt r t z n) σ = .ok τ ∧ (∀ f, (τ f).box = (σ f).box) ∧
      (∀ f, f ≠ br → f ≠ bt → f ≠ bz → τ f = σ f) ∧ ∀ m j k,
      (m < n → InsideM r j k → ¬ OnAxisM g j → modeOf τ br m j k = modeOf σ br m j k -
        dt * curlEr g m (modeOf σ er m) (modeOf σ et m) (modeOf σ ez m) j k) ∧
      (m < n → InsideM t j k → modeOf τ bt m j k = modeOf σ bt m j k - dt * curlEt g (modeOf σ er m) (modeOf σ et m) (modeOf σ ez m) j k) ∧
      (m < n → InsideM z j k → modeOf τ bz m j k = modeOf σ bz m j k -
        dt * curlEz g m (modeOf σ er m) (modeOf σ et m) (modeOf σ ez m) j k) ∧
      (n ≤ m ∨ ¬ InsideM r j k → modeOf τ br m j k = modeOf σ br m j k) ∧
      (n ≤ m ∨ ¬ InsideM t j k → modeOf τ bt m j k = modeOf σ bt m j k) ∧
      (n ≤ m ∨ ¬ InsideM z j k → modeOf τ bz m j k = modeOf σ bz m j k) := by
  obtain ⟨τ, e, hb, hs, hk⟩ := bvec_ok (okB_of hd dt (n := n) hr hz r1 r2 r3)
  refine ⟨τ, e, hb, ?_, ?_⟩
  · intro f f1 f2 f3
    refine Multimode_same hb fun m => ?_
    by_cases hm : m < n
    · rw [hs m hm]
      cases f <;> first | exact absurd rfl f1 | exact absurd rfl f2 | exact absurd rfl f3 | rfl
    · rw [hk m (not_lt.1 hm)]
  · intro m j k
    have one : m < n → ∀ f, modeOf τ f m = stepB (argsB g dt r t z n) m (look σ m) f := fun hm f => congrFun (hs m hm) f
    have keep : ∀ (f : Fld) (P : Prop), (m < n → ¬ P → stepB (argsB g dt r t z n) m (look σ m) f j k = look σ m f j k) →
        n ≤ m ∨ ¬ P → modeOf τ f m j k = modeOf σ f m j k := by
      intro f P hP h
      by_cases hm : m < n
      · rw [one hm]
        exact hP hm (h.resolve_left (by omega))
      · exact congrFun (congrFun (congrFun (hk m (not_lt.1 hm)) f) j) k
    refine ⟨?_, ?_, ?_, keep br _ ?_, keep bt _ ?_, keep bz _ ?_⟩
    · intro hm hi h0
      rw [one hm]
      exact stepB_br hd dt _ hi h0 ((hr j hi.1.1 hi.1.2).resolve_left h0)
    · intro hm hi
      rw [one hm]
      exact stepB_bt hd dt _ hi
    · intro hm hi
      rw [one hm]
      exact stepB_bz hd dt _ hi (hz j hi.1.1 hi.1.2)
    · intro _ h
      simp only [stepB]
      exact if_neg h
    · intro _ h
      simp only [stepB]
      exact if_neg h
    · intro _ h
      simp only [stepB]
      exact if_neg h

example : Multimode_grid.dr ≠ 0 ∧ ClearHalves Multimode_grid Multimode_box ∧ ClearNodes Multimode_grid Multimode_box ∧
    RoomFor Multimode_mem Multimode_box 1 0 ∧ RoomFor Multimode_mem Multimode_box 0 1 ∧ InsideM Multimode_box 2 1 ∧ ¬ OnAxisM Multimode_grid 2 :=
  ⟨by norm_num [Multimode_grid], Multimode_clear.1, Multimode_clear.2, Multimode_room.1, Multimode_room.2,
    by unfold InsideM Multimode_box; norm_num, by unfold OnAxisM; norm_num⟩

/-- **C146**, refuted for guard points on the axis: when the grid starts `p` cells away from the axis and the box reaches `p` points below
the first one, the step divides by zero. -/
theorem C146_guard_refuted (dr dz c mu0 dt : ℝ) (hd : dr ≠ 0) (p : ℕ) (hp : 0 < p) (k : ℤ) (σ : Mem) (n : ℕ)
    (hs : RoomFor σ ⟨-p, -p, k, k⟩ 1 0) : evec (argsE ⟨p * dr, dr, dz⟩ c mu0 dt ⟨1, 0, 1, 0⟩ ⟨1, 0, 1, 0⟩ ⟨-p, -p, k, k⟩ (n + 1)) σ = .error .divByZero := by
  set a := argsE ⟨p * dr, dr, dz⟩ c mu0 dt ⟨1, 0, 1, 0⟩ ⟨1, 0, 1, 0⟩ ⟨-p, -p, k, k⟩ (n + 1) with ha
  have e1 : points a.r (erRhs a 0) = [] := rfl
  have e2 : pointsAxis a.t (fun _ => etBulk a) (etAxis a 0) = [] := rfl
  have i1 : irange (-(p : ℤ)) (-(p : ℤ)) = [-(p : ℤ)] := by simp [irange]
  have i2 : irange k k = [k] := by simp [irange]
  have e3 : pointsAxis a.z (ezBulk a 0) (ezAxis a 0) = [⟨-p, k, ezBulk a 0 (-p)⟩] := by
    unfold pointsAxis
    simp only [ha, argsE]
    rw [i1, i2]
    have : (-(p : ℤ)) ≠ 0 := by omega
    simp [this]
    omega
  have er : ratio a 1 ((-(p : ℤ) : ℤ) : ℝ) = .error .divByZero := by
    unfold ratio
    rw [show quot (a.rmin : ℂ) a.dr = .ok ((a.rmin : ℂ) / a.dr) from quot_ok hd, bind_ok]
    have : ((a.rmin : ℂ) / (a.dr : ℂ)).re + ((-(p : ℤ) : ℤ) : ℝ) = 0 := by
      rw [← Complex.ofReal_div, Complex.ofReal_re]
      simp only [ha, argsE]
      push_cast
      field_simp
      ring
    rw [this]
    unfold quot
    rw [if_pos rfl]
    rfl
  have ev : (ezBulk a 0 (-p)).eval σ a.nmodes (-p) k 0 = .error .divByZero := by
    have h : (σ ez).has a.nmodes (-(p : ℤ) + 0) (k + 0) 0 :=
      room_has hs (Nat.succ_pos n) ez (j := -p) (k := k) ⟨⟨le_rfl, le_rfl⟩, le_rfl, le_rfl⟩ (by omega) (by omega)
    have A : ∀ x y : Ex, (x + y).eval σ a.nmodes (-p) k 0 = (do
      let u ← x.eval σ a.nmodes (-p) k 0
      let v ← y.eval σ a.nmodes (-p) k 0
      pure (u + v)) := fun _ _ => rfl
    have S : ∀ x y : Ex, (x - y).eval σ a.nmodes (-p) k 0 = (do
      let u ← x.eval σ a.nmodes (-p) k 0
      let v ← y.eval σ a.nmodes (-p) k 0
      pure (u - v)) := fun _ _ => rfl
    have M : ∀ x y : Ex, (x * y).eval σ a.nmodes (-p) k 0 = (do
      let u ← x.eval σ a.nmodes (-p) k 0
      let v ← y.eval σ a.nmodes (-p) k 0
      pure (u * v)) := fun _ _ => rfl
    have K : ∀ x, (Ex.k x).eval σ a.nmodes (-p) k 0 = x := fun _ => rfl
    have C : ∀ x, (cst x).eval σ a.nmodes (-p) k 0 = .ok x := fun _ => rfl
    have R : (Ex.rd ez 0 0).eval σ a.nmodes (-p) k 0 = .ok ((σ ez).val (-(p : ℤ) + 0) (k + 0) 0) := if_pos h
    unfold ezBulk
    rw [S, A, A, R, bind_ok, M, C, bind_ok, S, M, K, er]
    rfl
  unfold evec
  rw [show a.nmodes = n + 1 from rfl, List.range_succ_eq_map, List.foldlM_cons]
  have : evecMode a σ 0 = .error .divByZero := by
    unfold evecMode
    rw [e1, e2, e3]
    show (exec a.nmodes ez 0 [⟨-p, k, ezBulk a 0 (-p)⟩] σ : Res Mem) = _
    unfold exec
    simp only
    rw [ev]
    rfl
  rw [this]
  rfl

/-- Such a box, four cells from the axis. -/
example : RoomFor (fun _ => ⟨⟨-6, 3, -1, 4⟩, fun _ _ _ => 0⟩) ⟨-(4 : ℕ), -(4 : ℕ), 2, 2⟩ 1 0 := by
  intro f
  norm_num

/-! ### C147 -/

theorem Multimode_axis_ez (g : RzGrid) (c mu0 dt : ℝ) (r t z : Box) (n m : ℕ) (v : Vals) (j k : ℤ) (hi : InsideM z j k) (h0 : OnAxisM g j) :
    stepE (argsE g c mu0 dt r t z n) m v ez j k =
      if m = 0 then v ez j k + dt * (c ^ 2 * (4 * v bt j k / g.dr) - mu0 * c ^ 2 * v jz j k) else 0 := by
  obtain ⟨h1, rfl⟩ := h0
  simp only [stepE]
  rw [if_pos (show InsideM (argsE g c mu0 dt r t z n).z 0 k from hi), if_pos trivial]
  unfold ezAxis
  rw [if_pos (show (argsE g c mu0 dt r t z n).rmin = 0 from h1)]
  split_ifs
  · simp only [sub_den, add_den, mul_den, cst_den, rd_den, argsE, add_zero]
    push_cast
    ring
  · rfl

theorem Multimode_electric (s : RunM) (hc : s.Clear) (m : ℕ) (hm : m < s.n) (dt : ℝ) (σ : Mem) (hr : s.Room σ) :
    ∃ τ, evec (argsE s.g s.c s.mu0 dt s.rE s.tE s.zE s.n) σ = .ok τ ∧ (∀ f, (τ f).box = (σ f).box) ∧
      modeOf τ br m = modeOf σ br m ∧ modeOf τ bt m = modeOf σ bt m ∧ modeOf τ bz m = modeOf σ bz m ∧
      (∀ j k, InsideM s.zE j k → OnAxisM s.g j → m ≠ 0 → modeOf τ ez m j k = 0) ∧
      ∀ j k, s.Node j k → (OnAxisM s.g j → m = 0) → divAtM s.g m (modeOf τ er m) (modeOf τ et m) (modeOf τ ez m) j k =
        divAtM s.g m (modeOf σ er m) (modeOf σ et m) (modeOf σ ez m) j k -
          s.mu0 * s.c ^ 2 * dt * divAtM s.g m (modeOf σ jr m) (modeOf σ jt m) (modeOf σ jz m) j k := by
  obtain ⟨hd, hz, h1, h2, _, _⟩ := hc
  obtain ⟨τ, e, hb, hs, _⟩ := evec_ok (okE_of hd s.c s.mu0 dt (n := s.n) h1 h2 hr.1.1 hr.1.2.1 hr.1.2.2)
  have one : ∀ f, modeOf τ f m = stepE (argsE s.g s.c s.mu0 dt s.rE s.tE s.zE s.n) m (look σ m) f := fun f => congrFun (hs m hm) f
  refine ⟨τ, e, hb, one br, one bt, one bz, ?_, ?_⟩
  · intro j k hi h0 hm0
    rw [one, Multimode_axis_ez _ _ _ _ _ _ _ _ _ _ _ _ hi h0, if_neg hm0]
  · intro j k ⟨n1, n2, n3, n4, n5⟩ hax
    unfold divAtM
    by_cases h0 : OnAxisM s.g j
    · rw [if_pos h0, if_pos h0, if_pos h0]
      have hm0 := hax h0
      have hj := h0.2
      subst hj
      subst hm0
      refine div_axis hd hz dt s.c s.mu0 _ _ (modeOf σ br 0) (modeOf σ bt 0) (modeOf σ bz 0) _ _ _ _ k ?_ ?_ ?_
      · rw [one]
        exact stepE_er hd _ _ _ _ n1 (h1 _ n1.1.1 n1.1.2)
      · rw [one]
        exact Multimode_axis_ez _ _ _ _ _ _ _ _ _ _ _ _ n4 h0
      · rw [one]
        exact Multimode_axis_ez _ _ _ _ _ _ _ _ _ _ _ _ n5 h0
    · rw [if_neg h0, if_neg h0, if_neg h0]
      have n2 := n2.resolve_left h0
      have hn : s.g.node j ≠ 0 := (h2 j n4.1.1 n4.1.2).resolve_left h0
      refine div_ampere hd hz m dt s.c s.mu0 _ _ _ (modeOf σ br m) (modeOf σ bt m) (modeOf σ bz m) _ _ _ _ _ _ j k
        (h1 _ n1.1.1 n1.1.2) (h1 _ n2.1.1 n2.1.2) hn ?_ ?_ ?_ ?_ ?_
      · rw [one]
        exact stepE_er hd _ _ _ _ n1 (h1 _ n1.1.1 n1.1.2)
      · rw [one]
        exact stepE_er hd _ _ _ _ n2 (h1 _ n2.1.1 n2.1.2)
      · rw [one]
        exact stepE_et _ _ _ _ n3 h0
      · rw [one]
        exact stepE_ez hd _ _ _ _ n4 h0 hn
      · rw [one]
        exact stepE_ez hd _ _ _ _ n5 h0 hn

theorem Multimode_magnetic (s : RunM) (hc : s.Clear) (m : ℕ) (hm : m < s.n) (dt : ℝ) (σ : Mem) (hr : s.Room σ) :
    ∃ τ, bvec (argsB s.g dt s.rB s.tB s.zB s.n) σ = .ok τ ∧ (∀ f, (τ f).box = (σ f).box) ∧
      modeOf τ er m = modeOf σ er m ∧ modeOf τ et m = modeOf σ et m ∧ modeOf τ ez m = modeOf σ ez m ∧
      ∀ j k, s.Cell j k → (OnAxisM s.g j → m = 0 ∨ modeOf σ ez m j k = 0) →
        divCellM s.g m (modeOf τ br m) (modeOf τ bt m) (modeOf τ bz m) j k = divCellM s.g m (modeOf σ br m) (modeOf σ bt m) (modeOf σ bz m) j k := by
  obtain ⟨hd, hz, _, _, h1, h2⟩ := hc
  obtain ⟨τ, e, hb, hs, _⟩ := bvec_ok (okB_of hd dt (n := s.n) h1 h2 hr.2.1 hr.2.2.1 hr.2.2.2)
  have one : ∀ f, modeOf τ f m = stepB (argsB s.g dt s.rB s.tB s.zB s.n) m (look σ m) f := fun f => congrFun (hs m hm) f
  refine ⟨τ, e, hb, one er, one et, one ez, ?_⟩
  intro j k ⟨n1, n2, n3, n4, n5, n6⟩ hax
  have hn1 := (h1 _ n2.1.1 n2.1.2).resolve_left n6
  refine div_faraday hd hz m dt (modeOf σ er m) (modeOf σ et m) (modeOf σ ez m) _ _ _ _ _ _ j k (h2 _ n4.1.1 n4.1.2) hn1 ?_ ?_ ?_ ?_ ?_
  · by_cases h0 : OnAxisM s.g j
    · right
      refine ⟨?_, hax h0⟩
      unfold RzGrid.node
      rw [h0.1, h0.2]
      simp
    · left
      have hn := (h1 _ n1.1.1 n1.1.2).resolve_left h0
      refine ⟨hn, ?_⟩
      rw [one]
      exact stepB_br hd _ _ n1 h0 hn
  · rw [one]
    exact stepB_br hd _ _ n2 n6 hn1
  · rw [one]
    exact stepB_bt hd _ _ n3
  · rw [one]
    exact stepB_bz hd _ _ n4 (h2 _ n4.1.1 n4.1.2)
  · rw [one]
    exact stepB_bz hd _ _ n5 (h2 _ n5.1.1 n5.1.2)

/-- **C147** Over any number of steps of both fields, of any lengths and in any order, whatever the outer code does to the currents and
the guard points in between: on every mode the divergence of B stays what it was, in the cells on the axis too (where Ez of the modes
above 0 has to be zero at the start), and `div E - rho/eps0` stays what it was when the charge follows the continuity equation, at the
nodes off the axis and, for mode 0, on the axis. -/
theorem C147_divergences (s : RunM) (hc : s.Clear) (eps0 : ℝ) (he : eps0 * s.mu0 * s.c ^ 2 = 1) (m : ℕ) (hm : m < s.n) (j k j' k' : ℤ)
    (hC : s.Cell j k) (hax : OnAxisM s.g j → m = 0 ∨ InsideM s.zE j k) (hN : s.Node j' k') (hax' : OnAxisM s.g j' → m = 0)
    (acts : List ActM) (hl : ∀ a ∈ acts, a.Legal s) (rho : ℂ) (σ : Mem) (hr : s.Room σ)
    (h0 : OnAxisM s.g j → m = 0 ∨ modeOf σ ez m j k = 0) :
    ∃ rho' τ, historyM s m j' k' acts rho σ = .ok (rho', τ) ∧
      divCellM s.g m (modeOf τ br m) (modeOf τ bt m) (modeOf τ bz m) j k = divCellM s.g m (modeOf σ br m) (modeOf σ bt m) (modeOf σ bz m) j k ∧
      divAtM s.g m (modeOf τ er m) (modeOf τ et m) (modeOf τ ez m) j' k' - rho' / eps0 =
        divAtM s.g m (modeOf σ er m) (modeOf σ et m) (modeOf σ ez m) j' k' - rho / eps0 := by
  have e0 : eps0 ≠ 0 := by
    rintro rfl
    simp at he
  have e0' := cast_ne e0
  have room : ∀ {σ τ : Mem}, s.Room σ → (∀ f, (τ f).box = (σ f).box) → s.Room τ := fun h hb =>
    ⟨⟨room_congr h.1.1 hb, room_congr h.1.2.1 hb, room_congr h.1.2.2 hb⟩, room_congr h.2.1 hb, room_congr h.2.2.1 hb, room_congr h.2.2.2 hb⟩
  induction acts generalizing rho σ with
  | nil => exact ⟨rho, σ, rfl, rfl, rfl⟩
  | cons a l ih =>
    have hl' : ∀ a ∈ l, a.Legal s := fun a ha => hl a (List.mem_cons_of_mem _ ha)
    cases a with
    | outer f =>
      obtain ⟨b, kept⟩ := (hl (.outer f) (List.mem_cons_self ..)) σ
      obtain ⟨c1, c2, c3, c4, c5, _⟩ := hC
      obtain ⟨n1, n2, n3, n4, n5⟩ := hN
      obtain ⟨rho', τ, e, dB, dE⟩ := ih hl' rho (f σ) (room hr b) (fun hx => by
        rcases h0 hx with h | h
        · exact Or.inl h
        · rcases hax hx with h' | h'
          · exact Or.inl h'
          · right
            rw [← h]
            exact (kept m j k).2.2.1 h')
      refine ⟨rho', τ, e, ?_, ?_⟩
      · rw [dB]
        unfold divCellM
        rw [show modeOf (f σ) br m (j + 1) k = modeOf σ br m (j + 1) k from (kept m _ _).2.2.2.1 c2,
          show modeOf (f σ) br m j k = modeOf σ br m j k from (kept m _ _).2.2.2.1 c1,
          show modeOf (f σ) bt m j k = modeOf σ bt m j k from (kept m _ _).2.2.2.2.1 c3,
          show modeOf (f σ) bz m j k = modeOf σ bz m j k from (kept m _ _).2.2.2.2.2 c4,
          show modeOf (f σ) bz m j (k + 1) = modeOf σ bz m j (k + 1) from (kept m _ _).2.2.2.2.2 c5]
      · rw [dE]
        congr 1
        have a1 : modeOf (f σ) er m j' k' = modeOf σ er m j' k' := (kept m _ _).1 n1
        have a2 : modeOf (f σ) ez m j' k' = modeOf σ ez m j' k' := (kept m _ _).2.2.1 n4
        have a3 : modeOf (f σ) ez m j' (k' - 1) = modeOf σ ez m j' (k' - 1) := (kept m _ _).2.2.1 n5
        have a4 : modeOf (f σ) et m j' k' = modeOf σ et m j' k' := (kept m _ _).2.1 n3
        unfold divAtM
        split_ifs with hx
        · unfold divAxisM
          have hj := hx.2
          subst hj
          rw [a1, a2, a3]
        · unfold divNodeM
          rw [a1, a2, a3, a4, show modeOf (f σ) er m (j' - 1) k' = modeOf σ er m (j' - 1) k' from (kept m _ _).1 (n2.resolve_left hx)]
    | electric dt =>
      obtain ⟨τ, e, b, b1, b2, b3, ax, dv⟩ := Multimode_electric s hc m hm dt σ hr
      obtain ⟨rho', υ, e', dB, dE⟩ := ih hl' (rho - dt * divAtM s.g m (modeOf σ jr m) (modeOf σ jt m) (modeOf σ jz m) j' k') τ (room hr b)
        (fun hx => by
          by_cases hm0 : m = 0
          · exact Or.inl hm0
          · exact Or.inr (ax j k ((hax hx).resolve_left hm0) hx hm0))
      refine ⟨rho', υ, ?_, ?_, ?_⟩
      · unfold historyM
        rw [e, bind_ok]
        exact e'
      · rw [dB, b1, b2, b3]
      · rw [dE, dv j' k' hN hax']
        have he' : (eps0 : ℂ) * s.mu0 * s.c ^ 2 = 1 := by exact_mod_cast congrArg (fun x : ℝ => (x : ℂ)) he
        have : (s.mu0 : ℂ) * s.c ^ 2 = 1 / eps0 := by
          rw [eq_div_iff e0']
          linear_combination he'
        rw [this]
        field_simp
        ring
    | magnetic dt =>
      obtain ⟨τ, e, b, b1, b2, b3, dv⟩ := Multimode_magnetic s hc m hm dt σ hr
      obtain ⟨rho', υ, e', dB, dE⟩ := ih hl' rho τ (room hr b) (fun hx => by rw [b3]; exact h0 hx)
      refine ⟨rho', υ, ?_, ?_, ?_⟩
      · unfold historyM
        rw [e, bind_ok]
        exact e'
      · rw [dB, dv j k hC h0]
      · rw [dE, b1, b2, b3]

/-- A run on a grid with an axis, and a code that deposits a current. -/
noncomputable def Multimode_run : RunM := ⟨Multimode_grid, 1, 1, 2, Multimode_box, Multimode_box, Multimode_box, Multimode_box, Multimode_box, Multimode_box⟩

example : Multimode_run.Clear ∧ Multimode_run.Cell 0 1 ∧ Multimode_run.Node 2 1 ∧ Multimode_run.Node 0 1 ∧ Multimode_run.Room Multimode_mem ∧
    OnAxisM Multimode_run.g 0 ∧ InsideM Multimode_run.zE 0 1 ∧
    (ActM.outer fun σ f => if f = jr then { σ f with val := fun j _ _ => j } else σ f).Legal Multimode_run := by
  refine ⟨⟨by norm_num [Multimode_run, Multimode_grid], by norm_num [Multimode_run, Multimode_grid], Multimode_clear.1, Multimode_clear.2,
    Multimode_clear.2, Multimode_clear.1⟩, ?_, ?_, ?_, ⟨⟨Multimode_room.1, Multimode_room.1, Multimode_room.1⟩, Multimode_room.2, Multimode_room.2,
    Multimode_room.2⟩, ⟨rfl, rfl⟩, ?_, ?_⟩
  · unfold RunM.Cell InsideM OnAxisM Multimode_run Multimode_box
    norm_num
  · unfold RunM.Node InsideM OnAxisM Multimode_run Multimode_box
    norm_num
  · unfold RunM.Node InsideM OnAxisM Multimode_run Multimode_box Multimode_grid
    norm_num
  · unfold InsideM Multimode_run Multimode_box
    norm_num
  · intro σ
    refine ⟨fun x => ?_, fun m j k => ?_⟩
    · beta_reduce
      split <;> rfl
    · simp

/-! ### C148 -/

/-- **C148** On a grid that starts on the axis, after a step of the electric field its transverse vector on the axis is the same at all
angles (on every mode), and Ez on the axis has mode 0 only, advanced with the circulation of B around the axis. -/
theorem C148_electric (g : RzGrid) (hd : g.dr ≠ 0) (h0 : g.rmin = 0) (c mu0 dt : ℝ) (r t z : Box) (n : ℕ) (hr : ClearHalves g r) (hz : ClearNodes g z)
    (σ : Mem) (r1 : RoomFor σ r 1 0) (r2 : RoomFor σ t 1 0) (r3 : RoomFor σ z 1 0) :
    ∃ τ, evec (argsE g c mu0 dt r t z n) σ = .ok τ ∧ ∀ k m, m < n →
      (InsideM t 0 k → (m ≠ 1 → modeOf τ et m 0 k = 0) ∧
        (m = 1 → ∀ θ, sideX 1 (modeOf τ er 1 0 k) (modeOf τ et 1 0 k) θ = sideX 1 (modeOf τ er 1 0 k) (modeOf τ et 1 0 k) 0 ∧
          sideY 1 (modeOf τ er 1 0 k) (modeOf τ et 1 0 k) θ = sideY 1 (modeOf τ er 1 0 k) (modeOf τ et 1 0 k) 0)) ∧
      (InsideM z 0 k → (m ≠ 0 → modeOf τ ez m 0 k = 0) ∧
        (m = 0 → modeOf τ ez 0 0 k = modeOf σ ez 0 0 k + dt * (c ^ 2 * (4 * modeOf σ bt 0 0 k / g.dr) - mu0 * c ^ 2 * modeOf σ jz 0 0 k))) := by
  obtain ⟨τ, e, _, hs, _⟩ := evec_ok (okE_of hd c mu0 dt (n := n) hr hz r1 r2 r3)
  refine ⟨τ, e, fun k m hm => ?_⟩
  have one : ∀ f, modeOf τ f m = stepE (argsE g c mu0 dt r t z n) m (look σ m) f := fun f => congrFun (hs m hm) f
  refine ⟨fun hi => ⟨fun hm1 => ?_, ?_⟩, fun hi => ⟨fun hm0 => ?_, ?_⟩⟩
  · rw [one]
    simp only [stepE]
    rw [if_pos (show InsideM (argsE g c mu0 dt r t z n).t 0 k from hi), if_pos trivial]
    unfold etAxis
    rw [if_neg (not_not.2 (show (argsE g c mu0 dt r t z n).rmin = 0 from h0)), if_neg hm1]
    rfl
  · rintro rfl θ
    have key : modeOf τ et 1 0 k = -Complex.I * modeOf τ er 1 0 k := by
      rw [one, one]
      simp only [stepE]
      rw [if_pos (show InsideM (argsE g c mu0 dt r t z n).t 0 k from hi), if_pos trivial]
      unfold etAxis
      rw [if_neg (not_not.2 (show (argsE g c mu0 dt r t z n).rmin = 0 from h0)), if_pos rfl]
      simp only [mul_den, cst_den, rd_den, Function.update_self, add_zero]
    rw [key]
    generalize modeOf τ er 1 0 k = w
    have ex : ∀ θ : ℝ, Complex.exp (-((1 : ℕ) * θ * Complex.I)) = ⟨Real.cos θ, -Real.sin θ⟩ := by
      intro θ
      rw [Nat.cast_one, one_mul, ← neg_mul, ← Complex.ofReal_neg, Complex.exp_mul_I, ← Complex.ofReal_cos, ← Complex.ofReal_sin]
      apply Complex.ext
      · simp only [Complex.add_re, Complex.mul_re, Complex.ofReal_re, Complex.ofReal_im, Complex.I_re, Complex.I_im, Real.cos_neg]
        ring
      · simp only [Complex.add_im, Complex.mul_im, Complex.ofReal_re, Complex.ofReal_im, Complex.I_re, Complex.I_im, Real.sin_neg]
        ring
    have cs := Real.cos_sq_add_sin_sq θ
    unfold sideX sideY
    rw [ex, ex]
    simp only [Complex.mul_re, Complex.mul_im, Complex.neg_re, Complex.neg_im, Complex.I_re, Complex.I_im, Real.cos_zero, Real.sin_zero]
    constructor
    · linear_combination w.re * cs
    · linear_combination w.im * cs
  · rw [one, Multimode_axis_ez _ _ _ _ _ _ _ _ _ _ _ _ hi ⟨h0, rfl⟩, if_neg hm0]
  · rintro rfl
    rw [one, Multimode_axis_ez _ _ _ _ _ _ _ _ _ _ _ _ hi ⟨h0, rfl⟩, if_pos rfl]
    rfl

/-- **C148** After a step of the magnetic field, Br on the axis has mode 1 only, advanced with the slope of Ez in place of `Ez/r`. -/
theorem C148_magnetic (g : RzGrid) (hd : g.dr ≠ 0) (h0 : g.rmin = 0) (dt : ℝ) (r t z : Box) (n : ℕ) (hr : ClearNodes g r) (hz : ClearHalves g z)
    (σ : Mem) (r1 : RoomFor σ r 0 1) (r2 : RoomFor σ t 0 1) (r3 : RoomFor σ z 0 1) :
    ∃ τ, bvec (argsB g dt r t z n) σ = .ok τ ∧ ∀ k m, m < n → InsideM r 0 k →
      (m ≠ 1 → modeOf τ br m 0 k = 0) ∧
      (m = 1 → modeOf τ br 1 0 k = modeOf σ br 1 0 k -
        dt * (turn 1 (modeOf σ ez 1 1 k) / g.dr - (modeOf σ et 1 0 (k + 1) - modeOf σ et 1 0 k) / g.dz)) := by
  obtain ⟨τ, e, _, hs, _⟩ := bvec_ok (okB_of hd dt (n := n) hr hz r1 r2 r3)
  have hd' := cast_ne hd
  refine ⟨τ, e, fun k m hm hi => ?_⟩
  have one : ∀ f, modeOf τ f m = stepB (argsB g dt r t z n) m (look σ m) f := fun f => congrFun (hs m hm) f
  have ax : (0 : ℤ) = 0 ∧ (argsB g dt r t z n).rmin = 0 := ⟨rfl, h0⟩
  refine ⟨fun hm1 => ?_, ?_⟩
  · rw [one]
    simp only [stepB]
    rw [if_pos (show InsideM (argsB g dt r t z n).r 0 k from hi)]
    unfold brRhs
    rw [if_pos ax, if_pos hm1]
    rfl
  · rintro rfl
    rw [one]
    have q : valOf (quot ((argsB g dt r t z n).imdt 1) (argsB g dt r t z n).dr) = (argsB g dt r t z n).imdt 1 / g.dr := by
      rw [show (argsB g dt r t z n).dr = g.dr from rfl, quot_ok hd]
      rfl
    simp only [stepB]
    rw [if_pos (show InsideM (argsB g dt r t z n).r 0 k from hi)]
    unfold brRhs
    rw [if_pos ax, if_neg (by simp)]
    simp only [sub_den, add_den, mul_den, cst_den, rd_den, k_den, q, add_zero, zero_add]
    simp only [Args.imdt, argsB, turn, look, modeOf]
    push_cast
    field_simp
    ring

/-! ### C149 -/

open Picsar.CircGather Picsar.CircDeposit in
/-- The current of the memory is the one that was deposited. -/
def Multimode_loaded (σ : Multimode.Mem) (R T Z : CArr) : Prop :=
  ∀ m j k, modeOf σ jr m j k = R.val j k m ∧ modeOf σ jt m j k = T.val j k m ∧ modeOf σ jz m j k = Z.val j k m

section
open Picsar.Grid Picsar.Deposition Picsar.Deposition2d Picsar.CircGather Picsar.RzVolume Picsar.CircDeposit

theorem Multimode_divergence {σ : Multimode.Mem} {R T Z : CArr} (h : Multimode_loaded σ R T Z) (rmin dr dz : ℝ) (m : ℕ) (j l : ℤ) :
    divNodeM ⟨rmin, dr, dz⟩ m (modeOf σ jr m) (modeOf σ jt m) (modeOf σ jz m) j l = divergenceM rmin dr dz R T Z m j l := by
  unfold divNodeM divergenceM RzGrid.half RzGrid.node turn
  rw [(h m j l).1, (h m (j - 1) l).1, (h m j l).2.1, (h m j l).2.2, (h m j (l - 1)).2.2]
  push_cast
  rw [add_div, div_div, mul_comm ((dr : ℂ))]
  ring

theorem Multimode_gauss {eps0 mu0 c dt : ℝ} (he : eps0 * mu0 * c ^ 2 = 1) (ht : dt ≠ 0) {d d' D r r' : ℂ} (h1 : d' = d - mu0 * c ^ 2 * dt * D)
    (h2 : D = -(r' - r) / (dt : ℂ)) : d' - r' / eps0 = d - r / eps0 := by
  have e0 : (eps0 : ℂ) ≠ 0 := cast_ne (by rintro rfl; simp at he)
  have t0 : (dt : ℂ) ≠ 0 := cast_ne ht
  have he' : (eps0 : ℂ) * mu0 * c ^ 2 = 1 := by exact_mod_cast congrArg (fun x : ℝ => (x : ℂ)) he
  have : (mu0 : ℂ) * c ^ 2 = 1 / eps0 := by
    rw [eq_div_iff e0]
    linear_combination he'
  rw [h1, h2, this]
  field_simp
  ring

/-- **C149** Off the axis: the current that the particles of a step deposit on the modes, divided by the volumes, then a step of the electric
field: `div E - rho/eps0` is kept on every mode at every node that the solver advances. -/
theorem C149_wall {clight : ℝ} {a b n : ℕ} (ha : a ≤ 3) (hb : b ≤ 3) (hn : 1 ≤ n) {g : Geo} (hx : 0 < g.dx) (hz : 0 < g.dz) (ht : 0 < g.dt)
    {ps : List Part} {Ar At Az : CArr} (h1 : ∀ p ∈ ps, Subluminal clight p)
    (h2 : ∀ p ∈ ps, FitC a b n g Ar p ∧ FitC a b n g At p ∧ FitC a b n g Az p) (er0 : EmptyC Ar) (et0 : EmptyC At) (ez0 : EmptyC Az) (ty : ℤ)
    (h0 : g.xmin ≠ 0) (nr : NoAxis (1 / 2) g.xmin g.dx Ar) (nt : NoAxis 0 g.xmin g.dx At) (nz : NoAxis 0 g.xmin g.dx Az)
    (s : RunM) (hg : s.g = ⟨g.xmin, g.dx, g.dz⟩) (hsn : s.n = n) (hc : s.Clear) (eps0 : ℝ) (he : eps0 * s.mu0 * s.c ^ 2 = 1) :
    ∃ R T Z, (deposeC clight a b n g ps Ar At Az >>= fun s => scaleC ty g.xmin g.dx s.1 s.2.1 s.2.2) = .ok (R, T, Z) ∧
      ∀ σ : Multimode.Mem, s.Room σ → Multimode_loaded σ R T Z → ∃ τ, evec (argsE s.g s.c s.mu0 g.dt s.rE s.tE s.zE s.n) σ = .ok τ ∧
        ∀ m < n, ∀ j l : ℤ, s.Node j l → Ar.jlo + 1 ≤ j → j ≤ Ar.jhi → At.jlo ≤ j → j ≤ At.jhi → Az.jlo ≤ j → j ≤ Az.jhi →
          0 < g.xmin + (j - 1 / 2) * g.dx →
          divNodeM s.g m (modeOf τ er m) (modeOf τ et m) (modeOf τ ez m) j l - ringDensity a b g ps m j l / eps0 =
            divNodeM s.g m (modeOf σ er m) (modeOf σ et m) (modeOf σ ez m) j l - ringDensity a b g (ps.map (before g)) m j l / eps0 := by
  obtain ⟨R, T, Z, e, h⟩ := C139_wall ha hb hn hx hz ht h1 h2 er0 et0 ez0 ty h0 nr nt nz
  refine ⟨R, T, Z, e, fun σ hr hl => ?_⟩
  obtain ⟨τ, e', -⟩ := Multimode_electric s hc 0 (by omega) g.dt σ hr
  refine ⟨τ, e', fun m hm j l hN b1 b2 b3 b4 b5 b6 hp => ?_⟩
  obtain ⟨τ', e'', -, -, -, -, -, dv⟩ := Multimode_electric s hc m (by omega) g.dt σ hr
  obtain rfl : τ = τ' := Except.ok.inj (e'.symm.trans e'')
  have off : ¬OnAxisM s.g j := fun hx => h0 (by rw [← hx.1, hg])
  have key := dv j l hN (fun hx => (off hx).elim)
  unfold divAtM at key
  rw [if_neg off, if_neg off, if_neg off] at key
  refine Multimode_gauss he ht.ne' key ?_
  rw [hg, Multimode_divergence hl]
  exact h m hm j l b1 b2 b3 b4 b5 b6 hp

/-- Particles and a run on a grid that starts a quarter of a cell from the axis. -/
example : (∀ p ∈ [cdP, cdQ], FitC 3 3 3 (cdGeo (1 / 4)) (cdArr 3) p) ∧ NoAxis (1 / 2) (1 / 4) 1 (cdArr 3) ∧
    (⟨⟨1 / 4, 1, 1⟩, 1, 1, 3, Multimode_box, Multimode_box, Multimode_box, Multimode_box, Multimode_box, Multimode_box⟩ : RunM).Clear ∧
    (⟨⟨1 / 4, 1, 1⟩, 1, 1, 3, Multimode_box, Multimode_box, Multimode_box, Multimode_box, Multimode_box, Multimode_box⟩ : RunM).Node 1 1 := by
  have c1 : ClearHalves ⟨1 / 4, 1, 1⟩ Multimode_box := by
    intro j h1 _
    have : (0 : ℝ) ≤ j := by exact_mod_cast h1
    simp only [RzGrid.half]
    linarith
  have c2 : ClearNodes ⟨1 / 4, 1, 1⟩ Multimode_box := by
    intro j h1 _
    have : (0 : ℝ) ≤ j := by exact_mod_cast h1
    right
    simp only [RzGrid.node]
    linarith
  refine ⟨cd_fit (by norm_num) (by norm_num) 3 (by norm_num) (by norm_num), cd_noAxis.1, ⟨by norm_num, by norm_num, c1, c2, c2, c1⟩, ?_⟩
  unfold RunM.Node InsideM OnAxisM Multimode_box
  norm_num

/-- **C149** On a grid that starts on the axis, at the nodes off the axis: kept for mode 0, and on every mode for particles of order 0 or 1 in r.
Missing: the higher orders on the higher modes, where the deposition itself does not conserve charge (`C139_axis_refuted`). -/
theorem C149_axis_partial {clight : ℝ} {a b n : ℕ} (ha : a ≤ 3) (hb : b ≤ 3) (hn : 1 ≤ n) {g : Geo} (hx : 0 < g.dx) (hz : 0 < g.dz) (ht : 0 < g.dt)
    {ps : List Part} {Ar At Az : CArr} (h1 : ∀ p ∈ ps, Subluminal clight p)
    (h2 : ∀ p ∈ ps, FitC a b n g Ar p ∧ FitC a b n g At p ∧ FitC a b n g Az p) (er0 : EmptyC Ar) (et0 : EmptyC At) (ez0 : EmptyC Az) (ty : ℤ)
    (h0 : g.xmin = 0) (hl : Ar.llo = At.llo ∧ Ar.lhi = At.lhi ∧ Ar.nm = At.nm) (nr : AxisArr Ar) (nt : AxisArr At) (nz : AxisArr Az)
    (s : RunM) (hg : s.g = ⟨g.xmin, g.dx, g.dz⟩) (hsn : s.n = n) (hc : s.Clear) (eps0 : ℝ) (he : eps0 * s.mu0 * s.c ^ 2 = 1) :
    ∃ R T Z, (deposeC clight a b n g ps Ar At Az >>= fun s => scaleC ty g.xmin g.dx s.1 s.2.1 s.2.2) = .ok (R, T, Z) ∧
      ∀ σ : Multimode.Mem, s.Room σ → Multimode_loaded σ R T Z → ∃ τ, evec (argsE s.g s.c s.mu0 g.dt s.rE s.tE s.zE s.n) σ = .ok τ ∧
        ∀ m < n, m = 0 ∨ a ≤ 1 → ∀ j l : ℤ, s.Node j l → 1 ≤ j → j ≤ Ar.jhi → j ≤ At.jhi → j ≤ Az.jhi →
          divNodeM s.g m (modeOf τ er m) (modeOf τ et m) (modeOf τ ez m) j l - ringDensity a b g ps m j l / eps0 =
            divNodeM s.g m (modeOf σ er m) (modeOf σ et m) (modeOf σ ez m) j l - ringDensity a b g (ps.map (before g)) m j l / eps0 := by
  obtain ⟨R, T, Z, e, h⟩ := C139_axis_low_order ha hb hn hx hz ht h1 h2 er0 et0 ez0 ty h0 hl nr nt nz
  refine ⟨R, T, Z, e, fun σ hr hl => ?_⟩
  obtain ⟨τ, e', -⟩ := Multimode_electric s hc 0 (by omega) g.dt σ hr
  refine ⟨τ, e', fun m hm hma j l hN b1 b2 b3 b4 => ?_⟩
  obtain ⟨τ', e'', -, -, -, -, -, dv⟩ := Multimode_electric s hc m (by omega) g.dt σ hr
  obtain rfl : τ = τ' := Except.ok.inj (e'.symm.trans e'')
  have off : ¬OnAxisM s.g j := fun hx => by
    have := hx.2
    omega
  have key := dv j l hN (fun hx => (off hx).elim)
  unfold divAtM at key
  rw [if_neg off, if_neg off, if_neg off] at key
  refine Multimode_gauss he ht.ne' key ?_
  rw [hg, Multimode_divergence hl]
  exact h m hm hma j l b1 b2 b3 b4

/-- **C149** On the axis, mode 0: kept with the plain volume of the cell on the axis; with the corrected volume (`type_rz_depose = 1`) it moves by
the radial current of the first cell, because the solver still takes the flux through a cylinder of radius `dr/2`. -/
theorem C149_axis_row_partial {clight : ℝ} {a b n : ℕ} (ha : a ≤ 3) (hb : b ≤ 3) (hn : 1 ≤ n) {g : Geo} (hx : 0 < g.dx) (hz : 0 < g.dz) (ht : 0 < g.dt)
    {ps : List Part} {Ar At Az : CArr} (h1 : ∀ p ∈ ps, Subluminal clight p)
    (h2 : ∀ p ∈ ps, FitC a b n g Ar p ∧ FitC a b n g At p ∧ FitC a b n g Az p) (er0 : EmptyC Ar) (ez0 : EmptyC Az) (ty : ℤ)
    (h0 : g.xmin = 0) (hl : Ar.llo = At.llo ∧ Ar.lhi = At.lhi ∧ Ar.nm = At.nm) (nr : AxisArr Ar) (nt : AxisArr At) (nz : AxisArr Az)
    (s : RunM) (hg : s.g = ⟨g.xmin, g.dx, g.dz⟩) (hsn : s.n = n) (hc : s.Clear) (eps0 : ℝ) (he : eps0 * s.mu0 * s.c ^ 2 = 1) :
    ∃ R T Z, (deposeC clight a b n g ps Ar At Az >>= fun s => scaleC ty g.xmin g.dx s.1 s.2.1 s.2.2) = .ok (R, T, Z) ∧
      ∀ σ : Multimode.Mem, s.Room σ → Multimode_loaded σ R T Z → ∃ τ, evec (argsE s.g s.c s.mu0 g.dt s.rE s.tE s.zE s.n) σ = .ok τ ∧
        ∀ l : ℤ, s.Node 0 l →
          divAxisM s.g (modeOf τ er 0) (modeOf τ ez 0) l - axisDensity ty a b g ps l / eps0 =
            divAxisM s.g (modeOf σ er 0) (modeOf σ ez 0) l - axisDensity ty a b g (ps.map (before g)) l / eps0 -
              if ty = 1 then g.dt * R.val 0 l 0 / (eps0 * g.dx) else 0 := by
  obtain ⟨R, T, Z, e, h⟩ := C139_axis_row ha hb hn hx hz ht h1 h2 er0 ez0 ty h0 hl nr nt nz
  refine ⟨R, T, Z, e, fun σ hr hl => ?_⟩
  obtain ⟨τ, e', -, -, -, -, -, dv⟩ := Multimode_electric s hc 0 (by omega) g.dt σ hr
  refine ⟨τ, e', fun l hN => ?_⟩
  have on : OnAxisM s.g 0 := ⟨by rw [hg]; exact h0, rfl⟩
  have key := dv 0 l hN (fun _ => rfl)
  unfold divAtM at key
  rw [if_pos on, if_pos on, if_pos on] at key
  have row := h l
  have x0 : (g.dx : ℂ) ≠ 0 := cast_ne hx.ne'
  have t0 : (g.dt : ℂ) ≠ 0 := cast_ne ht.ne'
  have e0 : (eps0 : ℂ) ≠ 0 := cast_ne (by rintro rfl; simp at he)
  have dJ : divAxisM s.g (modeOf σ jr 0) (modeOf σ jz 0) l =
      -(axisDensity ty a b g ps l - (axisDensity ty a b g (ps.map (before g)) l + if ty = 1 then g.dt * R.val 0 l 0 / g.dx else 0)) / (g.dt : ℂ) := by
    unfold divAxisM
    rw [hg, (hl 0 0 l).1, (hl 0 0 l).2.2, (hl 0 0 (l - 1)).2.2]
    split_ifs at row ⊢ with hty
    · rw [show (4 : ℂ) * R.val 0 l 0 / g.dx = 3 / g.dx * R.val 0 l 0 + R.val 0 l 0 / g.dx by ring]
      rw [add_right_comm, row]
      field_simp
      ring
    · rw [add_zero, ← row]
      ring
  have := Multimode_gauss he ht.ne' key dJ
  rw [this]
  split_ifs
  · field_simp
    ring
  · ring

/-! A case: a particle that moves away from the axis, from a quarter to three quarters of the first cell. -/

noncomputable def Multimode_part : Part := ⟨3 / 4, 0, 0, 1 / 2, 0, 0, 1, 1⟩
def Multimode_box2 : Box := ⟨0, 4, -1, 3⟩
noncomputable def Multimode_pic : RunM := ⟨⟨0, 1, 1⟩, 1, 1, 2, Multimode_box2, Multimode_box2, Multimode_box2, Multimode_box2, Multimode_box2, Multimode_box2⟩
def Multimode_with (R T Z : CArr) : Multimode.Mem := fun f =>
  ⟨⟨-1, 5, -2, 4⟩, fun j k m => match f with | .jr => R.val j k m | .jt => T.val j k m | .jz => Z.val j k m | _ => 0⟩

theorem Multimode_part_before : before (cdGeo 0) Multimode_part = ⟨1 / 4, 0, 0, 1 / 2, 0, 0, 1, 1⟩ := by
  simp only [before, cdGeo, Multimode_part]
  norm_num

theorem Multimode_cells (x : ℝ) (h : 0 ≤ x) (z ux uy uz w v : ℝ) : cells (across true ⟨x, 0, z, ux, uy, uz, w, v⟩) 0 1 = x := by
  have : x ^ 2 + (0 : ℝ) ^ 2 = x ^ 2 := by ring
  simp only [cells, across, if_true, this, Real.sqrt_sq h]
  norm_num

theorem Multimode_part_fit : Subluminal 1 Multimode_part ∧ FitC 1 1 2 (cdGeo 0) (cdArr 2) Multimode_part := by
  refine ⟨by norm_num [Subluminal, Multimode_part], rfl, ?_, ?_⟩
  · unfold FitsC
    rw [show (cdGeo 0).xmin = 0 from rfl, show (cdGeo 0).dx = 1 from rfl, show (cdGeo 0).zmin = 0 from rfl, show (cdGeo 0).dz = 1 from rfl]
    unfold Multimode_part
    rw [Multimode_cells _ (by norm_num)]
    norm_num [Fits, cdArr, cells]
  · unfold FitsC
    rw [show (cdGeo 0).xmin = 0 from rfl, show (cdGeo 0).dx = 1 from rfl, show (cdGeo 0).zmin = 0 from rfl, show (cdGeo 0).dz = 1 from rfl,
      Multimode_part_before, Multimode_cells _ (by norm_num)]
    norm_num [Fits, cdArr, cells]

theorem Multimode_pic_ok : Multimode_pic.Clear ∧ Multimode_pic.Node 0 0 ∧ ∀ R T Z, Multimode_pic.Room (Multimode_with R T Z) := by
  have c1 : ClearHalves Multimode_pic.g Multimode_box2 := by
    intro j h1 _
    have : (0 : ℝ) ≤ j := by exact_mod_cast h1
    simp only [RzGrid.half, Multimode_pic]
    linarith
  have c2 : ClearNodes Multimode_pic.g Multimode_box2 := by
    intro j h1 _
    by_cases h0 : j = 0
    · exact Or.inl ⟨rfl, h0⟩
    · right
      simp only [RzGrid.node, Multimode_pic]
      have : (j : ℝ) ≠ 0 := by exact_mod_cast h0
      simpa using this
  refine ⟨⟨by norm_num [Multimode_pic], by norm_num [Multimode_pic], c1, c2, c2, c1⟩, ?_, fun R T Z => ?_⟩
  · unfold RunM.Node InsideM OnAxisM Multimode_pic Multimode_box2
    norm_num
  · have r1 : RoomFor (Multimode_with R T Z) Multimode_box2 1 0 := by
      intro f
      norm_num [Multimode_with, Multimode_box2]
    have r2 : RoomFor (Multimode_with R T Z) Multimode_box2 0 1 := by
      intro f
      norm_num [Multimode_with, Multimode_box2]
    exact ⟨⟨r1, r1, r1⟩, r2, r2, r2⟩

theorem Multimode_rows (ty : ℤ) : axisDensity ty 1 1 (cdGeo 0) [Multimode_part] 0 ≠ axisDensity ty 1 1 (cdGeo 0) ([Multimode_part].map (before (cdGeo 0))) 0 := by
  have s1 : shape 1 (3 / 4) 0 = 1 / 4 := by
    have : |(3 / 4 : ℝ) - ((0 : ℤ) : ℝ)| = 3 / 4 := by rw [abs_of_pos] <;> norm_num
    simp only [shape, bspline, this]
    norm_num
  have s2 : shape 1 (1 / 4) 0 = 3 / 4 := by
    have : |(1 / 4 : ℝ) - ((0 : ℤ) : ℝ)| = 1 / 4 := by rw [abs_of_pos] <;> norm_num
    simp only [shape, bspline, this]
    norm_num
  have s3 : shape 1 0 0 = 1 := by simp [shape, bspline]
  have f : ((Real.pi * (cdGeo 0).dx / (if ty = 1 then 3 else 4) : ℝ) : ℂ) ≠ 0 := by
    refine cast_ne (div_ne_zero (mul_ne_zero Real.pi_pos.ne' (by norm_num [cdGeo])) ?_)
    split_ifs <;> norm_num
  have d1 : densityM 1 1 (cdGeo 0) [Multimode_part] 0 0 0 = 1 / 4 := by
    simp only [densityM, List.map_cons, List.map_nil, List.sum_cons, List.sum_nil, density2, modeWeight, if_true]
    rw [show (cdGeo 0).xmin = 0 from rfl, show (cdGeo 0).dx = 1 from rfl, show (cdGeo 0).zmin = 0 from rfl, show (cdGeo 0).dz = 1 from rfl]
    unfold Multimode_part
    rw [Multimode_cells _ (by norm_num), s1, show cells 0 0 1 = 0 by norm_num [cells], s3]
    norm_num [cdGeo]
  have d2 : densityM 1 1 (cdGeo 0) ([Multimode_part].map (before (cdGeo 0))) 0 0 0 = 3 / 4 := by
    simp only [densityM, List.map_cons, List.map_nil, List.sum_cons, List.sum_nil, density2, modeWeight, if_true]
    rw [show (cdGeo 0).xmin = 0 from rfl, show (cdGeo 0).dx = 1 from rfl, show (cdGeo 0).zmin = 0 from rfl, show (cdGeo 0).dz = 1 from rfl,
      Multimode_part_before, Multimode_cells _ (by norm_num), s2, show cells 0 0 1 = 0 by norm_num [cells], s3]
    norm_num [cdGeo]
  unfold axisDensity
  rw [d1, d2]
  intro h
  rw [div_left_inj' f] at h
  norm_num at h

/-- **C149** refuted on the axis with the corrected volume: a particle that leaves the axis changes `div E - rho/eps0` there. -/
theorem C149_axis_row_refuted : ∃ (clight : ℝ) (g : Geo) (p : Part) (A : CArr) (s : RunM) (σ τ : Multimode.Mem) (R T Z : CArr),
    Subluminal clight p ∧ FitC 1 1 2 g A p ∧ EmptyC A ∧ AxisArr A ∧ g.xmin = 0 ∧ s.g = ⟨g.xmin, g.dx, g.dz⟩ ∧ s.n = 2 ∧ s.Clear ∧ s.Room σ ∧
      s.Node 0 0 ∧ 1 * s.mu0 * s.c ^ 2 = 1 ∧
      (deposeC clight 1 1 2 g [p] A A A >>= fun s => scaleC 1 g.xmin g.dx s.1 s.2.1 s.2.2) = .ok (R, T, Z) ∧ Multimode_loaded σ R T Z ∧
      evec (argsE s.g s.c s.mu0 g.dt s.rE s.tE s.zE s.n) σ = .ok τ ∧
      divAxisM s.g (modeOf τ er 0) (modeOf τ ez 0) 0 - axisDensity 1 1 1 g [p] 0 ≠
        divAxisM s.g (modeOf σ er 0) (modeOf σ ez 0) 0 - axisDensity 1 1 1 g ([p].map (before g)) 0 := by
  have hs : ∀ p ∈ [Multimode_part], Subluminal 1 p := fun p hp => by simp at hp; rw [hp]; exact Multimode_part_fit.1
  have hf : ∀ p ∈ [Multimode_part], FitC 1 1 2 (cdGeo 0) (cdArr 2) p ∧ FitC 1 1 2 (cdGeo 0) (cdArr 2) p ∧ FitC 1 1 2 (cdGeo 0) (cdArr 2) p :=
    fun p hp => by simp at hp; rw [hp]; exact ⟨Multimode_part_fit.2, Multimode_part_fit.2, Multimode_part_fit.2⟩
  have he : (1 : ℝ) * Multimode_pic.mu0 * Multimode_pic.c ^ 2 = 1 := by norm_num [Multimode_pic]
  have hx : 0 < (cdGeo 0).dx := by norm_num [cdGeo]
  have hz : 0 < (cdGeo 0).dz := by norm_num [cdGeo]
  have ht : 0 < (cdGeo 0).dt := by norm_num [cdGeo]
  obtain ⟨R, T, Z, e, h⟩ := C149_axis_row_partial (clight := 1) (a := 1) (b := 1) (n := 2) (g := cdGeo 0) (by norm_num) (by norm_num) (by norm_num)
    hx hz ht hs hf (fun _ _ _ => rfl) (fun _ _ _ => rfl) 1 rfl ⟨rfl, rfl, rfl⟩ (cd_axis 2) (cd_axis 2) (cd_axis 2)
    Multimode_pic rfl rfl Multimode_pic_ok.1 1 he
  obtain ⟨R', T', Z', e', h'⟩ := C139_axis_row (clight := 1) (a := 1) (b := 1) (n := 2) (g := cdGeo 0) (by norm_num) (by norm_num) (by norm_num)
    hx hz ht hs hf (fun _ _ _ => rfl) (fun _ _ _ => rfl) 1 rfl ⟨rfl, rfl, rfl⟩ (cd_axis 2) (cd_axis 2) (cd_axis 2)
  have same := Except.ok.inj (e.symm.trans e')
  obtain ⟨rfl, rfl, rfl⟩ : R = R' ∧ T = T' ∧ Z = Z' := by simpa using same
  have ld : Multimode_loaded (Multimode_with R T Z) R T Z := fun m j k => ⟨rfl, rfl, rfl⟩
  obtain ⟨τ, e2, h2⟩ := h _ (Multimode_pic_ok.2.2 R T Z) ld
  refine ⟨1, cdGeo 0, Multimode_part, cdArr 2, Multimode_pic, Multimode_with R T Z, τ, R, T, Z, Multimode_part_fit.1, Multimode_part_fit.2,
    fun _ _ _ => rfl, cd_axis 2, rfl, rfl, rfl, Multimode_pic_ok.1, Multimode_pic_ok.2.2 _ _ _, Multimode_pic_ok.2.1, he, e, ld, e2, ?_⟩
  have k2 := h2 0 Multimode_pic_ok.2.1
  rw [Complex.ofReal_one, div_one, div_one, if_pos rfl] at k2
  rw [k2, ne_eq, sub_eq_self]
  intro h0
  have r0 : R.val 0 0 0 = 0 := by
    simpa [cdGeo] using h0
  have zz : ∀ l, Z.val 0 l 0 = 0 := by
    intro l
    rw [deposeC_ok (by norm_num) (by norm_num) (by norm_num) hx hz ht hs hf] at e
    obtain ⟨R', T', Z', e', -, -, -, eZ, -⟩ := scaleC_axis (ty := 1) hx (jr := addedC 2 (cdArr 2) (total (currentR 1 1 (cdGeo 0)) [Multimode_part]))
      (jt := addedC 2 (cdArr 2) (total (currentT 1 1 (cdGeo 0)) [Multimode_part]))
      (jz := addedC 2 (cdArr 2) (total (currentZ 1 1 (cdGeo 0)) [Multimode_part])) (cd_axis 2) (cd_axis 2) (cd_axis 2)
      (fun _ => ⟨rfl, rfl, by show 1 < 2; norm_num⟩)
    have same := Except.ok.inj (e.symm.trans e')
    obtain ⟨rfl, rfl, rfl⟩ : R = R' ∧ T = T' ∧ Z = Z' := by simpa using same
    rw [eZ l]
    have z1 : (before (cdGeo 0) Multimode_part).z = Multimode_part.z := by rw [Multimode_part_before]; rfl
    simp only [addedC, cdArr, total, List.map_cons, List.map_nil, List.sum_cons, List.sum_nil, currentZ, current2, flux2, z1, sub_self,
      Finset.sum_const_zero, mul_zero, if_true, Complex.ofReal_zero, zero_mul, add_zero, ite_self, zero_div]
  have row := h' 0
  rw [r0, zz, zz] at row
  simp only [mul_zero, sub_self, zero_div, add_zero] at row
  refine Multimode_rows 1 ?_
  rw [eq_comm, neg_div, neg_eq_zero, div_eq_zero_iff] at row
  rcases row with row | row
  · exact sub_eq_zero.1 row
  · norm_num [cdGeo] at row

end

end Picsar.Props
