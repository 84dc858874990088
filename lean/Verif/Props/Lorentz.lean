import Verif.Lemmas.Lorentz

/-
C150: Lorentz transformation of the fields and currents on a grid. C151: of macroparticles, interpolated to a laboratory time. C152: their momentum.
C153: snapshots of particles in uniform motion.
-/
namespace Picsar.Props
open Picsar Picsar.Spec Picsar.Lorentz

/-! ### C150 -/

theorem Lorentz_column {c beta gam : ℝ} (hc : 0 < c) (hb : IsBoost beta gam) (f : ℕ → ℝ) :
    gridCurrent c (cellVal gam (beta * c) (beta / c) f) = vectorLab beta gam (gridCurrent c f) ∧
      ∀ μ ν : Fin 4, ¬(μ = 2 ∧ ν = 3) → ¬(μ = 3 ∧ ν = 2) →
        gridField c (cellVal gam (beta * c) (beta / c) f) μ ν = fieldLab beta gam (gridField c f) μ ν := by
  have hc' := hc.ne'
  constructor
  · unfold gridCurrent
    rw [vectorLab_eq]
    funext μ
    fin_cases μ
    · simp [cellVal]
      field_simp
    · simp [cellVal]
    · simp [cellVal]
    · simp [cellVal]
      left
      ring
  · intro μ ν h1 h2
    unfold gridField
    rw [fieldLab_eq hc hb]
    fin_cases μ <;> fin_cases ν <;> simp [fieldM, cellVal, div_eq_mul_inv] at h1 h2 ⊢

/-- **C150** Ten rows, any order of the iterations: in every column of the array the four-current becomes that of the laboratory, and so
do all components of the field except Bx; the other columns keep their values. Missing: Bx (`C150_bx_refuted`). -/
theorem C150_grid_partial (c beta gam : ℝ) (hc : 0 < c) (hb : IsBoost beta gam) (n2 : ℤ) (order : List ℤ) (ho : order.Perm (Grid.irange 1 n2))
    (f : ℤ → ℕ → ℝ) : ∃ f', transform2d 10 gam (beta * c) (beta / c) order f = .ok f' ∧
      (∀ i, 1 ≤ i → i ≤ n2 → gridCurrent c (f' i) = vectorLab beta gam (gridCurrent c (f i)) ∧
        ∀ μ ν : Fin 4, ¬(μ = 2 ∧ ν = 3) → ¬(μ = 3 ∧ ν = 2) → gridField c (f' i) μ ν = fieldLab beta gam (gridField c (f i)) μ ν) ∧
      ∀ i, ¬(1 ≤ i ∧ i ≤ n2) → f' i = f i := by
  unfold transform2d
  rw [if_neg (by norm_num), sweep_ok (ho.nodup_iff.2 (Grid.nodup_irange 1 n2)) (fun i _ => cell_ok _ _ _ (f i))]
  refine ⟨_, rfl, fun i h1 h2 => ?_, fun i hi => if_neg fun h => hi (Grid.mem_irange.1 (ho.mem_iff.1 h))⟩
  rw [if_pos (ho.mem_iff.2 (Grid.mem_irange.2 ⟨h1, h2⟩))]
  exact Lorentz_column hc hb (f i)

/-- **C150** The same on an array with two directions. -/
theorem C150_grid3d_partial (c beta gam : ℝ) (hc : 0 < c) (hb : IsBoost beta gam) (n2 n3 : ℤ) (order : List (ℤ × ℤ))
    (ho : order.Perm ((Grid.irange 1 n3).flatMap fun j => (Grid.irange 1 n2).map fun i => (i, j)))
    (f : ℤ × ℤ → ℕ → ℝ) : ∃ f', transform3d 10 gam (beta * c) (beta / c) order f = .ok f' ∧
      (∀ i j, 1 ≤ i → i ≤ n2 → 1 ≤ j → j ≤ n3 → gridCurrent c (f' (i, j)) = vectorLab beta gam (gridCurrent c (f (i, j))) ∧
        ∀ μ ν : Fin 4, ¬(μ = 2 ∧ ν = 3) → ¬(μ = 3 ∧ ν = 2) → gridField c (f' (i, j)) μ ν = fieldLab beta gam (gridField c (f (i, j))) μ ν) ∧
      ∀ i j, ¬((1 ≤ i ∧ i ≤ n2) ∧ (1 ≤ j ∧ j ≤ n3)) → f' (i, j) = f (i, j) := by
  have nd : order.Nodup := by
    rw [ho.nodup_iff, List.nodup_flatMap]
    refine ⟨fun j _ => (Grid.nodup_irange 1 n2).map fun a b h => (Prod.ext_iff.1 h).1, ?_⟩
    refine (Grid.nodup_irange 1 n3).imp_of_mem fun {a b} _ _ hab => ?_
    rw [Function.onFun, List.disjoint_left]
    intro x h1 h2
    simp only [List.mem_map] at h1 h2
    obtain ⟨_, _, rfl⟩ := h1
    obtain ⟨_, _, h⟩ := h2
    exact hab (Prod.ext_iff.1 h).2.symm
  have me : ∀ i j, (i, j) ∈ order ↔ (1 ≤ i ∧ i ≤ n2) ∧ (1 ≤ j ∧ j ≤ n3) := by
    intro i j
    rw [ho.mem_iff]
    simp only [List.mem_flatMap, List.mem_map, Grid.mem_irange, Prod.mk.injEq]
    constructor
    · rintro ⟨b, hb, a, ha, rfl, rfl⟩
      exact ⟨ha, hb⟩
    · rintro ⟨ha, hb⟩
      exact ⟨j, hb, i, ha, rfl, rfl⟩
  unfold transform3d
  rw [if_neg (by norm_num), sweep_ok nd (fun i _ => cell_ok _ _ _ (f i))]
  refine ⟨_, rfl, fun i j h1 h2 h3 h4 => ?_, fun i j hi => if_neg fun h => hi ((me i j).1 h)⟩
  rw [if_pos ((me i j).2 ⟨⟨h1, h2⟩, h3, h4⟩)]
  exact Lorentz_column hc hb (f (i, j))

/-- A boost with half of the speed of light is one. -/
theorem Lorentz_half : IsBoost (3 / 5) (5 / 4) := ⟨by norm_num, by norm_num⟩

example : [2, 3, 1].Perm (Grid.irange 1 3) := by decide

/-- **C150** refuted for Bx: it is transformed with `beta c` instead of `beta / c`. Whatever the boost, the law holds for all fields only in units with
`c = 1`. -/
theorem C150_bx_refuted (c beta gam : ℝ) (hc : 0 < c) (h1 : c ≠ 1) (hb : IsBoost beta gam) (h0 : beta ≠ 0) :
    ∃ f f' : ℤ → ℕ → ℝ, transform2d 10 gam (beta * c) (beta / c) [1] f = .ok f' ∧ gridField c (f' 1) ≠ fieldLab beta gam (gridField c (f 1)) := by
  refine ⟨fun _ k => if k = 1 then 1 else 0, fun i => if i ∈ [1] then cellVal gam (beta * c) (beta / c) (fun k => if k = 1 then 1 else 0) else
    fun k => if k = 1 then 1 else 0, ?_, ?_⟩
  · unfold transform2d
    rw [if_neg (by norm_num)]
    exact sweep_ok (by simp) (fun i _ => cell_ok _ _ _ _)
  · intro h
    unfold gridField at h
    rw [fieldLab_eq hc hb] at h
    have h' := fieldM_inj h
    simp [cellVal] at h'
    rcases h' with h' | h'
    · rcases h' with h' | h'
      · have := mul_self_eq_one_iff.1 (show c * c = 1 by field_simp at h'; nlinarith)
        rcases this with h | h
        · exact h1 h
        · linarith
      · exact h0 h'
    · exact hb.1.ne' h'

/-- A wrong first dimension stops the program. -/
theorem C150_stop (n1 : ℤ) (h : n1 ≠ 10) (gam cbeta beta_c : ℝ) (order : List ℤ) (f : ℤ → ℕ → ℝ) :
    transform2d n1 gam cbeta beta_c order f = .error .exception := if_pos h

/-! ### C151, C152 -/

theorem Lorentz_with {b : Boost} {p q : Snap} (h : (b.gam * b.time - b.uzfrm * p.z * (1 / b.c ^ 2)) - (b.gam * (b.time - b.dt) - b.uzfrm * q.z * (1 / b.c ^ 2)) ≠ 0)
    (hc : 0 < b.c) (hb : IsBoost b.beta b.gam) (fl : Bool) :
    ∃ r q' l, (if fl then b.withFields (p, q) else b.withoutFields (p, q)) = .ok (r, q') ∧
      snapEvent b.c b.out r = vectorLab b.beta b.gam (snapEvent b.c (b.time - b.dt) q) +
        l • (vectorLab b.beta b.gam (snapEvent b.c b.time p) - vectorLab b.beta b.gam (snapEvent b.c (b.time - b.dt) q)) ∧
      (∀ k : Fin 4, k ≠ 0 → snapMomentum b.c r k = vectorLab b.beta b.gam (snapMomentum b.c q) k +
        l * (vectorLab b.beta b.gam (snapMomentum b.c p) k - vectorLab b.beta b.gam (snapMomentum b.c q) k)) ∧
      r.g = q.g + l * (p.g - q.g) ∧
      (fl = true → snapField b.c r = fieldLab b.beta b.gam (snapField b.c q) +
        l • (fieldLab b.beta b.gam (snapField b.c p) - fieldLab b.beta b.gam (snapField b.c q))) ∧
      (fl = false → snapField b.c r = snapField b.c p) := by
  have hc' := hc.ne'
  set t := b.gam * b.time - b.uzfrm * p.z * (1 / b.c ^ 2) with ht
  set tp := b.gam * (b.time - b.dt) - b.uzfrm * q.z * (1 / b.c ^ 2) with htp
  have e : (t - b.out) / (t - tp) = 1 - (b.out - tp) / (t - tp) := by
    field_simp
    ring
  have time : b.gam * (b.c * (b.time - b.dt) + b.beta * q.z) = b.c * tp ∧ b.gam * (b.c * b.time + b.beta * p.z) = b.c * t := by
    constructor
    · rw [htp]
      unfold Boost.uzfrm
      field_simp
      ring
    · rw [ht]
      unfold Boost.uzfrm
      field_simp
      ring
  have out : b.c * b.out = b.c * tp + (b.out - tp) / (t - tp) * (b.c * t - b.c * tp) := by
    field_simp
    ring
  cases fl with
  | true =>
    rw [if_pos rfl]
    unfold Boost.withFields
    dsimp only
    rw [← ht, ← htp, over_ok h, over_ok h, bind_ok, bind_ok, e]
    refine ⟨_, _, (b.out - tp) / (t - tp), rfl, ?_, ?_, ?_, ?_, by simp⟩
    · unfold snapEvent
      rw [vectorLab_eq, vectorLab_eq, time.1, time.2]
      funext k
      fin_cases k
      · simpa using out
      · simp [Boost.turn]; ring
      · simp [Boost.turn]; ring
      · simp [Boost.turn]; ring
    · intro k hk
      unfold snapMomentum
      rw [vectorLab_eq, vectorLab_eq]
      fin_cases k
      · exact (hk rfl).elim
      · simp [Boost.turn]; ring
      · simp [Boost.turn]; ring
      · simp [Boost.turn, Boost.uzfrm]; ring
    · simp [Boost.turn]
      ring
    · intro _
      unfold snapField
      rw [fieldLab_eq hc hb, fieldLab_eq hc hb, fieldM_line]
      congr 1 <;> simp [Boost.turn] <;> ring
  | false =>
    rw [if_neg (by simp)]
    unfold Boost.withoutFields
    dsimp only
    rw [← ht, ← htp, over_ok h, over_ok h, bind_ok, bind_ok, e]
    refine ⟨_, _, (b.out - tp) / (t - tp), rfl, ?_, ?_, ?_, by simp, fun _ => rfl⟩
    · unfold snapEvent
      rw [vectorLab_eq, vectorLab_eq, time.1, time.2]
      funext k
      fin_cases k
      · simpa using out
      · simp; ring
      · simp; ring
      · simp; ring
    · intro k hk
      unfold snapMomentum
      rw [vectorLab_eq, vectorLab_eq]
      fin_cases k
      · exact (hk rfl).elim
      · simp; ring
      · simp; ring
      · simp [Boost.uzfrm]; ring
    · dsimp only
      ring

theorem Lorentz_parts {b : Boost} (hc : 0 < b.c) (hb : IsBoost b.beta b.gam) (fl : Bool) {np : ℤ} {order : List ℤ}
    (ho : order.Perm (Grid.irange 1 np)) {mem : ℤ → Snap × Snap}
    (hv : ∀ i, 1 ≤ i → i ≤ np → |(mem i).1.z - (mem i).2.z| < b.c * b.dt) :
    ∃ mem', parts b fl order mem = .ok mem' ∧ (∀ i, ¬(1 ≤ i ∧ i ≤ np) → mem' i = mem i) ∧
      ∀ i, 1 ≤ i → i ≤ np → (if fl then b.withFields (mem i) else b.withoutFields (mem i)) = .ok (mem' i) := by
  have ex : ∀ i, ∃ v, 1 ≤ i → i ≤ np → (if fl then b.withFields (mem i) else b.withoutFields (mem i)) = .ok v := by
    intro i
    by_cases hi : 1 ≤ i ∧ i ≤ np
    · obtain ⟨r, q', _, e, -⟩ := Lorentz_with (p := (mem i).1) (q := (mem i).2) (times_ne hb hc (hv i hi.1 hi.2)).ne' hc hb fl
      exact ⟨(r, q'), fun _ _ => e⟩
    · exact ⟨mem i, fun h1 h2 => (hi ⟨h1, h2⟩).elim⟩
  choose f hf using ex
  have mi : ∀ i, i ∈ order ↔ 1 ≤ i ∧ i ≤ np := fun i => ho.mem_iff.trans Grid.mem_irange
  refine ⟨fun i => if i ∈ order then f i else mem i, ?_, fun i hi => if_neg fun h => hi ((mi i).1 h), fun i h1 h2 => ?_⟩
  · exact sweep_ok (ho.nodup_iff.2 (Grid.nodup_irange 1 np)) (fun i h => hf i ((mi i).1 h).1 ((mi i).1 h).2)
  · beta_reduce
    rw [if_pos ((mi i).2 ⟨h1, h2⟩)]
    exact hf i h1 h2

/-- **C151** For particles slower than light, any order of the iterations, with and without the fields: nothing is divided by zero, and each
particle is placed on the straight line between its two events in the laboratory, at the laboratory time of the snapshot; the fields at its position are
the laboratory fields of the two steps, interpolated in the same way. Other elements keep their values. -/
theorem C151_snapshot (b : Boost) (hc : 0 < b.c) (hb : IsBoost b.beta b.gam) (fl : Bool) (np : ℤ) (order : List ℤ) (ho : order.Perm (Grid.irange 1 np))
    (mem : ℤ → Snap × Snap) (hv : ∀ i, 1 ≤ i → i ≤ np → |(mem i).1.z - (mem i).2.z| < b.c * b.dt) :
    ∃ mem', parts b fl order mem = .ok mem' ∧ (∀ i, ¬(1 ≤ i ∧ i ≤ np) → mem' i = mem i) ∧
      ∀ i, 1 ≤ i → i ≤ np → ∃ l : ℝ,
        snapEvent b.c b.out (mem' i).1 = vectorLab b.beta b.gam (snapEvent b.c (b.time - b.dt) (mem i).2) +
          l • (vectorLab b.beta b.gam (snapEvent b.c b.time (mem i).1) - vectorLab b.beta b.gam (snapEvent b.c (b.time - b.dt) (mem i).2)) ∧
        (fl = true → snapField b.c (mem' i).1 = fieldLab b.beta b.gam (snapField b.c (mem i).2) +
          l • (fieldLab b.beta b.gam (snapField b.c (mem i).1) - fieldLab b.beta b.gam (snapField b.c (mem i).2))) ∧
        (fl = false → snapField b.c (mem' i).1 = snapField b.c (mem i).1) := by
  obtain ⟨mem', e, h1, h2⟩ := Lorentz_parts hc hb fl ho hv
  refine ⟨mem', e, h1, fun i a b' => ?_⟩
  obtain ⟨r, q', l, e', k1, -, -, k2, k3⟩ := Lorentz_with (p := (mem i).1) (q := (mem i).2) (times_ne hb hc (hv i a b')).ne' hc hb fl
  have : mem' i = (r, q') := Except.ok.inj ((h2 i a b').symm.trans e')
  rw [this]
  exact ⟨l, k1, k2, k3⟩

/-- A particle that moves with `v = (1/10, 0, 1/2)` in units of c. -/
noncomputable def Lorentz_p : Snap := ⟨1, 2, 3, 1 / 5, 0, 1, 2, 1, 0, 0, 0, 1, 0⟩
noncomputable def Lorentz_q : Snap := ⟨9 / 10, 2, 5 / 2, 1 / 5, 0, 1, 2, 1, 0, 0, 0, 1, 0⟩

example : |Lorentz_p.z - Lorentz_q.z| < (⟨5 / 4, 3 / 5, 1, 7, 1, 9⟩ : Boost).c * (⟨5 / 4, 3 / 5, 1, 7, 1, 9⟩ : Boost).dt := by
  norm_num [Lorentz_p, Lorentz_q, abs_of_pos]

/-- **C152** The momentum is that of the laboratory (interpolated between the two steps); gamma is not transformed. Missing: gamma
(`C152_gamma_refuted`). -/
theorem C152_momentum_partial (b : Boost) (hc : 0 < b.c) (hb : IsBoost b.beta b.gam) (fl : Bool) (np : ℤ) (order : List ℤ)
    (ho : order.Perm (Grid.irange 1 np)) (mem : ℤ → Snap × Snap) (hv : ∀ i, 1 ≤ i → i ≤ np → |(mem i).1.z - (mem i).2.z| < b.c * b.dt) :
    ∃ mem', parts b fl order mem = .ok mem' ∧ ∀ i, 1 ≤ i → i ≤ np → ∃ l : ℝ,
        b.c * b.out = vectorLab b.beta b.gam (snapEvent b.c (b.time - b.dt) (mem i).2) 0 +
          l * (vectorLab b.beta b.gam (snapEvent b.c b.time (mem i).1) 0 - vectorLab b.beta b.gam (snapEvent b.c (b.time - b.dt) (mem i).2) 0) ∧
        (∀ k : Fin 4, k ≠ 0 → snapMomentum b.c (mem' i).1 k = vectorLab b.beta b.gam (snapMomentum b.c (mem i).2) k +
          l * (vectorLab b.beta b.gam (snapMomentum b.c (mem i).1) k - vectorLab b.beta b.gam (snapMomentum b.c (mem i).2) k)) ∧
        (mem' i).1.g = (mem i).2.g + l * ((mem i).1.g - (mem i).2.g) := by
  obtain ⟨mem', e, h1, h2⟩ := Lorentz_parts hc hb fl ho hv
  refine ⟨mem', e, fun i a b' => ?_⟩
  obtain ⟨r, q', l, e', k1, k2, k3, -⟩ := Lorentz_with (p := (mem i).1) (q := (mem i).2) (times_ne hb hc (hv i a b')).ne' hc hb fl
  have : mem' i = (r, q') := Except.ok.inj ((h2 i a b').symm.trans e')
  rw [this]
  refine ⟨l, ?_, k2, k3⟩
  have := congrFun k1 0
  simpa [snapEvent] using this

/-- **C152** refuted for gamma: whatever the boost and the times, for a particle at rest in the boosted frame the reported gamma does not belong to the
reported momentum. -/
theorem C152_gamma_refuted (b : Boost) (hc : 0 < b.c) (hb : IsBoost b.beta b.gam) (h0 : b.beta ≠ 0) (ht : 0 < b.dt) (fl : Bool) :
    ∃ mem mem' : ℤ → Snap × Snap, OnShell b.c (mem 1).1 ∧ OnShell b.c (mem 1).2 ∧ parts b fl [1] mem = .ok mem' ∧ ¬OnShell b.c (mem' 1).1 := by
  have hc' := hc.ne'
  obtain ⟨mem', e, h⟩ := C152_momentum_partial b hc hb fl 1 [1] (by decide) (fun _ => (⟨0, 0, 0, 0, 0, 0, 1, 0, 0, 0, 0, 0, 0⟩, ⟨0, 0, 0, 0, 0, 0, 1, 0, 0, 0, 0, 0, 0⟩))
    (fun i _ _ => by simpa using mul_pos hc ht)
  obtain ⟨l, -, k2, k3⟩ := h 1 le_rfl le_rfl
  refine ⟨_, mem', ?_, ?_, e, ?_⟩
  · simp [OnShell]
  · simp [OnShell]
  · have u := k2 3 (by decide)
    have u1 := k2 1 (by decide)
    have u2 := k2 2 (by decide)
    simp only [snapMomentum, vectorLab_eq] at u u1 u2
    simp at u u1 u2 k3
    unfold OnShell
    rw [u, u1, u2, k3]
    intro h
    have : (1 : ℝ) ^ 2 = 1 + (0 ^ 2 + 0 ^ 2 + (b.gam * (b.beta * b.c)) ^ 2) / b.c ^ 2 := by
      conv_lhs => rw [h]
      rw [Real.sq_sqrt (by positivity)]
    have h3 : b.gam * (b.beta * b.c) = 0 := by
      field_simp at this
      nlinarith [sq_nonneg (b.gam * (b.beta * b.c)), this]
    exact mul_ne_zero hb.1.ne' (mul_ne_zero h0 hc') h3

/-! ### C153 -/

/-- **C153** A particle in uniform motion in the boosted frame, slower than light: its reported position is a point of its world line, seen from the laboratory at the
laboratory time of the snapshot; its reported momentum is that of the laboratory. -/
theorem C153_uniform (b : Boost) (hc : 0 < b.c) (hb : IsBoost b.beta b.gam) (ht : 0 < b.dt) (fl : Bool) (np : ℤ) (order : List ℤ)
    (ho : order.Perm (Grid.irange 1 np)) (mem : ℤ → Snap × Snap) (v : ℤ → Fin 3 → ℝ) (hv : ∀ i, 1 ≤ i → i ≤ np → |v i 2| < b.c)
    (hd : ∀ i, 1 ≤ i → i ≤ np → (mem i).2 = drift (mem i).1 (v i) b.time (b.time - b.dt)) :
    ∃ mem', parts b fl order mem = .ok mem' ∧ ∀ i, 1 ≤ i → i ≤ np →
      (∃ s : ℝ, snapEvent b.c b.out (mem' i).1 = vectorLab b.beta b.gam (snapEvent b.c s (drift (mem i).1 (v i) b.time s))) ∧
      ∀ k : Fin 4, k ≠ 0 → snapMomentum b.c (mem' i).1 k = vectorLab b.beta b.gam (snapMomentum b.c (mem i).1) k := by
  have hz : ∀ i, 1 ≤ i → i ≤ np → |(mem i).1.z - (mem i).2.z| < b.c * b.dt := by
    intro i h1 h2
    rw [hd i h1 h2]
    simp only [drift]
    rw [show (mem i).1.z - ((mem i).1.z + v i 2 * (b.time - b.dt - b.time)) = v i 2 * b.dt by ring, abs_mul, abs_of_pos ht]
    exact mul_lt_mul_of_pos_right (hv i h1 h2) ht
  obtain ⟨mem', e, h1, h2⟩ := Lorentz_parts hc hb fl ho hz
  refine ⟨mem', e, fun i a b' => ?_⟩
  obtain ⟨r, q', l, e', k1, k2, -⟩ := Lorentz_with (p := (mem i).1) (q := (mem i).2) (times_ne hb hc (hz i a b')).ne' hc hb fl
  have : mem' i = (r, q') := Except.ok.inj ((h2 i a b').symm.trans e')
  rw [this]
  refine ⟨⟨b.time - b.dt + l * b.dt, ?_⟩, fun k hk => ?_⟩
  · dsimp only
    rw [k1, hd i a b']
    unfold snapEvent
    rw [vectorLab_eq, vectorLab_eq, vectorLab_eq]
    funext k
    fin_cases k <;> simp [drift] <;> ring
  · rw [k2 k hk]
    have : snapMomentum b.c (mem i).2 = snapMomentum b.c (mem i).1 := by rw [hd i a b']; rfl
    rw [this]
    ring

example : Lorentz_q = drift Lorentz_p ![1 / 10, 0, 1 / 2] 7 (7 - 1) := by
  unfold Lorentz_q Lorentz_p drift
  simp
  norm_num

end Picsar.Props
