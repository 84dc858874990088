import Verif.Lemmas.Pushers
import Verif.Spec.Pushers
import Mathlib.Tactic.NormNum

/-
C38-C43, C80, C81: momentum and position pushers.
-/
namespace Picsar.Props
open Picsar Picsar.Push Picsar.Spec

theorem invGamma_eq (c : ℝ) (u : V3) : invGamma c u = 1 / lorentz c u := by
  unfold invGamma lorentz magSq
  rw [mul_one_div]

/-! ### C38 -/

/-- **C38** One Boris push of the first `np` particles of the arrays: it never leaves the arrays, the particles after `np` are
untouched, every pushed particle keeps its position and fields, the stored inverse Lorentz factor is that of the new momentum,
and a particle that sees no electric field keeps the magnitude of its momentum. -/
theorem C38_boris_arrays (c q m dt : ℝ) (np : ℕ) (l : List Part) (h : np ≤ l.length) :
    ∃ l', borisPush c q m dt np l = .ok l' ∧ l'.length = l.length ∧
      ∀ (i : ℕ) (p p' : Part), l[i]? = some p → l'[i]? = some p' →
        (np ≤ i → p' = p) ∧
        (i < np → p'.pos = p.pos ∧ p'.e = p.e ∧ p'.b = p.b ∧ p'.gi = 1 / lorentz c p'.u ∧
          (p.e = V3.zero → magSq p'.u = magSq p.u)) := by
  refine ⟨_, plainLoop h, by simp [h], ?_⟩
  intro i p p' hp hp'
  have hi : i < l.length := (List.getElem?_eq_some_iff.mp hp).1
  constructor
  · intro hn
    rw [List.getElem?_append_right (by simp [h, hn])] at hp'
    simp only [List.length_map, List.length_take, min_eq_left h, List.getElem?_drop] at hp'
    rw [Nat.add_sub_cancel' hn, hp] at hp'
    exact (Option.some.inj hp').symm
  · intro hn
    rw [List.getElem?_append_left (by simp; omega), List.getElem?_map, List.getElem?_take, if_pos hn, hp] at hp'
    have := Option.some.inj hp'
    subst this
    refine ⟨rfl, rfl, rfl, invGamma_eq c _, ?_⟩
    intro he
    show sq (ePush _ (bRot _ _ (ePush _ p.u p.e) p.b) p.e) = sq p.u
    rw [he, ePush_zero, bRot_sq, ePush_zero]

theorem borisOne_mag {c q m dt : ℝ} {p : Part} (he : p.e = V3.zero) : sq (borisOne c q m dt p).u = sq p.u := by
  show sq (ePush _ (bRot _ _ (ePush _ p.u p.e) p.b) p.e) = sq p.u
  rw [he, ePush_zero, bRot_sq, ePush_zero]

theorem magneticStep_eq (c q m dt : ℝ) (B : ℕ → V3) (l : List Part) :
    magneticStep c q m dt B l =
      .ok (l.mapIdx fun (i : ℕ) p => pushXyzOne dt (borisOne c q m dt { p with e := V3.zero, b := B i })) := by
  unfold magneticStep borisPush
  simp only
  have h1 : l.length ≤ (l.mapIdx fun (i : ℕ) p => ({ p with e := V3.zero, b := B i } : Part)).length := by simp
  rw [plainLoop h1]
  simp only [except_bind_ok]
  rw [plainLoop (by simp)]
  congr 1
  apply List.ext_getElem?
  intro i
  simp [List.getElem?_append, List.getElem?_mapIdx]
  by_cases hi : i < l.length
  · simp [hi]
  · simp [hi]

/-- **C38** Any number of time steps in magnetic fields that change from step to step and from particle to particle, with any
time steps: nothing faults, no particle is lost, and every particle keeps the magnitude of its momentum; as soon as one step
was made the stored inverse Lorentz factor is the (constant) inverse Lorentz factor of the particle. -/
theorem C38_history (c q m : ℝ) (steps : List (ℝ × (ℕ → V3))) (l : List Part) :
    ∃ l', magneticHistory c q m steps l = .ok l' ∧ l'.length = l.length ∧
      ∀ (i : ℕ) (p p' : Part), l[i]? = some p → l'[i]? = some p' →
        magSq p'.u = magSq p.u ∧ (steps ≠ [] → p'.gi = 1 / lorentz c p.u) := by
  induction steps generalizing l with
  | nil => exact ⟨l, rfl, rfl, fun i p p' h h' => by rw [h] at h'; cases h'; exact ⟨rfl, fun hc => absurd rfl hc⟩⟩
  | cons s r ih =>
    obtain ⟨dt, B⟩ := s
    simp only [magneticHistory, magneticStep_eq, except_bind_ok]
    obtain ⟨l', h1, h2, h3⟩ := ih
      (l.mapIdx fun (i : ℕ) p => pushXyzOne dt (borisOne c q m dt { p with e := V3.zero, b := B i }))
    refine ⟨l', h1, by simpa using h2, ?_⟩
    intro i p p' hp hp'
    have hmid : (l.mapIdx fun (i : ℕ) p => pushXyzOne dt (borisOne c q m dt { p with e := V3.zero, b := B i }))[i]? =
        some (pushXyzOne dt (borisOne c q m dt { p with e := V3.zero, b := B i })) := by
      rw [List.getElem?_mapIdx, hp]
      rfl
    obtain ⟨a1, a2⟩ := h3 i _ p' hmid hp'
    have hm : magSq (pushXyzOne dt (borisOne c q m dt { p with e := V3.zero, b := B i })).u = magSq p.u :=
      borisOne_mag (p := { p with e := V3.zero, b := B i }) rfl
    refine ⟨a1.trans hm, fun _ => ?_⟩
    have hl : lorentz c (pushXyzOne dt (borisOne c q m dt { p with e := V3.zero, b := B i })).u = lorentz c p.u := by
      unfold lorentz
      rw [hm]
    by_cases hr : r = []
    · subst hr
      cases h1
      rw [hp'] at hmid
      cases hmid
      rw [← hl]
      exact invGamma_eq c _
    · rw [a2 hr, hl]

/-- The rotation is a real one: a quarter turn of `u = (3/4,0,0)` in `B = (0,0,5/4)`. -/
example : (borisOne 1 1 1 2 ⟨V3.zero, ⟨3/4, 0, 0⟩, 4/5, V3.zero, ⟨0, 0, 5/4⟩⟩).u = ⟨0, -3/4, 0⟩ := by
  have hg : invGamma 1 ⟨3/4, 0, 0⟩ = 4/5 := by
    unfold invGamma
    rw [show (1 + ((3/4 : ℝ) ^ 2 + 0 ^ 2 + 0 ^ 2) * (1 / 1 ^ 2)) = (5/4) ^ 2 by norm_num, Real.sqrt_sq (by norm_num)]
    norm_num
  show ePush _ (bRot _ _ (ePush _ _ V3.zero) _) V3.zero = _
  rw [ePush_zero, ePush_zero, hg]
  unfold bRot
  ext <;> norm_num

/-! ### C39 -/

/-- **C39** A Boris push by `dt` followed by one by `-dt` in the same fields restores the arrays exactly, up to the stored
inverse Lorentz factors, which are those of the momenta. -/
theorem C39_reversible (c q m dt : ℝ) (np : ℕ) (l : List Part) (h : np ≤ l.length) :
    (do
      let l1 ← borisPush c q m dt np l
      borisPush c q m (-dt) np l1) =
    .ok ((l.take np).map (fun p => { p with gi := 1 / lorentz c p.u }) ++ l.drop np) := by
  unfold borisPush
  rw [plainLoop h]
  simp only [except_bind_ok]
  have hlen : ((l.take np).map (borisOne c q m dt)).length = np := by simp [h]
  rw [plainLoop (by simp [h])]
  rw [List.take_append_of_le_length hlen.ge, List.take_of_length_le hlen.le, List.drop_append_of_le_length hlen.ge,
    List.drop_of_length_le hlen.le, List.nil_append, List.map_map]
  congr 2
  apply List.map_congr_left
  intro p _
  simp only [Function.comp]
  have hk : q * -dt * 0.5 / m = -(q * dt * 0.5 / m) := by ring
  unfold borisOne
  simp only [hk]
  rw [ePush_inv]
  have hg : invGamma c (bRot (q * dt * 0.5 / m) (invGamma c (ePush (q * dt * 0.5 / m) p.u p.e))
      (ePush (q * dt * 0.5 / m) p.u p.e) p.b) = invGamma c (ePush (q * dt * 0.5 / m) p.u p.e) :=
    invGamma_congr (bRot_sq _ _ _ _)
  rw [hg, bRot_inv, ePush_inv, invGamma_eq]

/-- Forward and backward pushes are not the identity themselves. -/
example : (borisOne 1 1 1 2 ⟨V3.zero, ⟨1, 0, 0⟩, 1, ⟨1, 0, 0⟩, V3.zero⟩).u = ⟨3, 0, 0⟩ := by
  show ePush _ (bRot _ _ (ePush _ _ _) V3.zero) _ = _
  rw [bRot_zero]
  unfold ePush
  ext <;> norm_num

/-! ### C40 -/

/-- **C40** The cache-blocked push gives the result of the plain one for every block length. -/
theorem C40_blocked_equals_plain (c q m dt : ℝ) (np lvect : ℕ) (hl : 0 < lvect) (l : List Part) :
    borisPushBlock c q m dt np lvect l = borisPush c q m dt np l := by
  unfold borisPushBlock borisPush
  rw [blockIdx_eq hl]

/-- **C40** The blocked loop visits each of the particles 1..np exactly once, whatever the block length. -/
theorem C40_each_particle_once (np lvect : ℕ) (hl : 0 < lvect) :
    (blockIdx np lvect).Nodup ∧ ∀ i, i ∈ blockIdx np lvect ↔ 1 ≤ i ∧ i ≤ np := by
  rw [blockIdx_eq hl, plainIdx]
  constructor
  · exact List.nodup_range.map (fun a b h => by simpa using h)
  · intro i
    simp only [List.mem_map, List.mem_range]
    constructor
    · rintro ⟨a, ha, rfl⟩; omega
    · intro ⟨h1, h2⟩; exact ⟨i - 1, by omega, by omega⟩

example : blockIdx 5 2 = [1, 2, 3, 4, 5] := by decide

/-- **C40** Half electric push, Lorentz factor, magnetic push, half electric push, Lorentz factor: the plain Boris push. -/
theorem C40_split_equals_plain (c q m dt : ℝ) (p : Part) :
    setGammaOne c (ePushOne q m (dt * 0.5) (bPushOne q m dt (setGammaOne c (ePushOne q m (dt * 0.5) p)))) =
      borisOne c q m dt p := by
  have hk : q * (dt * 0.5) / m = q * dt * 0.5 / m := by ring
  unfold setGammaOne ePushOne bPushOne borisOne
  simp only [hk]

/-! ### C41 -/

/-- **C41** After a momentum push (the stored inverse Lorentz factor is that of the momentum) the position push in 3D moves the
particle by a multiple of its momentum, by less than `c |dt|`. -/
theorem C41_slower_than_light_3d (c dt : ℝ) (hc : c ≠ 0) (hdt : dt ≠ 0) (p : Part) (hg : p.gi = 1 / lorentz c p.u) :
    (pushXyzOne dt p).pos = axpy p.pos (p.gi * dt) p.u ∧
    magSq (axpy (pushXyzOne dt p).pos (-1) p.pos) < (c * dt) ^ 2 := by
  have hi : p.gi = invGamma c p.u := by rw [hg, invGamma_eq]
  have h1 := invGamma_sq c p.u
  rw [← hi] at h1
  have hg0 : 0 < p.gi := hi ▸ invGamma_pos c p.u
  constructor
  · unfold pushXyzOne axpy
    ext <;> simp only <;> ring
  · have e : magSq (axpy (pushXyzOne dt p).pos (-1) p.pos) = Push.sq p.u * p.gi ^ 2 * dt ^ 2 := by
      unfold magSq axpy pushXyzOne Push.sq
      simp only
      ring
    have hc2 : 0 < c ^ 2 := by positivity
    have hd2 : 0 < dt ^ 2 := by positivity
    have h2 : p.gi ^ 2 * c ^ 2 + p.gi ^ 2 * Push.sq p.u = c ^ 2 := by
      field_simp at h1
      linarith
    have h3 : 0 < p.gi ^ 2 * c ^ 2 := by positivity
    rw [e, mul_pow]
    have : Push.sq p.u * p.gi ^ 2 < c ^ 2 := by linarith
    exact mul_lt_mul_of_pos_right this hd2

/-- **C41** The 2D position push moves x and z only, along the momentum, by less than `c |dt|`. -/
theorem C41_slower_than_light_2d (c dt : ℝ) (hc : c ≠ 0) (hdt : dt ≠ 0) (p : Part) (hg : p.gi = 1 / lorentz c p.u) :
    (pushXzOne dt p).pos = axpy p.pos (p.gi * dt) ⟨p.u.x, 0, p.u.z⟩ ∧
    magSq (axpy (pushXzOne dt p).pos (-1) p.pos) < (c * dt) ^ 2 := by
  have h3 := (C41_slower_than_light_3d c dt hc hdt p hg).2
  constructor
  · unfold pushXzOne axpy
    ext <;> simp only <;> ring
  · refine lt_of_le_of_lt ?_ h3
    unfold magSq axpy pushXzOne pushXyzOne
    simp only
    have : 0 ≤ (p.pos.y + p.u.y * p.gi * dt + -1 * p.pos.y) ^ 2 := by positivity
    nlinarith

/-- **C41** The Boris push, the split pushes and the Vay push all leave the matching inverse Lorentz factor, so that the position
push that follows is slower than light. -/
theorem C41_all_pushers (c q m dt : ℝ) (hc : c ≠ 0) (hdt : dt ≠ 0) (f : Part → Part)
    (hf : f ∈ [borisOne c q m dt, part2Boris c q m dt, vay0One c q m dt, vay2One c q m dt]) (p : Part) :
    magSq (axpy (pushXyzOne dt (f p)).pos (-1) p.pos) < (c * dt) ^ 2 ∧
    magSq (axpy (pushXzOne dt (f p)).pos (-1) p.pos) < (c * dt) ^ 2 := by
  have key : (f p).gi = 1 / lorentz c (f p).u ∧ (f p).pos = p.pos := by
    have vay : ∀ k up, (vaySolve c k up p.b).2 = 1 / lorentz c (vaySolve c k up p.b).1 := by
      intro k up
      have s := vaySolve_sol k up p.b hc
      have := invGamma_sq c (vaySolve c k up p.b).1
      have hp := invGamma_pos c (vaySolve c k up p.b).1
      rw [← invGamma_eq]
      have h0 : (0:ℝ) < 1 + sq (vaySolve c k up p.b).1 * (1 / c ^ 2) := by
        have := Push.sq_nonneg (vaySolve c k up p.b).1
        positivity
      have h1 := s.gam
      have h2 := s.pos
      have h3 : (vaySolve c k up p.b).2 ^ 2 = (invGamma c (vaySolve c k up p.b).1) ^ 2 :=
        mul_right_cancel₀ h0.ne' (h1.trans this.symm)
      nlinarith
    simp only [List.mem_cons, List.not_mem_nil, or_false] at hf
    rcases hf with rfl | rfl | rfl | rfl
    · exact ⟨invGamma_eq c _, rfl⟩
    · exact ⟨invGamma_eq c _, rfl⟩
    · exact ⟨vay _ _, rfl⟩
    · exact ⟨vay _ _, rfl⟩
  obtain ⟨k1, k2⟩ := key
  rw [← k2]
  exact ⟨(C41_slower_than_light_3d c dt hc hdt _ k1).2, (C41_slower_than_light_2d c dt hc hdt _ k1).2⟩

/-- A particle with `u = (3/4,0,0)`, `c = 1`, moves by 3/5 in a unit time step. -/
example : (pushXyzOne 1 (setGammaOne 1 ⟨V3.zero, ⟨3/4, 0, 0⟩, 1, V3.zero, V3.zero⟩)).pos.x = 3/5 := by
  have hg : invGamma 1 ⟨3/4, 0, 0⟩ = 4/5 := by
    unfold invGamma
    rw [show (1 + ((3/4 : ℝ) ^ 2 + 0 ^ 2 + 0 ^ 2) * (1 / 1 ^ 2)) = (5/4) ^ 2 by norm_num, Real.sqrt_sq (by norm_num)]
    norm_num
  unfold pushXyzOne setGammaOne V3.zero
  simp only [hg]
  norm_num

/-! ### C42 -/

/-- **C42** The Vay push: `u' - u = (q dt/m) (E + (v + v')/2 × B)` with `v = gi u` the velocity before (from the stored inverse
Lorentz factor), `v' = gi' u'` the one after, and `gi'` the inverse Lorentz factor of `u'`. -/
theorem C42_vay_equation (c q m dt : ℝ) (hc : c ≠ 0) (p : Part) :
    let p' := vay0One c q m dt p
    let vsum := axpy (axpy V3.zero p.gi p.u) p'.gi p'.u
    p'.u = axpy p.u (q * dt / m) (axpy p.e (1 / 2) (vprod vsum p.b)) ∧
    p'.gi = 1 / lorentz c p'.u ∧ p'.pos = p.pos ∧ p'.e = p.e ∧ p'.b = p.b := by
  intro p' vsum
  set const := q * dt / m with hk
  set up : V3 := ⟨p.u.x + const * p.e.x + (p.u.y * (0.5 * const * p.b.z) - p.u.z * (0.5 * const * p.b.y)) * p.gi,
    p.u.y + const * p.e.y + (p.u.z * (0.5 * const * p.b.x) - p.u.x * (0.5 * const * p.b.z)) * p.gi,
    p.u.z + const * p.e.z + (p.u.x * (0.5 * const * p.b.y) - p.u.y * (0.5 * const * p.b.x)) * p.gi⟩ with hup
  have hu : p'.u = (vaySolve c (0.5 * const) up p.b).1 := rfl
  have hg : p'.gi = (vaySolve c (0.5 * const) up p.b).2 := rfl
  have s := vaySolve_sol (0.5 * const) up p.b hc
  rw [← hu, ← hg] at s
  have hpos : 0 < p'.gi := s.pos
  refine ⟨?_, ?_, rfl, rfl, rfl⟩
  · have hx := s.x
    have hy := s.y
    have hz := s.z
    simp only [hup] at hx hy hz
    unfold axpy vprod
    simp only [vsum, axpy, V3.zero]
    ext
    · simp only; linarith
    · simp only; linarith
    · simp only; linarith
  · rw [← invGamma_eq]
    have h1 := s.gam
    have h2 := invGamma_sq c p'.u
    have h3 := invGamma_pos c p'.u
    have h0 : (0:ℝ) < 1 + sq p'.u * (1 / c ^ 2) := by
      have := Push.sq_nonneg p'.u
      positivity
    have h4 : p'.gi ^ 2 = (invGamma c p'.u) ^ 2 := mul_right_cancel₀ h0.ne' (h1.trans h2.symm)
    nlinarith

/-- **C42** Force-free motion is kept: when `E + v × B = 0` the Vay push does not change the momentum. -/
theorem C42_vay_force_free (c q m dt : ℝ) (hc : c ≠ 0) (p : Part) (hg : p.gi = 1 / lorentz c p.u)
    (hf : axpy p.e p.gi (vprod p.u p.b) = V3.zero) : vay0One c q m dt p = p := by
  have hi : p.gi = invGamma c p.u := by rw [hg, invGamma_eq]
  set const := q * dt / m with hk
  set up : V3 := ⟨p.u.x + const * p.e.x + (p.u.y * (0.5 * const * p.b.z) - p.u.z * (0.5 * const * p.b.y)) * p.gi,
    p.u.y + const * p.e.y + (p.u.z * (0.5 * const * p.b.x) - p.u.x * (0.5 * const * p.b.z)) * p.gi,
    p.u.z + const * p.e.z + (p.u.x * (0.5 * const * p.b.y) - p.u.y * (0.5 * const * p.b.x)) * p.gi⟩ with hup
  have hu : (vay0One c q m dt p).u = (vaySolve c (0.5 * const) up p.b).1 := rfl
  have hgi : (vay0One c q m dt p).gi = (vaySolve c (0.5 * const) up p.b).2 := rfl
  have s := vaySolve_sol (0.5 * const) up p.b hc
  have hfx : p.e.x + p.gi * (p.u.y * p.b.z - p.u.z * p.b.y) = 0 := congrArg V3.x hf
  have hfy : p.e.y + p.gi * (p.u.z * p.b.x - p.u.x * p.b.z) = 0 := congrArg V3.y hf
  have hfz : p.e.z + p.gi * (p.u.x * p.b.y - p.u.y * p.b.x) = 0 := congrArg V3.z hf
  have s' : VaySol c up ⟨0.5 * const * p.b.x, 0.5 * const * p.b.y, 0.5 * const * p.b.z⟩ p.u p.gi := by
    refine ⟨hi ▸ invGamma_pos c p.u, ?_, ?_, ?_, ?_⟩
    · simp only [hup]
      linear_combination -const * hfx
    · simp only [hup]
      linear_combination -const * hfy
    · simp only [hup]
      linear_combination -const * hfz
    · rw [hi]; exact invGamma_sq c p.u
  obtain ⟨e1, e2⟩ := vay_unique s s'
  have : vay0One c q m dt p = { p with u := (vay0One c q m dt p).u, gi := (vay0One c q m dt p).gi } := rfl
  rw [this, hu, hgi, e1, e2]

/-- A particle that drifts with `E + v × B = 0`: `u = (3/4,0,0)`, `v = (3/5,0,0)`, `B = (0,0,1)`, `E = (0,3/5,0)`. -/
example : vay0One 1 1 1 1 ⟨V3.zero, ⟨3/4, 0, 0⟩, 4/5, ⟨0, 3/5, 0⟩, ⟨0, 0, 1⟩⟩ =
    ⟨V3.zero, ⟨3/4, 0, 0⟩, 4/5, ⟨0, 3/5, 0⟩, ⟨0, 0, 1⟩⟩ := by
  apply C42_vay_force_free 1 1 1 1 one_ne_zero
  · unfold lorentz magSq
    simp only
    rw [show (1 + ((3/4 : ℝ) ^ 2 + 0 ^ 2 + 0 ^ 2) / 1 ^ 2) = (5/4) ^ 2 by norm_num, Real.sqrt_sq (by norm_num)]
    norm_num
  · unfold axpy vprod V3.zero
    ext <;> norm_num

/-! ### C43 -/

/-- A particle at rest in zero fields. -/
def atRest (x : V3) (g : ℝ) : Part := ⟨x, V3.zero, g, V3.zero, V3.zero⟩

theorem borisOne_rest (c q m dt : ℝ) (x : V3) (g : ℝ) : (borisOne c q m dt (atRest x g)).u = V3.zero := by
  show ePush _ (bRot _ _ (ePush _ V3.zero V3.zero) V3.zero) V3.zero = _
  rw [ePush_zero, bRot_zero, ePush_zero]

theorem vaySolve_rest {c : ℝ} (k : ℝ) (hc : c ≠ 0) : vaySolve c k V3.zero V3.zero = (V3.zero, 1) := by
  have s := vaySolve_sol k V3.zero V3.zero hc
  have s' : VaySol c V3.zero ⟨k * V3.zero.x, k * V3.zero.y, k * V3.zero.z⟩ V3.zero 1 := by
    refine ⟨one_pos, ?_, ?_, ?_, ?_⟩ <;> simp [V3.zero, Push.sq]
  obtain ⟨e1, e2⟩ := vay_unique s s'
  exact Prod.ext e1 e2

/-- **C43** (partial: the radiation-reaction variant B08 is excluded) A particle at rest in zero fields is left at rest, with
inverse Lorentz factor one, by the Boris, Vay, S09 and Landau-Lifshitz pushers. -/
theorem C43_at_rest_partial (c mu0 eps0 q m dt : ℝ) (hc : c ≠ 0) (hq : mu0 * q ^ 2 ≠ 0) (hm : m ≠ 0) (hdt : dt ≠ 0)
    (x : V3) (g : ℝ) :
    borisOne c q m dt (atRest x g) = atRest x 1 ∧
    vay0One c q m dt (atRest x g) = atRest x 1 ∧
    vay2One c q m dt (vay1One c q m dt (atRest x g)) = atRest x 1 ∧
    part2Boris c q m dt (part1Boris c q m dt (atRest x g)) = atRest x 1 ∧
    s09One c mu0 q m dt (atRest x g) = some (atRest x 1) ∧
    llOne c eps0 q m dt V3.zero V3.zero (atRest x g) = some (atRest x 1) := by
  have g0 : invGamma c V3.zero = 1 := by unfold invGamma V3.zero; simp
  refine ⟨?_, ?_, ?_, ?_, ?_, ?_⟩
  · have h1 := borisOne_rest c q m dt x g
    have : borisOne c q m dt (atRest x g) = ⟨x, (borisOne c q m dt (atRest x g)).u,
        invGamma c (borisOne c q m dt (atRest x g)).u, V3.zero, V3.zero⟩ := rfl
    rw [this, h1, g0]
    rfl
  · have hu : vay0One c q m dt (atRest x g) = ⟨x, (vaySolve c (0.5 * (q * dt / m)) V3.zero V3.zero).1,
        (vaySolve c (0.5 * (q * dt / m)) V3.zero V3.zero).2, V3.zero, V3.zero⟩ := by
      unfold vay0One atRest V3.zero
      simp
    rw [hu, vaySolve_rest _ hc]
    rfl
  · have h1 : vay1One c q m dt (atRest x g) = atRest x 1 := by
      unfold vay1One atRest V3.zero
      simp
    rw [h1]
    have hu : vay2One c q m dt (atRest x 1) = ⟨x, (vaySolve c (0.5 * q * dt / m) V3.zero V3.zero).1,
        (vaySolve c (0.5 * q * dt / m) V3.zero V3.zero).2, V3.zero, V3.zero⟩ := by
      unfold vay2One atRest V3.zero
      simp
    rw [hu, vaySolve_rest _ hc]
    rfl
  · unfold part2Boris part1Boris setGammaOne ePushOne bPushOne atRest
    simp only [ePush_zero, bRot_zero, g0]
  · unfold s09One
    simp only [borisOne_rest]
    have hpi := Real.pi_ne_zero
    have : mu0 ≠ 0 := left_ne_zero_of_mul hq
    have : q ≠ 0 := by rintro rfl; simp at hq
    unfold atRest V3.zero
    simp only [V3.zero] at g0
    simp [*]
  · unfold llOne
    simp only [borisOne_rest]
    unfold atRest V3.zero
    simp only [V3.zero] at g0
    simp [hdt, midU, g0]

/-- The hypotheses hold for instance with all constants equal to one. -/
example : (1 : ℝ) * 1 ^ 2 ≠ 0 := by norm_num

/-- **C43** (refuted for B08) The B08 pusher divides zero by zero for every particle at rest in zero fields: the momentum
becomes not-a-number whatever the charge, mass and time step. -/
theorem C43_b08_refuted (c eps0 q m dt : ℝ) (x : V3) (g : ℝ) : b08One c eps0 q m dt (atRest x g) = none := by
  unfold b08One
  simp only [borisOne_rest]
  unfold atRest midU V3.zero
  simp

/-! ### C80 -/

/-- **C80** First and second half of the Vay push: the full push (first half with the stored inverse Lorentz factor; the
intermediate inverse Lorentz factor is not used). -/
theorem C80_vay_split (c q m dt : ℝ) (p : Part) : vay2One c q m dt (vay1One c q m dt p) = vay0One c q m dt p := by
  unfold vay2One vay1One vay0One
  simp only
  have hk : (0.5 : ℝ) * q * dt / m = 0.5 * (q * dt / m) := by ring
  rw [hk]
  have hup : (⟨p.u.x + 0.5 * (q * dt / m) * (p.e.x + p.u.y * p.gi * p.b.z - p.u.z * p.gi * p.b.y) + 0.5 * (q * dt / m) * p.e.x,
      p.u.y + 0.5 * (q * dt / m) * (p.e.y + p.u.z * p.gi * p.b.x - p.u.x * p.gi * p.b.z) + 0.5 * (q * dt / m) * p.e.y,
      p.u.z + 0.5 * (q * dt / m) * (p.e.z + p.u.x * p.gi * p.b.y - p.u.y * p.gi * p.b.x) + 0.5 * (q * dt / m) * p.e.z⟩ : V3) =
      ⟨p.u.x + q * dt / m * p.e.x + (p.u.y * (0.5 * (q * dt / m) * p.b.z) - p.u.z * (0.5 * (q * dt / m) * p.b.y)) * p.gi,
      p.u.y + q * dt / m * p.e.y + (p.u.z * (0.5 * (q * dt / m) * p.b.x) - p.u.x * (0.5 * (q * dt / m) * p.b.z)) * p.gi,
      p.u.z + q * dt / m * p.e.z + (p.u.x * (0.5 * (q * dt / m) * p.b.y) - p.u.y * (0.5 * (q * dt / m) * p.b.x)) * p.gi⟩ := by
    ext <;> simp only <;> ring
  rw [hup]

theorem gamma_345 : invGamma 1 ⟨3/4, 0, 0⟩ = 4/5 := by
  unfold invGamma
  rw [show (1 + ((3/4 : ℝ) ^ 2 + 0 ^ 2 + 0 ^ 2) * (1 / 1 ^ 2)) = (5/4) ^ 2 by norm_num, Real.sqrt_sq (by norm_num)]
  norm_num

/-- **C80** (refuted for Boris) The two halves of the Boris push are not the full Boris push: `u = (3/4,0,0)`,
`B = (0,0,5/4)`, no electric field. The full push turns the momentum by a right angle, the split one by more. -/
theorem C80_boris_refuted :
    ∃ p : Part, p.e = V3.zero ∧ p.gi = 1 / lorentz 1 p.u ∧
      (borisOne 1 1 1 2 p).u = ⟨0, -3/4, 0⟩ ∧
      (part2Boris 1 1 1 2 (part1Boris 1 1 1 2 p)).u = ⟨-21/100, -18/25, 0⟩ := by
  refine ⟨⟨V3.zero, ⟨3/4, 0, 0⟩, 4/5, V3.zero, ⟨0, 0, 5/4⟩⟩, rfl, ?_, ?_, ?_⟩
  · rw [← invGamma_eq, gamma_345]
  · show ePush _ (bRot _ _ (ePush _ _ V3.zero) _) V3.zero = _
    rw [ePush_zero, ePush_zero, gamma_345]
    unfold bRot
    ext <;> norm_num
  · unfold part2Boris part1Boris setGammaOne ePushOne bPushOne
    simp only [ePush_zero, gamma_345]
    unfold bRot
    ext <;> norm_num

/-- **C80** (partial, Boris) The two halves always leave the matching inverse Lorentz factor; without magnetic field they are the
full push; without electric field they keep the magnitude of the momentum. Missing: equality in a magnetic field, which is
false (`C80_boris_refuted`). -/
theorem C80_boris_partial (c q m dt : ℝ) (p : Part) :
    let p' := part2Boris c q m dt (part1Boris c q m dt p)
    p'.gi = 1 / lorentz c p'.u ∧ (p.b = V3.zero → p' = borisOne c q m dt p) ∧
      (p.e = V3.zero → magSq p'.u = magSq p.u) := by
  have hk : q * (dt * 0.5) / m = q * dt * 0.5 / m := by ring
  refine ⟨invGamma_eq c _, ?_, ?_⟩
  · intro hb
    unfold part2Boris part1Boris setGammaOne ePushOne bPushOne borisOne
    simp only [hk, hb, bRot_zero]
  · intro he
    show Push.sq (ePush _ (bRot _ _ (bRot _ _ (ePush _ p.u p.e) p.b) p.b) p.e) = Push.sq p.u
    rw [he, ePush_zero, bRot_sq, bRot_sq, ePush_zero]

/-- **C80** (Boris) The split push is time reversible too. -/
theorem C80_boris_split_reversible (c q m dt : ℝ) (p : Part) :
    (part2Boris c q m (-dt) (part1Boris c q m (-dt) (part2Boris c q m dt (part1Boris c q m dt p)))).u = p.u := by
  have hk : q * (-dt * 0.5) / m = -(q * (dt * 0.5) / m) := by ring
  have hk2 : q * (-dt * 0.5) * 0.5 / m = -(q * (dt * 0.5) * 0.5 / m) := by ring
  unfold part2Boris part1Boris setGammaOne ePushOne bPushOne
  simp only [hk, hk2]
  rw [ePush_inv]
  have hg : ∀ k g k' g' u b, invGamma c (bRot k g (bRot k' g' u b) b) = invGamma c u := fun k g k' g' u b =>
    invGamma_congr ((bRot_sq _ _ _ _).trans (bRot_sq _ _ _ _))
  rw [hg, bRot_inv, bRot_inv, ePush_inv]

/-! ### C81 -/

/-- **C81** The B08 radiation-reaction correction is a friction: it is a non-positive multiple of the momentum halfway between
the old one and the one of the plain Boris push, so that it never does positive work. -/
theorem C81_friction (c eps0 q m dt : ℝ) (hc : 0 < c) (he : 0 < eps0) (hm : 0 < m) (hdt : 0 < dt) (p p' : Part)
    (h : b08One c eps0 q m dt p = some p') :
    ∃ f ≤ 0, p'.u = axpy (borisOne c q m dt p).u f (axpy (axpy V3.zero (1 / 2) p.u) (1 / 2) (borisOne c q m dt p).u) ∧
      p'.gi = 1 / lorentz c p'.u := by
  unfold b08One at h
  simp only at h
  split at h
  · exact absurd h (by simp)
  · have h' := Option.some.inj h
    rw [← h']
    have hmid : axpy (axpy V3.zero (1 / 2) p.u) (1 / 2) (borisOne c q m dt p).u = midU p.u (borisOne c q m dt p).u := by
      unfold axpy midU V3.zero
      ext <;> simp only <;> ring
    rw [hmid]
    refine ⟨_, ?_, V3.ext (add_comm _ _) (add_comm _ _) (add_comm _ _), invGamma_eq c _⟩
    refine mul_nonpos_of_nonpos_of_nonneg ?_ (by positivity)
    unfold b08Crr
    simp only
    have hpi := Real.pi_pos
    rw [neg_div, neg_nonpos]
    have h4 : 4 * (q * dt * 0.5 / m) * q ^ 3 = 2 * dt / m * (q ^ 2) ^ 2 := by ring
    rw [h4]
    positivity

/-- The pusher is defined, for instance, for a particle moving along x in zero fields. -/
example : (b08One 1 1 1 1 1 ⟨V3.zero, ⟨1, 0, 0⟩, 1, V3.zero, V3.zero⟩).isSome := by
  have h : (borisOne 1 1 1 1 ⟨V3.zero, ⟨1, 0, 0⟩, 1, V3.zero, V3.zero⟩).u = ⟨1, 0, 0⟩ := by
    show ePush _ (bRot _ _ (ePush _ _ V3.zero) V3.zero) V3.zero = _
    rw [ePush_zero, bRot_zero, ePush_zero]
  unfold b08One
  simp only [h, midU]
  norm_num

end Picsar.Props
