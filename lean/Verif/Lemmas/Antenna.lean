import Verif.Spec.Antenna
import Verif.Lemmas.Loading
import Mathlib.LinearAlgebra.Matrix.NonsingularInverse
import Mathlib.Data.Fin.VecNotation

namespace Picsar.Antenna
open Picsar Picsar.Grid Picsar.Deposition Picsar.Loading Picsar.Spec

/-! ### Vectors -/

theorem dot_unit {v : V3} (h : 0 < dot v v) : dot (dirOf v) (dirOf v) = 1 := by
  have hs := Real.sqrt_pos.mpr h
  have h2 := Real.sq_sqrt h.le
  have e : dot (dirOf v) (dirOf v) = dot v v / √(dot v v) ^ 2 := by
    unfold dirOf
    generalize √(dot v v) = r
    unfold dot
    ring
  rw [e, h2, div_self h.ne']

theorem dot_dirs {v p : V3} (h : dot v p = 0) : dot (dirOf v) (dirOf p) = 0 := by
  have e : dot (dirOf v) (dirOf p) = dot v p / (√(dot v v) * √(dot p p)) := by
    unfold dirOf
    generalize √(dot v v) = r
    generalize √(dot p p) = r'
    unfold dot
    field_simp
  rw [e, h, zero_div]

theorem cross_unit {v p : V3} (hv : dot v v = 1) (hp : dot p p = 1) (h : dot v p = 0) : dot (cross v p) (cross v p) = 1 := by
  have e : dot (cross v p) (cross v p) = dot v v * dot p p - dot v p ^ 2 := by
    unfold dot cross
    simp only [Matrix.cons_val_zero, Matrix.cons_val_one, Matrix.cons_val]
    ring
  rw [e, hv, hp, h]
  ring

theorem cross_orth_left (v p : V3) : dot v (cross v p) = 0 := by
  unfold dot cross
  simp only [Matrix.cons_val_zero, Matrix.cons_val_one, Matrix.cons_val]
  ring

theorem cross_orth_right (v p : V3) : dot p (cross v p) = 0 := by
  unfold dot cross
  simp only [Matrix.cons_val_zero, Matrix.cons_val_one, Matrix.cons_val]
  ring

theorem dot_comm (a b : V3) : dot a b = dot b a := by unfold dot; ring

/-- Completeness of an orthonormal basis. -/
theorem complete {v p : V3} (hv : dot v v = 1) (hp : dot p p = 1) (h : dot v p = 0) (i j : Fin 3) :
    v i * v j + p i * p j + cross v p i * cross v p j = if i = j then 1 else 0 := by
  have h1 := cross_unit hv hp h
  have h2 := cross_orth_left v p
  have h3 := cross_orth_right v p
  generalize cross v p = q at *
  let M : Matrix (Fin 3) (Fin 3) ℝ := Matrix.of ![v, p, q]
  have hM : M * M.transpose = 1 := by
    ext a b
    rw [Matrix.mul_apply, Fin.sum_univ_three]
    fin_cases a <;> fin_cases b <;>
      simp only [M, Matrix.transpose_apply, Matrix.of_apply, Matrix.cons_val_zero, Matrix.cons_val_one, Matrix.cons_val, Fin.zero_eta, Fin.mk_one,
        Fin.reduceFinMk, Matrix.one_apply] <;> simp only [dot] at * <;> simp <;> linarith
  have hT := mul_eq_one_comm.mp hM
  have := congrFun (congrFun hT i) j
  rw [Matrix.mul_apply, Fin.sum_univ_three, Matrix.one_apply] at this
  simpa only [M, Matrix.transpose_apply, Matrix.of_apply, Matrix.cons_val_zero, Matrix.cons_val_one, Matrix.cons_val] using this

/-- A vector orthogonal to `v` is the sum of its projections on the two polarisations. -/
theorem in_plane {v p d : V3} (hv : dot v v = 1) (hp : dot p p = 1) (h : dot v p = 0) (hd : dot v d = 0) (i : Fin 3) :
    d i = dot d p * p i + dot d (cross v p) * cross v p i := by
  have c0 := complete hv hp h i 0
  have c1 := complete hv hp h i 1
  have c2 := complete hv hp h i 2
  generalize cross v p = q at *
  have e : d i = d 0 * (if i = 0 then 1 else 0) + d 1 * (if i = 1 then 1 else 0) + d 2 * (if i = 2 then 1 else 0) := by
    fin_cases i <;> simp
  rw [e, ← c0, ← c1, ← c2]
  have e2 : d 0 * (v i * v 0 + p i * p 0 + q i * q 0) + d 1 * (v i * v 1 + p i * p 1 + q i * q 1) + d 2 * (v i * v 2 + p i * p 2 + q i * q 2) =
      v i * dot v d + p i * dot d p + q i * dot d q := by unfold dot; ring
  rw [e2, hd]
  ring

/-! ### Preparation -/

theorem peak_eq (K : Consts) (s : Settings) (a : ℝ) : a * K.c ^ 2 * K.me * (2 * Real.pi / s.lam) / K.e = peakField K s a := by
  unfold peakField omegaL
  ring

theorem normalise_ok {v : V3} (h : 0 < dot v v) : normalise v = .ok (dirOf v) := if_neg (Real.sqrt_pos.mpr h).ne'

theorem combo_norm {p q : V3} (hp : dot p p = 1) (hq : dot q q = 1) (h : dot p q = 0) (a b : ℝ) :
    dot (fun i => a * p i + b * q i) (fun i => a * p i + b * q i) = a ^ 2 + b ^ 2 := by
  have e : dot (fun i => a * p i + b * q i) (fun i => a * p i + b * q i) = a ^ 2 * dot p p + b ^ 2 * dot q q + 2 * a * b * dot p q := by
    unfold dot; ring
  rw [e, hp, hq, h]
  ring

theorem top_pos {K : Consts} {s : Settings} (h : Usable K s) : 0 < topField K s := by
  have hk : ∀ a, a ≠ 0 → peakField K s a ≠ 0 := by
    intro a ha
    have := h.c
    have := h.me
    have := h.e
    have := h.lam
    have := Real.pi_pos
    unfold peakField omegaL
    positivity
  unfold topField
  apply Real.sqrt_pos.mpr
  rcases h.amp with h1 | h1
  · have := hk _ h1
    positivity
  · have := hk _ h1
    positivity

/-- The laser that the initialisation computes. -/
noncomputable def laserOf (K : Consts) (s : Settings) : Laser :=
  ⟨dirOf s.vec, s.spot, polA s, polB s, dirOf s.vec 0 * s.spot 0 + dirOf s.vec 1 * s.spot 1 + dirOf s.vec 2 * s.spot 2, s.ctau / K.c, 2 * Real.pi / s.lam,
    peakField K s s.a1, peakField K s s.a2, topField K s, Complex.I * (s.w0 ^ 2 : ℝ) * (Real.pi : ℝ) / (s.lam : ℝ)⟩

theorem polA_unit {K : Consts} {s : Settings} (h : Usable K s) : dot (polA s) (polA s) = 1 := dot_unit h.pol
theorem polB_unit {K : Consts} {s : Settings} (h : Usable K s) : dot (polB s) (polB s) = 1 :=
  cross_unit (dot_unit h.vec) (dot_unit h.pol) (dot_dirs h.orth)
theorem polAB {s : Settings} : dot (polA s) (polB s) = 0 := cross_orth_right _ _

theorem prepare_ok {K : Consts} {s : Settings} (h : Usable K s) : prepare 3 K s = .ok (some (laserOf K s)) := by
  have hl := h.lam
  have hw : s.w0 ^ 2 ≠ 0 := pow_ne_zero 2 h.w0
  have hz : 1 / 2 * (2 * Real.pi / s.lam) * s.w0 ^ 2 ≠ 0 := by
    have := Real.pi_pos
    have := lt_of_le_of_ne (sq_nonneg s.w0) hw.symm
    positivity
  unfold prepare flat
  simp only [show ¬ (3 : ℤ) = 2 by norm_num, if_false]
  rw [normalise_ok h.vec, except_bind_ok, normalise_ok h.pol, except_bind_ok]
  simp only [peak_eq]
  rw [if_neg hl.ne']
  have ht : √(dot (fun i => peakField K s s.a1 * dirOf s.pol i + peakField K s s.a2 * cross (dirOf s.vec) (dirOf s.pol) i)
      (fun i => peakField K s s.a1 * dirOf s.pol i + peakField K s s.a2 * cross (dirOf s.vec) (dirOf s.pol) i)) = topField K s := by
    have := combo_norm (polA_unit h) (polB_unit h) (polAB (s := s)) (peakField K s s.a1) (peakField K s s.a2)
    exact congrArg Real.sqrt this
  rw [ht, if_neg (top_pos h).ne', if_neg hz, if_neg hw, if_neg (by rw [dot_unit h.vec]; norm_num)]
  rfl

/-! ### Profiles -/

theorem phase_eq {K : Consts} {s : Settings} (h : Usable K s) (r : ℝ) :
    Complex.I * ((laserOf K s).k0 : ℂ) * (r : ℂ) / (2 * (laserOf K s).q) = ((r / s.w0 ^ 2 : ℝ) : ℂ) := by
  have hl : (s.lam : ℂ) ≠ 0 := by exact_mod_cast h.lam.ne'
  have hw : (s.w0 : ℂ) ≠ 0 := by exact_mod_cast h.w0
  have hp : (Real.pi : ℂ) ≠ 0 := by exact_mod_cast Real.pi_pos.ne'
  have hI := Complex.I_ne_zero
  unfold laserOf
  dsimp only
  push_cast
  field_simp

theorem im_exp_real (a b : ℝ) : (Complex.exp (b * Complex.I + a)).im = Real.exp a * Real.sin b := by
  rw [Complex.exp_im]
  simp

theorem re_exp_real (a b : ℝ) : (Complex.exp (b * Complex.I + a)).re = Real.exp a * Real.cos b := by
  rw [Complex.exp_re]
  simp

theorem k0c {K : Consts} {s : Settings} : (laserOf K s).k0 * K.c = omegaL K s := by
  unfold laserOf omegaL
  dsimp only
  ring

theorem im_combo (x y : ℂ) (a b p q : ℝ) : (x * (a : ℂ) * (p : ℂ) + y * (b : ℂ) * (q : ℂ)).im = x.im * a * p + y.im * b * q := by
  simp only [Complex.add_im, Complex.mul_im, Complex.mul_re, Complex.ofReal_im, Complex.ofReal_re]
  ring

theorem re_combo (x y : ℂ) (a b c p q : ℝ) : (x * (a : ℂ) * (c : ℂ) * (p : ℂ) + y * (b : ℂ) * (c : ℂ) * (q : ℂ)).re = x.re * a * c * p + y.re * b * c * q := by
  simp only [Complex.add_re, Complex.mul_im, Complex.mul_re, Complex.ofReal_im, Complex.ofReal_re]
  ring

theorem gaussian_base {K : Consts} {s : Settings} (h : Usable K s) (X Y t : ℝ) :
    Complex.I * (laserOf K s).k0 * K.c * (t - s.tpeak) - Complex.I * (laserOf K s).k0 * (X ^ 2 + Y ^ 2) / (2 * (laserOf K s).q) =
      ((omegaL K s * (t - s.tpeak) : ℝ) : ℂ) * Complex.I + ((-(X ^ 2 + Y ^ 2) / s.w0 ^ 2 : ℝ) : ℂ) := by
  have h1 := phase_eq h (X ^ 2 + Y ^ 2)
  push_cast at h1
  rw [h1, ← k0c]
  push_cast
  ring

theorem gaussian_ok {K : Consts} {s : Settings} (h : Usable K s) (ho : 0 < s.order) (ht : s.ctau ≠ 0) (X Y t : ℝ) :
    gaussian K s (laserOf K s) X Y t = .ok (fieldAt K s Real.sin (pulse K s t) X Y t) := by
  unfold gaussian
  rw [gaussian_base h, if_neg ho.ne', if_neg (show ¬ (laserOf K s).tau = 0 from div_ne_zero ht h.c.ne')]
  unfold ipow
  rw [if_neg (by rintro ⟨h1, -⟩; omega)]
  simp only [except_bind_ok]
  congr 1
  funext i
  have htau : (laserOf K s).tau = s.ctau / K.c := rfl
  rw [htau, im_combo]
  have e1 : ((omegaL K s * (t - s.tpeak) : ℝ) : ℂ) * Complex.I + ((-(X ^ 2 + Y ^ 2) / s.w0 ^ 2 : ℝ) : ℂ) - ((((t - s.tpeak) / (s.ctau / K.c)) ^ s.order : ℝ) : ℂ) =
      ((omegaL K s * (t - s.tpeak) : ℝ) : ℂ) * Complex.I + ((-(X ^ 2 + Y ^ 2) / s.w0 ^ 2 + -((t - s.tpeak) / (s.ctau / K.c)) ^ s.order : ℝ) : ℂ) := by
    push_cast
    ring
  have e2 : ((omegaL K s * (t - s.tpeak) : ℝ) : ℂ) * Complex.I + ((-(X ^ 2 + Y ^ 2) / s.w0 ^ 2 : ℝ) : ℂ) - ((((t - s.tpeak) / (s.ctau / K.c)) ^ s.order : ℝ) : ℂ) +
      s.polangle * 2 * Real.pi * Complex.I =
      ((omegaL K s * (t - s.tpeak) + 2 * Real.pi * s.polangle : ℝ) : ℂ) * Complex.I +
        ((-(X ^ 2 + Y ^ 2) / s.w0 ^ 2 + -((t - s.tpeak) / (s.ctau / K.c)) ^ s.order : ℝ) : ℂ) := by
    push_cast
    ring
  rw [e2, e1, im_exp_real, im_exp_real, Real.exp_add]
  unfold fieldAt waist pulse laserOf
  dsimp only
  ring

theorem gaussian_cw {K : Consts} {s : Settings} (h : Usable K s) (ho : s.order = 0) (X Y t : ℝ) :
    gaussian K s (laserOf K s) X Y t = .ok (fieldAt K { s with polangle := 0 } Real.sin 1 X Y t) := by
  unfold gaussian
  rw [gaussian_base h, if_pos ho]
  simp only [except_bind_ok]
  congr 1
  funext i
  rw [im_combo, im_exp_real]
  unfold fieldAt waist laserOf peakField omegaL polA polB
  dsimp only
  rw [mul_zero, add_zero]
  ring

theorem hanning_ok {K : Consts} {s : Settings} (h : Usable K s) (X Y t : ℝ) (ht : t ≤ 2 * s.tpeak) (hp : s.tpeak ≠ 0) :
    hanning K s (laserOf K s) X Y t = .ok (fieldAt K s Real.cos (hann s t) X Y t) := by
  unfold hanning
  rw [if_pos ht, if_neg (by simpa using hp)]
  dsimp only
  congr 1
  funext i
  have h1 := phase_eq h (X ^ 2 + Y ^ 2)
  push_cast at h1
  have e1 : -Complex.I * (laserOf K s).k0 * ((X ^ 2 + Y ^ 2) / (2 * (laserOf K s).q) - K.c * (t - s.tpeak)) =
      ((omegaL K s * (t - s.tpeak) : ℝ) : ℂ) * Complex.I + ((-(X ^ 2 + Y ^ 2) / s.w0 ^ 2 : ℝ) : ℂ) := by
    have : -Complex.I * (laserOf K s).k0 * ((X ^ 2 + Y ^ 2) / (2 * (laserOf K s).q) - K.c * (t - s.tpeak)) =
        -(Complex.I * (laserOf K s).k0 * (X ^ 2 + Y ^ 2) / (2 * (laserOf K s).q)) + (laserOf K s).k0 * K.c * (t - s.tpeak) * Complex.I := by ring
    rw [this, h1, ← k0c]
    push_cast
    ring
  have e2 : ((omegaL K s * (t - s.tpeak) : ℝ) : ℂ) * Complex.I + ((-(X ^ 2 + Y ^ 2) / s.w0 ^ 2 : ℝ) : ℂ) + Complex.I * s.polangle * 2 * Real.pi =
      ((omegaL K s * (t - s.tpeak) + 2 * Real.pi * s.polangle : ℝ) : ℂ) * Complex.I + ((-(X ^ 2 + Y ^ 2) / s.w0 ^ 2 : ℝ) : ℂ) := by
    push_cast
    ring
  rw [re_combo, e1, e2, re_exp_real, re_exp_real]
  have hw : 1 / 2 - 1 / 2 * Real.cos (t * 2 * Real.pi / (2 * s.tpeak)) = hann s t := by
    unfold hann
    have : t * 2 * Real.pi / (2 * s.tpeak) = 2 * (Real.pi * t / (2 * s.tpeak)) := by ring
    rw [this, Real.cos_two_mul, Real.sin_sq]
    ring
  rw [hw]
  unfold fieldAt waist laserOf
  dsimp only
  ring

/-- The field is bounded by the largest field where the envelope is at most one. -/
theorem field_le {K : Consts} {s : Settings} (h : Usable K s) {f : ℝ → ℝ} (hf : ∀ x, f x ^ 2 ≤ 1) {g : ℝ} (hg : 0 ≤ g) (hg1 : g ≤ 1) (X Y t : ℝ) :
    dot (fieldAt K s f g X Y t) (fieldAt K s f g X Y t) ≤ topField K s ^ 2 := by
  have hw0 : 0 ≤ waist s X Y := (Real.exp_pos _).le
  have hw1 : waist s X Y ≤ 1 := by
    unfold waist
    rw [Real.exp_le_one_iff, neg_div]
    have : 0 ≤ (X ^ 2 + Y ^ 2) / s.w0 ^ 2 := by positivity
    linarith
  have hwg : (waist s X Y * g) ^ 2 ≤ 1 := by
    have := mul_le_one₀ hw1 hg hg1
    have := mul_nonneg hw0 hg
    nlinarith
  generalize hA : peakField K s s.a1 * f (omegaL K s * (t - s.tpeak)) = A
  generalize hB : peakField K s s.a2 * f (omegaL K s * (t - s.tpeak) + 2 * Real.pi * s.polangle) = B
  have e : dot (fieldAt K s f g X Y t) (fieldAt K s f g X Y t) = (waist s X Y * g) ^ 2 * (A ^ 2 + B ^ 2) := by
    rw [← combo_norm (polA_unit h) (polB_unit h) (polAB (s := s)) A B]
    unfold fieldAt
    rw [hA, hB]
    unfold dot
    ring
  rw [e, topField, Real.sq_sqrt (by positivity)]
  have hA2 : A ^ 2 ≤ peakField K s s.a1 ^ 2 := by
    rw [← hA, mul_pow]
    exact mul_le_of_le_one_right (sq_nonneg _) (hf _)
  have hB2 : B ^ 2 ≤ peakField K s s.a2 ^ 2 := by
    rw [← hB, mul_pow]
    exact mul_le_of_le_one_right (sq_nonneg _) (hf _)
  have : (waist s X Y * g) ^ 2 * (A ^ 2 + B ^ 2) ≤ 1 * (A ^ 2 + B ^ 2) := mul_le_mul_of_nonneg_right hwg (by positivity)
  linarith

/-! ### Blocks -/

theorem mapM_append {α β : Type} (f : α → Res β) : ∀ (l1 l2 : List α), (l1 ++ l2).mapM f = (do
    let a ← l1.mapM f
    let b ← l2.mapM f
    .ok (a ++ b))
  | [], l2 => by
    show l2.mapM f = (do let b ← l2.mapM f; .ok b)
    cases l2.mapM f <;> rfl
  | x :: l1, l2 => by
    rw [List.cons_append, List.mapM_cons, List.mapM_cons, mapM_append f l1 l2]
    cases f x with
    | error e => rfl
    | ok y =>
      cases l1.mapM f with
      | error e => rfl
      | ok a =>
        cases l2.mapM f with
        | error e => rfl
        | ok b => rfl

theorem blocks_mapM {α β : Type} (f : α → Res β) (g : ℕ → List α) : ∀ (bs : List ℕ) (acc : List β),
    bs.foldlM (fun acc b => do
      let r ← (g b).mapM f
      .ok (acc ++ r)) acc = (do
      let r ← (bs.flatMap g).mapM f
      .ok (acc ++ r) : Res (List β))
  | [], acc => by
    show (Except.ok acc : Res (List β)) = .ok (acc ++ [])
    rw [List.append_nil]
  | b :: bs, acc => by
    rw [List.foldlM_cons, List.flatMap_cons, mapM_append]
    cases (g b).mapM f with
    | error e => rfl
    | ok r =>
      simp only [except_bind_ok]
      rw [blocks_mapM f g bs]
      cases (bs.flatMap g).mapM f with
      | error e => rfl
      | ok t =>
        simp only [except_bind_ok, List.append_assoc]

theorem pushTile_eq (dim : ℤ) (K : Consts) (s : Settings) (L : Laser) (charge dt t : ℝ) {lvect : ℕ} (hv : 1 ≤ lvect) (ps : List APart) :
    pushTile dim K s L charge dt t lvect ps = ps.mapM (pushOne dim K s L charge dt t) := by
  unfold pushTile
  rw [blocks_mapM, ChargeVec.blocks_join hv]
  cases ps.mapM (pushOne dim K s L charge dt t) <;> rfl

/-! ### The plane -/

theorem nint_int (n : ℤ) : nint (n : ℝ) = n := by
  unfold nint
  split_ifs
  · rw [Int.floor_eq_iff]; constructor <;> linarith
  · rw [Int.ceil_eq_iff]; constructor <;> linarith

theorem ncells_eq {m : Fin 3 → Axis} {N : Fin 3 → ℤ} (hN : ∀ i, HasCells (m i) (N i)) (i : Fin 3) : ncells 3 m i = N i := by
  obtain ⟨hd, -, hhi⟩ := hN i
  unfold ncells
  rw [if_neg (by norm_num), hhi, add_sub_cancel_left, mul_div_cancel_right₀ _ hd.ne', nint_int]

/-- The three directions. -/
structure Split (v : V3) (i1 i2 n : Fin 3) : Prop where
  eq : dirs v = (i1, i2, n)
  d12 : i1 ≠ i2
  d1 : i1 ≠ n
  d2 : i2 ≠ n
  sum : ∀ f g : V3, dot f g = f i1 * g i1 + f i2 * g i2 + f n * g n
  all : ∀ i, i = i1 ∨ i = i2 ∨ i = n
  nz : v n ≠ 0

theorem split_along {v : V3} {n : Fin 3} (h : LastDir v n) : ∃ i1 i2, Split v i1 i2 n := by
  obtain ⟨h0, h1⟩ := h
  fin_cases n
  · have a1 := h1 1 (by decide)
    have a2 := h1 2 (by decide)
    refine ⟨1, 2, ?_, by decide, by decide, by decide, fun f g => ?_, by decide, h0⟩
    · unfold dirs
      rw [if_neg (by simpa using a2), if_neg (by simpa using a1)]
      rfl
    · show dot f g = f 1 * g 1 + f 2 * g 2 + f 0 * g 0
      unfold dot; ring
  · have a2 := h1 2 (by decide)
    refine ⟨0, 2, ?_, by decide, by decide, by decide, fun f g => ?_, by decide, h0⟩
    · unfold dirs
      rw [if_neg (by simpa using a2), if_pos (show v 1 ≠ 0 from h0)]
      rfl
    · show dot f g = f 0 * g 0 + f 2 * g 2 + f 1 * g 1
      unfold dot; ring
  · refine ⟨0, 1, ?_, by decide, by decide, by decide, fun f g => ?_, by decide, h0⟩
    · unfold dirs
      rw [if_pos (show v 2 ≠ 0 from h0)]
      rfl
    · show dot f g = f 0 * g 0 + f 1 * g 1 + f 2 * g 2
      unfold dot; ring

theorem exists_along {v : V3} (h : 0 < dot v v) : ∃ n, LastDir v n := by
  by_cases h2 : v 2 = 0
  · by_cases h1 : v 1 = 0
    · refine ⟨0, ?_, fun i hi => ?_⟩
      · intro h0
        simp only [dot, h0, h1, h2, mul_zero, add_zero, lt_irrefl] at h
      · fin_cases i
        · exact absurd hi (by decide)
        · exact h1
        · exact h2
    · refine ⟨1, h1, fun i hi => ?_⟩
      fin_cases i
      · exact absurd hi (by decide)
      · exact absurd hi (by decide)
      · exact h2
  · refine ⟨2, h2, fun i hi => ?_⟩
    fin_cases i <;> exact absurd hi (by decide)

theorem point_1 {L : Laser} {i1 i2 n : Fin 3} (h : Split L.vec i1 i2 n) (m : Fin 3 → Axis) (l j : ℤ) : point 3 L m l j i1 = centre (m i1) j := by
  unfold point
  rw [h.eq]
  simp [h.d1]

theorem point_2 {L : Laser} {i1 i2 n : Fin 3} (h : Split L.vec i1 i2 n) (m : Fin 3 → Axis) (l j : ℤ) : point 3 L m l j i2 = centre (m i2) l := by
  unfold point
  rw [h.eq]
  simp [h.d2, h.d12.symm]

theorem point_n {L : Laser} {i1 i2 n : Fin 3} (h : Split L.vec i1 i2 n) (m : Fin 3 → Axis) (l j : ℤ) :
    point 3 L m l j n = (L.intercept - L.vec i1 * centre (m i1) j - L.vec i2 * centre (m i2) l) / L.vec n := by
  unfold point
  rw [h.eq]
  simp

theorem centre_eq (a : Axis) (j : ℤ) : centre a (j + 1) = a.lo + (j + 1 / 2) * a.d := by
  unfold centre
  push_cast
  ring

theorem middle_iff {a : Axis} {n : ℤ} {x : ℝ} : Middle a n x ↔ ∃ j ∈ irange 1 n, centre a j = x := by
  constructor
  · rintro ⟨j, h0, h1, rfl⟩
    exact ⟨j + 1, mem_irange.mpr ⟨by omega, by omega⟩, centre_eq a j⟩
  · rintro ⟨j, hj, rfl⟩
    rw [mem_irange] at hj
    refine ⟨j - 1, by omega, by omega, ?_⟩
    have := centre_eq a (j - 1)
    rw [sub_add_cancel] at this
    rw [this]

theorem centre_inj {a : Axis} (hd : 0 < a.d) {j j' : ℤ} (h : centre a j = centre a j') : j = j' := by
  unfold centre at h
  have h1 : ((j : ℝ) - j') * a.d = 0 := by linarith
  rcases mul_eq_zero.mp h1 with h2 | h2
  · have : (j : ℝ) = j' := by linarith
    exact_mod_cast this
  · exact absurd h2 hd.ne'

theorem on_plane {L : Laser} {i1 i2 n : Fin 3} (h : Split L.vec i1 i2 n) (m : Fin 3 → Axis) (l j : ℤ) : dot L.vec (point 3 L m l j) = L.intercept := by
  have hn := h.nz
  rw [h.sum, point_1 h, point_2 h, point_n h]
  field_simp
  ring

theorem emitters_eq {L : Laser} {i1 i2 n : Fin 3} (h : Split L.vec i1 i2 n) (K : Consts) (m : Fin 3 → Axis) : emitters 3 K L m =
    (irange 1 (ncells 3 m i2)).flatMap fun l => (irange 1 (ncells 3 m i1)).flatMap fun j =>
      open Classical in if point 3 L m l j n ≥ (m n).lo ∧ point 3 L m l j n < (m n).hi then [born 3 K L m l j] else [] := by
  unfold emitters
  rw [h.eq]

theorem mem_emitters {L : Laser} {i1 i2 n : Fin 3} (h : Split L.vec i1 i2 n) {K : Consts} {m : Fin 3 → Axis} {N : Fin 3 → ℤ}
    (hN : ∀ i, HasCells (m i) (N i)) {p : APart} : p ∈ emitters 3 K L m ↔ ∃ l ∈ irange 1 (N i2), ∃ j ∈ irange 1 (N i1),
      (m n).lo ≤ point 3 L m l j n ∧ point 3 L m l j n < (m n).hi ∧ p = born 3 K L m l j := by
  rw [emitters_eq h, ncells_eq hN, ncells_eq hN]
  simp only [List.mem_flatMap]
  constructor
  · rintro ⟨l, hl, j, hj, hp⟩
    split_ifs at hp with hc
    · rw [List.mem_singleton] at hp
      exact ⟨l, hl, j, hj, hc.1, hc.2, hp⟩
    · simp at hp
  · rintro ⟨l, hl, j, hj, h1, h2, hp⟩
    refine ⟨l, hl, j, hj, ?_⟩
    rw [if_pos ⟨h1, h2⟩, List.mem_singleton]
    exact hp

theorem mem_positions {L : Laser} {n : Fin 3} (h : LastDir L.vec n) {K : Consts} {m : Fin 3 → Axis} {N : Fin 3 → ℤ} (hN : ∀ i, HasCells (m i) (N i)) {P : V3} :
    P ∈ (emitters 3 K L m).map (·.pos) ↔ (∀ i, i ≠ n → Middle (m i) (N i) (P i)) ∧ dot L.vec P = L.intercept ∧ (m n).lo ≤ P n ∧ P n < (m n).hi := by
  obtain ⟨i1, i2, hs⟩ := split_along h
  rw [List.mem_map]
  constructor
  · rintro ⟨p, hp, rfl⟩
    obtain ⟨l, hl, j, hj, h1, h2, rfl⟩ := (mem_emitters hs hN).mp hp
    refine ⟨fun i hi => ?_, on_plane hs m l j, h1, h2⟩
    show Middle (m i) (N i) (point 3 L m l j i)
    rw [middle_iff]
    rcases hs.all i with rfl | rfl | rfl
    · exact ⟨j, hj, (point_1 hs m l j).symm⟩
    · exact ⟨l, hl, (point_2 hs m l j).symm⟩
    · exact absurd rfl hi
  · rintro ⟨hm, hd, h1, h2⟩
    obtain ⟨j, hj, ej⟩ := middle_iff.mp (hm i1 hs.d1)
    obtain ⟨l, hl, el⟩ := middle_iff.mp (hm i2 hs.d2)
    have hP : point 3 L m l j = P := by
      funext i
      rcases hs.all i with rfl | rfl | rfl
      · rw [point_1 hs, ej]
      · rw [point_2 hs, el]
      · rw [point_n hs, ej, el, ← hd, hs.sum]
        have := hs.nz
        field_simp
        ring
    refine ⟨born 3 K L m l j, (mem_emitters hs hN).mpr ⟨l, hl, j, hj, by rw [hP]; exact h1, by rw [hP]; exact h2, rfl⟩, hP⟩

theorem nodup_positions {L : Laser} {n : Fin 3} (h : LastDir L.vec n) {K : Consts} {m : Fin 3 → Axis} {N : Fin 3 → ℤ} (hN : ∀ i, HasCells (m i) (N i)) :
    ((emitters 3 K L m).map (·.pos)).Nodup := by
  obtain ⟨i1, i2, hs⟩ := split_along h
  rw [emitters_eq hs, List.map_flatMap, List.nodup_flatMap]
  constructor
  · intro l _
    rw [List.map_flatMap, List.nodup_flatMap]
    constructor
    · intro j _
      split_ifs <;> simp
    · refine List.Pairwise.imp ?_ (nodup_irange _ _)
      intro j j' hne P h1 h2
      apply hne
      have f : ∀ j, P ∈ (open Classical in if point 3 L m l j n ≥ (m n).lo ∧ point 3 L m l j n < (m n).hi then [born 3 K L m l j] else []).map (·.pos) →
          P i1 = centre (m i1) j := by
        intro j hj
        split_ifs at hj
        · simp only [List.map_cons, List.map_nil, List.mem_singleton] at hj
          rw [hj]
          exact point_1 hs m l j
        · simp at hj
      exact centre_inj (hN i1).1 ((f j h1).symm.trans (f j' h2))
  · refine List.Pairwise.imp ?_ (nodup_irange _ _)
    intro l l' hne P h1 h2
    apply hne
    have f : ∀ l, P ∈ ((irange 1 (ncells 3 m i1)).flatMap fun j =>
        open Classical in if point 3 L m l j n ≥ (m n).lo ∧ point 3 L m l j n < (m n).hi then [born 3 K L m l j] else []).map (·.pos) →
        P i2 = centre (m i2) l := by
      intro l hl
      rw [List.map_flatMap, List.mem_flatMap] at hl
      obtain ⟨j, -, hj⟩ := hl
      split_ifs at hj
      · simp only [List.map_cons, List.map_nil, List.mem_singleton] at hj
        rw [hj]
        exact point_2 hs m l j
      · simp at hj
    exact centre_inj (hN i2).1 ((f l h1).symm.trans (f l' h2))

/-! ### Cutting the domain -/

theorem cut_cells {a : Axis} {c : ℕ → ℤ} {R : ℕ} (h : Cuts a c R) :
    ((List.range R).flatMap fun r => (irange 1 (c (r + 1) - c r)).map (· + c r)).Perm (irange 1 (c R)) := by
  have hm := mono_cuts h.2.2.1
  have hmem : ∀ r j, j ∈ (irange 1 (c (r + 1) - c r)).map (· + c r) ↔ c r < j ∧ j ≤ c (r + 1) := by
    intro r j
    rw [List.mem_map]
    constructor
    · rintro ⟨i, hi, rfl⟩
      rw [mem_irange] at hi
      omega
    · rintro ⟨h1, h2⟩
      exact ⟨j - c r, mem_irange.mpr ⟨by omega, by omega⟩, by omega⟩
  refine (List.perm_ext_iff_of_nodup ?_ (nodup_irange _ _)).mpr ?_
  · rw [List.nodup_flatMap]
    refine ⟨fun r _ => (nodup_irange _ _).map (fun x y e => by simpa using e), ?_⟩
    refine List.Pairwise.imp ?_ (List.pairwise_lt_range (n := R))
    intro r r' hr j h1 h2
    rw [hmem] at h1 h2
    have := hm (show r + 1 ≤ r' from hr)
    omega
  · intro j
    rw [List.mem_flatMap, mem_irange]
    constructor
    · rintro ⟨r, hr, hj⟩
      rw [hmem] at hj
      rw [List.mem_range] at hr
      have h0 := hm (Nat.zero_le r)
      have h1 := hm (show r + 1 ≤ R from hr)
      rw [h.2.1] at h0
      omega
    · rintro ⟨h0, h1⟩
      have key : ∀ n, j ≤ c n → ∃ r < n, c r < j ∧ j ≤ c (r + 1) := by
        intro n
        induction n with
        | zero => intro hlt; rw [h.2.1] at hlt; omega
        | succ n ih =>
          intro hlt
          by_cases hn : j ≤ c n
          · obtain ⟨r, hr, hh⟩ := ih hn
            exact ⟨r, by omega, hh⟩
          · exact ⟨n, by omega, by omega, hlt⟩
      obtain ⟨r, hr, h2⟩ := key R h1
      exact ⟨r, List.mem_range.mpr hr, (hmem r j).mpr h2⟩

open Classical in
/-- A position of the domain is in exactly one piece. -/
theorem cut_interval {a : Axis} {c : ℕ → ℤ} {R : ℕ} (h : Cuts a c R) {β : Type} (z : ℝ) (b : List β) :
    ((List.range R).flatMap fun r => if z ≥ (slice a c r).lo ∧ z < (slice a c r).hi then b else []) = if z ≥ a.lo ∧ z < a.hi then b else [] := by
  obtain ⟨hd, h0, hm, hhi⟩ := h
  rw [hhi]
  have key : ∀ R, ((List.range R).flatMap fun r => if z ≥ (slice a c r).lo ∧ z < (slice a c r).hi then b else []) =
      if z ≥ a.lo ∧ z < a.lo + c R * a.d then b else [] := by
    intro R
    induction R with
    | zero =>
      rw [h0]
      simp only [List.range_zero, List.flatMap_nil]
      rw [if_neg]
      rintro ⟨h1, h2⟩
      push_cast at h2
      linarith
    | succ R ih =>
      rw [List.range_succ, List.flatMap_append, ih]
      simp only [List.flatMap_cons, List.flatMap_nil, List.append_nil]
      have e1 : (slice a c R).lo = a.lo + c R * a.d := rfl
      have e2 : (slice a c R).hi = a.lo + c (R + 1) * a.d := rfl
      have hR : (c R : ℝ) ≤ c (R + 1) := by exact_mod_cast hm R
      have h0R : (0 : ℝ) ≤ c R := by
        have := mono_cuts hm (Nat.zero_le R)
        rw [h0] at this
        exact_mod_cast this
      have hR' := mul_le_mul_of_nonneg_right hR hd.le
      have h0' := mul_nonneg h0R hd.le
      by_cases c1 : z ≥ a.lo ∧ z < a.lo + c R * a.d
      · have n2 : ¬(z ≥ (slice a c R).lo ∧ z < (slice a c R).hi) := by
          rintro ⟨h1, -⟩
          rw [e1] at h1
          linarith [c1.2]
        rw [if_pos c1, if_neg n2, List.append_nil, if_pos ⟨c1.1, by linarith [c1.2]⟩]
      · rw [if_neg c1, List.nil_append]
        by_cases c2 : z ≥ (slice a c R).lo ∧ z < (slice a c R).hi
        · rw [if_pos c2]
          rw [e1, e2] at c2
          rw [if_pos ⟨by linarith [c2.1], c2.2⟩]
        · rw [if_neg c2, if_neg]
          rintro ⟨h1, h2⟩
          rw [e1, e2] at c2
          by_cases h3 : z < a.lo + c R * a.d
          · exact c1 ⟨h1, h3⟩
          · exact c2 ⟨not_lt.mp h3, h2⟩
  exact key R

theorem centre_slice (a : Axis) (c : ℕ → ℤ) (r : ℕ) (j : ℤ) : centre (slice a c r) j = centre a (j + c r) := by
  unfold centre slice
  push_cast
  ring

theorem point_piece {L : Laser} {i1 i2 n : Fin 3} (h : Split L.vec i1 i2 n) (m : Fin 3 → Axis) (c : Fin 3 → ℕ → ℤ) (r : Fin 3 → ℕ) (l j : ℤ) :
    point 3 L (piece m c r) l j = point 3 L m (l + c i2 (r i2)) (j + c i1 (r i1)) := by
  funext i
  rcases h.all i with rfl | rfl | rfl
  · rw [point_1 h, point_1 h]; exact centre_slice ..
  · rw [point_2 h, point_2 h]; exact centre_slice ..
  · rw [point_n h, point_n h]
    unfold piece
    rw [centre_slice, centre_slice]

theorem born_piece {L : Laser} {i1 i2 n : Fin 3} (h : Split L.vec i1 i2 n) (K : Consts) (m : Fin 3 → Axis) (c : Fin 3 → ℕ → ℤ) (r : Fin 3 → ℕ) (l j : ℤ) :
    born 3 K L (piece m c r) l j = born 3 K L m (l + c i2 (r i2)) (j + c i1 (r i1)) := by
  unfold born
  rw [point_piece h]
  rfl

open Classical in
theorem emitters_piece {L : Laser} {i1 i2 n : Fin 3} (h : Split L.vec i1 i2 n) (K : Consts) {m : Fin 3 → Axis} {c : Fin 3 → ℕ → ℤ} {R : Fin 3 → ℕ}
    (hc : ∀ i, Cuts (m i) (c i) (R i)) (r : Fin 3 → ℕ) : emitters 3 K L (piece m c r) =
      ((irange 1 (c i2 (r i2 + 1) - c i2 (r i2))).map (· + c i2 (r i2))).flatMap fun l =>
        ((irange 1 (c i1 (r i1 + 1) - c i1 (r i1))).map (· + c i1 (r i1))).flatMap fun j =>
          if point 3 L m l j n ≥ (slice (m n) (c n) (r n)).lo ∧ point 3 L m l j n < (slice (m n) (c n) (r n)).hi then [born 3 K L m l j] else [] := by
  have hN : ∀ i, HasCells (piece m c r i) (c i (r i + 1) - c i (r i)) := fun i => slice_cells (hc i) (r i)
  rw [emitters_eq h, ncells_eq hN, ncells_eq hN]
  simp only [List.flatMap_map, point_piece h, born_piece h]
  rfl

open Classical in
theorem core_perm {β : Type} {A C : ℕ → List ℤ} {A0 C0 : List ℤ} {R1 R2 Rn : ℕ} {g : ℕ → ℤ → ℤ → List β} {w : ℤ → ℤ → List β}
    (hA : ((List.range R2).flatMap A).Perm A0) (hC : ((List.range R1).flatMap C).Perm C0) (hg : ∀ l j, (List.range Rn).flatMap (fun r => g r l j) = w l j) :
    ((List.range R2 : Multiset ℕ).bind fun r2 => (List.range R1 : Multiset ℕ).bind fun r1 => (List.range Rn : Multiset ℕ).bind fun rn =>
      (A r2 : Multiset ℤ).bind fun l => (C r1 : Multiset ℤ).bind fun j => (g rn l j : Multiset β)) =
      (A0 : Multiset ℤ).bind fun l => (C0 : Multiset ℤ).bind fun j => (w l j : Multiset β) := by
  have pA := Multiset.coe_eq_coe.mpr hA
  have pC := Multiset.coe_eq_coe.mpr hC
  rw [← Multiset.coe_bind] at pA pC
  have e1 : ∀ r2 r1, ((List.range Rn : Multiset ℕ).bind fun rn =>
      (A r2 : Multiset ℤ).bind fun l => (C r1 : Multiset ℤ).bind fun j => (g rn l j : Multiset β)) =
      (A r2 : Multiset ℤ).bind fun l => (C r1 : Multiset ℤ).bind fun j => (w l j : Multiset β) := by
    intro r2 r1
    rw [Multiset.bind_bind]
    refine Multiset.bind_congr fun l _ => ?_
    rw [Multiset.bind_bind]
    refine Multiset.bind_congr fun j _ => ?_
    rw [← hg l j, Multiset.coe_bind]
  simp only [e1]
  rw [← pA, ← pC]
  simp only [Multiset.bind_assoc]
  refine Multiset.bind_congr fun r2 _ => ?_
  rw [Multiset.bind_bind]

theorem emitters_perm {L : Laser} {n : Fin 3} (h : LastDir L.vec n) (K : Consts) {m : Fin 3 → Axis} {c : Fin 3 → ℕ → ℤ} {R : Fin 3 → ℕ}
    (hc : ∀ i, Cuts (m i) (c i) (R i)) : ((List.range (R 2)).flatMap fun rz => (List.range (R 1)).flatMap fun ry => (List.range (R 0)).flatMap fun rx =>
      emitters 3 K L (piece m c ![rx, ry, rz])).Perm (emitters 3 K L m) := by
  obtain ⟨i1, i2, hs⟩ := split_along h
  have hN : ∀ i, HasCells (m i) (c i (R i)) := fun i => whole_cells (hc i)
  have core := core_perm (g := fun r l j => open Classical in if point 3 L m l j n ≥ (slice (m n) (c n) r).lo ∧ point 3 L m l j n < (slice (m n) (c n) r).hi then
      [born 3 K L m l j] else []) (cut_cells (hc i2)) (cut_cells (hc i1)) (fun l j => cut_interval (hc n) (point 3 L m l j n) [born 3 K L m l j])
  rw [← Multiset.coe_eq_coe, emitters_eq hs, ncells_eq hN, ncells_eq hN]
  simp only [emitters_piece hs K hc]
  simp only [← Multiset.coe_bind]
  rw [← core]
  have hs' := hs.eq
  fin_cases n
  · obtain ⟨rfl, rfl⟩ : i1 = 1 ∧ i2 = 2 := by
      have a1 := h.2 1 (by decide)
      have a2 := h.2 2 (by decide)
      unfold dirs at hs'
      rw [if_neg (by simpa using a2), if_neg (by simpa using a1)] at hs'
      simp only [Prod.mk.injEq] at hs'
      exact ⟨hs'.1.symm, hs'.2.1.symm⟩
    rfl
  · obtain ⟨rfl, rfl⟩ : i1 = 0 ∧ i2 = 2 := by
      have a2 := h.2 2 (by decide)
      unfold dirs at hs'
      rw [if_neg (by simpa using a2), if_pos (show L.vec 1 ≠ 0 from h.1)] at hs'
      simp only [Prod.mk.injEq] at hs'
      exact ⟨hs'.1.symm, hs'.2.1.symm⟩
    refine Multiset.bind_congr fun rz _ => ?_
    exact Multiset.bind_bind _ _
  · obtain ⟨rfl, rfl⟩ : i1 = 0 ∧ i2 = 1 := by
      unfold dirs at hs'
      rw [if_pos (show L.vec 2 ≠ 0 from h.1)] at hs'
      simp only [Prod.mk.injEq] at hs'
      exact ⟨hs'.1.symm, hs'.2.1.symm⟩
    refine (Multiset.bind_bind _ _).trans ?_
    refine Multiset.bind_congr fun ry _ => ?_
    exact Multiset.bind_bind _ _

/-! ### Steps -/

theorem profile_ok {K : Consts} {s : Settings} (h : Usable K s) (hp : Pulsed s) (X Y t : ℝ) : profile K s (laserOf K s) X Y t = .ok (asked K s X Y t) := by
  unfold profile asked
  by_cases hw : s.window = 0
  · rw [if_pos hw, if_pos hw]
    by_cases ho : s.order = 0
    · rw [if_pos ho, gaussian_cw h ho]
    · rw [if_neg ho, gaussian_ok h (lt_of_le_of_ne (hp.order hw) (Ne.symm ho)) (hp.ctau hw ho)]
  · rw [if_neg hw, if_neg hw]
    by_cases ht : t ≤ 2 * s.tpeak
    · rw [if_pos ht, hanning_ok h X Y t ht (hp.tpeak hw)]
    · rw [if_neg ht]
      unfold hanning
      rw [if_neg ht]

/-- One step. -/
noncomputable def once (K : Consts) (s : Settings) (charge dt t : ℝ) (p : APart) : APart :=
  ⟨fun i => p.pos i + dt * quiver K s charge p.X p.Y t i, quiver K s charge p.X p.Y t, 1, p.w, p.X, p.Y⟩

theorem pushOne_ok {K : Consts} {s : Settings} (h : Usable K s) (hp : Pulsed s) (charge dt t : ℝ) (p : APart) :
    pushOne 3 K s (laserOf K s) charge dt t p = .ok (once K s charge dt t p) := by
  have hq : (fun i => charge * asked K s p.X p.Y t i * ((1 / 100 * K.c) / (laserOf K s).emax)) = quiver K s charge p.X p.Y t := by
    funext i
    show charge * asked K s p.X p.Y t i * ((1 / 100 * K.c) / topField K s) = _
    unfold quiver
    ring
  unfold pushOne
  rw [profile_ok h hp, except_bind_ok]
  dsimp only
  unfold once
  rw [← hq]
  congr 2
  funext i
  rw [if_neg (by rintro ⟨-, h3⟩; exact h3 rfl)]

theorem mapM_pure {α β : Type} {f : α → Res β} {g : α → β} (h : ∀ a, f a = .ok (g a)) : ∀ l : List α, l.mapM f = .ok (l.map g)
  | [] => rfl
  | a :: l => by
    rw [List.mapM_cons, h a, except_bind_ok, mapM_pure h l]
    rfl

theorem pushSpecies_ok {K : Consts} {s : Settings} (h : Usable K s) (hp : Pulsed s) (charge dt : ℝ) (it : ℤ) (tiles : List (List APart)) :
    pushSpecies 3 K s (laserOf K s) charge dt it tiles = .ok (tiles.map (·.map (once K s charge dt ((it - 1 / 2) * dt)))) := by
  unfold pushSpecies
  apply mapM_pure
  intro ps
  have ht : realTime it dt = ((it : ℝ) - 1 / 2) * dt := by unfold realTime; ring
  by_cases h0 : ps.length = 0
  · rw [if_pos h0]
    rw [List.length_eq_zero_iff] at h0
    rw [h0]
    rfl
  · rw [if_neg h0, pushTile_eq _ _ _ _ _ _ _ (by norm_num), ht]
    exact mapM_pure (pushOne_ok h hp charge dt _) ps

theorem once_moved (K : Consts) (s : Settings) (charge dt : ℝ) (it : ℤ) (its : List ℤ) (p : APart) :
    moved K s charge dt its (once K s charge dt ((it - 1 / 2) * dt) p) = moved K s charge dt (it :: its) p := by
  unfold moved once
  dsimp only
  congr 1
  · funext i
    rw [List.map_cons, List.sum_cons]
    ring
  · cases its with
    | nil => rfl
    | cons a l => rw [List.getLast?_cons_cons]
                  have : ∃ x, (a :: l).getLast? = some x := ⟨_, List.getLast?_eq_some_getLast (List.cons_ne_nil a l)⟩
                  obtain ⟨x, hx⟩ := this
                  rw [hx]
  · split_ifs <;> simp_all

theorem steps_ok {K : Consts} {s : Settings} (h : Usable K s) (hp : Pulsed s) (charge dt : ℝ) : ∀ (its : List ℤ) (tiles : List (List APart)),
    its.foldlM (fun ts it => pushSpecies 3 K s (laserOf K s) charge dt it ts) tiles = .ok (tiles.map (·.map (moved K s charge dt its)))
  | [], tiles => by
    have : moved K s charge dt [] = id := by
      funext p
      unfold moved
      simp
    rw [this]
    simp only [List.map_id_fun, id_eq]
    rw [List.map_id'']
    · rfl
    · intro x; rfl
  | it :: its, tiles => by
    rw [List.foldlM_cons, pushSpecies_ok h hp, except_bind_ok, steps_ok h hp charge dt its, List.map_map]
    congr 1
    apply List.map_congr_left
    intro ps _
    show (ps.map _).map _ = _
    rw [List.map_map]
    apply List.map_congr_left
    intro p _
    exact once_moved K s charge dt it its p

theorem usable_cw {K : Consts} {s : Settings} (h : Usable K s) : Usable K { s with polangle := 0 } :=
  ⟨h.c, h.me, h.e, h.vec, h.pol, h.orth, h.lam, h.w0, h.amp⟩

theorem asked_le {K : Consts} {s : Settings} (h : Usable K s) (he : s.window = 0 → Even s.order) (X Y t : ℝ) :
    dot (asked K s X Y t) (asked K s X Y t) ≤ topField K s ^ 2 := by
  unfold asked
  split_ifs with hw ho ht
  · exact field_le (usable_cw h) Real.sin_sq_le_one zero_le_one le_rfl X Y t
  · refine field_le h Real.sin_sq_le_one (Real.exp_pos _).le ?_ X Y t
    rw [Real.exp_le_one_iff]
    have := (he hw).zpow_nonneg ((t - s.tpeak) / (s.ctau / K.c))
    linarith
  · refine field_le h Real.cos_sq_le_one (sq_nonneg _) (Real.sin_sq_le_one _) X Y t
  · unfold dot
    simp only [mul_zero, add_zero]
    positivity

/-! ### Weight -/

theorem axis_unit {v : V3} {a : Fin 3} (h : OnAxis v a) : 0 < dot v v := by
  obtain ⟨h0, h1⟩ := h
  have := mul_self_pos.mpr h0
  have e : dot v v = v a * v a := by
    unfold dot
    fin_cases a
    · have h2 := h1 1 (by decide); have h3 := h1 2 (by decide)
      simp [h2, h3]
    · have h2 := h1 0 (by decide); have h3 := h1 2 (by decide)
      simp [h2, h3]
    · have h2 := h1 0 (by decide); have h3 := h1 1 (by decide)
      simp [h2, h3]
  rw [e]
  exact this

theorem axis_dot {v : V3} {a : Fin 3} (h : ∀ i, i ≠ a → v i = 0) : dot v v = v a ^ 2 := by
  unfold dot
  fin_cases a
  · have h2 := h 1 (by decide); have h3 := h 2 (by decide)
    simp [h2, h3]; ring
  · have h2 := h 0 (by decide); have h3 := h 2 (by decide)
    simp [h2, h3]; ring
  · have h2 := h 0 (by decide); have h3 := h 1 (by decide)
    simp [h2, h3]; ring

theorem minval_axis {m : Fin 3 → Axis} {p : V3} {a : Fin 3} (h0 : ∀ i, i ≠ a → p i = 0) (h1 : p a ^ 2 = 1) (hd : 0 < (m a).d) (hd1 : (m a).d ≤ 1) :
    minval (spacing m p) = (m a).d := by
  have hz : p a ≠ 0 := by rintro h; rw [h] at h1; norm_num at h1
  have ha : |p a| = 1 := by
    rw [← abs_one, ← sq_eq_sq_iff_abs_eq_abs, h1, one_pow]
  have sa : spacing m p a = (m a).d := by
    unfold spacing
    rw [if_pos hz, abs_div, ha, div_one, abs_of_pos hd]
  have so : ∀ i, i ≠ a → spacing m p i = 1 := by
    intro i hi
    unfold spacing
    rw [if_neg (by simpa using h0 i hi)]
  unfold minval
  fin_cases a
  · rw [so 1 (by decide), so 2 (by decide)]
    simp only [min_self]
    rw [min_eq_left_iff.mpr]
    · exact sa
    · exact sa.trans_le hd1
  · rw [so 0 (by decide), so 2 (by decide)]
    rw [min_eq_left (show spacing m p 1 ≤ 1 from sa.trans_le hd1), min_eq_right (show spacing m p 1 ≤ 1 from sa.trans_le hd1)]
    exact sa
  · rw [so 0 (by decide), so 1 (by decide)]
    rw [min_eq_right (show spacing m p 2 ≤ 1 from sa.trans_le hd1), min_eq_right (show spacing m p 2 ≤ 1 from sa.trans_le hd1)]
    exact sa

theorem cross_axis {v p : V3} {n a b : Fin 3} (hna : n ≠ a) (hnb : n ≠ b) (hab : a ≠ b) (hv : ∀ i, i ≠ n → v i = 0) (hp : ∀ i, i ≠ a → p i = 0) :
    ∀ i, i ≠ b → cross v p i = 0 := by
  intro i hi
  have hi' : i = n ∨ i = a := by
    have : ∀ n a b i : Fin 3, n ≠ a → n ≠ b → a ≠ b → i ≠ b → i = n ∨ i = a := by decide
    exact this n a b i hna hnb hab hi
  have key : ∀ j k : Fin 3, j ≠ i → k ≠ i → v j * p k = 0 ∨ True := fun _ _ _ _ => Or.inr trivial
  clear key
  fin_cases i
  · show v 1 * p 2 - v 2 * p 1 = 0
    rcases hi' with rfl | rfl
    · rw [hv 1 (by decide), hv 2 (by decide)]; ring
    · rw [hp 1 (by decide), hp 2 (by decide)]; ring
  · show v 2 * p 0 - v 0 * p 2 = 0
    rcases hi' with rfl | rfl
    · rw [hv 0 (by decide), hv 2 (by decide)]; ring
    · rw [hp 0 (by decide), hp 2 (by decide)]; ring
  · show v 0 * p 1 - v 1 * p 0 = 0
    rcases hi' with rfl | rfl
    · rw [hv 0 (by decide), hv 1 (by decide)]; ring
    · rw [hp 0 (by decide), hp 1 (by decide)]; ring

theorem weight_axis {K : Consts} {s : Settings} (h : Usable K s) {n a b : Fin 3} (hna : n ≠ a) (hnb : n ≠ b) (hab : a ≠ b) (hv : OnAxis s.vec n)
    (hp : OnAxis s.pol a) {m : Fin 3 → Axis} (hd : ∀ i, 0 < (m i).d ∧ (m i).d ≤ 1) :
    weight 3 K (laserOf K s) m = 100 * K.eps0 * topField K s * ((m a).d * (m b).d) := by
  have zv : ∀ i, i ≠ n → dirOf s.vec i = 0 := by
    intro i hi
    unfold dirOf
    rw [hv.2 i hi, zero_div]
  have zp : ∀ i, i ≠ a → polA s i = 0 := by
    intro i hi
    unfold polA dirOf
    rw [hp.2 i hi, zero_div]
  have zb : ∀ i, i ≠ b → polB s i = 0 := cross_axis hna hnb hab zv zp
  have ua := (axis_dot zp).symm.trans (polA_unit h)
  have ub := (axis_dot zb).symm.trans (polB_unit h)
  unfold weight
  rw [if_pos rfl]
  show K.eps0 * topField K s / (1 / 100) * minval (spacing m (polA s)) * minval (spacing m (polB s)) = _
  rw [minval_axis zp ua (hd a).1 (hd a).2, minval_axis zb ub (hd b).1 (hd b).2]
  ring

/-! ### Given amplitudes -/

theorem ampAt_lt {amp : List V3} {i : ℕ} (h : i < amp.length) : ampAt amp i = .ok amp[i] := by
  unfold ampAt
  rw [List.getElem?_eq_getElem h]

theorem ampAt_ge {amp : List V3} {i : ℕ} (h : amp.length ≤ i) : ampAt amp i = .error .outOfBounds := by
  unfold ampAt
  rw [List.getElem?_eq_none h]

/-- What the loop does with one particle. -/
noncomputable def giveOne (charge dt : ℝ) (amp : List V3) (src : V3) (c : ℕ) (pi : APart × ℕ) : Res APart := do
  let a ← ampAt amp (pi.2 + c)
  .ok ⟨fun i => pi.1.pos i + dt * (charge * a i + src i), fun i => charge * a i + src i, pi.1.gaminv, pi.1.w, pi.1.X, pi.1.Y⟩

theorem give_tile (charge dt : ℝ) (amp : List V3) (src : V3) (c : ℕ) : ∀ (ps : List APart) (k : ℕ), ps.length + (k + c) ≤ amp.length →
    (ps.zipIdx k).mapM (giveOne charge dt amp src c) = .ok (List.zipWith (driven charge dt src) ps (amp.drop (k + c)))
  | [], k, _ => rfl
  | p :: ps, k, h => by
    rw [List.length_cons] at h
    have hk : k + c < amp.length := by omega
    rw [List.zipIdx_cons, List.mapM_cons]
    have h1 : giveOne charge dt amp src c (p, k) = .ok (driven charge dt src p amp[k + c]) := by
      unfold giveOne
      rw [ampAt_lt hk, except_bind_ok]
      rfl
    rw [h1, except_bind_ok, give_tile charge dt amp src c ps (k + 1) (by omega), except_bind_ok, List.drop_eq_getElem_cons hk, List.zipWith_cons_cons,
      show k + 1 + c = k + c + 1 by omega]
    rfl

theorem give_tile_error (charge dt : ℝ) (amp : List V3) (src : V3) (c : ℕ) : ∀ (ps : List APart) (k : ℕ), amp.length < ps.length + (k + c) → k + c ≤ amp.length →
    (ps.zipIdx k).mapM (giveOne charge dt amp src c) = .error .outOfBounds
  | [], k, h, h' => by rw [List.length_nil] at h; omega
  | p :: ps, k, h, h' => by
    rw [List.length_cons] at h
    rw [List.zipIdx_cons, List.mapM_cons]
    by_cases hk : k + c < amp.length
    · have h1 : giveOne charge dt amp src c (p, k) = .ok (driven charge dt src p amp[k + c]) := by
        unfold giveOne
        rw [ampAt_lt hk, except_bind_ok]
        rfl
      rw [h1, except_bind_ok, give_tile_error charge dt amp src c ps (k + 1) (by omega) (by omega)]
      rfl
    · have h1 : giveOne charge dt amp src c (p, k) = .error .outOfBounds := by
        unfold giveOne
        rw [ampAt_ge (by omega : amp.length ≤ k + c)]
        rfl
      rw [h1]
      rfl

theorem give_from (charge dt : ℝ) (amp : List V3) (src : V3) : ∀ (tiles : List (List APart)) (c : ℕ), tiles.flatten.length + c ≤ amp.length →
    ∃ out, (tiles.zip (firstIndexes tiles c)).mapM (fun tc => tc.1.zipIdx.mapM (giveOne charge dt amp src tc.2)) = .ok out ∧
      out.map List.length = tiles.map List.length ∧ out.flatten = List.zipWith (driven charge dt src) tiles.flatten (amp.drop c)
  | [], c, _ => ⟨[], rfl, rfl, by simp⟩
  | ps :: ts, c, h => by
    rw [List.flatten_cons, List.length_append] at h
    obtain ⟨out, h1, h2, h3⟩ := give_from charge dt amp src ts (c + ps.length) (by omega)
    refine ⟨List.zipWith (driven charge dt src) ps (amp.drop c) :: out, ?_, ?_, ?_⟩
    · have h0 := give_tile charge dt amp src c ps 0 (by omega)
      rw [Nat.zero_add] at h0
      rw [firstIndexes, List.zip_cons_cons, List.mapM_cons]
      dsimp only
      rw [h0, except_bind_ok, h1]
      rfl
    · rw [List.map_cons, List.map_cons, h2, List.length_zipWith, List.length_drop]
      congr 1
      omega
    · rw [List.flatten_cons, List.flatten_cons, h3]
      have e : amp.drop c = (amp.drop c).take ps.length ++ amp.drop (c + ps.length) := by
        rw [← List.drop_drop, List.take_append_drop]
      have hl : ps.length = ((amp.drop c).take ps.length).length := by
        rw [List.length_take, List.length_drop]
        omega
      conv_rhs => rw [e, List.zipWith_append hl]
      congr 1
      have e2 : List.zipWith (driven charge dt src) ps (amp.drop c) = List.zipWith (driven charge dt src) (ps ++ []) ((amp.drop c).take ps.length ++ amp.drop (c + ps.length)) := by
        rw [List.append_nil, ← e]
      rw [e2, List.zipWith_append hl]
      simp

theorem give_from_error (charge dt : ℝ) (amp : List V3) (src : V3) : ∀ (tiles : List (List APart)) (c : ℕ), amp.length < tiles.flatten.length + c → c ≤ amp.length →
    (tiles.zip (firstIndexes tiles c)).mapM (fun tc => tc.1.zipIdx.mapM (giveOne charge dt amp src tc.2)) = .error .outOfBounds
  | [], c, h, h' => by
    rw [List.flatten_nil, List.length_nil] at h
    omega
  | ps :: ts, c, h, h' => by
    rw [List.flatten_cons, List.length_append] at h
    rw [firstIndexes, List.zip_cons_cons, List.mapM_cons]
    dsimp only
    by_cases hk : ps.length + c ≤ amp.length
    · have h0 := give_tile charge dt amp src c ps 0 (by omega)
      rw [h0, except_bind_ok, give_from_error charge dt amp src ts (c + ps.length) (by omega) (by omega)]
      rfl
    · rw [give_tile_error charge dt amp src c ps 0 (by omega) (by omega)]
      rfl

end Picsar.Antenna
