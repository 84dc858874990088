import Verif.Lemmas.CircDeposit
import Verif.Lemmas.RzVolume

namespace Picsar.CircDeposit
open Picsar Picsar.Grid Picsar.Deposition Picsar.Deposition2d Picsar.CircGather Picsar.RzVolume Picsar.Spec

noncomputable def dividedC (a : CArr) (lo hi : ℤ) (d : ℤ → ℝ) : CArr :=
  { a with val := fun j l m => if lo ≤ j ∧ j ≤ hi then a.val j l m / (d j : ℂ) else a.val j l m }

theorem divRowC_ok {d : ℝ} {j : ℤ} {a : CArr} (hj : a.jlo ≤ j ∧ j ≤ a.jhi) (hd : d ≠ 0) :
    divRowC d j a = .ok { a with val := fun j' l m => if j' = j then a.val j' l m / (d : ℂ) else a.val j' l m } := by
  unfold divRowC; rw [if_pos hj, if_neg hd]

theorem dividedC_step (a : CArr) (lo j : ℤ) (d : ℤ → ℝ) (h : lo ≤ j) :
    ({ dividedC a lo (j - 1) d with val := fun j' l m => if j' = j then (dividedC a lo (j - 1) d).val j' l m / (d j : ℂ)
        else (dividedC a lo (j - 1) d).val j' l m } : CArr) = dividedC a lo j d := by
  simp only [dividedC, CArr.mk.injEq, true_and]
  funext j' l m
  by_cases h1 : j' = j
  · rw [if_pos h1, if_neg (by omega), if_pos (by omega), h1]
  · rw [if_neg h1]
    by_cases h2 : lo ≤ j' ∧ j' ≤ j - 1
    · rw [if_pos h2, if_pos (by omega)]
    · rw [if_neg h2, if_neg (by omega)]

theorem dividedC_empty (a : CArr) {lo hi : ℤ} (d : ℤ → ℝ) (h : hi < lo) : dividedC a lo hi d = a := by
  simp only [dividedC]
  have : (fun (j : ℤ) (l : ℤ) (m : ℕ) => if lo ≤ j ∧ j ≤ hi then a.val j l m / (d j : ℂ) else a.val j l m) = a.val := by
    funext j l m; rw [if_neg (by omega)]
  rw [this]

theorem rowsC_ok {s rmin dr : ℝ} {lo hi : ℤ} {a : CArr} (h1 : lo ≤ hi → a.jlo ≤ lo ∧ hi ≤ a.jhi)
    (hd : ∀ j : ℤ, lo ≤ j → j ≤ hi → rmin + (j + s) * dr ≠ 0) :
    divRowsC s rmin dr lo hi a = .ok (dividedC a lo hi fun j => 2 * Real.pi * |rmin + (j + s) * dr|) := by
  unfold divRowsC
  by_cases h : hi < lo
  · rw [irange_empty h, dividedC_empty a _ h]; rfl
  · obtain ⟨s', e, I⟩ := foldlM_irange_inv (body := fun (a : CArr) (j : ℤ) => divRowC (2 * Real.pi * |rmin + (j + s) * dr|) j a) (lo := lo)
      (fun j t => t = dividedC a lo (j - 1) fun j => 2 * Real.pi * |rmin + (j + s) * dr|) _ hi rfl (by omega) (by
        intro j t g1 g2 hs
        subst hs
        have g := h1 (by omega)
        exact ⟨_, divRowC_ok (by show a.jlo ≤ j ∧ j ≤ a.jhi; omega) (factor_ne (hd j g1 g2)), by
          rw [dividedC_step a lo j (fun j => 2 * Real.pi * |rmin + (j + s) * dr|) g1, show j + 1 - 1 = j by ring]⟩) a
            (by rw [dividedC_empty a _ (by omega)])
    rw [e, I, show hi + 1 - 1 = hi by ring]

theorem ifact_eq (m : ℕ) : ifact m = (-1) ^ m := by
  unfold ifact
  rcases Nat.even_or_odd m with h | h
  · rw [if_pos (Nat.even_iff.mp h), h.neg_one_pow]
  · rw [if_neg (by have := Nat.odd_iff.mp h; omega), h.neg_one_pow]

/-- `a` at a node, with the mirror node. -/
noncomputable def mirN (a : CArr) (j l : ℤ) (m : ℕ) : ℂ := a.val j l m + if 1 ≤ j ∧ j ≤ -a.jlo then (-1) ^ m * a.val (-j) l m else 0

noncomputable def mirC (a : CArr) (j l : ℤ) (m : ℕ) : ℂ := a.val j l m - if 0 ≤ j ∧ j ≤ -a.jlo - 1 then (-1) ^ m * a.val (-1 - j) l m else 0

theorem foldN_ok {a : CArr} (h : AxisArr a) : foldN a = .ok { a with val := mirN a } := by
  unfold foldN
  rw [if_pos (fun _ => h.2.2)]
  congr 1
  simp only [CArr.mk.injEq, true_and]
  funext j l m
  unfold mirN
  by_cases h : 1 ≤ j ∧ j ≤ -a.jlo
  · rw [if_pos h, if_pos h, ifact_eq]
  · rw [if_neg h, if_neg h, add_zero]

theorem foldC_ok {a : CArr} (h : AxisArr a) : foldC a = .ok { a with val := mirC a } := by
  unfold foldC
  rw [if_pos (fun _ => by have := h.2.2; omega)]
  congr 1
  simp only [CArr.mk.injEq, true_and]
  funext j l m
  unfold mirC
  by_cases h : 0 ≤ j ∧ j ≤ -a.jlo - 1
  · rw [if_pos h, if_pos h, ifact_eq]
  · rw [if_neg h, if_neg h, sub_zero]

/-- The scaled currents on a grid that starts on the axis. -/
theorem scaleC_axis {ty : ℤ} {dr : ℝ} (hdr : 0 < dr) {jr jt jz : CArr} (hr : AxisArr jr) (ht : AxisArr jt) (hz : AxisArr jz)
    (hl : 1 < jt.nm → jr.llo = jt.llo ∧ jr.lhi = jt.lhi ∧ 1 < jr.nm) :
    ∃ R T Z, scaleC ty 0 dr jr jt jz = .ok (R, T, Z) ∧
      (∀ j l m, jr.jlo ≤ j → j ≤ jr.jhi → R.val j l m = mirC jr j l m / ((2 * Real.pi * |((j : ℝ) + 1 / 2) * dr| : ℝ) : ℂ)) ∧
      (∀ j l m, 1 ≤ j → j ≤ jt.jhi → T.val j l m = mirN jt j l m / ((2 * Real.pi * (j * dr) : ℝ) : ℂ)) ∧
      (∀ j l m, 1 ≤ j → j ≤ jz.jhi → Z.val j l m = mirN jz j l m / ((2 * Real.pi * (j * dr) : ℝ) : ℂ)) ∧
      (∀ l, Z.val 0 l 0 = jz.val 0 l 0 / (axisFactor ty dr : ℂ)) ∧ (∀ l m, m ≠ 0 → Z.val 0 l m = 0) ∧
      (∀ l m, m ≠ 1 → T.val 0 l m = 0) ∧ (1 < jt.nm → ∀ l, T.val 0 l 1 = -Complex.I * R.val 0 l 1) := by
  have hc : ∀ j : ℤ, (0 : ℝ) + ((j : ℝ) + 1 / 2) * dr ≠ 0 := by
    intro j
    rw [zero_add]
    refine mul_ne_zero ?_ hdr.ne'
    intro h
    have h' : ((2 * j + 1 : ℤ) : ℝ) = 0 := by push_cast; linarith
    have : (2 * j + 1 : ℤ) = 0 := by exact_mod_cast h'
    omega
  have hn : ∀ j : ℤ, j ≠ 0 → (0 : ℝ) + ((j : ℝ) + 0) * dr ≠ 0 := by
    intro j hj
    have : (j : ℝ) ≠ 0 := by exact_mod_cast hj
    rw [zero_add, add_zero]
    exact mul_ne_zero this hdr.ne'
  unfold scaleC foldAll
  rw [if_pos rfl, foldN_ok ht, foldN_ok hz, foldC_ok hr]
  simp only [except_bind_ok, except_pure]
  rw [rowsC_ok (a := { jr with val := mirC jr }) (fun _ => ⟨le_refl _, le_refl _⟩) (fun j _ _ => hc j)]
  simp only [except_bind_ok]
  rw [rowsC_ok (a := { jt with val := mirN jt }) (fun _ => ⟨le_refl _, by show (-1 : ℤ) ≤ jt.jhi; have := ht.2.1; omega⟩)
    (fun j _ g => hn j (by omega))]
  simp only [except_bind_ok]
  rw [rowsC_ok (a := { jz with val := mirN jz }) (fun _ => ⟨le_refl _, by show (-1 : ℤ) ≤ jz.jhi; have := hz.2.1; omega⟩)
    (fun j _ g => hn j (by omega))]
  simp only [except_bind_ok]
  unfold boundaryRow axisZ axisT
  rw [if_pos rfl, if_pos (by exact ⟨hz.1, hz.2.1⟩), if_neg (axisFactor_ne hdr.ne')]
  simp only [except_bind_ok]
  rw [if_pos (by exact ⟨ht.1, ht.2.1, fun h => ⟨hr.1, hr.2.1, hl h⟩⟩)]
  simp only [except_bind_ok, except_pure]
  rw [rowsC_ok (fun _ => ⟨by show jt.jlo ≤ 1; have := ht.1; omega, by exact le_refl _⟩) (fun j g _ => hn j (by omega))]
  simp only [except_bind_ok]
  rw [rowsC_ok (fun _ => ⟨by show jz.jlo ≤ 1; have := hz.1; omega, by exact le_refl _⟩) (fun j g _ => hn j (by omega))]
  simp only [except_bind_ok]
  refine ⟨_, _, _, rfl, ?_, ?_, ?_, ?_, ?_, ?_, ?_⟩
  · intro j l m h1 h2
    simp only [dividedC, h1, h2, and_self, if_true, zero_add]
  · intro j l m h1 h2
    have e : |(0 : ℝ) + ((j : ℝ) + 0) * dr| = j * dr := by
      rw [zero_add, add_zero, abs_of_pos]
      have : (0 : ℝ) < j := by exact_mod_cast (by omega : (0 : ℤ) < j)
      positivity
    have h0 : j ≠ 0 := by omega
    have h3 : ¬ (jt.jlo ≤ j ∧ j ≤ -1) := by omega
    simp only [dividedC, h1, h2, and_self, if_true, e, h0, if_false, h3]
  · intro j l m h1 h2
    have e : |(0 : ℝ) + ((j : ℝ) + 0) * dr| = j * dr := by
      rw [zero_add, add_zero, abs_of_pos]
      have : (0 : ℝ) < j := by exact_mod_cast (by omega : (0 : ℤ) < j)
      positivity
    have h0 : j ≠ 0 := by omega
    have h3 : ¬ (jz.jlo ≤ j ∧ j ≤ -1) := by omega
    simp only [dividedC, h1, h2, and_self, if_true, e, h0, if_false, h3]
  · intro l
    have h3 : ¬ ((1 : ℤ) ≤ 0 ∧ (0 : ℤ) ≤ jz.jhi) := by omega
    have h4 : ¬ (jz.jlo ≤ (0 : ℤ) ∧ (0 : ℤ) ≤ -1) := by omega
    have h5 : ¬ ((1 : ℤ) ≤ 0 ∧ (0 : ℤ) ≤ -jz.jlo) := by omega
    simp only [dividedC, h3, h4, if_false, if_true, mirN, h5, add_zero]
  · intro l m hm
    have h3 : ¬ ((1 : ℤ) ≤ 0 ∧ (0 : ℤ) ≤ jz.jhi) := by omega
    simp only [dividedC, h3, if_false, if_true, hm]
  · intro l m hm
    have h3 : ¬ ((1 : ℤ) ≤ 0 ∧ (0 : ℤ) ≤ jt.jhi) := by omega
    simp only [dividedC, h3, if_false, if_true, hm, false_and]
  · intro h l
    have h3 : ¬ ((1 : ℤ) ≤ 0 ∧ (0 : ℤ) ≤ jt.jhi) := by omega
    simp only [dividedC, h3, if_false, if_true, h, and_self]

/-- The scaled currents on a grid that starts off the axis. -/
theorem scaleC_wall {ty : ℤ} {rmin dr : ℝ} (h0 : rmin ≠ 0) {jr jt jz : CArr} (hr : NoAxis (1 / 2) rmin dr jr) (ht : NoAxis 0 rmin dr jt)
    (hz : NoAxis 0 rmin dr jz) :
    ∃ R T Z, scaleC ty rmin dr jr jt jz = .ok (R, T, Z) ∧
      (∀ j l m, jr.jlo ≤ j → j ≤ jr.jhi → R.val j l m = jr.val j l m / ((2 * Real.pi * |rmin + ((j : ℝ) + 1 / 2) * dr| : ℝ) : ℂ)) ∧
      (∀ j l m, jt.jlo ≤ j → j ≤ jt.jhi → T.val j l m = jt.val j l m / ((2 * Real.pi * |rmin + j * dr| : ℝ) : ℂ)) ∧
      (∀ j l m, jz.jlo ≤ j → j ≤ jz.jhi → Z.val j l m = jz.val j l m / ((2 * Real.pi * |rmin + j * dr| : ℝ) : ℂ)) := by
  unfold scaleC foldAll
  rw [if_neg h0]
  simp only [except_bind_ok, except_pure]
  rw [rowsC_ok (fun _ => ⟨le_refl _, le_refl _⟩) (fun j g1 g2 => hr.2.2 j g1 g2)]
  simp only [except_bind_ok]
  rw [rowsC_ok (fun _ => ⟨le_refl _, by have := ht.2.1; omega⟩) (fun j g1 g2 => ht.2.2 j g1 (by have := ht.2.1; omega))]
  simp only [except_bind_ok]
  rw [rowsC_ok (fun _ => ⟨le_refl _, by have := hz.2.1; omega⟩) (fun j g1 g2 => hz.2.2 j g1 (by have := hz.2.1; omega))]
  simp only [except_bind_ok]
  unfold boundaryRow
  rw [if_neg h0, divRowC_ok (by exact ⟨ht.1, ht.2.1⟩) (factor_ne h0)]
  simp only [except_bind_ok]
  rw [divRowC_ok (by exact ⟨hz.1, hz.2.1⟩) (factor_ne h0)]
  simp only [except_bind_ok, except_pure]
  rw [rowsC_ok (fun _ => ⟨by show jt.jlo ≤ 1; have := ht.1; omega, by exact le_refl _⟩)
    (fun j g1 g2 => ht.2.2 j (by have := ht.1; omega) (by exact g2))]
  simp only [except_bind_ok]
  rw [rowsC_ok (fun _ => ⟨by show jz.jlo ≤ 1; have := hz.1; omega, by exact le_refl _⟩)
    (fun j g1 g2 => hz.2.2 j (by have := hz.1; omega) (by exact g2))]
  simp only [except_bind_ok]
  have key : ∀ (a : CArr) (j l : ℤ) (m : ℕ), a.jlo ≤ j → j ≤ a.jhi →
      (dividedC { dividedC a a.jlo (-1) (fun j => 2 * Real.pi * |rmin + ((j : ℝ) + 0) * dr|) with
        val := fun j' l m => if j' = 0 then (dividedC a a.jlo (-1) (fun j => 2 * Real.pi * |rmin + ((j : ℝ) + 0) * dr|)).val j' l m /
          ((2 * Real.pi * |rmin| : ℝ) : ℂ) else (dividedC a a.jlo (-1) (fun j => 2 * Real.pi * |rmin + ((j : ℝ) + 0) * dr|)).val j' l m }
        1 a.jhi (fun j => 2 * Real.pi * |rmin + ((j : ℝ) + 0) * dr|)).val j l m = a.val j l m / ((2 * Real.pi * |rmin + j * dr| : ℝ) : ℂ) := by
    intro a j l m h1 h2
    simp only [dividedC, add_zero]
    by_cases h3 : 1 ≤ j
    · have h4 : j ≠ 0 := by omega
      have h5 : ¬ (a.jlo ≤ j ∧ j ≤ -1) := by omega
      simp only [h3, h2, and_self, if_true, h4, if_false, h5]
    · by_cases h4 : j = 0
      · subst h4
        simp
      · have h5 : a.jlo ≤ j ∧ j ≤ -1 := by omega
        simp only [h3, false_and, if_false, h4, h5, and_self, if_true]
  refine ⟨_, _, _, rfl, ?_, ?_, ?_⟩
  · intro j l m h1 h2
    simp only [dividedC, h1, h2, and_self, if_true]
  · intro j l m h1 h2
    exact key jt j l m h1 h2
  · intro j l m h1 h2
    exact key jz j l m h1 h2

/-! ### Nothing outside of the arrays -/

theorem shape_out {n : ℕ} (hn : n ≤ 3) {x : ℝ} {lo hi : ℤ} (h : Fits n lo hi x) {j : ℤ} (hj : j < lo ∨ hi < j) : shape n x j = 0 := by
  have h1 := fits_dir hn h
  have h2 := shapeFn_shape hn x (node2 n x) (j - node2 n x)
  rw [sub_self, add_sub_cancel] at h2
  rw [← h2]
  exact shapeFn_zero (fun w hw => by rw [add_zero]; exact (wts2_fst hn (x - node2 n x)).2.1 w hw) (by omega)

theorem flux_out {n : ℕ} (hn : n ≤ 3) {x xo : ℝ} {lo hi : ℤ} (h1 : Fits n lo hi x) (h2 : Fits n lo hi xo) {j : ℤ} (hj : j < lo) :
    flux2 n x xo j = 0 := by
  unfold flux2
  apply Finset.sum_eq_zero
  intro m hm
  rw [Finset.mem_Icc] at hm
  rw [shape_out hn h1 (Or.inl (by omega)), shape_out hn h2 (Or.inl (by omega)), sub_zero]

theorem out_low {a b n : ℕ} (ha : a ≤ 3) {g : Geo} {A : CArr} {p : Part} (h : FitC a b n g A p) {j : ℤ} (hj : j < A.jlo) (l : ℤ) (m : ℕ) :
    currentR a b g p m j l = 0 ∧ currentT a b g p m j l = 0 ∧ currentZ a b g p m j l = 0 := by
  obtain ⟨_, ⟨f1, _⟩, ⟨f2, _⟩⟩ := h
  have s1 := shape_out ha f1 (Or.inl hj)
  have s2 := shape_out ha f2 (Or.inl hj)
  refine ⟨?_, ?_, ?_⟩
  · unfold currentR
    simp [current2, flux_out ha f1 f2 hj]
  · unfold currentT
    simp only [average2, s1, s2]
    split_ifs <;> simp
  · unfold currentZ
    simp [current2, mean, s1, s2]

theorem total_zero {f : Part → ℕ → ℤ → ℤ → ℂ} {ps : List Part} {m : ℕ} {j l : ℤ} (h : ∀ p ∈ ps, f p m j l = 0) : total f ps m j l = 0 := by
  unfold total
  apply List.sum_eq_zero
  intro x hx
  rw [List.mem_map] at hx
  obtain ⟨p, hp, rfl⟩ := hx
  exact h p hp

theorem total_continuity {a b : ℕ} {g : Geo} (hx : 0 < g.dx) (hz : 0 < g.dz) (ht : 0 < g.dt) (m : ℕ) (j l : ℤ)
    (hr : m ≠ 0 → g.xmin + j * g.dx ≠ 0) : ∀ ps : List Part,
    (total (currentR a b g) ps m j l - total (currentR a b g) ps m (j - 1) l) / g.dx +
      (total (currentZ a b g) ps m j l - total (currentZ a b g) ps m j (l - 1)) / g.dz -
      Complex.I * m * total (currentT a b g) ps m j l / ((g.xmin + j * g.dx : ℝ) : ℂ) =
    -(densityM a b g ps m j l - densityM a b g (ps.map (before g)) m j l) / g.dt
  | [] => by simp [total, densityM]
  | p :: ps => by
    have ih := total_continuity (a := a) (b := b) hx hz ht m j l hr ps
    have h1 := one_continuity (a := a) (b := b) hx hz ht p m j l hr
    simp only [total, densityM, List.map_cons, List.sum_cons, List.map_map] at ih ⊢
    linear_combination ih + h1

/-! ### Continuity after the division -/

theorem mirC_added {n : ℕ} {A : CArr} {f : ℕ → ℤ → ℤ → ℂ} (h0 : EmptyC A) {m : ℕ} (hm : m < n) (hf : ∀ j l, j < A.jlo → f m j l = 0)
    {j : ℤ} (hj : 0 ≤ j) (l : ℤ) : mirC (addedC n A f) j l m = f m j l - (-1) ^ m * f m (-1 - j) l := by
  simp only [mirC, addedC, if_pos hm, h0 _ _ _, zero_add, hj, true_and]
  split_ifs with h1
  · rfl
  · rw [hf (-1 - j) l (by omega)]; ring

theorem mirN_added {n : ℕ} {A : CArr} {f : ℕ → ℤ → ℤ → ℂ} (h0 : EmptyC A) {m : ℕ} (hm : m < n) (hf : ∀ j l, j < A.jlo → f m j l = 0)
    {j : ℤ} (hj : 1 ≤ j) (l : ℤ) : mirN (addedC n A f) j l m = f m j l + (-1) ^ m * f m (-j) l := by
  simp only [mirN, addedC, if_pos hm, h0 _ _ _, zero_add, hj, true_and]
  split_ifs with h1
  · rfl
  · rw [hf (-j) l (by omega)]; ring

theorem shape_left {a : ℕ} (ha : a ≤ 1) {x : ℝ} (hx : 0 ≤ x) {j : ℤ} (hj : j < 0) : shape a x j = 0 := by
  have hj' : (j : ℝ) ≤ -1 := by exact_mod_cast (by omega : j ≤ -1)
  unfold shape
  have : a = 0 ∨ a = 1 := by omega
  rcases this with rfl | rfl
  · have h0 : 0 ≤ nearest x := by
      unfold nearest
      rw [if_pos hx]
      exact Int.floor_nonneg.mpr (by linarith)
    simp only [if_true]
    rw [if_neg (by omega)]
  · simp only [one_ne_zero, if_false, bspline]
    rw [abs_of_nonneg (by linarith)]
    split_ifs with h
    · have : x - j = 1 := by linarith
      linarith
    · rfl

theorem currentT_left {a b : ℕ} (ha : a ≤ 1) {g : Geo} (h0 : g.xmin = 0) (hx : 0 < g.dx) (p : Part) (m : ℕ) {j : ℤ} (hj : j < 0) (l : ℤ) :
    currentT a b g p m j l = 0 := by
  have c : ∀ q : Part, 0 ≤ cells (across true q) g.xmin g.dx := by
    intro q
    unfold cells across
    rw [h0, sub_zero, if_pos rfl]
    exact div_nonneg (Real.sqrt_nonneg _) hx.le
  unfold currentT
  simp only [average2, shape_left ha (c _) hj]
  split_ifs <;> simp

end Picsar.CircDeposit
