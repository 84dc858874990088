import Verif.Lemmas.Deposition2d
import Verif.Spec.RzVolume

namespace Picsar.RzVolume
open Picsar Picsar.Grid Picsar.Deposition Picsar.Deposition2d Picsar.Spec

/-- Rows `lo..hi` divided by `d`. -/
noncomputable def divided (a : Arr) (lo hi : ℤ) (d : ℤ → ℝ) : Arr :=
  { a with val := fun i => if lo ≤ i.j ∧ i.j ≤ hi then a.val i / d i.j else a.val i }

theorem divRow_ok {d : ℝ} {j : ℤ} {a : Arr} (hj : a.lo.j ≤ j ∧ j ≤ a.hi.j) (hd : d ≠ 0) :
    divRow d j a = .ok { a with val := fun i => if i.j = j then a.val i / d else a.val i } := by
  unfold divRow; rw [if_pos hj, if_neg hd]

theorem divided_step (a : Arr) (lo j : ℤ) (d : ℤ → ℝ) (h : lo ≤ j) :
    ({ divided a lo (j - 1) d with val := fun i => if i.j = j then (divided a lo (j - 1) d).val i / d j else (divided a lo (j - 1) d).val i } : Arr)
      = divided a lo j d := by
  simp only [divided, Arr.mk.injEq, true_and]
  funext i
  by_cases h1 : i.j = j
  · rw [if_pos h1, if_neg (by omega), if_pos (by omega), h1]
  · rw [if_neg h1]
    by_cases h2 : lo ≤ i.j ∧ i.j ≤ j - 1
    · rw [if_pos h2, if_pos (by omega)]
    · rw [if_neg h2, if_neg (by omega)]

theorem divided_empty (a : Arr) {lo hi : ℤ} (d : ℤ → ℝ) (h : hi < lo) : divided a lo hi d = a := by
  simp only [divided]
  have : (fun i : I3 => if lo ≤ i.j ∧ i.j ≤ hi then a.val i / d i.j else a.val i) = a.val := by
    funext i; rw [if_neg (by omega)]
  rw [this]

theorem irange_empty {lo hi : ℤ} (h : hi < lo) : irange lo hi = [] := by
  unfold irange
  rw [show (hi - lo + 1).toNat = 0 by omega]
  rfl

theorem rows_ok {d : ℤ → ℝ} {lo hi : ℤ} {a : Arr} (h1 : lo ≤ hi → a.lo.j ≤ lo ∧ hi ≤ a.hi.j) (hd : ∀ j, lo ≤ j → j ≤ hi → d j ≠ 0) :
    (irange lo hi).foldlM (fun (a : Arr) (j : ℤ) => divRow (d j) j a) a = .ok (divided a lo hi d) := by
  by_cases h : hi < lo
  · rw [irange_empty h, divided_empty a d h]; rfl
  · obtain ⟨s', e, I⟩ := foldlM_irange_inv (body := fun (a : Arr) (j : ℤ) => divRow (d j) j a) (lo := lo)
      (fun j s => s = divided a lo (j - 1) d) _ hi rfl (by omega) (by
        intro j s g1 g2 hs
        subst hs
        have g := h1 (by omega)
        exact ⟨_, divRow_ok (by show a.lo.j ≤ j ∧ j ≤ a.hi.j; omega) (hd j g1 g2), by
          rw [divided_step a lo j d g1, show j + 1 - 1 = j by ring]⟩) a (by rw [divided_empty a d (by omega)])
    rw [e, I, show hi + 1 - 1 = hi by ring]

theorem rows2_ok {d : ℤ → ℝ} {lo hi : ℤ} {a b : Arr} (h1 : lo ≤ hi → a.lo.j ≤ lo ∧ hi ≤ a.hi.j) (h2 : lo ≤ hi → b.lo.j ≤ lo ∧ hi ≤ b.hi.j)
    (hd : ∀ j, lo ≤ j → j ≤ hi → d j ≠ 0) :
    (irange lo hi).foldlM (fun (a : Arr × Arr) (j : ℤ) => do
      let jt ← divRow (d j) j a.1
      let jz ← divRow (d j) j a.2
      pure (jt, jz)) (a, b) = (.ok (divided a lo hi d, divided b lo hi d) : Res (Arr × Arr)) := by
  by_cases h : hi < lo
  · rw [irange_empty h, divided_empty a d h, divided_empty b d h]; rfl
  · obtain ⟨s', e, I⟩ := foldlM_irange_inv (body := fun (a : Arr × Arr) (j : ℤ) => do
        let jt ← divRow (d j) j a.1
        let jz ← divRow (d j) j a.2
        pure (jt, jz)) (lo := lo)
      (fun j s => s = (divided a lo (j - 1) d, divided b lo (j - 1) d)) _ hi rfl (by omega) (by
        intro j s g1 g2 hs
        subst hs
        have g := h1 (by omega)
        have g' := h2 (by omega)
        refine ⟨(divided a lo j d, divided b lo j d), ?_, by rw [show j + 1 - 1 = j by ring]⟩
        simp only
        rw [divRow_ok (by show a.lo.j ≤ j ∧ j ≤ a.hi.j; omega) (hd j g1 g2), divided_step a lo j d g1]
        simp only [except_bind_ok]
        rw [divRow_ok (by show b.lo.j ≤ j ∧ j ≤ b.hi.j; omega) (hd j g1 g2), divided_step b lo j d g1]
        rfl) (a, b) (by rw [divided_empty a d (by omega), divided_empty b d (by omega)])
    rw [e, I, show hi + 1 - 1 = hi by ring]

/-! ### Grid that starts on the axis -/

/-- Nodes, on an axis grid. -/
noncomputable def nodeRow (v : ℝ) (dr : ℝ) (j : ℤ) : ℝ := if j = 0 then v else 2 * Real.pi * |(j : ℝ) * dr|

noncomputable def foldedNodes (a : Arr) : Arr :=
  { a with val := fun i => if 1 ≤ i.j ∧ i.j ≤ -a.lo.j then a.val i + a.val ⟨-i.j, i.k, i.l⟩ else a.val i }

noncomputable def foldedCentres (a : Arr) : Arr :=
  { a with val := fun i => if 0 ≤ i.j ∧ i.j ≤ -a.lo.j - 1 then a.val i - a.val ⟨-1 - i.j, i.k, i.l⟩ else a.val i }

theorem divided_twice (a : Arr) (lo hi : ℤ) (d : ℤ → ℝ) (v : ℝ) (h1 : lo ≤ 0) (h2 : 0 ≤ hi) :
    divided ({ divided a lo (-1) d with
      val := fun i => if i.j = 0 then (divided a lo (-1) d).val i / v else (divided a lo (-1) d).val i } : Arr) 1 hi d =
      divided a lo hi (fun j => if j = 0 then v else d j) := by
  simp only [divided, Arr.mk.injEq, true_and]
  funext i
  by_cases h0 : i.j = 0
  · rw [if_neg (by omega), if_pos h0, if_neg (by omega), if_pos (by omega), if_pos h0]
  · rw [if_neg h0, if_neg h0]
    by_cases h3 : 1 ≤ i.j ∧ i.j ≤ hi
    · rw [if_pos h3, if_neg (by omega), if_pos (by omega)]
    · rw [if_neg h3]
      by_cases h4 : lo ≤ i.j ∧ i.j ≤ -1
      · rw [if_pos h4, if_pos (by omega)]
      · rw [if_neg h4, if_neg (by omega)]

theorem factor_ne {r : ℝ} (h : r ≠ 0) : 2 * Real.pi * |r| ≠ 0 := by
  have := Real.pi_pos
  have := abs_pos.mpr h
  positivity

theorem axisFactor_ne {ty : ℤ} {dr : ℝ} (h : dr ≠ 0) : axisFactor ty dr ≠ 0 := by
  have := Real.pi_pos.ne'
  unfold axisFactor
  split_ifs <;> positivity

theorem scaleRho_axis {ty : ℤ} {dr : ℝ} (hdr : dr ≠ 0) {a : Arr} (h1 : a.lo.j ≤ 0) (h2 : 0 ≤ a.hi.j) (h3 : -a.lo.j ≤ a.hi.j) :
    scaleRho ty 0 dr a = .ok (divided (foldedNodes a) a.lo.j a.hi.j (nodeRow (axisFactor ty dr) dr)) := by
  have hz : ∀ j : ℤ, j ≠ 0 → (0 : ℝ) + ((j : ℝ) + 0) * dr ≠ 0 := by
    intro j hj
    have : (j : ℝ) ≠ 0 := by exact_mod_cast hj
    rw [zero_add, add_zero]
    exact mul_ne_zero this hdr
  unfold scaleRho
  simp only [if_true]
  have e0 : foldNodes a = .ok (foldedNodes a) := if_pos (fun _ => h3)
  rw [e0]
  simp only [except_bind_ok]
  unfold divRows
  rw [rows_ok (d := fun j => 2 * Real.pi * |0 + ((j : ℝ) + 0) * dr|) (a := foldedNodes a)
    (fun h => ⟨le_refl _, by show (-1 : ℤ) ≤ a.hi.j; omega⟩) (fun j _ g => factor_ne (hz j (by omega)))]
  simp only [except_bind_ok]
  rw [divRow_ok (by show a.lo.j ≤ 0 ∧ 0 ≤ a.hi.j; omega) (axisFactor_ne hdr)]
  simp only [except_bind_ok]
  rw [rows_ok (d := fun j => 2 * Real.pi * |0 + ((j : ℝ) + 0) * dr|) (fun h => ⟨by show a.lo.j ≤ 1; omega, le_refl _⟩)
    (fun j g _ => factor_ne (hz j (by omega)))]
  congr 1
  have := divided_twice (foldedNodes a) a.lo.j a.hi.j (fun j => 2 * Real.pi * |0 + ((j : ℝ) + 0) * dr|) (axisFactor ty dr) h1 h2
  rw [show (nodeRow (axisFactor ty dr) dr) = (fun j : ℤ => if j = 0 then axisFactor ty dr else 2 * Real.pi * |0 + ((j : ℝ) + 0) * dr|) by
    funext j; simp [nodeRow]]
  rw [← this]
  rfl

theorem zeroRow_ok {j : ℤ} {a : Arr} (hj : a.lo.j ≤ j ∧ j ≤ a.hi.j) :
    zeroRow j a = .ok { a with val := fun i => if i.j = j then 0 else a.val i } := if_pos hj

/-- `jt` on an axis grid: nothing on the axis. -/
noncomputable def withoutAxis (a : Arr) : Arr := { a with val := fun i => if i.j = 0 then 0 else a.val i }

theorem divided_zero (a : Arr) (lo hi : ℤ) (d : ℤ → ℝ) (h1 : lo ≤ 0) (h2 : 0 ≤ hi) :
    divided (withoutAxis (divided a lo (-1) d)) 1 hi d = withoutAxis (divided a lo hi d) := by
  simp only [divided, withoutAxis, Arr.mk.injEq, true_and]
  funext i
  by_cases h0 : i.j = 0
  · rw [if_neg (by omega), if_pos h0, if_pos h0]
  · rw [if_neg h0, if_neg h0]
    by_cases h3 : 1 ≤ i.j ∧ i.j ≤ hi
    · rw [if_pos h3, if_neg (by omega), if_pos (by omega)]
    · rw [if_neg h3]
      by_cases h4 : lo ≤ i.j ∧ i.j ≤ -1
      · rw [if_pos h4, if_pos (by omega)]
      · rw [if_neg h4, if_neg (by omega)]

theorem half_ne (j : ℤ) : (j : ℝ) + 1 / 2 ≠ 0 := by
  intro h
  have : (2 * (j : ℝ)) = -1 := by linarith
  have : 2 * j = -1 := by exact_mod_cast this
  omega

theorem scaleJ_axis {ty : ℤ} {dr : ℝ} (hdr : dr ≠ 0) {jr jt jz : Arr} (r3 : -jr.lo.j ≤ jr.hi.j)
    (t1 : jt.lo.j ≤ 0) (t2 : 0 ≤ jt.hi.j) (t3 : -jt.lo.j ≤ jt.hi.j) (z1 : jz.lo.j = jt.lo.j) (z2 : jz.hi.j = jt.hi.j) :
    scaleJ ty 0 dr jr jt jz = .ok (divided (foldedCentres jr) jr.lo.j jr.hi.j (fun j => 2 * Real.pi * |((j : ℝ) + 1 / 2) * dr|),
      withoutAxis (divided (foldedNodes jt) jt.lo.j jt.hi.j (nodeRow (axisFactor ty dr) dr)),
      divided (foldedNodes jz) jz.lo.j jz.hi.j (nodeRow (axisFactor ty dr) dr)) := by
  have hz : ∀ j : ℤ, j ≠ 0 → (0 : ℝ) + (j : ℝ) * dr ≠ 0 := by
    intro j hj
    have : (j : ℝ) ≠ 0 := by exact_mod_cast hj
    rw [zero_add]
    exact mul_ne_zero this hdr
  unfold scaleJ
  simp only [if_true]
  have e0 : foldNodes jt = .ok (foldedNodes jt) := if_pos (fun _ => t3)
  have e1 : foldNodes jz = .ok (foldedNodes jz) := if_pos (fun _ => by omega)
  have e2 : foldCentres jr = .ok (foldedCentres jr) := if_pos (fun _ => by omega)
  rw [e0]
  simp only [except_bind_ok]
  rw [e1]
  simp only [except_bind_ok]
  rw [e2]
  simp only [except_bind_ok]
  unfold divRows divRows2
  rw [rows_ok (d := fun j => 2 * Real.pi * |0 + ((j : ℝ) + 1 / 2) * dr|) (a := foldedCentres jr)
    (fun h => ⟨le_refl _, le_refl _⟩) (fun j _ g => factor_ne (by rw [zero_add]; exact mul_ne_zero (half_ne j) hdr))]
  simp only [except_bind_ok]
  rw [rows2_ok (d := fun j => 2 * Real.pi * |0 + (j : ℝ) * dr|) (a := foldedNodes jt) (b := foldedNodes jz)
    (fun h => ⟨le_refl _, by show (-1 : ℤ) ≤ jt.hi.j; omega⟩)
    (fun h => ⟨by show jz.lo.j ≤ jt.lo.j; omega, by show (-1 : ℤ) ≤ jz.hi.j; omega⟩) (fun j _ g => factor_ne (hz j (by omega)))]
  simp only [except_bind_ok]
  rw [divRow_ok (by show jz.lo.j ≤ 0 ∧ 0 ≤ jz.hi.j; omega) (axisFactor_ne hdr)]
  simp only [except_bind_ok]
  rw [zeroRow_ok (by show jt.lo.j ≤ 0 ∧ 0 ≤ jt.hi.j; omega)]
  simp only [except_bind_ok, pure_bind]
  rw [rows2_ok (d := fun j => 2 * Real.pi * |0 + (j : ℝ) * dr|) (fun h => ⟨by show jt.lo.j ≤ 1; omega, le_refl _⟩)
    (fun h => ⟨by show jz.lo.j ≤ 1; omega, by show jt.hi.j ≤ jz.hi.j; omega⟩) (fun j g _ => factor_ne (hz j (by omega)))]
  simp only [except_bind_ok, except_pure]
  have en : nodeRow (axisFactor ty dr) dr = (fun j : ℤ => if j = 0 then axisFactor ty dr else 2 * Real.pi * |0 + (j : ℝ) * dr|) := by
    funext j; simp [nodeRow]
  have f1 := divided_zero (foldedNodes jt) jt.lo.j jt.hi.j (fun j => 2 * Real.pi * |0 + (j : ℝ) * dr|) t1 t2
  have f2 := divided_twice (foldedNodes jz) jz.lo.j jz.hi.j (fun j => 2 * Real.pi * |0 + (j : ℝ) * dr|) (axisFactor ty dr) (by omega) (by omega)
  have f3 : withoutAxis (divided (foldedNodes jt) jt.lo.j jt.hi.j (nodeRow (axisFactor ty dr) dr)) =
      withoutAxis (divided (foldedNodes jt) jt.lo.j jt.hi.j (fun j => 2 * Real.pi * |0 + (j : ℝ) * dr|)) := by
    rw [en]
    simp only [withoutAxis, divided, Arr.mk.injEq, true_and]
    funext i
    by_cases h0 : i.j = 0
    · rw [if_pos h0, if_pos h0]
    · simp only [if_neg h0]
  rw [f3, ← f1, en, ← f2]
  rw [z1, z2]
  simp only [zero_add]
  rfl

/-! ### Grid away from the axis -/

theorem scaleRho_off {ty : ℤ} {rmin dr : ℝ} (hr : rmin ≠ 0) {a : Arr} (h1 : a.lo.j ≤ 0) (h2 : 0 ≤ a.hi.j)
    (hz : ∀ j : ℤ, a.lo.j ≤ j → j ≤ a.hi.j → rmin + j * dr ≠ 0) :
    scaleRho ty rmin dr a = .ok (divided a a.lo.j a.hi.j (fun j => 2 * Real.pi * |rmin + j * dr|)) := by
  unfold scaleRho
  simp only [if_neg hr, except_bind_ok]
  unfold divRows
  simp only [add_zero]
  rw [rows_ok (d := fun j => 2 * Real.pi * |rmin + (j : ℝ) * dr|) (fun h => ⟨le_refl _, by omega⟩) (fun j g g' => factor_ne (hz j g (by omega)))]
  simp only [except_bind_ok]
  rw [divRow_ok (by show a.lo.j ≤ 0 ∧ 0 ≤ a.hi.j; omega) (factor_ne hr)]
  simp only [except_bind_ok]
  rw [rows_ok (d := fun j => 2 * Real.pi * |rmin + (j : ℝ) * dr|) (fun h => ⟨by show a.lo.j ≤ 1; omega, le_refl _⟩)
    (fun j g g' => factor_ne (hz j (by omega) (by exact g')))]
  congr 1
  have := divided_twice a a.lo.j a.hi.j (fun j => 2 * Real.pi * |rmin + (j : ℝ) * dr|) (2 * Real.pi * |rmin|) h1 h2
  rw [show (fun j : ℤ => 2 * Real.pi * |rmin + (j : ℝ) * dr|) =
    (fun j : ℤ => if j = 0 then 2 * Real.pi * |rmin| else 2 * Real.pi * |rmin + (j : ℝ) * dr|) by
      funext j
      by_cases h : j = 0
      · subst h; simp
      · rw [if_neg h]] at *
  rw [← this]
  rfl

/-- A zero radius among the rows makes the loop fail. -/
theorem rows_fail {d : ℤ → ℝ} : ∀ (l : List ℤ) (a : Arr), (∃ j ∈ l, d j = 0) → ∀ a',
    l.foldlM (fun (a : Arr) (j : ℤ) => divRow (d j) j a) a ≠ .ok a'
  | [], a, h, a' => by simp at h
  | j :: l, a, h, a' => by
    rw [List.foldlM_cons]
    intro he
    cases e : divRow (d j) j a with
    | error x => rw [e] at he; cases he
    | ok b =>
      rw [e] at he
      obtain ⟨k, hk, h0⟩ := h
      rcases List.mem_cons.mp hk with rfl | hk
      · unfold divRow at e
        rw [if_pos h0] at e
        split_ifs at e
      · exact rows_fail l b ⟨k, hk, h0⟩ a' he

theorem scaleRho_fail {ty : ℤ} {rmin dr : ℝ} (hr : rmin ≠ 0) {a : Arr} {j : ℤ} (h1 : a.lo.j ≤ j) (h2 : j ≤ -1) (h0 : rmin + j * dr = 0)
    (a' : Arr) : scaleRho ty rmin dr a ≠ .ok a' := by
  unfold scaleRho
  simp only [if_neg hr, except_bind_ok]
  intro he
  cases e : divRows 0 rmin dr a.lo.j (-1) a with
  | error x => rw [e] at he; cases he
  | ok b =>
    refine rows_fail (d := fun j => 2 * Real.pi * |rmin + ((j : ℝ) + 0) * dr|) _ a ⟨j, ?_, ?_⟩ b e
    · unfold irange
      rw [List.mem_map]
      refine ⟨(j - a.lo.j).toNat, ?_, ?_⟩
      · rw [List.mem_range]; omega
      · omega
    · simp only [add_zero, h0, abs_zero, mul_zero]

theorem scaleJ_off {ty : ℤ} {rmin dr : ℝ} (hr : rmin ≠ 0) {jr jt jz : Arr} (t1 : jt.lo.j ≤ 0) (t2 : 0 ≤ jt.hi.j)
    (z1 : jz.lo.j = jt.lo.j) (z2 : jz.hi.j = jt.hi.j) (hz : ∀ j : ℤ, jt.lo.j ≤ j → j ≤ jt.hi.j → rmin + j * dr ≠ 0)
    (hh : ∀ j : ℤ, jr.lo.j ≤ j → j ≤ jr.hi.j → rmin + ((j : ℝ) + 1 / 2) * dr ≠ 0) :
    scaleJ ty rmin dr jr jt jz = .ok (divided jr jr.lo.j jr.hi.j (fun j => 2 * Real.pi * |rmin + ((j : ℝ) + 1 / 2) * dr|),
      divided jt jt.lo.j jt.hi.j (fun j => 2 * Real.pi * |rmin + j * dr|),
      divided jz jz.lo.j jz.hi.j (fun j => 2 * Real.pi * |rmin + j * dr|)) := by
  unfold scaleJ
  simp only [if_neg hr, except_bind_ok]
  unfold divRows divRows2
  rw [rows_ok (d := fun j => 2 * Real.pi * |rmin + ((j : ℝ) + 1 / 2) * dr|) (a := jr)
    (fun h => ⟨le_refl _, le_refl _⟩) (fun j g g' => factor_ne (hh j g g'))]
  simp only [except_bind_ok]
  rw [rows2_ok (d := fun j => 2 * Real.pi * |rmin + (j : ℝ) * dr|) (a := jt) (b := jz)
    (fun h => ⟨le_refl _, by omega⟩) (fun h => ⟨by omega, by omega⟩) (fun j g g' => factor_ne (hz j g (by omega)))]
  simp only [except_bind_ok]
  rw [divRow_ok (by show jt.lo.j ≤ 0 ∧ 0 ≤ jt.hi.j; omega) (factor_ne hr)]
  simp only [except_bind_ok]
  rw [divRow_ok (by show jz.lo.j ≤ 0 ∧ 0 ≤ jz.hi.j; omega) (factor_ne hr)]
  simp only [except_bind_ok, pure_bind]
  rw [rows2_ok (d := fun j => 2 * Real.pi * |rmin + (j : ℝ) * dr|) (fun h => ⟨by show jt.lo.j ≤ 1; omega, le_refl _⟩)
    (fun h => ⟨by show jz.lo.j ≤ 1; omega, by show jt.hi.j ≤ jz.hi.j; omega⟩) (fun j g g' => factor_ne (hz j (by omega) (by exact g')))]
  simp only [except_bind_ok, except_pure]
  have f1 := divided_twice jt jt.lo.j jt.hi.j (fun j => 2 * Real.pi * |rmin + (j : ℝ) * dr|) (2 * Real.pi * |rmin|) t1 t2
  have f2 := divided_twice jz jz.lo.j jz.hi.j (fun j => 2 * Real.pi * |rmin + (j : ℝ) * dr|) (2 * Real.pi * |rmin|) (by omega) (by omega)
  have en : (fun j : ℤ => 2 * Real.pi * |rmin + (j : ℝ) * dr|) =
    (fun j : ℤ => if j = 0 then 2 * Real.pi * |rmin| else 2 * Real.pi * |rmin + (j : ℝ) * dr|) := by
      funext j
      by_cases h : j = 0
      · subst h; simp
      · rw [if_neg h]
  rw [← en] at f1 f2
  have f3 : divided jt jt.lo.j jt.hi.j (fun j => 2 * Real.pi * |rmin + (j : ℝ) * dr|) = _ := f1.symm
  have f4 : divided jz jz.lo.j jz.hi.j (fun j => 2 * Real.pi * |rmin + (j : ℝ) * dr|) = _ := f2.symm
  rw [f3, f4, z1, z2]
  rfl

/-! ### Values -/

theorem pi_four (dr : ℝ) : axisFactor 0 dr = Real.pi * dr / 4 := by unfold axisFactor; rw [if_neg (by norm_num)]

theorem ring_pos {rmin dr dz : ℝ} {j : ℤ} (h : 0 ≤ rmin + j * dr - dr / 2) :
    ringVolume rmin dr dz j = 2 * Real.pi * (rmin + j * dr) * (dr * dz) := by
  unfold ringVolume
  rw [max_eq_left h]
  ring

theorem ring_axis {dr dz : ℝ} (h : 0 < dr) : ringVolume 0 dr dz 0 = Real.pi * dr / 4 * (dr * dz) := by
  unfold ringVolume
  rw [max_eq_right (by push_cast; linarith)]
  push_cast
  ring

theorem nodeRow_pos {v dr : ℝ} (h : 0 < dr) {j : ℤ} (hj : 1 ≤ j) : nodeRow v dr j = 2 * Real.pi * (j * dr) := by
  unfold nodeRow
  have : (1 : ℝ) ≤ j := by exact_mod_cast hj
  rw [if_neg (by omega), abs_of_nonneg (by positivity)]

theorem foldedNodes_eq {a : Arr} {j l : ℤ} : (foldedNodes a).val ⟨j, 0, l⟩ = mirrored a j l := by
  unfold foldedNodes mirrored
  dsimp only
  by_cases h : 1 ≤ j ∧ j ≤ -a.lo.j
  · rw [if_pos h, if_pos (by omega)]
  · rw [if_neg h, if_neg (by omega), add_zero]

/-- Charge density times ring volume, on a grid that starts on the axis. -/
theorem density_volume {ty : ℤ} (ht : ty ≠ 1) {dr dz : ℝ} (hdr : 0 < dr) {a : Arr} {j : ℤ} (l : ℤ) (h1 : 0 ≤ j) (h2 : j ≤ a.hi.j) (h3 : a.lo.j ≤ 0) :
    (divided (foldedNodes a) a.lo.j a.hi.j (nodeRow (axisFactor ty dr) dr)).val ⟨j, 0, l⟩ * ringVolume 0 dr dz j =
      mirrored a j l * (dr * dz) := by
  have hp := Real.pi_pos
  simp only [divided]
  rw [if_pos (by omega), foldedNodes_eq]
  by_cases h0 : j = 0
  · subst h0
    rw [ring_axis hdr, nodeRow, if_pos rfl, axisFactor, if_neg ht]
    field_simp
  · have g : (1 : ℝ) ≤ j := by exact_mod_cast (show 1 ≤ j by omega)
    rw [ring_pos (by nlinarith), nodeRow_pos hdr (by omega), zero_add]
    field_simp

theorem fold_sum (f : ℤ → ℝ) {m n : ℤ} (hm : 0 ≤ m) (hmn : m ≤ n) :
    ∑ j ∈ Finset.Icc 0 n, (f j + if 1 ≤ j ∧ -m ≤ -j then f (-j) else 0) = ∑ j ∈ Finset.Icc (-m) n, f j := by
  rw [Finset.sum_add_distrib, ← Finset.sum_filter]
  have e1 : ∑ j ∈ (Finset.Icc 0 n).filter (fun j => 1 ≤ j ∧ -m ≤ -j), f (-j) = ∑ j ∈ Finset.Icc (-m) (-1), f j := by
    refine Finset.sum_nbij' (fun j => -j) (fun j => -j) ?_ ?_ ?_ ?_ ?_
    · intro j hj
      simp only [Finset.mem_filter, Finset.mem_Icc] at hj ⊢
      omega
    · intro j hj
      simp only [Finset.mem_filter, Finset.mem_Icc] at hj ⊢
      omega
    · intro j _; simp
    · intro j _; simp
    · intro j _; rfl
  have e2 : Finset.Icc (-m) n = Finset.Icc (-m) (-1) ∪ Finset.Icc 0 n := by
    ext j
    simp only [Finset.mem_union, Finset.mem_Icc]
    omega
  rw [e1, e2, Finset.sum_union, add_comm]
  rw [Finset.disjoint_left]
  intro j h1 h2
  simp only [Finset.mem_Icc] at h1 h2
  omega

/-! ### What a particle deposits lies inside the array -/

theorem flux2_out {n : ℕ} (hn : n ≤ 3) {x xo : ℝ} {A B : ℤ} (h : Fits n A B x) (ho : Fits n A B xo) {j : ℤ} (hj : j < A) : flux2 n x xo j = 0 := by
  unfold flux2
  apply Finset.sum_eq_zero
  intro m hm
  rw [Finset.mem_Icc] at hm
  rw [shape_out hn h (Or.inl (by omega)), shape_out hn ho (Or.inl (by omega)), sub_self]

theorem mean_out {n : ℕ} (hn : n ≤ 3) {x xo : ℝ} {A B : ℤ} (h : Fits n A B x) (ho : Fits n A B xo) {j : ℤ} (hj : j < A) : mean n x xo j = 0 := by
  unfold mean
  rw [shape_out hn h (Or.inl hj), shape_out hn ho (Or.inl hj)]
  norm_num

theorem sum_zero {α : Type} {f : α → ℝ} {l : List α} (h : ∀ x ∈ l, f x = 0) : (l.map f).sum = 0 := by
  induction l with
  | nil => rfl
  | cons x l ih => rw [List.map_cons, List.sum_cons, h x (by simp), ih (fun y hy => h y (by simp [hy])), add_zero]

theorem jx_out {a b : ℕ} (ha : a ≤ 3) {rz : Bool} {g : Geo} {σ : Mem} {ps : List Part} (h : ∀ p ∈ ps, Fit3 a b rz g σ p) {j : ℤ} (l : ℤ)
    (hj : j < (σ .jx).lo.j) : currents2 a b rz g ps .jx ⟨j, 0, l⟩ = 0 := by
  apply sum_zero
  intro p hp
  obtain ⟨f1, f2⟩ := h p hp .jx (by simp)
  unfold current2
  simp only [if_true]
  rw [flux2_out ha f1.2.2.1 f2.2.2.1 hj]
  ring

theorem jz_out {a b : ℕ} (ha : a ≤ 3) {rz : Bool} {g : Geo} {σ : Mem} {ps : List Part} (h : ∀ p ∈ ps, Fit3 a b rz g σ p) {j : ℤ} (l : ℤ)
    (hj : j < (σ .jz).lo.j) : currents2 a b rz g ps .jz ⟨j, 0, l⟩ = 0 := by
  apply sum_zero
  intro p hp
  obtain ⟨f1, f2⟩ := h p hp .jz (by simp)
  unfold current2
  simp only [if_true]
  rw [mean_out ha f1.2.2.1 f2.2.2.1 hj]
  ring

theorem rho_out {a b : ℕ} (ha : a ≤ 3) {rz : Bool} {g : Geo} {A : Arr} {ps : List Part} (h : ∀ p ∈ ps, Fits2 a b rz g A p) {j : ℤ} (l : ℤ)
    (hj : j < A.lo.j) : densities2 a b rz g ps j l = 0 := by
  apply sum_zero
  intro p hp
  unfold density2
  rw [shape_out ha (h p hp).2.2.1 (Or.inl hj)]
  ring

/-- When nothing lies below the array, folding adds the whole mirror image. -/
theorem mirrored_all {a : Arr} {j l : ℤ} (hj : 1 ≤ j) (h0 : -j < a.lo.j → a.val ⟨-j, 0, l⟩ = 0) :
    mirrored a j l = a.val ⟨j, 0, l⟩ + a.val ⟨-j, 0, l⟩ := by
  unfold mirrored
  by_cases h : a.lo.j ≤ -j
  · rw [if_pos ⟨hj, h⟩]
  · rw [if_neg (by omega), h0 (by omega)]

theorem centres_all {a : Arr} {j l : ℤ} (hj : 0 ≤ j) (h0 : -1 - j < a.lo.j → a.val ⟨-1 - j, 0, l⟩ = 0) :
    (foldedCentres a).val ⟨j, 0, l⟩ = a.val ⟨j, 0, l⟩ - a.val ⟨-1 - j, 0, l⟩ := by
  unfold foldedCentres
  dsimp only
  by_cases h : a.lo.j ≤ -1 - j
  · rw [if_pos (by omega)]
  · rw [if_neg (by omega), h0 (by omega), sub_zero]

theorem node_val {A : Arr} {v dr : ℝ} (hdr : 0 < dr) {f : ℤ → ℝ} {l : ℤ} (hv : ∀ m, A.val ⟨m, 0, l⟩ = f m) (ho : ∀ m, m < A.lo.j → f m = 0)
    (h0 : A.lo.j ≤ 0) {j : ℤ} (h1 : 1 ≤ j) (h2 : j ≤ A.hi.j) :
    (divided (foldedNodes A) A.lo.j A.hi.j (nodeRow v dr)).val ⟨j, 0, l⟩ = (f j + f (-j)) / (2 * Real.pi * (j * dr)) := by
  simp only [divided]
  rw [if_pos (by omega), foldedNodes_eq, mirrored_all h1 (fun g => by rw [hv]; exact ho _ g), hv, hv, nodeRow_pos hdr h1]

theorem axis_val {A : Arr} {v dr : ℝ} {f : ℤ → ℝ} {l : ℤ} (hv : ∀ m, A.val ⟨m, 0, l⟩ = f m) (h0 : A.lo.j ≤ 0) (h2 : 0 ≤ A.hi.j) :
    (divided (foldedNodes A) A.lo.j A.hi.j (nodeRow v dr)).val ⟨0, 0, l⟩ = f 0 / v := by
  simp only [divided]
  rw [if_pos (by omega), foldedNodes_eq, mirrored, if_neg (by omega), hv, nodeRow, if_pos rfl, add_zero]

theorem centre_val {A : Arr} {dr : ℝ} (hdr : 0 < dr) {f : ℤ → ℝ} {l : ℤ} (hv : ∀ m, A.val ⟨m, 0, l⟩ = f m) (ho : ∀ m, m < A.lo.j → f m = 0)
    (h0 : A.lo.j ≤ 0) {j : ℤ} (h1 : 0 ≤ j) (h2 : j ≤ A.hi.j) :
    (divided (foldedCentres A) A.lo.j A.hi.j (fun j => 2 * Real.pi * |((j : ℝ) + 1 / 2) * dr|)).val ⟨j, 0, l⟩ =
      (f j - f (-1 - j)) / (2 * Real.pi * ((j + 1 / 2) * dr)) := by
  have hj : (0 : ℝ) ≤ j := by exact_mod_cast h1
  simp only [divided]
  rw [if_pos (by omega), centres_all h1 (fun g => by rw [hv]; exact ho _ g), hv, hv, abs_of_nonneg (by positivity)]

/-- Algebra of the mirrored continuity equation off the axis. -/
theorem mirror_algebra {r dr dz dt : ℝ} (hr : r ≠ 0) (hdr : dr ≠ 0) (hdz : dz ≠ 0) (hdt : dt ≠ 0) (h1 : r + dr / 2 ≠ 0) (h2 : r - dr / 2 ≠ 0)
    {n n' o o' jp jm jp' jm' zp zm zp' zm' : ℝ} (e : (jp - jm) / dr + (zp - zm) / dz = (o - n) / dt)
    (e' : (jp' - jm') / dr + (zp' - zm') / dz = (o' - n') / dt) :
    ((n + n') / (2 * Real.pi * r) - (o + o') / (2 * Real.pi * r)) / dt +
      (((r + dr / 2) * ((jp - jm') / (2 * Real.pi * (r + dr / 2))) - (r - dr / 2) * ((jm - jp') / (2 * Real.pi * (r - dr / 2)))) / (r * dr) +
        ((zp + zp') / (2 * Real.pi * r) - (zm + zm') / (2 * Real.pi * r)) / dz) = 0 := by
  have hp := Real.pi_pos.ne'
  have k1 : (r + dr / 2) * ((jp - jm') / (2 * Real.pi * (r + dr / 2))) = (jp - jm') / (2 * Real.pi) := by
    generalize r + dr / 2 = u at h1
    field_simp
  have k2 : (r - dr / 2) * ((jm - jp') / (2 * Real.pi * (r - dr / 2))) = (jm - jp') / (2 * Real.pi) := by
    generalize r - dr / 2 = u at h2
    field_simp
  rw [k1, k2]
  have : ((n + n') / (2 * Real.pi * r) - (o + o') / (2 * Real.pi * r)) / dt +
      (((jp - jm') / (2 * Real.pi) - (jm - jp') / (2 * Real.pi)) / (r * dr) +
        ((zp + zp') / (2 * Real.pi * r) - (zm + zm') / (2 * Real.pi * r)) / dz) =
      (((jp - jm) / dr + (zp - zm) / dz - (o - n) / dt) + ((jp' - jm') / dr + (zp' - zm') / dz - (o' - n') / dt)) / (2 * Real.pi * r) := by
    field_simp
    ring
  rw [this, e, e']
  simp

theorem axis_algebra {dr dz dt : ℝ} (hdr : dr ≠ 0) (hdz : dz ≠ 0) (hdt : dt ≠ 0) {n o jp jm zp zm : ℝ}
    (e : (jp - jm) / dr + (zp - zm) / dz = (o - n) / dt) :
    (n / (Real.pi * dr / 4) - o / (Real.pi * dr / 4)) / dt +
      (4 * ((jp - jm) / (2 * Real.pi * (1 / 2 * dr))) / dr + (zp / (Real.pi * dr / 4) - zm / (Real.pi * dr / 4)) / dz) = 0 := by
  have hp := Real.pi_pos.ne'
  have : (n / (Real.pi * dr / 4) - o / (Real.pi * dr / 4)) / dt +
      (4 * ((jp - jm) / (2 * Real.pi * (1 / 2 * dr))) / dr + (zp / (Real.pi * dr / 4) - zm / (Real.pi * dr / 4)) / dz) =
      ((jp - jm) / dr + (zp - zm) / dz - (o - n) / dt) / (Real.pi * dr / 4) := by
    field_simp
    ring
  rw [this, e]
  simp

end Picsar.RzVolume
