import Verif.Lemmas.MaxwellGeo
import Verif.Props.Maxwell
import Mathlib.Tactic.Ring
import Mathlib.Tactic.FieldSimp
import Mathlib.Tactic.NormNum
import Mathlib.Tactic.LinearCombination

/-
C44 for the Cole-Karkkainen-Cowan solver; C82: divergence cleaning adds a pure gradient to E.
-/
namespace Picsar.Props
open Picsar Picsar.Grid Picsar.Maxwell Picsar.Spec

theorem ckcSafe {σ : Mem} {lo hi i : I3} (hm : Margin 1 σ lo hi) (hi' : InBox lo hi i) (q : Ckc) (c : Comp) :
    (ckcDx q c).Safe σ i ∧ (ckcDy q c).Safe σ i ∧ (ckcDz q c).Safe σ i := by
  refine ⟨?_, ?_, ?_⟩
  all_goals
    simp only [ckcDx, ckcDy, ckcDz, add_safe, sub_safe, mul_safe, cst_safe, rd_safe, true_and]
    repeat' first | (apply margin_sh hm hi' <;> norm_num) | apply And.intro

/-- **C44** Cole-Karkkainen-Cowan solver in 3D: the divergence of B formed with the solver's own averaged differences is kept
in every cell whose neighbourhood is updated. -/
theorem C44_ckc_3d (u v w : ℝ) (r : Ranges) (o : Orders) (ho : o.Of r) (σ : Mem) (hm : Margins 1 σ r) :
    ∃ τ, bvecCkc u v w o σ = .ok τ ∧ (∀ c, c ≠ .bx → c ≠ .by' → c ≠ .bz → τ c = σ c) ∧
      ∀ j k l, BallUpdated 1 r j k l → divBckc (ckcCoefs u v w) τ j k l = divBckc (ckcCoefs u v w) σ j k l := by
  set q := ckcCoefs u v w with hq
  obtain ⟨mx, my, mz⟩ := hm
  obtain ⟨τ, h1, h2⟩ := three_ok (σ := σ) ho (cx := .bx) (cy := .by') (cz := .bz)
    (rx := .rd .bx 0 0 0 - ckcDy q .ez + ckcDz q .ey) (ry := .rd .by' 0 0 0 + ckcDx q .ez - ckcDz q .ex)
    (rz := .rd .bz 0 0 0 - ckcDx q .ey + ckcDy q .ex)
    (by decide) (by decide) (by decide) (by simp [ckcDy, ckcDz]) (by simp [ckcDx, ckcDz]) (by simp [ckcDx, ckcDy])
    (by simp [ckcDx, ckcDz]) (by simp [ckcDx, ckcDy])
    (fun i hi => by
      refine ⟨?_, margin_in (by norm_num) mx hi _⟩
      simp only [add_safe, sub_safe, rd_safe]
      exact ⟨⟨by apply margin_sh mx hi <;> norm_num, (ckcSafe mx hi q _).2.1⟩, (ckcSafe mx hi q _).2.2⟩)
    (fun i hi => by
      refine ⟨?_, margin_in (by norm_num) my hi _⟩
      simp only [add_safe, sub_safe, rd_safe]
      exact ⟨⟨by apply margin_sh my hi <;> norm_num, (ckcSafe my hi q _).1⟩, (ckcSafe my hi q _).2.2⟩)
    (fun i hi => by
      refine ⟨?_, margin_in (by norm_num) mz hi _⟩
      simp only [add_safe, sub_safe, rd_safe]
      exact ⟨⟨by apply margin_sh mz hi <;> norm_num, (ckcSafe mz hi q _).1⟩, (ckcSafe mz hi q _).2.1⟩)
  refine ⟨τ, h1, h2.other, ?_⟩
  intro j k l hb
  have ex : Agree (at' τ .bx)
      (fun j k l => (at' σ .bx j k l + (-1) * ckcY q (at' σ .ez) j k l) + ckcZ q (at' σ .ey) j k l) j k l := by
    intro a b c ha hb' hc
    rw [at', h2.x, if_pos (hb a b c ha hb' hc).1]
    simp only [add_den, sub_den, ckcDy_den, ckcDz_den, rd_den, I3.sh, add_zero, at']
    ring
  have ey : Agree (at' τ .by')
      (fun j k l => (at' σ .by' j k l + (-1) * ckcZ q (at' σ .ex) j k l) + ckcX q (at' σ .ez) j k l) j k l := by
    intro a b c ha hb' hc
    rw [at', h2.y, if_pos (hb a b c ha hb' hc).2.1]
    simp only [add_den, sub_den, ckcDx_den, ckcDz_den, rd_den, I3.sh, add_zero, at']
    ring
  have ez : Agree (at' τ .bz)
      (fun j k l => (at' σ .bz j k l + (-1) * ckcX q (at' σ .ey) j k l) + ckcY q (at' σ .ex) j k l) j k l := by
    intro a b c ha hb' hc
    rw [at', h2.z, if_pos (hb a b c ha hb' hc).2.2]
    simp only [add_den, sub_den, ckcDx_den, ckcDy_den, rd_den, I3.sh, add_zero, at']
    ring
  have cx := fun L (hL : Small L) => conv_congr hL ex
  have cy := fun L (hL : Small L) => conv_congr hL ey
  have cz := fun L (hL : Small L) => conv_congr hL ez
  unfold divBckc
  simp only [ckcX, ckcY, ckcZ, starX_conv, starY_conv, starZ_conv] at cx cy cz ⊢
  rw [cx _ (small_lX _ _ _ _), cy _ (small_lY _ _ _ _), cz _ (small_lZ _ _ _ _)]
  have lin : ∀ L (g h f : ℤ → ℤ → ℤ → ℝ), conv L (fun j k l => (g j k l + (-1) * h j k l) + f j k l) j k l
      = conv L g j k l - conv L h j k l + conv L f j k l := by
    intro L g h f
    rw [conv_add L (fun j k l => g j k l + (-1) * h j k l) f]
    have := conv_lin L 1 (-1) g h j k l
    simp only [one_mul] at this
    rw [this]
    ring
  rw [lin, lin, lin]
  rw [conv_comm (lX _ _ _ _) (lY _ _ _ _), conv_comm (lX _ _ _ _) (lZ _ _ _ _), conv_comm (lY _ _ _ _) (lZ _ _ _ _)]
  ring

/-- **C44** The averaged differences are consistent: their weights add up to the plain difference coefficient. -/
theorem C44_ckc_consistent (u v w : ℝ) :
    let q := ckcCoefs u v w
    q.ax + 2 * q.bxy + 2 * q.bxz + 4 * q.gx = u ∧ q.ay + 2 * q.byx + 2 * q.byz + 4 * q.gy = v ∧
      q.az + 2 * q.bzx + 2 * q.bzy + 4 * q.gz = w := by
  simp only [ckcCoefs]
  refine ⟨?_, ?_, ?_⟩ <;> ring

/-- **C44** Cole-Karkkainen-Cowan solver in 2D. -/
theorem C44_ckc_2d (u w : ℝ) (r : Ranges) (o : Orders) (ho : o.Of r) (σ : Mem) (hm : Margins 0 σ r) :
    ∃ τ, bvecCkc2 u w o σ = .ok τ ∧ (∀ c, c ≠ .bx → c ≠ .by' → c ≠ .bz → τ c = σ c) ∧
      ∀ j l, (∀ a c : ℤ, |a| ≤ 1 → |c| ≤ 1 → InBox r.xlo r.xhi ⟨j + a, 0, l + c⟩ ∧ InBox r.zlo r.zhi ⟨j + a, 0, l + c⟩) →
        divBckc2 (ckc2Coefs u w) τ j l = divBckc2 (ckc2Coefs u w) σ j l := by
  set q := ckc2Coefs u w with hq
  obtain ⟨mx, my, mz⟩ := hm
  obtain ⟨τ, h1, h2⟩ := three_ok (σ := σ) ho (cx := .bx) (cy := .by') (cz := .bz)
    (rx := .rd .bx 0 0 0 + ckc2Dz q .ey) (ry := .rd .by' 0 0 0 + ckc2Dx q .ez - ckc2Dz q .ex)
    (rz := .rd .bz 0 0 0 - ckc2Dx q .ey)
    (by decide) (by decide) (by decide) (by simp [ckc2Dz]) (by simp [ckc2Dx, ckc2Dz]) (by simp [ckc2Dx])
    (by simp [ckc2Dx, ckc2Dz]) (by simp [ckc2Dx])
    (fun i hi => by
      refine ⟨?_, margin_in (by norm_num) mx hi _⟩
      simp only [ckc2Dz, add_safe, sub_safe, mul_safe, cst_safe, rd_safe, true_and]
      repeat' first | (apply margin_sh mx hi <;> norm_num) | apply And.intro)
    (fun i hi => by
      refine ⟨?_, margin_in (by norm_num) my hi _⟩
      simp only [ckc2Dz, ckc2Dx, add_safe, sub_safe, mul_safe, cst_safe, rd_safe, true_and]
      repeat' first | (apply margin_sh my hi <;> norm_num) | apply And.intro)
    (fun i hi => by
      refine ⟨?_, margin_in (by norm_num) mz hi _⟩
      simp only [ckc2Dx, add_safe, sub_safe, mul_safe, cst_safe, rd_safe, true_and]
      repeat' first | (apply margin_sh mz hi <;> norm_num) | apply And.intro)
  refine ⟨τ, h1, h2.other, ?_⟩
  intro j l hb
  have pt : ∀ a c : ℤ, |a| ≤ 1 → |c| ≤ 1 →
      at' τ .bx (j + a) 0 (l + c) = at' σ .bx (j + a) 0 (l + c) + starZ q.az q.bzx 0 0 (at' σ .ey) (j + a) 0 (l + c) ∧
      at' τ .bz (j + a) 0 (l + c) = at' σ .bz (j + a) 0 (l + c) - starX q.ax 0 q.bxz 0 (at' σ .ey) (j + a) 0 (l + c) := by
    intro a c ha hc
    obtain ⟨b1, b2⟩ := hb a c ha hc
    constructor
    · rw [at', h2.x, if_pos b1]
      simp only [add_den, ckc2Dz_den, rd_den, I3.sh, add_zero, at']
    · rw [at', h2.z, if_pos b2]
      simp only [sub_den, ckc2Dx_den, rd_den, I3.sh, add_zero, at']
  have p00 := pt 0 0 (by norm_num) (by norm_num)
  have p01 := pt 0 1 (by norm_num) (by norm_num)
  have p0m := pt 0 (-1) (by norm_num) (by norm_num)
  have p10 := pt 1 0 (by norm_num) (by norm_num)
  have p11 := pt 1 1 (by norm_num) (by norm_num)
  have p1m := pt 1 (-1) (by norm_num) (by norm_num)
  have pm0 := pt (-1) 0 (by norm_num) (by norm_num)
  have pm1 := pt (-1) 1 (by norm_num) (by norm_num)
  simp only [add_zero] at p00 p01 p0m p10 p11 p1m pm0 pm1
  have eX : starX q.ax 0 q.bxz 0 (at' τ .bx) j 0 l = starX q.ax 0 q.bxz 0 (at' σ .bx) j 0 l +
      starX q.ax 0 q.bxz 0 (starZ q.az q.bzx 0 0 (at' σ .ey)) j 0 l := by
    simp only [starX, zero_mul, add_zero]
    rw [p00.1, p01.1, p0m.1, p10.1, p11.1, p1m.1]
    ring
  have eZ : starZ q.az q.bzx 0 0 (at' τ .bz) j 0 l = starZ q.az q.bzx 0 0 (at' σ .bz) j 0 l -
      starZ q.az q.bzx 0 0 (starX q.ax 0 q.bxz 0 (at' σ .ey)) j 0 l := by
    simp only [starZ, zero_mul, add_zero]
    rw [p00.2, p01.2, p10.2, p11.2, pm0.2, pm1.2]
    ring
  unfold divBckc2
  rw [eX, eZ]
  simp only [starX_conv, starZ_conv]
  rw [conv_comm (lX _ _ _ _) (lZ _ _ _ _)]
  ring

theorem C44_ckc_2d_consistent (u w : ℝ) :
    let q := ckc2Coefs u w
    q.ax + 2 * q.bxz = u ∧ q.az + 2 * q.bzx = w := by
  simp only [ckc2Coefs]
  refine ⟨?_, ?_⟩ <;> ring

example : BallUpdated 1 demoRange 2 2 2 := by
  intro a b c ha hb hc
  rw [abs_le] at ha hb hc
  unfold demoRange uniform InBox
  simp only
  omega

/-! ### C82: divergence cleaning -/

/-- **C82** The divergence-cleaning push of E adds a discrete gradient: it changes no magnetic push that follows. For every
state and every amount `a` of cleaning, the magnetic field after cleaning and a magnetic push is the one without cleaning,
at every point whose neighbourhood was cleaned. -/
theorem C82_cleaning_yee (dx dy dz dt a : ℝ) (r r' : Ranges) (o o' : Orders) (ho : o.Of r) (ho' : o'.Of r') (σ : Mem)
    (hm : Margins 1 σ r) (hm' : Margins 1 σ r') :
    ∃ τ σ' τ', evecF3 (a / dx) (a / dy) (a / dz) o σ = .ok τ ∧ bvec3 (dt / dx) (dt / dy) (dt / dz) o' σ = .ok σ' ∧
      bvec3 (dt / dx) (dt / dy) (dt / dz) o' τ = .ok τ' ∧
      ∀ j k l, BallUpdated 1 r j k l → at' τ' .bx j k l = at' σ' .bx j k l ∧ at' τ' .by' j k l = at' σ' .by' j k l ∧
        at' τ' .bz j k l = at' σ' .bz j k l := by
  obtain ⟨mx, my, mz⟩ := id hm
  obtain ⟨τ, h1, h2⟩ := three_ok (σ := σ) ho (cx := .ex) (cy := .ey) (cz := .ez)
    (rx := .rd .ex 0 0 0 + cst (a / dx) * (.rd .f 1 0 0 - .rd .f 0 0 0))
    (ry := .rd .ey 0 0 0 + cst (a / dy) * (.rd .f 0 1 0 - .rd .f 0 0 0))
    (rz := .rd .ez 0 0 0 + cst (a / dz) * (.rd .f 0 0 1 - .rd .f 0 0 0))
    (by decide) (by decide) (by decide) (by simp) (by simp) (by simp) (by simp) (by simp)
    (fun i hi => by
      refine ⟨?_, margin_in (by norm_num) mx hi _⟩
      simp only [add_safe, sub_safe, mul_safe, cst_safe, rd_safe, true_and]
      refine ⟨?_, ?_, ?_⟩ <;> apply margin_sh mx hi <;> norm_num)
    (fun i hi => by
      refine ⟨?_, margin_in (by norm_num) my hi _⟩
      simp only [add_safe, sub_safe, mul_safe, cst_safe, rd_safe, true_and]
      refine ⟨?_, ?_, ?_⟩ <;> apply margin_sh my hi <;> norm_num)
    (fun i hi => by
      refine ⟨?_, margin_in (by norm_num) mz hi _⟩
      simp only [add_safe, sub_safe, mul_safe, cst_safe, rd_safe, true_and]
      refine ⟨?_, ?_, ?_⟩ <;> apply margin_sh mz hi <;> norm_num)
  have hmτ : Margins 1 τ r' := by
    unfold Margins Margin at *
    simpa only [fun c => (h2.bounds c).1, fun c => (h2.bounds c).2] using hm'
  obtain ⟨σ', s1, s2⟩ := bvec3_ok (dtsdx := dt / dx) (dtsdy := dt / dy) (dtsdz := dt / dz) ho' hm'
  obtain ⟨τ', t1, t2⟩ := bvec3_ok (dtsdx := dt / dx) (dtsdy := dt / dy) (dtsdz := dt / dz) ho' hmτ
  refine ⟨τ, σ', τ', h1, s1, t1, ?_⟩
  intro j k l hb
  have ox := h2.other .bx (by decide) (by decide) (by decide)
  have oy := h2.other .by' (by decide) (by decide) (by decide)
  have oz := h2.other .bz (by decide) (by decide) (by decide)
  have b0 := hb 0 0 0 (by norm_num) (by norm_num) (by norm_num)
  have b1 := hb 1 0 0 (by norm_num) (by norm_num) (by norm_num)
  have b2 := hb 0 1 0 (by norm_num) (by norm_num) (by norm_num)
  have b3 := hb 0 0 1 (by norm_num) (by norm_num) (by norm_num)
  simp only [add_zero] at b0 b1 b2 b3
  unfold at'
  refine ⟨?_, ?_, ?_⟩
  · rw [s2.x, t2.x, ox]
    split_ifs
    · simp only [bx3, add_den, sub_den, mul_den, cst_den, rd_den, I3.sh, add_zero, ox]
      rw [h2.z, h2.z, h2.y, h2.y, if_pos b2.2.2, if_pos b0.2.2, if_pos b3.2.1, if_pos b0.2.1]
      simp only [add_den, sub_den, mul_den, cst_den, rd_den, I3.sh, add_zero]
      ring
    · rfl
  · rw [s2.y, t2.y, oy]
    split_ifs
    · simp only [by3, add_den, sub_den, mul_den, cst_den, rd_den, I3.sh, add_zero, oy]
      rw [h2.z, h2.z, h2.x, h2.x, if_pos b1.2.2, if_pos b0.2.2, if_pos b3.1, if_pos b0.1]
      simp only [add_den, sub_den, mul_den, cst_den, rd_den, I3.sh, add_zero]
      ring
    · rfl
  · rw [s2.z, t2.z, oz]
    split_ifs
    · simp only [bz3, add_den, sub_den, mul_den, cst_den, rd_den, I3.sh, add_zero, oz]
      rw [h2.y, h2.y, h2.x, h2.x, if_pos b1.2.1, if_pos b0.2.1, if_pos b2.1, if_pos b0.1]
      simp only [add_den, sub_den, mul_den, cst_den, rd_den, I3.sh, add_zero]
      ring
    · rfl

theorem ckcCoefs_scale (s u v w : ℝ) (hs : 0 < s) :
    let q := ckcCoefs u v w
    ckcCoefs (s * u) (s * v) (s * w) =
      ⟨s * q.ax, s * q.ay, s * q.az, s * q.bxy, s * q.bxz, s * q.byx, s * q.byz, s * q.bzx, s * q.bzy,
        s * q.gx, s * q.gy, s * q.gz⟩ := by
  have hd : max (max (s * u) (s * v)) (s * w) = s * max (max u v) w := by
    rw [mul_max_of_nonneg _ _ hs.le, mul_max_of_nonneg _ _ hs.le]
  simp only [ckcCoefs]
  rw [hd, mul_div_mul_left _ _ hs.ne', mul_div_mul_left _ _ hs.ne', mul_div_mul_left _ _ hs.ne']
  congr 1 <;> ring

/-- **C82** The same for the Cole-Karkkainen-Cowan solver (with the time steps of the two pushes in any ratio `s > 0`). -/
theorem C82_cleaning_ckc (u v w s : ℝ) (hs : 0 < s) (r r' : Ranges) (o o' : Orders) (ho : o.Of r) (ho' : o'.Of r') (σ : Mem)
    (hm : Margins 1 σ r) (hm' : Margins 1 σ r') :
    ∃ τ σ' τ', evecFCkc (s * u) (s * v) (s * w) o σ = .ok τ ∧ bvecCkc u v w o' σ = .ok σ' ∧ bvecCkc u v w o' τ = .ok τ' ∧
      ∀ j k l, BallUpdated 1 r j k l → at' τ' .bx j k l = at' σ' .bx j k l ∧ at' τ' .by' j k l = at' σ' .by' j k l ∧
        at' τ' .bz j k l = at' σ' .bz j k l := by
  set q := ckcCoefs u v w with hq
  set p := ckcCoefs (s * u) (s * v) (s * w) with hp
  obtain ⟨mx, my, mz⟩ := id hm
  obtain ⟨τ, h1, h2⟩ := three_ok (σ := σ) ho (cx := .ex) (cy := .ey) (cz := .ez)
    (rx := .rd .ex 0 0 0 + ckcDx p .f) (ry := .rd .ey 0 0 0 + ckcDy p .f) (rz := .rd .ez 0 0 0 + ckcDz p .f)
    (by decide) (by decide) (by decide) (by simp [ckcDx]) (by simp [ckcDy]) (by simp [ckcDz]) (by simp [ckcDy])
    (by simp [ckcDz])
    (fun i hi => by
      refine ⟨?_, margin_in (by norm_num) mx hi _⟩
      simp only [add_safe, rd_safe]
      exact ⟨by apply margin_sh mx hi <;> norm_num, (ckcSafe mx hi p _).1⟩)
    (fun i hi => by
      refine ⟨?_, margin_in (by norm_num) my hi _⟩
      simp only [add_safe, rd_safe]
      exact ⟨by apply margin_sh my hi <;> norm_num, (ckcSafe my hi p _).2.1⟩)
    (fun i hi => by
      refine ⟨?_, margin_in (by norm_num) mz hi _⟩
      simp only [add_safe, rd_safe]
      exact ⟨by apply margin_sh mz hi <;> norm_num, (ckcSafe mz hi p _).2.2⟩)
  have hmτ : Margins 1 τ r' := by
    unfold Margins Margin at *
    simpa only [fun c => (h2.bounds c).1, fun c => (h2.bounds c).2] using hm'
  have push : ∀ ρ : Mem, Margins 1 ρ r' → ∃ ρ', bvecCkc u v w o' ρ = .ok ρ' ∧
      ThreeRes .bx .by' .bz (.rd .bx 0 0 0 - ckcDy q .ez + ckcDz q .ey) (.rd .by' 0 0 0 + ckcDx q .ez - ckcDz q .ex)
        (.rd .bz 0 0 0 - ckcDx q .ey + ckcDy q .ex) r' ρ ρ' := by
    rintro ρ ⟨mx, my, mz⟩
    exact three_ok ho' (by decide) (by decide) (by decide) (by simp [ckcDy, ckcDz]) (by simp [ckcDx, ckcDz])
      (by simp [ckcDx, ckcDy]) (by simp [ckcDx, ckcDz]) (by simp [ckcDx, ckcDy])
      (fun i hi => by
        refine ⟨?_, margin_in (by norm_num) mx hi _⟩
        simp only [add_safe, sub_safe, rd_safe]
        exact ⟨⟨by apply margin_sh mx hi <;> norm_num, (ckcSafe mx hi q _).2.1⟩, (ckcSafe mx hi q _).2.2⟩)
      (fun i hi => by
        refine ⟨?_, margin_in (by norm_num) my hi _⟩
        simp only [add_safe, sub_safe, rd_safe]
        exact ⟨⟨by apply margin_sh my hi <;> norm_num, (ckcSafe my hi q _).1⟩, (ckcSafe my hi q _).2.2⟩)
      (fun i hi => by
        refine ⟨?_, margin_in (by norm_num) mz hi _⟩
        simp only [add_safe, sub_safe, rd_safe]
        exact ⟨⟨by apply margin_sh mz hi <;> norm_num, (ckcSafe mz hi q _).1⟩, (ckcSafe mz hi q _).2.1⟩)
  obtain ⟨σ', s1, s2⟩ := push σ hm'
  obtain ⟨τ', t1, t2⟩ := push τ hmτ
  refine ⟨τ, σ', τ', h1, s1, t1, ?_⟩
  intro j k l hb
  have scale := ckcCoefs_scale s u v w hs
  rw [← hp, ← hq] at scale
  simp only at scale
  have ex : Agree (at' τ .ex)
      (fun j k l => 1 * at' σ .ex j k l + s * ckcX q (at' σ .f) j k l) j k l := by
    intro a b c ha hb' hc
    rw [at', h2.x, if_pos (hb a b c ha hb' hc).1, scale]
    simp only [add_den, ckcDx_den, rd_den, I3.sh, add_zero, at', ckcX, starX]
    ring
  have ey : Agree (at' τ .ey)
      (fun j k l => 1 * at' σ .ey j k l + s * ckcY q (at' σ .f) j k l) j k l := by
    intro a b c ha hb' hc
    rw [at', h2.y, if_pos (hb a b c ha hb' hc).2.1, scale]
    simp only [add_den, ckcDy_den, rd_den, I3.sh, add_zero, at', ckcY, starY]
    ring
  have ez : Agree (at' τ .ez)
      (fun j k l => 1 * at' σ .ez j k l + s * ckcZ q (at' σ .f) j k l) j k l := by
    intro a b c ha hb' hc
    rw [at', h2.z, if_pos (hb a b c ha hb' hc).2.2, scale]
    simp only [add_den, ckcDz_den, rd_den, I3.sh, add_zero, at', ckcZ, starZ]
    ring
  have ox := h2.other .bx (by decide) (by decide) (by decide)
  have oy := h2.other .by' (by decide) (by decide) (by decide)
  have oz := h2.other .bz (by decide) (by decide) (by decide)
  have cx := fun L (hL : Small L) => conv_congr hL ex
  have cy := fun L (hL : Small L) => conv_congr hL ey
  have cz := fun L (hL : Small L) => conv_congr hL ez
  simp only [ckcX, ckcY, ckcZ, starX_conv, starY_conv, starZ_conv] at cx cy cz
  unfold at'
  refine ⟨?_, ?_, ?_⟩
  · rw [s2.x, t2.x, ox]
    split_ifs
    · simp only [add_den, sub_den, rd_den, ckcDy_den, ckcDz_den, ckcY, ckcZ, starY_conv, starZ_conv, ox]
      rw [cz _ (small_lY _ _ _ _), cy _ (small_lZ _ _ _ _), conv_lin, conv_lin,
        conv_comm (lY _ _ _ _) (lZ _ _ _ _)]
      ring
    · rfl
  · rw [s2.y, t2.y, oy]
    split_ifs
    · simp only [add_den, sub_den, rd_den, ckcDx_den, ckcDz_den, ckcX, ckcZ, starX_conv, starZ_conv, oy]
      rw [cz _ (small_lX _ _ _ _), cx _ (small_lZ _ _ _ _), conv_lin, conv_lin,
        conv_comm (lX _ _ _ _) (lZ _ _ _ _)]
      ring
    · rfl
  · rw [s2.z, t2.z, oz]
    split_ifs
    · simp only [add_den, sub_den, rd_den, ckcDx_den, ckcDy_den, ckcX, ckcY, starX_conv, starY_conv, oz]
      rw [cy _ (small_lX _ _ _ _), cx _ (small_lY _ _ _ _), conv_lin, conv_lin,
        conv_comm (lX _ _ _ _) (lY _ _ _ _)]
      ring
    · rfl

end Picsar.Props
