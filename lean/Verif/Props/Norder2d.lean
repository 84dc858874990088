import Verif.Model.Norder2d
import Verif.Props.MaxwellN

/-
C83: arbitrary-order 2D push.
-/
namespace Picsar.Props
open Picsar Picsar.Grid Picsar.Maxwell Picsar.Spec

/-- Divergence of B in cell `(j,l)` with the full-order differences. -/
noncomputable def divB2N (p : NOrder) (σ : Mem) (j l : ℤ) : ℝ :=
  fwdN (p.ox / 2) p.cx p.ist (fun a => at' σ .bx a 0 l) j + fwdN (p.oz / 2) p.cz p.ist (fun a => at' σ .bz j 0 a) l

/-- **C83** refuted for OpenMP builds: whatever the fields and the order, a 2D push with a non-empty grid reads the private,
never assigned `k`. -/
theorem C83_openmp_refuted (p : NOrder) (nxs nzs : ℤ) (o : ℤ → Orders) (σ : Mem) (hx : -nxs ≤ p.nx + nxs)
    (hz : -nzs ≤ p.nz + nzs) : bvec2N true p nxs nzs o σ = .error .uninitialised := by
  unfold bvec2N privateCopy
  simp [hx, hz]

/-- **C83** for builds without OpenMP: with enough guard cells for the stencil (`nxs + norderx/2 ≤ nxguards`) the push stays inside
the arrays and keeps the divergence of B. -/
theorem C83_serial_partial (p : NOrder) (hist : p.ist = 0 ∨ p.ist = 1) (nxs nzs : ℤ) (hgx : nxs + (p.ox / 2 : ℕ) ≤ p.gx)
    (hgz : nzs + (p.oz / 2 : ℕ) ≤ p.gz) (hgy : 0 ≤ p.gy) (hny : 0 ≤ p.ny) (o : ℤ → Orders)
    (ho : (o 0).Of (range2 p.nx p.nz nxs nzs 0)) (σ : Mem) (ha : NOrder.Arrays p σ) :
    ∃ τ, bvec2N false p nxs nzs o σ = .ok τ ∧ (∀ c, c ≠ .bx → c ≠ .by' → c ≠ .bz → τ c = σ c) ∧
      ∀ j l, (∀ a : ℤ, |a| ≤ p.ox / 2 → -nxs ≤ j + a ∧ j + a ≤ p.nx + nxs) →
        (∀ a : ℤ, |a| ≤ p.oz / 2 → -nzs ≤ l + a ∧ l + a ≤ p.nz + nzs) → divB2N p τ j l = divB2N p σ j l := by
  have sx : ∀ (w : ℕ → ℝ) (c : Comp) (i : I3), InBox ⟨-nxs, 0, -nzs⟩ ⟨p.nx + nxs, 0, p.nz + nzs⟩ i →
      (Ex.sum (fun _ => p.ox / 2) (fun (m : ℕ) => cst (w m) * (.rd c m 0 0 - .rd c (-m + p.ist) 0 0))).Safe σ i := by
    rintro w c i ⟨b1, b2, b3, b4, b5, b6⟩
    obtain ⟨l, h⟩ := ha c
    rw [sum_safe]
    intro m hm
    simp only at b1 b2 b3 b4 b5 b6
    simp only [sub_safe, mul_safe, cst_safe, rd_safe, true_and, l, h, InBox, I3.sh]
    omega
  have sz : ∀ (w : ℕ → ℝ) (c : Comp) (i : I3), InBox ⟨-nxs, 0, -nzs⟩ ⟨p.nx + nxs, 0, p.nz + nzs⟩ i →
      (Ex.sum (fun _ => p.oz / 2) (fun (m : ℕ) => cst (w m) * (.rd c 0 0 m - .rd c 0 0 (-m + p.ist)))).Safe σ i := by
    rintro w c i ⟨b1, b2, b3, b4, b5, b6⟩
    obtain ⟨l, h⟩ := ha c
    rw [sum_safe]
    intro m hm
    simp only at b1 b2 b3 b4 b5 b6
    simp only [sub_safe, mul_safe, cst_safe, rd_safe, true_and, l, h, InBox, I3.sh]
    omega
  have inA : ∀ i : I3, InBox ⟨-nxs, 0, -nzs⟩ ⟨p.nx + nxs, 0, p.nz + nzs⟩ i →
      InBox ⟨-p.gx, -p.gy, -p.gz⟩ ⟨p.nx + p.gx, p.ny + p.gy, p.nz + p.gz⟩ i := by
    rintro i ⟨b1, b2, b3, b4, b5, b6⟩
    simp only at b1 b2 b3 b4 b5 b6
    simp only [InBox]
    omega
  obtain ⟨τ, h1, h2⟩ := three_ok (σ := σ) ho (cx := .bx) (cy := .by') (cz := .bz)
    (rx := .rd .bx 0 0 0 + .sum (fun _ => p.oz / 2) (fun (i : ℕ) => cst (p.cz i) * (.rd .ey 0 0 i - .rd .ey 0 0 (-i + p.ist))))
    (ry := .rd .by' 0 0 0 + .sum (fun _ => p.ox / 2) (fun (i : ℕ) => cst (p.cx i) * (.rd .ez i 0 0 - .rd .ez (-i + p.ist) 0 0))
        - .sum (fun _ => p.oz / 2) (fun (i : ℕ) => cst (p.cz i) * (.rd .ex 0 0 i - .rd .ex 0 0 (-i + p.ist))))
    (rz := .rd .bz 0 0 0 - .sum (fun _ => p.ox / 2) (fun (i : ℕ) => cst (p.cx i) * (.rd .ey i 0 0 - .rd .ey (-i + p.ist) 0 0)))
    (by decide) (by decide) (by decide) (by simp) (by simp) (by simp) (by simp) (by simp)
    (fun i hi => ⟨⟨(rdSafe ha (inA i hi) _).1, sz _ _ i hi⟩, (rdSafe ha (inA i hi) _).2⟩)
    (fun i hi => ⟨⟨⟨(rdSafe ha (inA i hi) _).1, sx _ _ i hi⟩, sz _ _ i hi⟩, (rdSafe ha (inA i hi) _).2⟩)
    (fun i hi => ⟨⟨(rdSafe ha (inA i hi) _).1, sx _ _ i hi⟩, (rdSafe ha (inA i hi) _).2⟩)
  refine ⟨τ, h1, h2.other, ?_⟩
  intro j l hj hl
  have sumx : ∀ (c : Comp) (j l : ℤ), (Ex.sum (fun _ => p.ox / 2)
      (fun (m : ℕ) => cst (p.cx m) * (.rd c m 0 0 - .rd c (-m + p.ist) 0 0))).den σ ⟨j, 0, l⟩
      = fwdN (p.ox / 2) p.cx p.ist (fun a => at' σ c a 0 l) j := by
    intro c j l
    rw [sum_den, fwdN, sum_Icc_one]
    refine Finset.sum_congr rfl fun m _ => ?_
    simp only [mul_den, sub_den, cst_den, rd_den, I3.sh, add_zero, at']
    rw [← add_assoc, ← sub_eq_add_neg]
  have sumz : ∀ (c : Comp) (j l : ℤ), (Ex.sum (fun _ => p.oz / 2)
      (fun (m : ℕ) => cst (p.cz m) * (.rd c 0 0 m - .rd c 0 0 (-m + p.ist)))).den σ ⟨j, 0, l⟩
      = fwdN (p.oz / 2) p.cz p.ist (fun a => at' σ c j 0 a) l := by
    intro c j l
    rw [sum_den, fwdN, sum_Icc_one]
    refine Finset.sum_congr rfl fun m _ => ?_
    simp only [mul_den, sub_den, cst_den, rd_den, I3.sh, add_zero, at']
    rw [← add_assoc, ← sub_eq_add_neg]
  have j0 := hj 0 (by simp only [abs_zero]; omega)
  have l0 := hl 0 (by simp only [abs_zero]; omega)
  have e1 : fwdN (p.ox / 2) p.cx p.ist (fun a => at' τ .bx a 0 l) j = fwdN (p.ox / 2) p.cx p.ist (fun a => 1 * at' σ .bx a 0 l
      + 1 * fwdN (p.oz / 2) p.cz p.ist (fun b => at' σ .ey a 0 b) l + 0 * at' σ .bx a 0 l) j := by
    refine fwdN_congr le_rfl hist fun a ha' => ?_
    have hb : InBox (range2 p.nx p.nz nxs nzs 0).xlo (range2 p.nx p.nz nxs nzs 0).xhi ⟨j + a, 0, l⟩ := by
      have := hj a (by push_cast at ha'; exact ha')
      simp only [range2, InBox]
      omega
    rw [at', h2.x, if_pos hb]
    simp only [add_den, rd_den, I3.sh, add_zero, sumz]
    rw [at']
    ring
  have e2 : fwdN (p.oz / 2) p.cz p.ist (fun a => at' τ .bz j 0 a) l = fwdN (p.oz / 2) p.cz p.ist (fun b => 1 * at' σ .bz j 0 b
      + (-1) * fwdN (p.ox / 2) p.cx p.ist (fun a => at' σ .ey a 0 b) j + 0 * at' σ .bx j 0 b) l := by
    refine fwdN_congr le_rfl hist fun a ha' => ?_
    have hb : InBox (range2 p.nx p.nz nxs nzs 0).zlo (range2 p.nx p.nz nxs nzs 0).zhi ⟨j, 0, l + a⟩ := by
      have := hl a (by push_cast at ha'; exact ha')
      simp only [range2, InBox]
      omega
    rw [at', h2.z, if_pos hb]
    simp only [sub_den, rd_den, I3.sh, add_zero, sumx]
    rw [at']
    ring
  unfold divB2N
  rw [e1, e2, fwdN_lin, fwdN_lin]
  have c2 := fwdN_comm (p.ox / 2) (p.oz / 2) p.cx p.cz p.ist p.ist (fun a b => at' σ .ey a 0 b) j l
  linear_combination c2

/-- **C83** refuted for small guard regions: unlike the 3D routine, the 2D routine does not shorten the stencil near the ends of
the arrays. Whenever `nzs + norderz/2 > nzguards` it reads outside the arrays, in every order of execution. -/
theorem C83_guard_refuted (p : NOrder) (nxs nzs : ℤ) (hx : -nxs ≤ p.nx + nxs) (hz : -nzs ≤ p.nz + nzs) (ho2 : 2 ≤ p.oz)
    (hg : p.gz < nzs + (p.oz / 2 : ℕ)) (o : ℤ → Orders) (ho : (o 0).Of (range2 p.nx p.nz nxs nzs 0)) (σ : Mem)
    (ha : NOrder.Arrays p σ) : bvec2N false p nxs nzs o σ = .error .outOfBounds := by
  unfold bvec2N privateCopy
  simp only [Bool.false_eq_true, if_false, three]
  rw [loop_oob]
  · rfl
  · refine ⟨⟨p.nx + nxs, 0, p.nz + nzs⟩, ho.1.mem_iff.mpr (mem_box.mpr ?_), ?_⟩
    · simp only [range2, InBox]
      omega
    · rintro ⟨_, h⟩
      rw [sum_safe] at h
      have := (h (p.oz / 2 - 1) (by omega)).2.1
      obtain ⟨l, h'⟩ := ha .ey
      have h2 : InBox (σ .ey).lo (σ .ey).hi _ := this
      rw [l, h'] at h2
      obtain ⟨_, _, _, _, _, h6⟩ := h2
      simp only [I3.sh] at h6
      omega

example : ∃ p : NOrder, p.ist = 1 ∧ p.ox = 4 ∧ (1 : ℤ) + (p.ox / 2 : ℕ) ≤ p.gx ∧ -(1 : ℤ) ≤ p.nx + 1 :=
  ⟨⟨8, 0, 8, 3, 3, 3, 4, 4, 4, 1, 1, 1, 1⟩, rfl, rfl, by norm_num, by norm_num⟩

end Picsar.Props
