import Verif.Lemmas.DivDiag
import Verif.Props.Maxwell

/-
C101: the divergence diagnostics.
-/
namespace Picsar.Props
open Picsar Picsar.Grid Picsar.Energy Picsar.DivDiag Picsar.Maxwell Picsar.Spec

/-- C101, divergence of E and of J. For every order of execution of its loop, `calc_field_div` stays inside arrays with at least one
guard cell, changes no other array, and stores the discrete divergence at every node `0..n` (the points of the files) and nothing
elsewhere. -/
theorem C101_div (dx dy dz : ℝ) (hx : dx ≠ 0) (hy : dy ≠ 0) (hz : dz ≠ 0) (n g : I3) (hg : 1 ≤ g.j ∧ 1 ≤ g.k ∧ 1 ≤ g.l) (σ : Mem)
    (hd : Declared σ n g) (order : List I3) (ho : order.Perm (divRange n)) :
    (∃ τ, calcFieldDiv .ex .ey .ez dx dy dz order σ = .ok τ ∧ (∀ c, c ≠ .f → τ c = σ c) ∧
      ∀ i, (τ .f).val i = if InBox ⟨0, 0, 0⟩ n i then divE dx dy dz σ i.j i.k i.l else (σ .f).val i) ∧
    ∃ τ, calcFieldDiv .jx .jy .jz dx dy dz order σ = .ok τ ∧ (∀ c, c ≠ .f → τ c = σ c) ∧
      ∀ i, (τ .f).val i = if InBox ⟨0, 0, 0⟩ n i then divJ dx dy dz σ i.j i.k i.l else (σ .f).val i :=
  div_values dx dy dz hx hy hz n g hg σ hd order ho

/-- Arrays of 2×2×2 cells with two guard cells meet the hypotheses. -/
example : ∃ σ : Mem, Declared σ ⟨2, 2, 2⟩ ⟨2, 2, 2⟩ ∧ (σ .ex).val ⟨1, 1, 1⟩ = 3 :=
  ⟨fun _ => ⟨⟨-2, -2, -2⟩, ⟨4, 4, 4⟩, fun i => 3 * i.j⟩, fun _ => ⟨rfl, rfl⟩, by norm_num⟩

/-- C101, refuted in two dimensions, where the arrays have no guard cells in y: the loop reads `ey(j, -1, l)`. -/
theorem C101_flat_refuted (dx dy dz : ℝ) (hx : dx ≠ 0) (hy : dy ≠ 0) (hz : dz ≠ 0) (n g : I3) (hn : 0 ≤ n.j ∧ 0 ≤ n.k ∧ 0 ≤ n.l) (hg : g.k = 0) (σ : Mem)
    (hd : Declared σ n g) (order : List I3) (ho : order.Perm (divRange n)) :
    calcFieldDiv .ex .ey .ez dx dy dz order σ = .error .outOfBounds := by
  unfold calcFieldDiv
  rw [if_neg (by simp [hx, hy, hz])]
  apply loop_oob
  refine ⟨⟨0, 0, 0⟩, ho.mem_iff.mpr (mem_box.mpr ⟨le_rfl, hn.1, le_rfl, hn.2.1, le_rfl, hn.2.2⟩), ?_⟩
  simp only [divEx, add_safe, sub_safe, mul_safe, cst_safe, rd_safe, true_and]
  rintro ⟨⟨-, -, h⟩, -⟩
  rw [(hd .ey).1] at h
  unfold InBox I3.sh at h
  simp only [] at h
  omega

/-- C101, divergence of B. It is stored at the cells `1..n` (the cells whose divergence the solver keeps, C44); the points of the file
with an index 0 are missing, see below. -/
theorem C101_divB_partial (dx dy dz : ℝ) (hx : dx ≠ 0) (hy : dy ≠ 0) (hz : dz ≠ 0) (n g : I3) (hg : 1 ≤ g.j ∧ 1 ≤ g.k ∧ 1 ≤ g.l) (σ : Mem)
    (hd : Declared σ n g) (order : List I3) (ho : order.Perm (divBRange n)) :
    ∃ τ, calcFieldDivB dx dy dz order σ = .ok τ ∧ (∀ c, c ≠ .f → τ c = σ c) ∧
      ∀ i, (τ .f).val i = if InBox ⟨1, 1, 1⟩ n i then divB dx dy dz σ i.j i.k i.l else (σ .f).val i := by
  have h : calcFieldDivB dx dy dz order σ = .ok (after σ .f (divBEx (1 / dx) (1 / dy) (1 / dz)) ⟨1, 1, 1⟩ n) := by
    unfold calcFieldDivB
    rw [if_neg (by simp [hx, hy, hz])]
    refine loop_box ?_ ho fun i hi => ?_
    · simp [divBEx]
    · unfold InBox at hi
      simp only [] at hi
      have hin : ∀ c a b d, 0 ≤ a → a ≤ 1 → 0 ≤ b → b ≤ 1 → 0 ≤ d → d ≤ 1 → InBox (σ c).lo (σ c).hi (i.sh a b d) := by
        intro c a b d a1 a2 b1 b2 d1 d2
        rw [(hd c).1, (hd c).2]
        unfold InBox I3.sh
        simp only []
        omega
      refine ⟨?_, ?_⟩
      · simp only [divBEx, add_safe, sub_safe, mul_safe, cst_safe, rd_safe, true_and]
        refine ⟨⟨⟨?_, ?_⟩, ?_, ?_⟩, ?_, ?_⟩ <;> apply hin <;> norm_num
      · have := hin .f 0 0 0 le_rfl (by norm_num) le_rfl (by norm_num) le_rfl (by norm_num)
        simpa [I3.sh] using this
  refine ⟨_, h, fun c hc => after_of_ne _ _ _ _ hc, fun i => ?_⟩
  rw [after_val]
  congr 1
  simp only [divBEx, add_den, sub_den, mul_den, cst_den, rd_den, I3.sh, divB, at', add_zero]
  ring

/-- C101, refuted for the points of the divB file with an index 0: the array `divb` has no initial value, and whatever it contains there
remains, for every field B. -/
theorem C101_divB_refuted (dx dy dz : ℝ) (hx : dx ≠ 0) (hy : dy ≠ 0) (hz : dz ≠ 0) (n g : I3) (hg : 1 ≤ g.j ∧ 1 ≤ g.k ∧ 1 ≤ g.l) (σ : Mem)
    (hd : Declared σ n g) (order : List I3) (ho : order.Perm (divBRange n)) (garbage : I3 → ℝ) (i : I3) (hi : i.j = 0 ∨ i.k = 0 ∨ i.l = 0) :
    ∃ τ, calcFieldDivB dx dy dz order (Function.update σ .f { σ .f with val := garbage }) = .ok τ ∧ (τ .f).val i = garbage i := by
  have hd' : Declared (Function.update σ .f { σ .f with val := garbage }) n g := by
    intro c
    by_cases e : c = .f
    · subst e
      rw [Function.update_self]
      exact hd .f
    · rw [Function.update_of_ne e]
      exact hd c
  obtain ⟨τ, e, -, h⟩ := C101_divB_partial dx dy dz hx hy hz n g hg _ hd' order ho
  refine ⟨τ, e, ?_⟩
  rw [h i, if_neg, Function.update_self]
  unfold InBox
  simp only []
  omega

/-! ### Norms -/

/-- C101, Gauss's law. `N` cells are divided among `P.j × P.k × P.l` processes as at start-up (C52), and every process holds the global
fields and the global charge density on its points. The value of the diagnostic is the norm of `eps0 div E - rho` over the points
`1..N` of the global grid, whatever the decomposition, the order of the processes and of their loops, and it is 0 exactly if Gauss's
law holds at all these points. -/
theorem C101_gauss (eps0 dx dy dz : ℝ) (hx : dx ≠ 0) (hy : dy ≠ 0) (hz : dz ≠ 0) (P N g : I3) (hg : 1 ≤ g.j ∧ 1 ≤ g.k ∧ 1 ≤ g.l)
    (lx ux ly uy lz uz : ℤ → ℤ) (h1 : Topology.SplitsEvenly P.j N.j lx ux) (h2 : Topology.SplitsEvenly P.k N.k ly uy)
    (h3 : Topology.SplitsEvenly P.l N.l lz uz) (F : Comp → I3 → ℝ) (R : I3 → ℝ) (p : I3 → Proc)
    (hp : ∀ c, InBox ⟨1, 1, 1⟩ P c → (p c).n = ⟨ux c.j - lx c.j + 1, uy c.k - ly c.k + 1, uz c.l - lz c.l + 1⟩ ∧
      Declared (p c).σ (p c).n g ∧
      ((p c).rho.lo = ⟨-g.j, -g.k, -g.l⟩ ∧ (p c).rho.hi = ⟨(p c).n.j + g.j, (p c).n.k + g.k, (p c).n.l + g.l⟩) ∧
      (p c).order.Perm (divRange (p c).n) ∧ HoldsGlobal (p c) ⟨lx c.j, ly c.k, lz c.l⟩ F R)
    (ranks : List I3) (hr : ranks.Perm (box ⟨1, 1, 1⟩ P)) :
    ∃ v, gaussNorm eps0 dx dy dz (ranks.map p) = .ok v ∧
      v = √(boxSum ⟨1, 1, 1⟩ N fun i => (eps0 * divG dx dy dz F i - R i) ^ 2) ∧
      (v = 0 ↔ ∀ i, InBox ⟨1, 1, 1⟩ N i → eps0 * divG dx dy dz F i = R i) := by
  set f : I3 → ℝ := fun i => (eps0 * divG dx dy dz F i - R i) ^ 2 with hf
  have one : ∀ c ∈ ranks, (p c).gauss eps0 dx dy dz =
      .ok (boxSum ⟨lx c.j + 1, ly c.k + 1, lz c.l + 1⟩ ⟨ux c.j + 1, uy c.k + 1, uz c.l + 1⟩ f) := by
    intro c hc
    obtain ⟨e, a1, a2, a3, a4⟩ := hp c (mem_box.mp (hr.mem_iff.mp hc))
    rw [gauss_proc hx hy hz hg a1 a2 a3 a4, e]
    congr 3 <;> simp only [] <;> ring
  have tot : allreduce ((ranks.map p).map (Proc.gauss eps0 dx dy dz)) = .ok (boxSum ⟨1, 1, 1⟩ N f) := by
    rw [List.map_map]
    refine (allreduce_ok ranks one).trans ?_
    rw [(hr.map _).sum_eq, box_sum, boxSum_split 1 h1 h2 h3 f]
    simp only [sub_add_cancel]
  refine ⟨√(boxSum ⟨1, 1, 1⟩ N f), ?_, rfl, ?_⟩
  · unfold gaussNorm
    rw [tot]
    rfl
  · rw [Real.sqrt_eq_zero (boxSum_nonneg fun i => sq_nonneg _), boxSum_eq_zero fun i => sq_nonneg _]
    refine forall₂_congr fun i _ => ?_
    rw [sq_eq_zero_iff, sub_eq_zero]

/-- C101, the norms of `rho` and of `div E`: the sum of squares over the points `1..n` of all processes, under the root. -/
theorem C101_array_norm (ps : List (Arr × I3)) (hb : ∀ p ∈ ps, ∀ i, InBox ⟨1, 1, 1⟩ p.2 i → InBox p.1.lo p.1.hi i) :
    arrayNorm ps = .ok (√((ps.map fun p => boxSum ⟨1, 1, 1⟩ p.2 fun i => p.1.val i ^ 2).sum)) := by
  unfold arrayNorm
  rw [allreduce_ok (h := fun p => boxSum ⟨1, 1, 1⟩ p.2 fun i => p.1.val i ^ 2)]
  · rfl
  · intro p hp
    unfold locNorm2
    rw [foldlM_pure (h := fun i => p.1.val i ^ 2), zero_add, box_sum]
    intro i hi s
    have e1 : p.1.get i = .ok (p.1.val i) := if_pos (hb p hp i (mem_box.mp hi))
    rw [e1]
    rfl

/-- C101, Gauss's law is kept. A step of the Yee solver and the current of a deposition that satisfies the continuity equation leave the
contribution of the process to the diagnostic unchanged; the charge density before and after is `rho0` and `rho1`. -/
theorem C101_gauss_kept (dx dy dz dt c mu0 eps0 : ℝ) (hx : dx ≠ 0) (hy : dy ≠ 0) (hz : dz ≠ 0) (hdt : dt ≠ 0) (hc : eps0 * mu0 * c ^ 2 = 1)
    (r : Ranges) (o : Orders) (ho : o.Of r) (n g : I3) (hg : 1 ≤ g.j ∧ 1 ≤ g.k ∧ 1 ≤ g.l) (σ : Mem) (hd : Declared σ n g)
    (hm : Margins 1 σ r) (hu : ∀ i, InBox ⟨1, 1, 1⟩ n i → NodeUpdated r i.j i.k i.l) (rho0 rho1 : Arr)
    (b0 : rho0.lo = ⟨-g.j, -g.k, -g.l⟩ ∧ rho0.hi = ⟨n.j + g.j, n.k + g.k, n.l + g.l⟩)
    (b1 : rho1.lo = ⟨-g.j, -g.k, -g.l⟩ ∧ rho1.hi = ⟨n.j + g.j, n.k + g.k, n.l + g.l⟩)
    (cont : ∀ i, InBox ⟨1, 1, 1⟩ n i → (rho1.val i - rho0.val i) / dt + divJ dx dy dz σ i.j i.k i.l = 0)
    (o0 o1 : List I3) (ho0 : o0.Perm (divRange n)) (ho1 : o1.Perm (divRange n)) :
    ∃ τ v, evec3 (c ^ 2 * mu0 * dt) (c ^ 2 * dt / dx) (c ^ 2 * dt / dy) (c ^ 2 * dt / dz) o σ = .ok τ ∧
      Proc.gauss eps0 dx dy dz ⟨σ, rho0, n, o0⟩ = .ok v ∧ Proc.gauss eps0 dx dy dz ⟨τ, rho1, n, o1⟩ = .ok v := by
  obtain ⟨τ, e, -, h⟩ := C45_yee_3d dx dy dz dt c mu0 eps0 hdt hc r o ho σ hm
  have he : eps0 ≠ 0 := by rintro rfl; simp at hc
  have hd' : Declared τ n g := fun q => by
    obtain ⟨τ', e', h'⟩ := evec3_ok (mudt := c ^ 2 * mu0 * dt) (dtsdx := c ^ 2 * dt / dx) (dtsdy := c ^ 2 * dt / dy)
      (dtsdz := c ^ 2 * dt / dz) ho hm
    rw [e] at e'
    rw [Except.ok.inj e', (h'.bounds q).1, (h'.bounds q).2]
    exact hd q
  refine ⟨τ, _, e, gauss_local hx hy hz hg hd b0 ho0, ?_⟩
  rw [gauss_local hx hy hz hg hd' b1 ho1]
  congr 1
  apply boxSum_congr
  intro i hi
  have := h _ _ _ _ _ (hu i hi) (cont i hi)
  have k : divE dx dy dz τ i.j i.k i.l * eps0 - rho1.val i = divE dx dy dz σ i.j i.k i.l * eps0 - rho0.val i := by
    field_simp at this
    linarith
  rw [k]

/-- 2×2×2 cells with two guard cells, `E` and `J` linear, and a charge density with the continuity equation. -/
example : ∃ (σ : Mem) (rho0 rho1 : Arr), Declared σ ⟨2, 2, 2⟩ ⟨2, 2, 2⟩ ∧ Margins 1 σ (uniform ⟨0, 0, 0⟩ ⟨2, 2, 2⟩) ∧
    (∀ i, InBox ⟨1, 1, 1⟩ ⟨2, 2, 2⟩ i → NodeUpdated (uniform ⟨0, 0, 0⟩ ⟨2, 2, 2⟩) i.j i.k i.l) ∧
    (∀ i : I3, (rho1.val i - rho0.val i) / 1 + divJ 1 1 1 σ i.j i.k i.l = 0) ∧ rho1.val ⟨1, 1, 1⟩ ≠ rho0.val ⟨1, 1, 1⟩ := by
  refine ⟨fun _ => ⟨⟨-2, -2, -2⟩, ⟨4, 4, 4⟩, fun i => i.j + i.k + i.l⟩, ⟨⟨-2, -2, -2⟩, ⟨4, 4, 4⟩, fun _ => 3⟩,
    ⟨⟨-2, -2, -2⟩, ⟨4, 4, 4⟩, fun _ => 0⟩, fun _ => ⟨rfl, rfl⟩, ⟨fun c => ?_, fun c => ?_, fun c => ?_⟩, ?_, ?_, by norm_num⟩
  · simp [uniform]
  · simp [uniform]
  · simp [uniform]
  · intro i hi
    unfold NodeUpdated uniform InBox at *
    simp only [] at *
    omega
  · intro i
    simp only [divJ, at']
    push_cast
    ring

/-- The hypotheses of C101_gauss are met: 4×2×2 cells on two processes, with a field of constant divergence 3. -/
example : ∃ (lx ux l1 u1 : ℤ → ℤ) (F : Comp → I3 → ℝ) (R : I3 → ℝ) (p : I3 → Proc),
    Topology.SplitsEvenly 2 4 lx ux ∧ Topology.SplitsEvenly 1 2 l1 u1 ∧
    (∀ c, InBox ⟨1, 1, 1⟩ ⟨2, 1, 1⟩ c → (p c).n = ⟨ux c.j - lx c.j + 1, u1 c.k - l1 c.k + 1, u1 c.l - l1 c.l + 1⟩ ∧
      Declared (p c).σ (p c).n ⟨2, 2, 2⟩ ∧
      ((p c).rho.lo = ⟨-2, -2, -2⟩ ∧ (p c).rho.hi = ⟨(p c).n.j + 2, (p c).n.k + 2, (p c).n.l + 2⟩) ∧
      (p c).order.Perm (divRange (p c).n) ∧ HoldsGlobal (p c) ⟨lx c.j, l1 c.k, l1 c.l⟩ F R) ∧
    ∀ i, divG 1 1 1 F i = 3 := by
  have hx : Topology.SplitsEvenly 2 4 (fun i => 2 * (i - 1)) (fun i => 2 * i - 1) := by
    refine ⟨by norm_num, by norm_num, fun i _ _ => by ring, ?_, ?_, ?_, ?_⟩
    · intro c h0 h1
      refine ⟨c / 2 + 1, ⟨⟨by omega, by omega⟩, by simp only []; omega, by simp only []; omega⟩, ?_⟩
      rintro i ⟨⟨-, -⟩, h2, h3⟩
      simp only [] at h2 h3
      omega
    · intro i c h1 h2 h3 h4
      simp only [] at h3 h4
      omega
    · intro i k _ _ _ _
      simp only []
      omega
    · intro _ i _ _
      simp only []
      omega
  have h1 : Topology.SplitsEvenly 1 2 (fun i => 2 * (i - 1)) (fun i => 2 * i - 1) := by
    refine ⟨by norm_num, by norm_num, fun i _ _ => by ring, ?_, ?_, ?_, ?_⟩
    · intro c h0 h1
      refine ⟨1, ⟨⟨by omega, by omega⟩, by simp only []; omega, by simp only []; omega⟩, ?_⟩
      rintro i ⟨⟨-, -⟩, h2, h3⟩
      simp only [] at h2 h3
      omega
    · intro i c h1 h2 h3 h4
      simp only [] at h3 h4
      omega
    · intro i k _ _ _ _
      simp only []
      omega
    · intro _ i _ _
      simp only []
      omega
  refine ⟨_, _, _, _, fun _ i => i.j + i.k + i.l, fun i => i.j,
    fun c => ⟨fun _ => ⟨⟨-2, -2, -2⟩, ⟨4, 4, 4⟩, fun i => (2 * (c.j - 1) + i.j : ℤ) + (2 * (c.k - 1) + i.k : ℤ) + (2 * (c.l - 1) + i.l : ℤ)⟩,
      ⟨⟨-2, -2, -2⟩, ⟨4, 4, 4⟩, fun i => (2 * (c.j - 1) + i.j : ℤ)⟩, ⟨2, 2, 2⟩, divRange ⟨2, 2, 2⟩⟩, hx, h1, fun c hc => ?_, fun i => ?_⟩
  · refine ⟨?_, fun _ => ⟨rfl, rfl⟩, ⟨rfl, rfl⟩, List.Perm.refl _, fun i _ => ⟨fun _ => rfl, rfl⟩⟩
    simp only [I3.mk.injEq]
    refine ⟨?_, ?_, ?_⟩ <;> ring
  · unfold divG
    push_cast
    ring

end Picsar.Props
