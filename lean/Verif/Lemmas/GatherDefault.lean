import Verif.Lemmas.GatherSym
import Verif.Lemmas.GatherSum

/-
The unrolled routines compute the tensor-product stencil.
-/
namespace Picsar.Gather
open Picsar Picsar.Grid Picsar.Deposition Picsar.Spec

theorem wts_keys {m : ℕ} (ξ : ℝ) : (wts m ξ).map (·.1) = rngN m := by
  unfold wts rngN
  split <;> simp

theorem axis_keys {c : Cfg} (hn : Order c.n) (st : Bool) (x : ℝ) : (axisWts c st x).map (·.1) = rng c.n c.lower st := by
  obtain ⟨n, lower, nodal⟩ := c
  dsimp only at hn
  unfold axisWts rng wts0
  cases st <;> cases lower <;> simp only [Bool.false_eq_true, if_false, if_true, Bool.and_self, Bool.and_true, Bool.and_false, wts_keys]
  rcases hn with rfl | rfl | rfl <;> simp [wts_keys]

theorem yWts_keys {o : Opts} (hn : o.d2 = true ∨ Order o.ny) (st : Bool) (y : ℝ) :
    (yWts o.cy o.d2 st y).map (·.1) = yrng o.ny o.lower o.d2 st := by
  unfold yWts yrng
  by_cases h : o.d2 = true
  · rw [if_pos h, if_pos h]; rfl
  · rw [if_neg h, if_neg h]; exact axis_keys (c := o.cy) (hn.resolve_left h) st y

theorem rng_nodup (n : ℕ) (lower st : Bool) : (rng n lower st).Nodup := by
  have h : ∀ n, (rngN n).Nodup := by
    intro n; unfold rngN; split <;> decide
  unfold rng
  split_ifs
  · decide
  · exact h _
  · exact List.nodup_nil
  · exact h _

theorem yrng_nodup (n : ℕ) (lower d2 st : Bool) : (yrng n lower d2 st).Nodup := by
  unfold yrng; split_ifs
  · decide
  · exact rng_nodup _ _ _

/-- Weight found under a key. -/
noncomputable def look (ws : List (ℤ × ℝ)) (i : ℤ) : ℝ := (ws.find? (fun w => w.1 == i)).elim 0 (·.2)

theorem find_of_mem {ws : List (ℤ × ℝ)} {i : ℤ} (h : i ∈ ws.map (·.1)) : ∃ w, ws.find? (fun w => w.1 == i) = some w := by
  obtain ⟨w, hw, rfl⟩ := List.mem_map.mp h
  rw [← Option.isSome_iff_exists, List.find?_isSome]
  exact ⟨w, hw, by simp⟩

theorem look_mem : ∀ {ws : List (ℤ × ℝ)}, (ws.map (·.1)).Nodup → ∀ w ∈ ws, look ws w.1 = w.2 := by
  intro ws
  induction ws with
  | nil => intro _ w hw; exact absurd hw (by simp)
  | cons u ws ih =>
    intro hnd w hw
    simp only [List.map_cons, List.nodup_cons] at hnd
    unfold look
    rcases List.mem_cons.mp hw with rfl | hw'
    · simp
    · have : u.1 ≠ w.1 := by
        intro e
        exact hnd.1 (e ▸ List.mem_map.mpr ⟨w, hw', rfl⟩)
      rw [List.find?_cons_of_neg (by simpa using this)]
      exact ih hnd.2 w hw'

theorem sum_keys {ws : List (ℤ × ℝ)} {ks : List ℤ} (hk : ws.map (·.1) = ks) (hnd : ks.Nodup) (F : ℤ → ℝ → ℝ) :
    (ks.map fun i => F i (look ws i)).sum = (ws.map fun w => F w.1 w.2).sum := by
  subst hk
  rw [List.map_map]
  congr 1
  refine List.map_congr_left fun w hw => ?_
  simp only [Function.comp]
  rw [look_mem hnd w hw]

/-- Same order in the three directions. -/
structure Same (o : Opts) (n : ℕ) : Prop where
  x : o.nx = n
  y : o.ny = n
  z : o.nz = n

theorem Same.orders {o : Opts} {n : ℕ} (h : Same o n) (hn : Order n) : Orders o := by
  refine ⟨?_, Or.inr ?_, ?_⟩
  · rw [h.x]; exact hn
  · rw [h.y]; exact hn
  · rw [h.z]; exact hn

theorem keys_ax {o : Opts} {n : ℕ} (h : Same o n) (hn : Order n) (p : Pos) (ax : Ax) (st : Bool) :
    ((genv o p).wts ax st).map (·.1) = match ax with
      | .y => yrng n o.lower o.d2 st
      | _ => rng n o.lower st := by
  cases ax
  · exact h.x ▸ axis_keys (c := o.cx) (show Order o.nx from h.x ▸ hn) st p.x
  · exact h.y ▸ yWts_keys (o := o) (Or.inr (h.y ▸ hn)) st p.y
  · exact h.z ▸ axis_keys (c := o.cz) (show Order o.nz from h.z ▸ hn) st p.z

theorem sh_ok {v : GEnv} {s : Sh} (h : s.i ∈ (v.wts s.ax s.st).map (·.1)) : v.sh s = .ok (shv v s) := by
  obtain ⟨w, hw⟩ := find_of_mem h
  unfold GEnv.sh shv
  rw [hw]
  rfl

theorem shv_look (v : GEnv) (ax : Ax) (st : Bool) (i : ℤ) : shv v ⟨ax, st, i⟩ = look (v.wts ax st) i := rfl

theorem mok_of_ok {o : Opts} {n : ℕ} (h : Same o n) (hn : Order n) {σ : Mem} {p : Pos} (hf : Fits o σ p) (m : Mono)
    (hq : IsField m.q) (hm : okMono n o.lower o.d2 m = true) : MOk σ (genv o p) m := by
  unfold okMono at hm
  simp only [Bool.and_eq_true, List.all_eq_true, beq_iff_eq, List.contains_iff_mem] at hm
  obtain ⟨⟨⟨h1, hx1, hx2⟩, hy1, hy2⟩, hz1, hz2⟩ := hm
  refine ⟨fun s hs => sh_ok ?_, ?_⟩
  · rw [keys_ax h hn]
    have := h1 s hs
    cases hax : s.ax <;> rw [hax] at this <;> simpa using this
  · have kx := keys_ax h hn p .x m.x.1
    have ky := keys_ax h hn p .y (stag m.q).2.1
    have kz := keys_ax h hn p .z m.z.1
    simp only at kx ky kz
    rw [← kx] at hx2
    rw [← kz] at hz2
    have hy3 : m.y.2 ∈ ((genv o p).wts .y (stag m.q).2.1).map (·.1) := by
      rw [ky]
      rw [hy1] at hy2
      unfold yrng yst at *
      by_cases hd : o.d2 = true
      · rw [if_pos hd] at hy2 ⊢; exact hy2
      · rw [if_neg hd, if_neg hd] at hy2; rw [if_neg hd]; exact hy2
    obtain ⟨wx, hwx, ex⟩ := List.mem_map.mp hx2
    obtain ⟨wy, hwy, ey⟩ := List.mem_map.mp hy3
    obtain ⟨wz, hwz, ez⟩ := List.mem_map.mp hz2
    rw [hx1] at hwx
    rw [hz1] at hwz
    have := hf m.q hq _ (mem_terms.mpr ⟨wz, hwz, wy, hwy, wx, hwx, rfl⟩)
    dsimp only at this
    have e : m.idx (genv o p) = ⟨base o.cx (stag m.q).1 p.x + wx.1, yBase o.cy o.d2 (stag m.q).2.1 p.y + wy.1,
        base o.cz (stag m.q).2.2 p.z + wz.1⟩ := by
      unfold Mono.idx
      rw [ex, ey, ez, hx1, hz1, hy1]
      simp only [genv, I3.mk.injEq, add_left_inj, true_and, and_true]
      unfold yBase yst
      by_cases hd : o.d2 = true
      · simp [hd]
      · simp [hd]
    rw [e]
    exact this

/-- Product of the factors written in one direction. -/
theorem fac_prod {o : Opts} {n : ℕ} (h : Same o n) (p : Pos) (ax : Ax) (hax : ax ≠ .y ∨ o.d2 = false) (st : Bool)
    {i : ℤ} (hi : i ∈ rng n o.lower st) :
    ((fac n o.lower o.d2 ax st i).map (shv (genv o p))).prod = look ((genv o p).wts ax st) i := by
  unfold fac
  split_ifs with hc
  · simp only [Bool.and_eq_true, Bool.not_eq_true', beq_iff_eq] at hc
    obtain ⟨⟨⟨h1, h2⟩, h3⟩, h4⟩ := hc
    subst h3 h4
    have hi0 : i = 0 := by simpa [rng, h2] using hi
    subst hi0
    have e : ∀ c : Cfg, c.n = 1 → c.lower = true → ∀ x, look (axisWts c true x) 0 = 1 := by
      rintro ⟨n, lower, nodal⟩ rfl rfl x
      simp [look, axisWts, wts0]
    simp only [List.map_nil, List.prod_nil]
    cases ax
    · exact (e o.cx h.x h2 _).symm
    · have := e o.cy h.y h2 p.y
      simp only [genv, yWts, h1, Bool.false_eq_true, if_false]
      exact this.symm
    · exact (e o.cz h.z h2 _).symm
  · simp [shv_look]

theorem yfac_prod {o : Opts} {n : ℕ} (h : Same o n) (p : Pos) (st : Bool) {i : ℤ} (hi : i ∈ yrng n o.lower o.d2 st) :
    ((yfac n o.lower o.d2 st i).map (shv (genv o p))).prod = look ((genv o p).wts .y st) i := by
  unfold yfac
  unfold yrng at hi
  by_cases hd : o.d2 = true
  · rw [if_pos hd] at hi ⊢
    simp only [List.mem_cons, List.not_mem_nil, or_false] at hi
    subst hi
    simp [genv, yWts, hd, look]
  · rw [if_neg hd] at hi ⊢
    exact fac_prod h p .y (Or.inr (by simpa using hd)) st hi

theorem sum_congr_mem {α : Type} (l : List α) {f g : α → ℝ} (h : ∀ a ∈ l, f a = g a) : (l.map f).sum = (l.map g).sum := by
  rw [List.map_congr_left h]

theorem stencil_pval {o : Opts} {n : ℕ} (h : Same o n) (hn : Order n) (σ : Mem) (p : Pos) (q : Comp) :
    pval σ (genv o p) (stencil n o.lower o.d2 q) = gsum o (σ q).val q p := by
  have kx := keys_ax h hn p .x (stag q).1
  have ky := keys_ax h hn p .y (stag q).2.1
  have kz := keys_ax h hn p .z (stag q).2.2
  change (axisWts o.cx (stag q).1 p.x).map (·.1) = rng n o.lower (stag q).1 at kx
  change (yWts o.cy o.d2 (stag q).2.1 p.y).map (·.1) = yrng n o.lower o.d2 (stag q).2.1 at ky
  change (axisWts o.cz (stag q).2.2 p.z).map (·.1) = rng n o.lower (stag q).2.2 at kz
  unfold pval stencil gsum terms
  rw [sum_map_flatMap, sum_map_flatMap]
  rw [← show _ = _ from sum_keys kz (rng_nodup _ _ _) (fun i w => ((((yWts o.cy o.d2 (stag q).2.1 p.y).flatMap fun wy =>
    (axisWts o.cx (stag q).1 p.x).map fun wx =>
      ((⟨base o.cx (stag q).1 p.x + wx.1, yBase o.cy o.d2 (stag q).2.1 p.y + wy.1, base o.cz (stag q).2.2 p.z + i⟩ : I3),
        wx.2 * wy.2 * w))).map fun e => e.2 * (σ q).val e.1).sum)]
  refine sum_congr_mem _ fun c hc => ?_
  rw [sum_map_flatMap, sum_map_flatMap]
  rw [← show _ = _ from sum_keys ky (yrng_nodup _ _ _ _) (fun i w => (((axisWts o.cx (stag q).1 p.x).map fun wx =>
      ((⟨base o.cx (stag q).1 p.x + wx.1, yBase o.cy o.d2 (stag q).2.1 p.y + i, base o.cz (stag q).2.2 p.z + c⟩ : I3),
        wx.2 * w * look (axisWts o.cz (stag q).2.2 p.z) c)).map fun e => e.2 * (σ q).val e.1).sum)]
  refine sum_congr_mem _ fun b hb => ?_
  rw [List.map_map, List.map_map]
  refine Eq.trans ?_ (sum_keys kx (rng_nodup _ _ _) (fun i w =>
      (w * look (yWts o.cy o.d2 (stag q).2.1 p.y) b * look (axisWts o.cz (stag q).2.2 p.z) c) *
      (σ q).val ⟨base o.cx (stag q).1 p.x + i, yBase o.cy o.d2 (stag q).2.1 p.y + b, base o.cz (stag q).2.2 p.z + c⟩))
  refine sum_congr_mem _ fun a ha => ?_
  simp only [Function.comp, mval, List.map_append, List.prod_append]
  rw [fac_prod h p .x (Or.inl (by simp)) _ ha, yfac_prod h p _ hb, fac_prod h p .z (Or.inl (by simp)) _ hc]
  change look (axisWts o.cx (stag q).1 p.x) a * look (yWts o.cy o.d2 (stag q).2.1 p.y) b * look (axisWts o.cz (stag q).2.2 p.z) c * _ = _
  congr 1
  unfold Mono.idx
  congr 1
  simp only [genv, I3.mk.injEq, add_left_inj, true_and, and_true]
  unfold yBase yst
  by_cases hd : o.d2 = true
  · simp [hd]
  · simp [hd]

/-! ### The transcribed programs -/

/-- Check of a field reference. -/
def okField (m : Mono) : Bool := isField m.q

/-- Terms of the program, all of them in the range of the stencils. -/
def symProg (n : ℕ) (lower d2 : Bool) : Option Acc :=
  GStmt.sym (fun m => okField m && okMono n lower d2 m) (defaultProg n lower d2) none {}

/-- The program accumulates the stencils of the given components. -/
def isStencil (n : ℕ) (lower d2 : Bool) (qs : List Comp) : Bool :=
  match symProg n lower d2 with
  | some t => qs.all fun q => (t.get q).isPerm (stencil n lower d2 q)
  | none => false

theorem stencil_3d_1 (lower : Bool) : isStencil 1 lower false comps = true := by cases lower <;> decide +kernel
theorem stencil_3d_2 (lower : Bool) : isStencil 2 lower false comps = true := by cases lower <;> decide +kernel
theorem stencil_3d_3 (lower : Bool) : isStencil 3 lower false comps = true := by cases lower <;> decide +kernel
theorem stencil_2d_1 : isStencil 1 true true comps = true := by decide +kernel
theorem stencil_2d_2 : isStencil 2 true true comps = true := by decide +kernel
theorem stencil_2d_3 : isStencil 3 true true comps = true := by decide +kernel
theorem stencil_2d_e1 : isStencil 1 false true [.ex, .ey, .ez] = true := by decide +kernel
theorem stencil_2d_e2 : isStencil 2 false true [.ex, .ey, .ez] = true := by decide +kernel

theorem isField_iff {q : Comp} : isField q = true ↔ IsField q := by
  unfold IsField; cases q <;> simp [isField]

theorem pval_perm {σ : Mem} {v : GEnv} {l m : List Mono} (h : l.Perm m) : pval σ v l = pval σ v m := by
  unfold pval; exact (h.map _).sum_eq

/-- A program that accumulates the stencils gathers the weighted sums. -/
theorem run_stencil {o : Opts} {n : ℕ} (h : Same o n) (hn : Order n) {σ : Mem} {p : Pos} (hf : Fits o σ p) {qs : List Comp}
    (hs : isStencil n o.lower o.d2 qs = true) (a : ℝ) (out : Comp → ℝ) :
    ∃ r, GStmt.run σ (genv o p) (defaultProg n o.lower o.d2) a out = .ok r ∧
      (∀ q ∈ qs, r q = out q + gsum o (σ q).val q p) ∧ ∀ q, ¬ IsField q → r q = out q := by
  unfold isStencil symProg at hs
  split at hs
  · rename_i t ht
    rw [List.all_eq_true] at hs
    refine ⟨_, run_sym (ok := fun m => okField m && okMono n o.lower o.d2 m) ?_ out _ none a {} t out (by simp) ?_ ht, ?_, ?_⟩
    · intro m hm
      rw [Bool.and_eq_true] at hm
      exact mok_of_ok h hn hf m (isField_iff.mp hm.1) hm.2
    · intro q
      cases q <;> simp [Acc.get, pval]
    · intro q hq
      rw [pval_perm (List.isPerm_iff.mp (hs q hq)), stencil_pval h hn]
    · intro q hq
      cases q <;> simp [IsField] at hq <;> simp [Acc.get, pval]
  · exact absurd hs (by simp)

/-- All six components at once. -/
theorem run_stencil_all {o : Opts} {n : ℕ} (h : Same o n) (hn : Order n) {σ : Mem} {p : Pos} (hf : Fits o σ p)
    (hs : isStencil n o.lower o.d2 comps = true) (a : ℝ) (out : Comp → ℝ) :
    GStmt.run σ (genv o p) (defaultProg n o.lower o.d2) a out = .ok (gathered o σ p out) := by
  obtain ⟨r, h1, h2, h3⟩ := run_stencil h hn hf hs a out
  rw [h1]
  congr 1
  funext q
  unfold gathered
  by_cases hq : q ∈ comps
  · rw [if_pos hq, h2 q hq]
  · rw [if_neg hq, h3 q (fun h' => hq (mem_comps.mpr h'))]

end Picsar.Gather
