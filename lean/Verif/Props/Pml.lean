import Verif.Lemmas.Pml
import Verif.Props.Topology
/-
C72: absorbing layers.
-/
namespace Picsar.Props
open Picsar Picsar.Grid Picsar.Pml

/-- C72, factors: on every process (cells `cmin` to `cmax` of `n`) the factors of E at local index `i` are the damping at the depth of node `cmin+i` in
the layers, those of B the damping at the depth of the midpoint, and one without absorption. No access is outside an array. -/
theorem C72_factors (P : Par) (h : P.Ok) (absorb : Bool) (cmin cmax : ℤ) (h0 : 0 ≤ cmin) (h1 : cmax < P.n) :
    ∃ e b : RArr, initPml P absorb (cmax - cmin + 1) cmin cmax = .ok (e, b) ∧
      (e.lo = -P.guards ∧ e.hi = cmax - cmin + 1 + P.guards - 1) ∧ (b.lo = -P.guards ∧ b.hi = cmax - cmin + 1 + P.guards - 1) ∧
      (∀ i, e.val i = if absorb then P.damping (P.depth (posE (cmin + i))) else 1) ∧
      ∀ i, b.val i = if absorb then P.damping (P.depth (posB (cmin + i))) else 1 := by
  obtain ⟨e, b, hs, ⟨e1, e2⟩, ⟨b1, b2⟩, v1, v2⟩ := sigma_ok h
  have hx : ∀ a : RArr, a.lo = -P.guards → a.hi = P.n + P.guards - 1 →
      extract P.guards (cmax - cmin + 1) cmin cmax a = .ok ⟨-P.guards, cmax - cmin + 1 + P.guards - 1, fun i => a.val (cmin + i)⟩ := by
    intro a l1 l2
    unfold extract
    rw [if_pos ⟨by omega, by omega, rfl⟩]
  unfold initPml
  rw [hs]
  simp only [except_bind_ok]
  rw [hx e e1 e2]
  simp only [except_bind_ok]
  rw [hx b b1 b2]
  simp only [except_bind_ok]
  refine ⟨_, _, rfl, ?_, ?_, fun i => ?_, fun i => ?_⟩
  · unfold factor; split_ifs <;> exact ⟨rfl, rfl⟩
  · unfold factor; split_ifs <;> exact ⟨rfl, rfl⟩
  · cases absorb
    · rfl
    · show Real.exp (-e.val (cmin + i) * P.dt) = P.damping _
      rw [v1, depthE]; rfl
  · cases absorb
    · rfl
    · show Real.exp (-b.val (cmin + i) * P.dt) = P.damping _
      rw [v2, depthB]; rfl

/-- C72, range: every damping factor lies in (0,1]; it is one exactly where the depth is zero. -/
theorem C72_range (P : Par) (h : P.Ok) (d : ℝ) : 0 < P.damping d ∧ P.damping d ≤ 1 ∧ (P.damping d = 1 ↔ d = 0) := by
  unfold Par.damping
  have hc := h.cdx; have ht := h.dt
  refine ⟨Real.exp_pos _, ?_, ?_⟩
  · rw [Real.exp_le_one_iff]
    have : 0 ≤ 4 / 25 * P.cdx * d ^ 2 * P.dt := by positivity
    linarith
  · rw [Real.exp_eq_one_iff]
    constructor
    · intro h0
      have h1 : d ^ 2 * (4 / 25 * P.cdx * P.dt) = 0 := by linarith
      have h2 : 4 / 25 * P.cdx * P.dt ≠ 0 := by positivity
      exact pow_eq_zero_iff (two_ne_zero) |>.mp ((mul_eq_zero.mp h1).resolve_right h2)
    · rintro rfl; ring

/-- C72, layers: the depth is zero exactly outside both layers. -/
theorem C72_layers (P : Par) (q : ℝ) : P.depth q = 0 ↔
    ¬ (P.upEdge < q ∧ q ≤ P.upEdge + P.pml) ∧ ¬ (P.lowEdge - P.pml ≤ q ∧ q < P.lowEdge) := by
  unfold Par.depth
  by_cases h1 : P.upEdge < q ∧ q ≤ P.upEdge + P.pml
  · rw [if_pos h1]
    exact ⟨fun e => absurd h1.1 (by linarith), fun k => absurd h1 k.1⟩
  rw [if_neg h1]
  by_cases h2 : P.lowEdge - P.pml ≤ q ∧ q < P.lowEdge
  · rw [if_pos h2]
    exact ⟨fun e => absurd h2.2 (by linarith), fun k => absurd h2 k.2⟩
  · rw [if_neg h2]
    exact ⟨fun _ => ⟨h1, h2⟩, fun _ => rfl⟩

/-- C72, the factors of a process are contracting. -/
theorem C72_contracting (P : Par) (h : P.Ok) (absorb : Bool) (cmin cmax : ℤ) (h0 : 0 ≤ cmin) (h1 : cmax < P.n) (e b : RArr)
    (he : initPml P absorb (cmax - cmin + 1) cmin cmax = .ok (e, b)) : Contracting e ∧ Contracting b := by
  obtain ⟨e', b', k, -, -, v1, v2⟩ := C72_factors P h absorb cmin cmax h0 h1
  rw [he] at k
  cases k
  refine ⟨fun i _ _ => ?_, fun i _ _ => ?_⟩
  · rw [v1]
    cases absorb
    · simp
    · exact ⟨(C72_range P h _).1, (C72_range P h _).2.1⟩
  · rw [v2]
    cases absorb
    · simp
    · exact ⟨(C72_range P h _).1, (C72_range P h _).2.1⟩

/-- Bounds of the six factor arrays, and contraction. -/
structure GoodFactors (F : Factors) (lo hi : I3) : Prop where
  xe : Contracting F.xe ∧ F.xe.lo ≤ lo.j ∧ hi.j ≤ F.xe.hi
  xb : Contracting F.xb ∧ F.xb.lo ≤ lo.j ∧ hi.j ≤ F.xb.hi
  ye : Contracting F.ye ∧ F.ye.lo ≤ lo.k ∧ hi.k ≤ F.ye.hi
  yb : Contracting F.yb ∧ F.yb.lo ≤ lo.k ∧ hi.k ≤ F.yb.hi
  ze : Contracting F.ze ∧ F.ze.lo ≤ lo.l ∧ hi.l ≤ F.ze.hi
  zb : Contracting F.zb ∧ F.zb.lo ≤ lo.l ∧ hi.l ≤ F.zb.hi

theorem goodFactor {F : Factors} {lo hi i : I3} (h : GoodFactors F lo hi) (hi' : InBox lo hi i) (c : Sc) :
    ∃ s, F.at c i = .ok s ∧ 0 < s ∧ s ≤ 1 := by
  have key : ∀ (a : RArr) (q l u : ℤ), Contracting a ∧ a.lo ≤ l ∧ u ≤ a.hi → l ≤ q → q ≤ u → ∃ s, a.get q = .ok s ∧ 0 < s ∧ s ≤ 1 := by
    rintro a q l u ⟨k, k1, k2⟩ q1 q2
    refine ⟨a.val q, ?_, k q (by omega) (by omega)⟩
    unfold RArr.get
    rw [if_pos ⟨by omega, by omega⟩]
  obtain ⟨i1, i2, i3, i4, i5, i6⟩ := hi'
  cases c
  · exact key _ _ _ _ h.ye i3 i4
  · exact key _ _ _ _ h.ze i5 i6
  · exact key _ _ _ _ h.xe i1 i2
  · exact key _ _ _ _ h.ze i5 i6
  · exact key _ _ _ _ h.xe i1 i2
  · exact key _ _ _ _ h.ye i3 i4
  · exact key _ _ _ _ h.yb i3 i4
  · exact key _ _ _ _ h.zb i5 i6
  · exact key _ _ _ _ h.xb i1 i2
  · exact key _ _ _ _ h.zb i5 i6
  · exact key _ _ _ _ h.xb i1 i2
  · exact key _ _ _ _ h.yb i3 i4

/-- C72, damping step, 3-D (`comps3`) and 2-D (`comps2`): for every order of the iterations nothing faults, every damped split component at every cell
of the loop is multiplied by its factor in (0,1] - so its magnitude does not increase, its sign does not change - and all else is unchanged. -/
theorem C72_damping_partial (cs : List Sc) (hc : cs = comps3 ∨ cs = comps2) (F : Factors) (lo hi : I3) (hF : GoodFactors F lo hi) (o : List I3) (ho : o.Perm (box lo hi))
    (m : Sc → Arr) (hm : ∀ c i, InBox lo hi i → InBox (m c).lo (m c).hi i) : ∃ m', damp cs F o m = .ok m' ∧
      (∀ c i, |(m' c).val i| ≤ |(m c).val i|) ∧
      (∀ c i, c ∈ cs → InBox lo hi i → ∃ s, F.at c i = .ok s ∧ (m' c).val i = s * (m c).val i) ∧
      ∀ c i, (c ∉ cs ∨ ¬ InBox lo hi i) → (m' c).val i = (m c).val i := by
  have hs : ∀ c i, ∃ s, InBox lo hi i → F.at c i = .ok s ∧ 0 < s ∧ s ≤ 1 := by
    intro c i
    by_cases hi' : InBox lo hi i
    · obtain ⟨s, k⟩ := goodFactor hF hi' c
      exact ⟨s, fun _ => k⟩
    · exact ⟨0, fun k => absurd k hi'⟩
  choose s hs using hs
  have hmem : ∀ i, i ∈ o ↔ InBox lo hi i := fun i => ho.mem_iff.trans mem_box
  obtain ⟨m', e, k⟩ := damp_ok (F := F) s cs (by rcases hc with rfl | rfl <;> decide) o m (ho.nodup_iff.mpr (nodup_box _ _)) fun i hi' c _ =>
    ⟨(hs c i ((hmem i).mp hi')).1, hm c i ((hmem i).mp hi')⟩
  refine ⟨m', e, fun c i => ?_, fun c i h1 h2 => ⟨s c i, (hs c i h2).1, ?_⟩, fun c i h1 => ?_⟩
  · rw [(k c).2.2]
    by_cases h1 : c ∈ cs ∧ i ∈ o
    · rw [if_pos h1, abs_mul]
      obtain ⟨-, p1, p2⟩ := hs c i ((hmem i).mp h1.2)
      rw [abs_of_pos p1]
      exact mul_le_of_le_one_left (abs_nonneg _) p2
    · rw [if_neg h1]
  · rw [(k c).2.2, if_pos ⟨h1, (hmem i).mpr h2⟩]
  · rw [(k c).2.2, if_neg]
    rintro ⟨a1, a2⟩
    rcases h1 with h1 | h1
    · exact h1 a1
    · exact h1 ((hmem i).mp a2)

/-- C72, false of the merged components: where the factors of the two directions differ there are fields for which a damping step increases the
magnitude of the merged component (from zero to a positive value), here `ex` with different factors along y and z. -/
theorem C72_merged_refuted (F : Factors) (lo hi : I3) (hF : GoodFactors F lo hi) (i : I3) (hi' : InBox lo hi i) (sy sz : ℝ) (h1 : F.at .exy i = .ok sy) (h2 : F.at .exz i = .ok sz)
    (hne : sy ≠ sz) : ∃ m m' : Sc → Arr, damp comps3 F (box lo hi) m = .ok m' ∧ merged m ⟨0, 0, 0⟩ i .ex = .ok 0 ∧ ∃ v, merged m' ⟨0, 0, 0⟩ i .ex = .ok v ∧ 0 < |v| := by
  let m : Sc → Arr := fun c => ⟨lo, hi, fun _ => if c = .exy then 1 else if c = .exz then -1 else 0⟩
  obtain ⟨m', e, -, k, -⟩ := C72_damping_partial comps3 (.inl rfl) F lo hi hF (box lo hi) (List.Perm.refl _) m fun c i h => h
  have hs : ∀ c i, ∃ s, InBox lo hi i → F.at c i = .ok s := by
    intro c i
    by_cases h : InBox lo hi i
    · obtain ⟨s, k, -⟩ := goodFactor hF h c
      exact ⟨s, fun _ => k⟩
    · exact ⟨0, fun k => absurd k h⟩
  choose s hs using hs
  obtain ⟨m'', e'', k''⟩ := damp_ok (F := F) s comps3 (by decide) (box lo hi) m (nodup_box _ _) fun i hi c _ => ⟨hs c i (mem_box.mp hi), mem_box.mp hi⟩
  have hb : ∀ c, (m' c).lo = lo ∧ (m' c).hi = hi := by
    have : m' = m'' := by rw [e] at e''; injection e''
    subst this
    exact fun c => ⟨(k'' c).1, (k'' c).2.1⟩
  have v1 : (m' .exy).val i = sy := by
    obtain ⟨s, hs, hv⟩ := k .exy i (by decide) hi'
    rw [h1] at hs; cases hs
    rw [hv]; simp [m]
  have v2 : (m' .exz).val i = -sz := by
    obtain ⟨s, hs, hv⟩ := k .exz i (by decide) hi'
    rw [h2] at hs; cases hs
    rw [hv]; simp [m]
  refine ⟨m, m', e, ?_, sy - sz, ?_, abs_pos.mpr (sub_ne_zero.mpr hne)⟩
  · unfold merged Arr.get
    simp only [add_zero, parts]
    rw [if_pos (show InBox (m .exy).lo (m .exy).hi ⟨i.j, i.k, i.l⟩ from hi'), if_pos (show InBox (m .exz).lo (m .exz).hi ⟨i.j, i.k, i.l⟩ from hi')]
    simp only [except_bind_ok]
    simp [m]
  · unfold merged Arr.get
    simp only [add_zero, parts]
    rw [(hb .exy).1, (hb .exy).2, (hb .exz).1, (hb .exz).2, if_pos (show InBox lo hi ⟨i.j, i.k, i.l⟩ from hi')]
    simp only [except_bind_ok]
    rw [show (⟨i.j, i.k, i.l⟩ : I3) = i from rfl, v1, v2, sub_eq_add_neg, if_pos hi']
    rfl

/-- C72, what remains true of a merged component: it stays below the sum of the magnitudes of its two parts, which does not increase. -/
theorem C72_merged_bound_partial (s t a b : ℝ) (hs : 0 < s ∧ s ≤ 1) (ht : 0 < t ∧ t ≤ 1) : |s * a + t * b| ≤ |s * a| + |t * b| ∧ |s * a| + |t * b| ≤ |a| + |b| := by
  refine ⟨abs_add_le _ _, ?_⟩
  rw [abs_mul, abs_mul, abs_of_pos hs.1, abs_of_pos ht.1]
  exact add_le_add (mul_le_of_le_one_left (abs_nonneg _) hs.2) (mul_le_of_le_one_left (abs_nonneg _) ht.2)

/-- C72, false for layers as thick as the domain with its guard cells: the thickness is not checked and the initialisation writes outside the arrays. -/
theorem C72_thick_layer_refuted (P : Par) (absorb : Bool) (nx cmin cmax : ℤ) (hg : 0 ≤ P.guards) (hs : 0 ≤ P.shift ∧ P.shift ≤ P.guards) (hn : 0 < P.n)
    (hp : P.n + P.guards + P.c ≤ P.pml) : initPml P absorb nx cmin cmax = .error .outOfBounds := by
  have hc : 0 ≤ P.c ∧ P.c ≤ P.guards := by unfold Par.c; split_ifs <;> omega
  have hset : ∀ (a : RArr) i v, (a.set i v = .error .outOfBounds) ∨ ∃ a', a.set i v = .ok a' ∧ a'.lo = a.lo ∧ a'.hi = a.hi := by
    intro a i v
    unfold RArr.set
    split_ifs
    · exact .inr ⟨_, rfl, rfl, rfl⟩
    · exact .inl rfl
  have hfold : ∀ (l : List ℤ) (s : RArr × RArr), (l.foldlM (lowStep P) s = .error .outOfBounds) ∨ ∃ s', l.foldlM (lowStep P) s = .ok s' ∧
      s'.1.lo = s.1.lo ∧ s'.2.lo = s.2.lo := by
    intro l
    induction l with
    | nil => intro s; exact .inr ⟨s, rfl, rfl, rfl⟩
    | cons i l ih =>
      rintro ⟨e, b⟩
      rw [List.foldlM_cons]
      have h1 : lowStep P (e, b) i = .error .outOfBounds ∨ ∃ s', lowStep P (e, b) i = .ok s' ∧ s'.1.lo = e.lo ∧ s'.2.lo = b.lo := by
        unfold lowStep
        dsimp only
        rcases hset e (i - P.c) (P.k * ((P.pml - i : ℤ) - 0) ^ 2) with h | ⟨a', h, l1, -⟩
        · rw [h]; exact .inl rfl
        rw [h]
        simp only [except_bind_ok]
        rcases hset b (i - P.c) (P.k * ((P.pml - i : ℤ) - 1 / 2) ^ 2) with h | ⟨b', h, l2, -⟩
        · rw [h]; exact .inl rfl
        rw [h]
        exact .inr ⟨_, rfl, l1, l2⟩
      rcases h1 with h | ⟨s', h, l1, l2⟩
      · rw [h]; exact .inl rfl
      rw [h]
      simp only [except_bind_ok]
      rcases ih s' with h' | ⟨s'', h', l3, l4⟩
      · exact .inl h'
      · exact .inr ⟨s'', h', l3.trans l1, l4.trans l2⟩
  have hsig : sigma P = .error .outOfBounds := by
    unfold sigma
    dsimp only
    rcases hfold (irange 0 (P.pml - 1)) (⟨-P.guards, P.n + P.guards - 1, fun _ => 0⟩, ⟨-P.guards, P.n + P.guards - 1, fun _ => 0⟩) with h | ⟨⟨e, b⟩, h, l1, l2⟩
    · rw [h]; rfl
    rw [h]
    simp only [except_bind_ok]
    dsimp only at l1 l2
    have hl : irange (P.n - P.pml) (P.n - 1) = (P.n - P.pml) :: (List.range (P.pml - 1).toNat).map fun (k : ℕ) => P.n - P.pml + 1 + k := by
      unfold irange
      rw [show (P.n - 1 - (P.n - P.pml) + 1).toNat = (P.pml - 1).toNat + 1 by omega, List.range_succ_eq_map, List.map_cons, List.map_map]
      congr 1
      · simp
      · apply List.map_congr_left
        intro k _
        simp only [Function.comp, Nat.succ_eq_add_one]
        push_cast
        ring
    rw [hl, List.foldlM_cons]
    have hup : upStep P (e, b) (P.n - P.pml) = .error .outOfBounds := by
      unfold upStep
      dsimp only
      rcases hset e (P.n - P.pml + P.c) (P.k * ((P.n - P.pml - (P.n - P.pml - 1) : ℤ) + 0) ^ 2) with h | ⟨a', h, -, -⟩
      · rw [h]; rfl
      rw [h]
      simp only [except_bind_ok]
      unfold RArr.set
      rw [if_neg (by omega)]
      rfl
    rw [hup]
    rfl
  unfold initPml
  rw [hsig]
  rfl

/-- Domain of 40 cells, four guard cells, layers of eight cells. -/
noncomputable def exPml : Par := ⟨4, 8, 0, 40, false, 1, 1 / 2⟩

theorem exPml_ok : exPml.Ok := by
  refine ⟨?_, ?_, ?_, ?_, ?_, ?_, ?_⟩ <;> norm_num [exPml, Par.c]

/-- Second of two processes (cells 20 to 39): factor one at its first cell, damping by a factor smaller than one at its last. -/
example : ∃ e b, initPml exPml true 20 20 39 = .ok (e, b) ∧ e.val 0 = 1 ∧ e.val 22 < 1 ∧ e.val 22 = Real.exp (-(4 / 25 * 7 ^ 2) * (1 / 2)) := by
  obtain ⟨e, b, h, -, -, v, -⟩ := C72_factors exPml exPml_ok true 20 39 (by norm_num) (by norm_num [exPml])
  have d0 : exPml.depth (posE (20 + 0)) = 0 := by
    rw [C72_layers]
    norm_num [exPml, Par.upEdge, Par.lowEdge, Par.reach, posE]
  have d1 : exPml.depth (posE (20 + 22)) = 7 := by
    unfold Par.depth
    rw [if_pos (by norm_num [exPml, Par.upEdge, Par.reach, posE])]
    norm_num [exPml, Par.upEdge, Par.reach, posE]
  have v1 := v 22
  rw [if_pos rfl, d1] at v1
  refine ⟨e, b, h, ?_, ?_, ?_⟩
  · rw [v, d0, if_pos rfl]; exact (C72_range exPml exPml_ok 0).2.2.mpr rfl
  · rw [v1]
    have := C72_range exPml exPml_ok 7
    exact lt_of_le_of_ne this.2.1 fun e => by simpa using this.2.2.mp e
  · rw [v1]; unfold Par.damping; norm_num [exPml]

/-- Factors and fields that meet the hypotheses of the damping theorem and of the refutation. -/
example : ∃ F : Factors, GoodFactors F ⟨0, 0, 0⟩ ⟨1, 1, 1⟩ ∧ F.at .exy ⟨0, 0, 0⟩ = .ok (1 / 2) ∧ F.at .exz ⟨0, 0, 0⟩ = .ok 1 := by
  have c1 : ∀ v : ℝ, 0 < v → v ≤ 1 → Contracting ⟨0, 1, fun _ => v⟩ := fun v a b i _ _ => ⟨a, b⟩
  refine ⟨⟨⟨0, 1, fun _ => 1⟩, ⟨0, 1, fun _ => 1⟩, ⟨0, 1, fun _ => 1 / 2⟩, ⟨0, 1, fun _ => 1 / 2⟩, ⟨0, 1, fun _ => 1⟩, ⟨0, 1, fun _ => 1⟩⟩, ⟨?_, ?_, ?_, ?_, ?_, ?_⟩, ?_, ?_⟩
  · exact ⟨c1 _ (by norm_num) (by norm_num), le_rfl, le_rfl⟩
  · exact ⟨c1 _ (by norm_num) (by norm_num), le_rfl, le_rfl⟩
  · exact ⟨c1 _ (by norm_num) (by norm_num), le_rfl, le_rfl⟩
  · exact ⟨c1 _ (by norm_num) (by norm_num), le_rfl, le_rfl⟩
  · exact ⟨c1 _ (by norm_num) (by norm_num), le_rfl, le_rfl⟩
  · exact ⟨c1 _ (by norm_num) (by norm_num), le_rfl, le_rfl⟩
  · simp [Factors.at, RArr.get]
  · simp [Factors.at, RArr.get]

/-- A layer of eleven cells on a domain of ten cells without guard cells. -/
example : initPml ⟨0, 11, 0, 10, false, 1, 1⟩ true 10 0 9 = .error .outOfBounds := by
  apply C72_thick_layer_refuted <;> norm_num [Par.c]

end Picsar.Props
