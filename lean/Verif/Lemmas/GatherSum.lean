import Verif.Lemmas.Gather
import Verif.Lemmas.Energy

namespace Picsar.Gather
open Picsar Picsar.Grid Picsar.Deposition Picsar.Spec Picsar.Energy

/-! ### The weighted sum computed by the loops -/

/-- Grid points and weights, in the order of the loops. -/
noncomputable def terms (o : Opts) (q : Comp) (p : Pos) : List (I3 × ℝ) :=
  (axisWts o.cz (stag q).2.2 p.z).flatMap fun wz => (yWts o.cy o.d2 (stag q).2.1 p.y).flatMap fun wy =>
    (axisWts o.cx (stag q).1 p.x).map fun wx =>
      (⟨base o.cx (stag q).1 p.x + wx.1, yBase o.cy o.d2 (stag q).2.1 p.y + wy.1, base o.cz (stag q).2.2 p.z + wz.1⟩,
        wx.2 * wy.2 * wz.2)

theorem mem_terms {o : Opts} {q : Comp} {p : Pos} {e : I3 × ℝ} : e ∈ terms o q p ↔
    ∃ wz ∈ axisWts o.cz (stag q).2.2 p.z, ∃ wy ∈ yWts o.cy o.d2 (stag q).2.1 p.y, ∃ wx ∈ axisWts o.cx (stag q).1 p.x,
      e = (⟨base o.cx (stag q).1 p.x + wx.1, yBase o.cy o.d2 (stag q).2.1 p.y + wy.1, base o.cz (stag q).2.2 p.z + wz.1⟩,
        wx.2 * wy.2 * wz.2) := by
  unfold terms
  simp only [List.mem_flatMap, List.mem_map]
  constructor
  · rintro ⟨wz, h1, wy, h2, wx, h3, rfl⟩; exact ⟨wz, h1, wy, h2, wx, h3, rfl⟩
  · rintro ⟨wz, h1, wy, h2, wx, h3, rfl⟩; exact ⟨wz, h1, wy, h2, wx, h3, rfl⟩

theorem sum_map_flatMap {α β : Type} (l : List α) (g : α → List β) (f : β → ℝ) :
    ((l.flatMap g).map f).sum = (l.map fun a => ((g a).map f).sum).sum := by
  induction l with
  | nil => simp
  | cons a l ih => simp [ih]

/-- Value of the weighted sum. -/
noncomputable def gsum (o : Opts) (a : I3 → ℝ) (q : Comp) (p : Pos) : ℝ := ((terms o q p).map fun e => e.2 * a e.1).sum

theorem gatherComp_ok {o : Opts} {a : Arr} {q : Comp} {p : Pos} (h : ∀ e ∈ terms o q p, InBox a.lo a.hi e.1) (acc : ℝ) :
    gatherComp o a q p acc = .ok (acc + gsum o a.val q p) := by
  unfold gatherComp gsum terms
  rw [sum_map_flatMap]
  refine foldlM_pure _ _ fun wz hz s => ?_
  rw [sum_map_flatMap]
  refine foldlM_pure _ _ fun wy hy s => ?_
  rw [List.map_map]
  refine foldlM_pure _ _ fun wx hx s => ?_
  unfold Arr.get
  rw [if_pos (h (_, wx.2 * wy.2 * wz.2) (mem_terms.mpr ⟨wz, hz, wy, hy, wx, hx, rfl⟩))]
  rfl

/-- The stencils of the six components are inside the arrays. -/
def Fits (o : Opts) (σ : Mem) (p : Pos) : Prop := ∀ q, IsField q → ∀ e ∈ terms o q p, InBox (σ q).lo (σ q).hi e.1

theorem foldlM_comps {o : Opts} {σ : Mem} {p : Pos} : ∀ (l : List Comp) (out : Comp → ℝ), l.Nodup →
    (∀ q ∈ l, ∀ e ∈ terms o q p, InBox (σ q).lo (σ q).hi e.1) →
    l.foldlM (fun out q => do
      let v ← gatherComp o (σ q) q p (out q)
      pure (Function.update out q v)) out =
      (.ok fun q => if q ∈ l then out q + gsum o (σ q).val q p else out q : Res (Comp → ℝ)) := by
  intro l
  induction l with
  | nil => intro out _ _; simp [except_pure]
  | cons r l ih =>
    intro out hnd h
    rw [List.foldlM_cons, gatherComp_ok (h r (by simp))]
    simp only [except_bind_ok]
    rw [show (pure (Function.update out r (out r + gsum o (σ r).val r p)) : Res (Comp → ℝ)) = .ok _ from rfl]
    simp only [except_bind_ok]
    rw [ih _ (List.nodup_cons.mp hnd).2 fun q hq => h q (by simp [hq])]
    congr 1
    funext q
    by_cases hq : q = r
    · subst hq
      rw [if_neg (List.nodup_cons.mp hnd).1, if_pos (by simp), Function.update_self]
    · by_cases hl : q ∈ l
      · rw [if_pos hl, if_pos (by simp [hl]), Function.update_of_ne hq]
      · rw [if_neg hl, if_neg (by simp [hq, hl]), Function.update_of_ne hq]

theorem mem_comps {q : Comp} : q ∈ comps ↔ IsField q := by
  unfold comps IsField; simp

/-- What a correct gathering leaves in the particle's fields. -/
noncomputable def gathered (o : Opts) (σ : Mem) (p : Pos) (out : Comp → ℝ) : Comp → ℝ :=
  fun q => if q ∈ comps then out q + gsum o (σ q).val q p else out q

theorem gatherPart_ok {o : Opts} {σ : Mem} {p : Pos} (h : Fits o σ p) (out : Comp → ℝ) :
    gatherPart o σ p out = .ok (gathered o σ p out) := by
  unfold gatherPart
  exact foldlM_comps comps out (by decide) fun q hq => h q (mem_comps.mp hq)

/-! ### Properties of the weighted sum -/

theorem yWts_nonneg {o : Opts} (hn : o.d2 = true ∨ Order o.ny) (st : Bool) (y : ℝ) : ∀ w ∈ yWts o.cy o.d2 st y, 0 ≤ w.2 := by
  unfold yWts
  by_cases h : o.d2 = true
  · rw [if_pos h]; simp
  · rw [if_neg h]; exact axis_nonneg (hn.resolve_left h) st y

theorem yWts_sum {o : Opts} (hn : o.d2 = true ∨ Order o.ny) (st : Bool) (y : ℝ) : ((yWts o.cy o.d2 st y).map (·.2)).sum = 1 := by
  unfold yWts
  by_cases h : o.d2 = true
  · rw [if_pos h]; simp
  · rw [if_neg h]; exact axis_sum (hn.resolve_left h) st y

theorem triple_sum (A B C : List (ℤ × ℝ)) (f g h : ℤ × ℝ → ℝ) :
    (C.map fun c => (B.map fun b => (A.map fun a => f a * g b * h c).sum).sum).sum =
      (A.map f).sum * (B.map g).sum * (C.map h).sum := by
  simp only [List.sum_map_mul_right, List.sum_map_mul_left]

theorem terms_sum_sep (o : Opts) (q : Comp) (p : Pos) (F : I3 × ℝ → ℝ) (f g h : ℤ × ℝ → ℝ)
    (hF : ∀ wx wy wz : ℤ × ℝ, F (⟨base o.cx (stag q).1 p.x + wx.1, yBase o.cy o.d2 (stag q).2.1 p.y + wy.1,
      base o.cz (stag q).2.2 p.z + wz.1⟩, wx.2 * wy.2 * wz.2) = f wx * g wy * h wz) :
    ((terms o q p).map F).sum = ((axisWts o.cx (stag q).1 p.x).map f).sum * ((yWts o.cy o.d2 (stag q).2.1 p.y).map g).sum *
      ((axisWts o.cz (stag q).2.2 p.z).map h).sum := by
  rw [← triple_sum]
  unfold terms
  rw [sum_map_flatMap]
  congr 1; refine List.map_congr_left fun wz _ => ?_
  rw [sum_map_flatMap]
  congr 1; refine List.map_congr_left fun wy _ => ?_
  rw [List.map_map]
  congr 1; refine List.map_congr_left fun wx _ => ?_
  exact hF wx wy wz

/-- Orders used in the directions that exist. -/
structure Orders (o : Opts) : Prop where
  x : Order o.nx
  y : o.d2 = true ∨ Order o.ny
  z : Order o.nz

theorem terms_nonneg {o : Opts} (ho : Orders o) {q : Comp} {p : Pos} : ∀ e ∈ terms o q p, 0 ≤ e.2 := by
  intro e he
  obtain ⟨wz, hz, wy, hy, wx, hx, rfl⟩ := mem_terms.mp he
  exact mul_nonneg (mul_nonneg (axis_nonneg ho.x _ _ _ hx) (yWts_nonneg ho.y _ _ _ hy)) (axis_nonneg ho.z _ _ _ hz)

theorem terms_sum {o : Opts} (ho : Orders o) (q : Comp) (p : Pos) : ((terms o q p).map (·.2)).sum = 1 := by
  rw [terms_sum_sep o q p (·.2) (·.2) (·.2) (·.2) fun _ _ _ => rfl, axis_sum (c := o.cx) ho.x, yWts_sum ho.y, axis_sum (c := o.cz) ho.z]
  norm_num

theorem off_stag (o : Opts) (q : Comp) : (∀ i : ℤ, samplePos o.nodal q 0 i = i + off o.cx (stag q).1) ∧
    (∀ i : ℤ, samplePos o.nodal q 1 i = i + off o.cy (stag q).2.1) ∧ (∀ i : ℤ, samplePos o.nodal q 2 i = i + off o.cz (stag q).2.2) := by
  obtain ⟨nx, ny, nz, lower, nodal, d2⟩ := o
  refine ⟨fun i => ?_, fun i => ?_, fun i => ?_⟩ <;> unfold samplePos off shift <;>
    simp only [Opts.cx, Opts.cy, Opts.cz] <;> cases nodal <;> cases q <;> simp [yeeStag, stag]

/-- The points of the stencil surround the particle. -/
theorem terms_near {o : Opts} (ho : Orders o) {q : Comp} {p : Pos} : ∀ e ∈ terms o q p,
    |samplePos o.nodal q 0 e.1.j - p.x| ≤ (o.nx + 1) / 2 ∧ (o.d2 = false → |samplePos o.nodal q 1 e.1.k - p.y| ≤ (o.ny + 1) / 2) ∧
    |samplePos o.nodal q 2 e.1.l - p.z| ≤ (o.nz + 1) / 2 := by
  intro e he
  obtain ⟨wz, hz, wy, hy, wx, hx, rfl⟩ := mem_terms.mp he
  obtain ⟨e1, e2, e3⟩ := off_stag o q
  dsimp only
  rw [e1, e2, e3]
  refine ⟨axis_near (c := o.cx) ho.x _ _ _ hx, fun h => ?_, axis_near (c := o.cz) ho.z _ _ _ hz⟩
  unfold yWts at hy
  unfold yBase
  rw [h] at hy ⊢
  simp only [Bool.false_eq_true, if_false] at hy ⊢
  exact axis_near (c := o.cy) (ho.y.resolve_left (by simp [h])) _ _ _ hy

/-- The stencil of a particle of the tile is inside the arrays. -/
theorem fits {o : Opts} (ho : Orders o) {σ : Mem} {p : Pos} {N g : I3} (hσ : TileArrays σ N g)
    (hx : 0 ≤ p.x ∧ p.x < N.j ∧ guardsFor o.nx ≤ g.j) (hy : o.d2 = true ∧ 0 ≤ N.k ∧ 0 ≤ g.k ∨ 0 ≤ p.y ∧ p.y < N.k ∧ guardsFor o.ny ≤ g.k)
    (hz : 0 ≤ p.z ∧ p.z < N.l ∧ guardsFor o.nz ≤ g.l) : Fits o σ p := by
  intro q hq e he
  obtain ⟨wz, hz', wy, hy', wx, hx', rfl⟩ := mem_terms.mp he
  obtain ⟨elo, ehi⟩ := hσ q hq
  rw [elo, ehi]
  unfold InBox
  dsimp only
  have a := axis_in (c := o.cx) ho.x _ hx.1 hx.2.1 hx.2.2 _ hx'
  have b := axis_in (c := o.cz) ho.z _ hz.1 hz.2.1 hz.2.2 _ hz'
  have c : -g.k ≤ yBase o.cy o.d2 (stag q).2.1 p.y + wy.1 ∧ yBase o.cy o.d2 (stag q).2.1 p.y + wy.1 ≤ N.k + g.k := by
    unfold yBase
    unfold yWts at hy'
    by_cases h : o.d2 = true
    · rw [if_pos h] at hy' ⊢
      simp only [List.mem_cons, List.not_mem_nil, or_false] at hy'
      subst hy'
      have h1 : guardsFor o.ny ≤ g.k → 0 ≤ g.k := by unfold guardsFor; split_ifs <;> omega
      rcases hy with hy | hy
      · dsimp only; omega
      · have : (0 : ℝ) < N.k := lt_of_le_of_lt hy.1 hy.2.1
        have : 0 < N.k := by exact_mod_cast this
        have := h1 hy.2.2
        dsimp only; omega
    · rw [if_neg h] at hy' ⊢
      have h2 := ho.y.resolve_left h
      have h3 := hy.resolve_left (fun h' => h h'.1)
      exact axis_in (c := o.cy) h2 _ h3.1 h3.2.1 h3.2.2 _ hy'
  exact ⟨a.1, a.2, c.1, c.2, b.1, b.2⟩

/-- Values between two bounds give a result between them. -/
theorem average_bounds {near : I3 → Prop} {a : I3 → ℝ} {v m M : ℝ} (h : IsAverage near a v)
    (hm : ∀ i, near i → m ≤ a i) (hM : ∀ i, near i → a i ≤ M) : m ≤ v ∧ v ≤ M := by
  obtain ⟨l, h1, h2, rfl⟩ := h
  have key : ∀ l : List (I3 × ℝ), (∀ e ∈ l, near e.1 ∧ 0 ≤ e.2) →
      m * (l.map (·.2)).sum ≤ (l.map fun e => e.2 * a e.1).sum ∧ (l.map fun e => e.2 * a e.1).sum ≤ M * (l.map (·.2)).sum := by
    intro l
    induction l with
    | nil => simp
    | cons e l ih =>
      intro hl
      obtain ⟨i1, i2⟩ := ih fun x hx => hl x (by simp [hx])
      obtain ⟨n1, n2⟩ := hl e (by simp)
      simp only [List.map_cons, List.sum_cons]
      have := mul_le_mul_of_nonneg_left (hm _ n1) n2
      have := mul_le_mul_of_nonneg_left (hM _ n1) n2
      constructor <;> nlinarith
  have := key l h1
  rw [h2] at this
  simpa using this

theorem gsum_average {o : Opts} (ho : Orders o) {a : I3 → ℝ} {q : Comp} {p : Pos} :
    IsAverage (fun i => |samplePos o.nodal q 0 i.j - p.x| ≤ (o.nx + 1) / 2 ∧
      (o.d2 = false → |samplePos o.nodal q 1 i.k - p.y| ≤ (o.ny + 1) / 2) ∧
      |samplePos o.nodal q 2 i.l - p.z| ≤ (o.nz + 1) / 2) a (gsum o a q p) :=
  ⟨terms o q p, fun e he => ⟨terms_near ho e he, terms_nonneg ho e he⟩, terms_sum ho q p, rfl⟩

theorem gsum_congr {o : Opts} {a b : I3 → ℝ} {q : Comp} {p : Pos} (h : ∀ e ∈ terms o q p, a e.1 = b e.1) :
    gsum o a q p = gsum o b q p := by
  unfold gsum
  congr 1
  exact List.map_congr_left fun e he => by rw [h e he]

/-- Affine fields are gathered exactly along the directions that are not treated by the nearest-point rule. -/
theorem gsum_affine {o : Opts} (ho : Orders o) (q : Comp) (p : Pos) (c0 cx cy cz : ℝ)
    (hx : cx ≠ 0 → ¬ ((stag q).1 = true ∧ o.lower = true ∧ o.nx = 1))
    (hy : cy ≠ 0 → o.d2 = false ∧ ¬ ((stag q).2.1 = true ∧ o.lower = true ∧ o.ny = 1))
    (hz : cz ≠ 0 → ¬ ((stag q).2.2 = true ∧ o.lower = true ∧ o.nz = 1)) :
    gsum o (fun i => c0 + cx * samplePos o.nodal q 0 i.j + cy * samplePos o.nodal q 1 i.k + cz * samplePos o.nodal q 2 i.l) q p =
      c0 + cx * p.x + cy * p.y + cz * p.z := by
  obtain ⟨e1, e2, e3⟩ := off_stag o q
  have s1 := axis_sum (c := o.cx) ho.x (stag q).1 p.x
  have s2 := yWts_sum ho.y (stag q).2.1 p.y
  have s3 := axis_sum (c := o.cz) ho.z (stag q).2.2 p.z
  have X : ((terms o q p).map fun e => e.2 * (cx * samplePos o.nodal q 0 e.1.j)).sum = cx * p.x := by
    by_cases h : cx = 0
    · simp [h]
    · rw [terms_sum_sep o q p _ (fun w => cx * (w.2 * (((base o.cx (stag q).1 p.x + w.1 : ℤ) : ℝ) + off o.cx (stag q).1))) (·.2) (·.2)
        fun wx wy wz => by dsimp only; rw [e1]; ring]
      rw [s2, s3, List.sum_map_mul_left, axis_moment (c := o.cx) ho.x _ _ (hx h)]
      ring
  have Z : ((terms o q p).map fun e => e.2 * (cz * samplePos o.nodal q 2 e.1.l)).sum = cz * p.z := by
    by_cases h : cz = 0
    · simp [h]
    · rw [terms_sum_sep o q p _ (·.2) (·.2) (fun w => cz * (w.2 * (((base o.cz (stag q).2.2 p.z + w.1 : ℤ) : ℝ) + off o.cz (stag q).2.2)))
        fun wx wy wz => by dsimp only; rw [e3]; ring]
      rw [s1, s2, List.sum_map_mul_left, axis_moment (c := o.cz) ho.z _ _ (hz h)]
      ring
  have Y : ((terms o q p).map fun e => e.2 * (cy * samplePos o.nodal q 1 e.1.k)).sum = cy * p.y := by
    by_cases h : cy = 0
    · simp [h]
    · obtain ⟨hd, hy⟩ := hy h
      rw [terms_sum_sep o q p _ (·.2) (fun w => cy * (w.2 * (((yBase o.cy o.d2 (stag q).2.1 p.y + w.1 : ℤ) : ℝ) + off o.cy (stag q).2.1))) (·.2)
        fun wx wy wz => by dsimp only; rw [e2]; ring]
      rw [s1, s3, List.sum_map_mul_left]
      unfold yBase yWts
      rw [hd]
      simp only [Bool.false_eq_true, if_false]
      rw [axis_moment (c := o.cy) (ho.y.resolve_left (by simp [hd])) _ _ hy]
      ring
  unfold gsum
  have e : (fun e : I3 × ℝ => e.2 * (c0 + cx * samplePos o.nodal q 0 e.1.j + cy * samplePos o.nodal q 1 e.1.k + cz * samplePos o.nodal q 2 e.1.l)) =
      fun e => ((e.2 * c0 + e.2 * (cx * samplePos o.nodal q 0 e.1.j)) + e.2 * (cy * samplePos o.nodal q 1 e.1.k)) +
        e.2 * (cz * samplePos o.nodal q 2 e.1.l) := by
    funext e; ring
  rw [e, List.sum_map_add, List.sum_map_add, List.sum_map_add, X, Y, Z, List.sum_map_mul_right, terms_sum ho]
  ring

end Picsar.Gather
