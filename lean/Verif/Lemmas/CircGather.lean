import Verif.Lemmas.GatherSum
import Verif.Spec.CircGather

namespace Picsar.CircGather
open Picsar Picsar.Grid Picsar.Deposition Picsar.Gather Picsar.Spec

theorem foldlM_plus {α M : Type} [AddMonoid M] (f : α → M) {body : M → α → Res M} : ∀ (l : List α) (s : M),
    (∀ e ∈ l, ∀ s, body s e = .ok (s + f e)) → l.foldlM body s = .ok (s + (l.map f).sum) := by
  intro l
  induction l with
  | nil => intro s _; simp [except_pure]
  | cons a l ih =>
    intro s h
    rw [List.foldlM_cons, h a (by simp)]
    simp only [except_bind_ok]
    rw [ih _ fun e he => h e (by simp [he]), List.map_cons, List.sum_cons, add_assoc]

/-- Weighted sum over a stencil with the weights of a component and explicit nodes. -/
noncomputable def wsum (o : Opt) (sr sz : Bool) (R Z : ℝ) (br bz : ℤ) (F : ℤ → ℤ → ℝ) : ℝ :=
  ((axisWts o.cz sz Z).map fun wz => ((axisWts o.cr sr R).map fun wr => wz.2 * wr.2 * F (br + wr.1) (bz + wz.1)).sum).sum

theorem sum_pair3 {α : Type} (l : List α) (f g h : α → ℝ) :
    (l.map fun e => ((f e, g e, h e) : ℝ × ℝ × ℝ)).sum = ((l.map f).sum, (l.map g).sum, (l.map h).sum) := by
  induction l with
  | nil => rfl
  | cons a l ih => simp [ih]

/-- The stencil is inside the array. -/
def Inside (o : Opt) (sr sz : Bool) (R Z : ℝ) (br bz : ℤ) (a : CArr) (m : ℕ) : Prop :=
  ∀ wz ∈ axisWts o.cz sz Z, ∀ wr ∈ axisWts o.cr sr R, a.Has (br + wr.1) (bz + wz.1) m

theorem get_ok {a : CArr} {j l : ℤ} {m : ℕ} (h : a.Has j l m) : a.get j l m = .ok (a.val j l m) := by
  unfold CArr.get; rw [if_pos h]

theorem wsum_add (o : Opt) (sr sz : Bool) (R Z : ℝ) (br bz : ℤ) (F G : ℤ → ℤ → ℝ) (c d : ℝ) :
    wsum o sr sz R Z br bz (fun j l => F j l * c + G j l * d) = wsum o sr sz R Z br bz F * c + wsum o sr sz R Z br bz G * d := by
  unfold wsum
  rw [← List.sum_map_mul_right, ← List.sum_map_mul_right, ← List.sum_map_add]
  congr 1; refine List.map_congr_left fun wz _ => ?_
  rw [← List.sum_map_mul_right, ← List.sum_map_mul_right, ← List.sum_map_add]
  congr 1; refine List.map_congr_left fun wr _ => ?_
  ring

theorem wsum_sub (o : Opt) (sr sz : Bool) (R Z : ℝ) (br bz : ℤ) (F G : ℤ → ℤ → ℝ) (c d : ℝ) :
    wsum o sr sz R Z br bz (fun j l => F j l * c - G j l * d) = wsum o sr sz R Z br bz F * c - wsum o sr sz R Z br bz G * d := by
  have := wsum_add o sr sz R Z br bz F G c (-d)
  rw [show (fun j l => F j l * c - G j l * d) = fun j l => F j l * c + G j l * -d by funext j l; ring, this]
  ring

theorem stencil_fold (o : Opt) (sr sz : Bool) (R Z : ℝ) (br bz : ℤ) {F G H : ℤ → ℤ → ℝ} {body : Out → ℤ × ℝ → ℤ × ℝ → Res Out}
    (h : ∀ wz ∈ axisWts o.cz sz Z, ∀ wr ∈ axisWts o.cr sr R, ∀ v : Out, body v wz wr =
      .ok (v + (wz.2 * wr.2 * F (br + wr.1) (bz + wz.1), wz.2 * wr.2 * G (br + wr.1) (bz + wz.1), wz.2 * wr.2 * H (br + wr.1) (bz + wz.1))))
    (v : Out) : (axisWts o.cz sz Z).foldlM (fun v wz => (axisWts o.cr sr R).foldlM (fun v wr => body v wz wr) v) v =
      .ok (v + (wsum o sr sz R Z br bz F, wsum o sr sz R Z br bz G, wsum o sr sz R Z br bz H)) := by
  unfold wsum
  rw [← sum_pair3]
  refine foldlM_plus _ _ v fun wz hz s => ?_
  rw [← sum_pair3]
  exact foldlM_plus _ _ s fun wr hr s => h wz hz wr hr s

theorem wsum_zero (o : Opt) (sr sz : Bool) (R Z : ℝ) (br bz : ℤ) : wsum o sr sz R Z br bz (fun _ _ => 0) = 0 := by
  unfold wsum
  simp

theorem vec0_ok {o : Opt} {sr sz : Bool} {a b : CArr} {c s R Z : ℝ}
    (ha : Inside o sr sz R Z (base o.cr sr R) (base o.cz sz Z) a 0) (hb : Inside o sr sz R Z (base o.cr sr R) (base o.cz sz Z) b 0)
    (v : Out) : vec0 o sr sz a b c s R Z v = .ok (v +
      (wsum o sr sz R Z (base o.cr sr R) (base o.cz sz Z) (fun j l => (a.val j l 0).re) * c -
        wsum o sr sz R Z (base o.cr sr R) (base o.cz sz Z) (fun j l => (b.val j l 0).re) * s,
       wsum o sr sz R Z (base o.cr sr R) (base o.cz sz Z) (fun j l => (a.val j l 0).re) * s +
        wsum o sr sz R Z (base o.cr sr R) (base o.cz sz Z) (fun j l => (b.val j l 0).re) * c, 0)) := by
  rw [← wsum_sub, ← wsum_add, ← wsum_zero o sr sz R Z (base o.cr sr R) (base o.cz sz Z)]
  unfold vec0
  refine stencil_fold o sr sz R Z _ _ (fun wz hz wr hr v => ?_) v
  rw [get_ok (ha wz hz wr hr), get_ok (hb wz hz wr hr)]
  simp only [except_bind_ok]
  refine congrArg Except.ok ?_
  obtain ⟨v1, v2, v3⟩ := v
  simp

theorem scal0_ok {o : Opt} {sr sz : Bool} {a : CArr} {R Z : ℝ}
    (ha : Inside o sr sz R Z (base o.cr sr R) (base o.cz sz Z) a 0)
    (v : Out) : scal0 o sr sz a R Z v = .ok (v +
      (0, 0, wsum o sr sz R Z (base o.cr sr R) (base o.cz sz Z) (fun j l => (a.val j l 0).re))) := by
  rw [← wsum_zero o sr sz R Z (base o.cr sr R) (base o.cz sz Z)]
  unfold scal0
  refine stencil_fold o sr sz R Z _ _ (fun wz hz wr hr v => ?_) v
  rw [get_ok (ha wz hz wr hr)]
  simp only [except_bind_ok]
  refine congrArg Except.ok ?_
  obtain ⟨v1, v2, v3⟩ := v
  simp only [Prod.mk_add_mk, Prod.mk.injEq]
  refine ⟨by ring, by ring, by ring⟩

theorem vecM_ok {o : Opt} {sr sz : Bool} {a b : CArr} {m : ℕ} {xy : ℂ} {c s R Z : ℝ}
    (ha : Inside o sr sz R Z (base o.cr false R) (base o.cz false Z) a m)
    (hb : Inside o sr sz R Z (base o.cr false R) (base o.cz false Z) b m)
    (v : Out) : vecM o sr sz a b m xy c s R Z v = .ok (v +
      (wsum o sr sz R Z (base o.cr false R) (base o.cz false Z) (fun j l => (a.val j l m * xy).re) * c -
        wsum o sr sz R Z (base o.cr false R) (base o.cz false Z) (fun j l => (b.val j l m * xy).re) * s,
       wsum o sr sz R Z (base o.cr false R) (base o.cz false Z) (fun j l => (a.val j l m * xy).re) * s +
        wsum o sr sz R Z (base o.cr false R) (base o.cz false Z) (fun j l => (b.val j l m * xy).re) * c, 0)) := by
  rw [← wsum_sub, ← wsum_add, ← wsum_zero o sr sz R Z (base o.cr false R) (base o.cz false Z)]
  unfold vecM
  refine stencil_fold o sr sz R Z _ _ (fun wz hz wr hr v => ?_) v
  rw [get_ok (ha wz hz wr hr), get_ok (hb wz hz wr hr)]
  simp only [except_bind_ok]
  refine congrArg Except.ok ?_
  obtain ⟨v1, v2, v3⟩ := v
  simp only [Prod.mk_add_mk, Prod.mk.injEq]
  refine ⟨by ring, by ring, by ring⟩

theorem scalM_ok {o : Opt} {sr sz : Bool} {a : CArr} {m : ℕ} {xy : ℂ} {R Z : ℝ}
    (ha : Inside o sr sz R Z (base o.cr false R) (base o.cz false Z) a m)
    (v : Out) : scalM o sr sz a m xy R Z v = .ok (v +
      (0, 0, wsum o sr sz R Z (base o.cr false R) (base o.cz false Z) (fun j l => (a.val j l m * xy).re))) := by
  rw [← wsum_zero o sr sz R Z (base o.cr false R) (base o.cz false Z)]
  unfold scalM
  refine stencil_fold o sr sz R Z _ _ (fun wz hz wr hr v => ?_) v
  rw [get_ok (ha wz hz wr hr)]
  simp only [except_bind_ok]
  refine congrArg Except.ok ?_
  obtain ⟨v1, v2, v3⟩ := v
  simp only [Prod.mk_add_mk, Prod.mk.injEq]
  refine ⟨by ring, by ring, by ring⟩

/-- Node of the stencil of mode `m`: that of the component for mode 0, the unstaggered one above. -/
noncomputable def nodeOf (c : Cfg) (st : Bool) (m : ℕ) (x : ℝ) : ℤ := if m = 0 then base c st x else base c false x

/-- What the loops compute for the mode `m` of an array. -/
noncomputable def mval (o : Opt) (sr sz : Bool) (R Z : ℝ) (a : CArr) (e : ℂ) (m : ℕ) : ℝ :=
  wsum o sr sz R Z (nodeOf o.cr sr m R) (nodeOf o.cz sz m Z) (fun j l => (a.val j l m * e ^ m).re)

/-- Contribution of the mode `m` to the field. -/
noncomputable def modeOut (o : Opt) (vr vz lr lz : Bool) (F : Fld) (c s R Z : ℝ) (e : ℂ) (m : ℕ) : Out :=
  (mval o vr vz R Z F.r e m * c - mval o vr vz R Z F.t e m * s, mval o vr vz R Z F.r e m * s + mval o vr vz R Z F.t e m * c,
    mval o lr lz R Z F.z e m)

/-- All stencils of all modes are inside the arrays. -/
def AllIn (o : Opt) (vr vz lr lz : Bool) (nmodes : ℕ) (F : Fld) (R Z : ℝ) : Prop := ∀ m < nmodes,
  Inside o vr vz R Z (nodeOf o.cr vr m R) (nodeOf o.cz vz m Z) F.r m ∧ Inside o vr vz R Z (nodeOf o.cr vr m R) (nodeOf o.cz vz m Z) F.t m ∧
    Inside o lr lz R Z (nodeOf o.cr lr m R) (nodeOf o.cz lz m Z) F.z m

theorem modes_ok {o : Opt} {vr vz lr lz : Bool} {n : ℕ} {F : Fld} {c s R Z : ℝ} {e : ℂ} (h : AllIn o vr vz lr lz n F R Z) :
    ∀ (k b : ℕ) (v : Out), 1 ≤ b → b + k ≤ n → (List.range' b k).foldlM (fun (st : ℂ × Out) m => do
      let xy := st.1 * e
      let v ← vecM o vr vz F.r F.t m xy c s R Z st.2
      let v ← scalM o lr lz F.z m xy R Z v
      pure (xy, v)) ((e ^ (b - 1), v) : ℂ × Out) =
      (.ok (e ^ (b + k - 1), v + ((List.range' b k).map (modeOut o vr vz lr lz F c s R Z e)).sum) : Res (ℂ × Out)) := by
  intro k
  induction k with
  | zero => intro b v _ _; simp [except_pure]
  | succ k ih =>
    intro b v hb hk
    rw [List.range'_succ, List.foldlM_cons]
    obtain ⟨h1, h2, h3⟩ := h b (by omega)
    simp only [nodeOf, show b ≠ 0 by omega, if_false] at h1 h2 h3
    have he : e ^ (b - 1) * e = e ^ b := by rw [← pow_succ]; congr 1; omega
    simp only [he]
    rw [vecM_ok h1 h2]
    simp only [except_bind_ok]
    rw [scalM_ok h3]
    simp only [except_bind_ok]
    have := ih (b + 1) (v + modeOut o vr vz lr lz F c s R Z e b) (by omega) (by omega)
    rw [show b + 1 - 1 = b by omega] at this
    refine Eq.trans ?_ (this.trans ?_)
    · refine congrArg (fun u : Out => List.foldlM _ (e ^ b, u) (List.range' (b + 1) k)) ?_
      rw [add_assoc]
      congr 1
      simp only [modeOut, mval, nodeOf, show b ≠ 0 by omega, if_false, Prod.mk_add_mk, add_zero, zero_add]
    · rw [List.map_cons, List.sum_cons, ← add_assoc v, show b + 1 + k - 1 = b + (k + 1) - 1 by omega]

theorem gatherOne_ok {o : Opt} {vr vz lr lz : Bool} {n : ℕ} (hn : 1 ≤ n) {g : RzGeo} {F : Fld} {x y z : ℝ} {R Z : ℝ}
    (hR : R = (√(x * x + y * y) - g.rmin) * (1 / g.dr)) (hZ : Z = (z - g.zmin) * (1 / g.dz)) (h : AllIn o vr vz lr lz n F R Z) (v : Out) :
    gatherOne o vr vz lr lz n g F x y z v = .ok (v + ((List.range n).map (modeOut o vr vz lr lz F (cosSin (1 / g.dr) x y).1
      (cosSin (1 / g.dr) x y).2 R Z ⟨(cosSin (1 / g.dr) x y).1, -(cosSin (1 / g.dr) x y).2⟩)).sum) := by
  unfold gatherOne
  dsimp only
  rw [← hR, ← hZ]
  obtain ⟨h1, h2, h3⟩ := h 0 (by omega)
  simp only [nodeOf, if_true] at h1 h2 h3
  rw [vec0_ok h1 h2]
  simp only [except_bind_ok]
  rw [scal0_ok h3]
  simp only [except_bind_ok]
  have := modes_ok (c := (cosSin (1 / g.dr) x y).1) (s := (cosSin (1 / g.dr) x y).2)
    (e := ⟨(cosSin (1 / g.dr) x y).1, -(cosSin (1 / g.dr) x y).2⟩) h (n - 1) 1
    (v + modeOut o vr vz lr lz F (cosSin (1 / g.dr) x y).1
      (cosSin (1 / g.dr) x y).2 R Z ⟨(cosSin (1 / g.dr) x y).1, -(cosSin (1 / g.dr) x y).2⟩ 0) le_rfl (by omega)
  rw [show 1 - 1 = 0 from rfl, pow_zero] at this
  have e : v + modeOut o vr vz lr lz F (cosSin (1 / g.dr) x y).1
      (cosSin (1 / g.dr) x y).2 R Z ⟨(cosSin (1 / g.dr) x y).1, -(cosSin (1 / g.dr) x y).2⟩ 0 = v + (wsum o vr vz R Z (base o.cr vr R) (base o.cz vz Z) (fun j l => (F.r.val j l 0).re) * (cosSin (1 / g.dr) x y).1 -
        wsum o vr vz R Z (base o.cr vr R) (base o.cz vz Z) (fun j l => (F.t.val j l 0).re) * (cosSin (1 / g.dr) x y).2,
       wsum o vr vz R Z (base o.cr vr R) (base o.cz vz Z) (fun j l => (F.r.val j l 0).re) * (cosSin (1 / g.dr) x y).2 +
        wsum o vr vz R Z (base o.cr vr R) (base o.cz vz Z) (fun j l => (F.t.val j l 0).re) * (cosSin (1 / g.dr) x y).1, 0) +
      (0, 0, wsum o lr lz R Z (base o.cr lr R) (base o.cz lz Z) (fun j l => (F.z.val j l 0).re)) := by
    rw [add_assoc]
    congr 1
    simp only [modeOut, mval, nodeOf, if_true, pow_zero, mul_one, Prod.mk_add_mk, add_zero, zero_add]
  rw [e] at this
  rw [this]
  refine congrArg Except.ok ?_
  show _ + _ = _
  rw [← e, add_assoc]
  congr 1
  obtain ⟨k, rfl⟩ : ∃ k, n = k + 1 := ⟨n - 1, by omega⟩
  rw [List.range_eq_range', List.range'_succ, List.map_cons, List.sum_cons]
  rfl

theorem gatherAll_ok {o : Opt} {vr vz lr lz : Bool} {n : ℕ} {g : RzGeo} {F : Fld} {f : Pt → Out} : ∀ ps : List (Pt × Out),
    (∀ p ∈ ps, ∀ v, gatherOne o vr vz lr lz n g F p.1.1 p.1.2.1 p.1.2.2 v = .ok (v + f p.1)) →
    gatherAll o vr vz lr lz n g F ps = .ok (ps.map fun p => p.2 + f p.1) := by
  intro ps
  induction ps with
  | nil => intro _; rfl
  | cons p ps ih =>
    intro h
    unfold gatherAll
    rw [h p (by simp), ih fun q hq => h q (by simp [hq])]
    rfl

/-! ### Bounds -/

theorem axis_in_false {c : Cfg} (hn : Order c.n) (st : Bool) {x : ℝ} {N g : ℤ} (h0 : 0 ≤ x) (h1 : x < N)
    (hg : guardsFor c.n ≤ g) : ∀ w ∈ axisWts c st x, -g ≤ base c false x + w.1 ∧ base c false x + w.1 ≤ N + g := by
  obtain ⟨n, lower, nodal⟩ := c
  have hw0 : ∀ w ∈ axisWts ⟨n, lower, nodal⟩ st x, (∃ w' ∈ axisWts ⟨n, lower, nodal⟩ false x, w'.1 = w.1) := by
    intro w hw
    dsimp only at hn
    cases st with
    | false => exact ⟨w, hw, rfl⟩
    | true =>
      simp only [axisWts, if_true, wts0] at hw ⊢
      rcases hn with rfl | rfl | rfl <;> cases lower <;>
        simp only [wts, if_true, if_false, Bool.false_eq_true, List.mem_cons, List.not_mem_nil, or_false] at hw ⊢ <;>
        rcases hw with rfl | rfl | rfl | rfl <;> simp
  intro w hw
  obtain ⟨w', h2, h3⟩ := hw0 w hw
  rw [← h3]
  exact axis_in hn false h0 h1 hg w' h2

theorem inside_tile {o : Opt} (hr : Order o.nr) (hz : Order o.nz) {sr sz : Bool} {R Z : ℝ} {nr nz gr gz : ℤ} {a : CArr} {m n : ℕ} (hm : m < n)
    (ha : a.jlo = -gr ∧ a.jhi = nr + gr ∧ a.llo = -gz ∧ a.lhi = nz + gz ∧ a.nm = n)
    (h : 0 ≤ R ∧ R < nr ∧ 0 ≤ Z ∧ Z < nz) (hg : guardsFor o.nr ≤ gr) (hg' : guardsFor o.nz ≤ gz) :
    Inside o sr sz R Z (nodeOf o.cr sr m R) (nodeOf o.cz sz m Z) a m := by
  intro wz hwz wr hwr
  obtain ⟨a1, a2, a3, a4, a5⟩ := ha
  have k1 : -gr ≤ nodeOf o.cr sr m R + wr.1 ∧ nodeOf o.cr sr m R + wr.1 ≤ nr + gr := by
    unfold nodeOf
    split_ifs
    · exact axis_in (c := o.cr) hr sr h.1 h.2.1 hg wr hwr
    · exact axis_in_false (c := o.cr) hr sr h.1 h.2.1 hg wr hwr
  have k2 : -gz ≤ nodeOf o.cz sz m Z + wz.1 ∧ nodeOf o.cz sz m Z + wz.1 ≤ nz + gz := by
    unfold nodeOf
    split_ifs
    · exact axis_in (c := o.cz) hz sz h.2.2.1 h.2.2.2 hg' wz hwz
    · exact axis_in_false (c := o.cz) hz sz h.2.2.1 h.2.2.2 hg' wz hwz
  unfold CArr.Has
  rw [a1, a2, a3, a4, a5]
  exact ⟨k1.1, k1.2, k2.1, k2.2, hm⟩

/-! ### The angle -/

theorem cosSin_eq (dr x y : ℝ) : cosSin (1 / dr) x y = (Real.cos (azimuth dr x y), Real.sin (azimuth dr x y)) := by
  unfold cosSin azimuth
  have e : √(x * x + y * y) * (1 / dr) = √(x ^ 2 + y ^ 2) / dr := by rw [pow_two, pow_two]; ring
  dsimp only
  rw [e]
  by_cases h : 1 / 10 ^ 20 < √(x ^ 2 + y ^ 2) / dr
  · rw [if_pos h, if_pos h]
    have hn : ‖(⟨x, y⟩ : ℂ)‖ = √(x * x + y * y) := by
      rw [Complex.norm_def, Complex.normSq_mk]
    have h0 : (⟨x, y⟩ : ℂ) ≠ 0 := by
      intro hc
      have h1 : x = 0 := congrArg Complex.re hc
      have h2 : y = 0 := congrArg Complex.im hc
      rw [h1, h2] at h
      norm_num at h
    rw [Complex.cos_arg h0, Complex.sin_arg, hn]
  · rw [if_neg h, if_neg h]
    simp

theorem phase_pow (θ : ℝ) (m : ℕ) : (⟨Real.cos θ, -Real.sin θ⟩ : ℂ) ^ m = Complex.exp (-(m * θ) * Complex.I) := by
  have : (⟨Real.cos θ, -Real.sin θ⟩ : ℂ) = Complex.exp (-θ * Complex.I) := by
    rw [Complex.exp_mul_I]
    apply Complex.ext
    · simp [Complex.cos_ofReal_re]
    · simp [Complex.sin_ofReal_re]
  rw [this, ← Complex.exp_nat_mul]
  congr 1
  ring

/-! ### The weighted sum is the spline interpolation -/

theorem sample_off (o : Opt) (q : Comp) (i : ℤ) : samplePos o.nodal q 0 i = i + off o.cr (yeeStag q 0) ∧
    samplePos o.nodal q 2 i = i + off o.cz (yeeStag q 2) := by
  unfold samplePos off Opt.cr Opt.cz shift
  constructor <;> (dsimp only; cases o.nodal <;> simp; split_ifs <;> simp_all)

theorem modeValue_re {o : Opt} (hr : Order o.nr) (hz : Order o.nz) (q : Comp) {R Z : ℝ} {a : CArr} {m : ℕ} {e : ℂ}
    (h : Inside o (yeeStag q 0) (yeeStag q 2) R Z (base o.cr (yeeStag q 0) R) (base o.cz (yeeStag q 2) Z) a m) :
    (modeValue o.nr o.nz o.lower o.nodal q a R Z m * e).re = wsum o (yeeStag q 0) (yeeStag q 2) R Z (base o.cr (yeeStag q 0) R)
      (base o.cz (yeeStag q 2) Z) (fun j l => (a.val j l m * e).re) := by
  have hne : ∀ c : Cfg, Order c.n → ∀ st x, axisWts c st x ≠ [] := by
    intro c hc st x h0
    have := axis_sum hc st x
    rw [h0] at this
    simp at this
  have hb1 : ∀ w ∈ axisWts o.cr (yeeStag q 0) R, a.jlo ≤ base o.cr (yeeStag q 0) R + w.1 ∧ base o.cr (yeeStag q 0) R + w.1 ≤ a.jhi := by
    intro w hw
    obtain ⟨w', hw'⟩ := List.exists_mem_of_ne_nil _ (hne o.cz hz (yeeStag q 2) Z)
    exact ⟨(h w' hw' w hw).1, (h w' hw' w hw).2.1⟩
  have hb2 : ∀ w ∈ axisWts o.cz (yeeStag q 2) Z, a.llo ≤ base o.cz (yeeStag q 2) Z + w.1 ∧ base o.cz (yeeStag q 2) Z + w.1 ≤ a.lhi := by
    intro w hw
    obtain ⟨w', hw'⟩ := List.exists_mem_of_ne_nil _ (hne o.cr hr (yeeStag q 0) R)
    exact ⟨(h w hw w' hw').2.2.1, (h w hw w' hw').2.2.2.1⟩
  unfold modeValue
  rw [Finset.sum_mul, Complex.re_sum]
  have e1 : ∀ l : ℤ, ((∑ j ∈ Finset.Icc a.jlo a.jhi,
      ((spline (orderAlong o.nz o.lower q 2) (Z - samplePos o.nodal q 2 l) * spline (orderAlong o.nr o.lower q 0) (R - samplePos o.nodal q 0 j) : ℝ) : ℂ) *
      a.val j l m) * e).re = spline (if o.cz.lower = true ∧ yeeStag q 2 = true then o.cz.n - 1 else o.cz.n) (Z - (l + off o.cz (yeeStag q 2))) *
      ∑ j ∈ Finset.Icc a.jlo a.jhi, spline (if o.cr.lower = true ∧ yeeStag q 0 = true then o.cr.n - 1 else o.cr.n) (R - (j + off o.cr (yeeStag q 0))) *
        (a.val j l m * e).re := by
    intro l
    rw [Finset.sum_mul, Complex.re_sum, Finset.mul_sum]
    refine Finset.sum_congr rfl fun j _ => ?_
    rw [mul_assoc, Complex.re_ofReal_mul, (sample_off o q j).1, (sample_off o q l).2, mul_assoc]
    rfl
  rw [Finset.sum_congr rfl fun l _ => e1 l]
  rw [axis_spline (c := o.cz) hz (yeeStag q 2) Z hb2 (fun l => ∑ j ∈ Finset.Icc a.jlo a.jhi,
    spline (if o.cr.lower = true ∧ yeeStag q 0 = true then o.cr.n - 1 else o.cr.n) (R - (j + off o.cr (yeeStag q 0))) * (a.val j l m * e).re)]
  unfold wsum
  congr 1; refine List.map_congr_left fun wz _ => ?_
  rw [axis_spline (c := o.cr) hr (yeeStag q 0) R hb1 (fun j => (a.val j (base o.cz (yeeStag q 2) Z + wz.1) m * e).re), ← List.sum_map_mul_left]
  congr 1; refine List.map_congr_left fun wr _ => ?_
  ring

/-! ### Where the stencils of the two kinds coincide -/

theorem nint_floor {x : ℝ} (h : 0 ≤ x) : nint x = ⌊x + 1 / 2⌋ := by
  unfold nint
  rw [if_pos h]

theorem base_placed {c : Cfg} (hn : Order c.n) {x : ℝ} (h0 : 0 ≤ x) (h : (c.lower = true ∧ c.nodal = false ∧ c.n ≠ 2) ∨ (c.lower = false ∧ c.nodal = true))
    (st : Bool) : base c st x = base c false x := by
  obtain ⟨n, lower, nodal⟩ := c
  dsimp only at hn h
  cases st with
  | false => rfl
  | true =>
    unfold base node0 shift node
    rcases h with ⟨rfl, rfl, h2⟩ | ⟨rfl, rfl⟩
    · rcases hn with rfl | rfl | rfl
      · simp
      · exact absurd rfl h2
      · simp
    · rcases hn with rfl | rfl | rfl
      · simp
      · simp [nint_floor h0]
      · simp

theorem sum3 (l : List ℕ) (f g h : ℕ → ℝ) : (l.map fun m => ((f m, g m, h m) : Out)).sum = ((l.map f).sum, (l.map g).sum, (l.map h).sum) :=
  sum_pair3 l f g h

theorem range_sum (n : ℕ) (f : ℕ → ℝ) : ((List.range n).map f).sum = ∑ m ∈ Finset.range n, f m := by
  induction n with
  | zero => simp
  | succ n ih => rw [List.range_succ, List.map_append, List.sum_append, ih, Finset.sum_range_succ]; simp

end Picsar.CircGather
