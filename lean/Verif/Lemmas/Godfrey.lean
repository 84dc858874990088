import Verif.Spec.Godfrey
import Verif.Lemmas.Grid
import Mathlib.Tactic.LinearCombination
import Mathlib.Tactic.FieldSimp
import Mathlib.Tactic.Linarith

/-
Lemmas for the filter.
-/
namespace Picsar.Godfrey
open Picsar Picsar.Grid Picsar.Spec

/-- What the first `ks` values of the stencil give. -/
noncomputable def partialSum (s : ℝ) (ss : List ℝ) (n : ℕ) (f : I3 → ℝ) (i : I3) : ℝ :=
  s * f i + ((ss.zipIdx n).map fun t => t.1 * (f ⟨i.j, i.k, i.l + -(t.2 : ℤ)⟩ + f ⟨i.j, i.k, i.l + t.2⟩)).sum

/-- The region the stencil of length `n` reads. -/
def Covers (n : ℕ) (lo hi : I3) (fin : Arr) : Prop :=
  ∀ i, InBox lo hi i → ∀ d : ℤ, -((n : ℤ) - 1) ≤ d → d ≤ (n : ℤ) - 1 → InBox fin.lo fin.hi ⟨i.j, i.k, i.l + d⟩

theorem bufs_ext {σ : Mem} {fin fou : Arr} (h : σ .ey = fou) (h' : ∀ c, c ≠ .ey → σ c = fin) : σ = bufs fin fou := by
  funext c
  unfold bufs
  by_cases hc : c = .ey
  · rw [if_pos hc, hc, h]
  · rw [if_neg hc, h' c hc]

theorem pass_ok {lo hi : I3} {e : Ex} {fin fou : Arr} (hl : e.LocalTo .ey)
    (hs : ∀ i, InBox lo hi i → e.Safe (bufs fin fou) i ∧ InBox fou.lo fou.hi i) :
    loop .ey e (box lo hi) (bufs fin fou) =
      .ok (bufs fin { fou with val := fun i => if InBox lo hi i then e.den (bufs fin fou) i else fou.val i }) := by
  rw [loop_box hl (List.Perm.refl _) (fun i hi => by simpa [bufs] using hs i hi)]
  congr 1
  apply bufs_ext
  · have h1 := after_bounds (bufs fin fou) .ey e lo hi .ey
    have h2 := after_val (bufs fin fou) .ey e lo hi
    revert h1 h2
    generalize (after (bufs fin fou) .ey e lo hi) .ey = a
    intro h1 h2
    obtain ⟨al, ah, av⟩ := a
    simp only [bufs, if_true] at h1 h2
    obtain ⟨rfl, rfl⟩ := h1
    congr 1
    funext i
    exact h2 i
  · intro c hc
    rw [after_of_ne _ _ _ _ hc]
    simp [bufs, hc]

theorem passes_ok {lo hi : I3} {fin fou : Arr} (hf : ∀ i, InBox lo hi i → InBox fou.lo fou.hi i) : ∀ (ss : List ℝ) (n : ℕ) (g : I3 → ℝ),
    (∀ i, InBox lo hi i → ∀ m : ℕ, n ≤ m → m < n + ss.length → InBox fin.lo fin.hi ⟨i.j, i.k, i.l + -(m : ℤ)⟩ ∧ InBox fin.lo fin.hi ⟨i.j, i.k, i.l + m⟩) →
    (ss.zipIdx n).foldlM (fun (σ : Mem) (t : ℝ × ℕ) => loop .ey (passEx t.1 t.2) (box lo hi) σ)
      (bufs fin { fou with val := fun i => if InBox lo hi i then g i else fou.val i }) =
    (.ok (bufs fin { fou with val := fun i => if InBox lo hi i then g i +
      ((ss.zipIdx n).map fun t => t.1 * (fin.val ⟨i.j, i.k, i.l + -(t.2 : ℤ)⟩ + fin.val ⟨i.j, i.k, i.l + t.2⟩)).sum else fou.val i }) : Res Mem)
  | [], n, g, _ => by simp
  | s :: ss, n, g, h => by
    rw [List.zipIdx_cons, List.foldlM_cons]
    rw [pass_ok]
    · simp only [except_bind_ok]
      have e : (fun i => if InBox lo hi i then (passEx s n).den (bufs fin { fou with val := fun i => if InBox lo hi i then g i else fou.val i }) i
          else if InBox lo hi i then g i else fou.val i) = fun i => if InBox lo hi i then
            g i + s * (fin.val ⟨i.j, i.k, i.l + -(n : ℤ)⟩ + fin.val ⟨i.j, i.k, i.l + n⟩) else fou.val i := by
        funext i
        by_cases hi' : InBox lo hi i
        · simp [passEx, bufs, hi', I3.sh]
        · simp [hi']
      rw [e]
      refine (passes_ok hf ss (n + 1) _ (fun i hi' m h1 h2 => h i hi' m (by omega) (by simp; omega))).trans ?_
      congr 4
      funext i
      simp only [List.map_cons, List.sum_cons, add_assoc]
    · simp [passEx]
    · intro i hi'
      obtain ⟨h1, h2⟩ := h i hi' n le_rfl (by simp)
      have h3 := hf i hi'
      refine ⟨?_, h3⟩
      simp only [passEx, add_safe, mul_safe, cst_safe, rd_safe, true_and]
      refine ⟨?_, ?_, ?_⟩
      · simpa [bufs, I3.sh] using h3
      · simpa [bufs, I3.sh] using h1
      · simpa [bufs, I3.sh] using h2

theorem filter_ok {lo hi : I3} {s : ℝ} {ss : List ℝ} {fin fou : Arr} (hc : Covers (ss.length + 1) lo hi fin)
    (hf : ∀ i, InBox lo hi i → InBox fou.lo fou.hi i) :
    applyFilter lo hi (s :: ss) fin fou =
      .ok { fou with val := fun i => if InBox lo hi i then partialSum s ss 1 fin.val i else fou.val i } := by
  have hr : ∀ i, InBox lo hi i → ∀ m : ℕ, m < 1 + ss.length → InBox fin.lo fin.hi ⟨i.j, i.k, i.l + -(m : ℤ)⟩ ∧ InBox fin.lo fin.hi ⟨i.j, i.k, i.l + m⟩ := by
    intro i hi' m hm
    exact ⟨hc i hi' _ (by push_cast; omega) (by push_cast; omega), hc i hi' _ (by push_cast; omega) (by push_cast; omega)⟩
  unfold applyFilter
  dsimp only
  rw [pass_ok]
  · simp only [except_bind_ok]
    have e : (fun i => if InBox lo hi i then (cst s * Ex.rd .ex 0 0 0).den (bufs fin fou) i else fou.val i) =
        fun i => if InBox lo hi i then s * fin.val i else fou.val i := by
      funext i
      simp [bufs, I3.sh]
    rw [e, passes_ok hf ss 1 _ (fun i hi' m _ h2 => hr i hi' m h2)]
    simp only [except_bind_ok, except_pure, bufs, if_true]
    rfl
  · simp
  · intro i hi'
    refine ⟨?_, hf i hi'⟩
    have := (hr i hi' 0 (by omega)).2
    simpa [bufs, I3.sh] using this

/-- The symmetric sum as pairs. -/
theorem convolved_eq (s : ℝ) (ss : List ℝ) (f : I3 → ℝ) (i : I3) : convolved (s :: ss) f i = partialSum s ss 1 f i := by
  have key : ∀ (h : ℤ → ℝ) (n : ℕ), ∑ d ∈ Finset.Icc (-(n : ℤ)) n, h d = h 0 + ((List.range n).map fun m => h (-((m + 1 : ℕ) : ℤ)) + h ((m + 1 : ℕ) : ℤ)).sum := by
    intro h n
    induction n with
    | zero => simp
    | succ n ih =>
      have e : Finset.Icc (-((n + 1 : ℕ) : ℤ)) ((n + 1 : ℕ) : ℤ) = insert (-((n + 1 : ℕ) : ℤ)) (insert ((n + 1 : ℕ) : ℤ) (Finset.Icc (-(n : ℤ)) n)) := by
        ext x
        simp only [Finset.mem_insert, Finset.mem_Icc]
        push_cast
        omega
      rw [e, Finset.sum_insert, Finset.sum_insert, ih, List.range_succ, List.map_append, List.sum_append]
      · simp
        ring
      · simp
      · simp only [Finset.mem_insert, Finset.mem_Icc]
        push_cast
        omega
  unfold convolved partialSum
  have hl : ((s :: ss).length : ℤ) - 1 = (ss.length : ℤ) := by simp
  rw [hl, key]
  congr 1
  · simp
  · congr 1
    have hz : ∀ (ss : List ℝ) (n : ℕ) (G : ℝ → ℕ → ℝ), (ss.zipIdx n).map (fun t => G t.1 t.2) = (List.range ss.length).map fun m => G (ss.getD m 0) (n + m) := by
      intro ss
      induction ss with
      | nil => simp
      | cons a ss ih =>
        intro n G
        rw [List.zipIdx_cons, List.map_cons, ih (n + 1) G, List.length_cons, List.range_succ_eq_map, List.map_cons, List.map_map]
        simp only [Function.comp_def, List.getD_cons_zero, add_zero, List.getD_cons_succ]
        congr 1
        apply List.map_congr_left
        intro m _
        rw [show n + 1 + m = n + m.succ by omega]
    have h2 := hz ss 1 (fun a m => a * (f ⟨i.j, i.k, i.l + -(m : ℤ)⟩ + f ⟨i.j, i.k, i.l + m⟩))
    rw [h2]
    apply List.map_congr_left
    intro m _
    have n1 : (-((m + 1 : ℕ) : ℤ)).natAbs = m + 1 := by omega
    have n2 : (((m + 1 : ℕ) : ℤ)).natAbs = m + 1 := by omega
    rw [n1, n2, List.getD_cons_succ, show 1 + m = m + 1 by omega]
    ring

/-! ### Response -/

theorem cos_pair (θ x a : ℝ) : Real.cos (x - a * θ) + Real.cos (x + a * θ) = 2 * Real.cos (a * θ) * Real.cos x := by
  rw [Real.cos_sub, Real.cos_add]; ring

theorem stencil_wave (p : ℝ × ℝ × ℝ × ℝ) (A θ φ : ℝ) (i : I3) : convolved (stencil p) (waveZ A θ φ) i = gain p θ * waveZ A θ φ i := by
  unfold stencil
  rw [convolved_eq]
  simp only [partialSum, List.zipIdx_cons, List.zipIdx_nil, List.map_cons, List.map_nil, List.sum_cons, List.sum_nil, waveZ]
  push_cast
  set x := θ * (i.l : ℝ) + φ with hx
  have e : ∀ a : ℝ, A * Real.cos (θ * ((i.l : ℝ) + -a) + φ) + A * Real.cos (θ * ((i.l : ℝ) + a) + φ) = A * (2 * Real.cos (a * θ) * Real.cos x) := by
    intro a
    rw [← cos_pair θ x a, hx]
    rw [show θ * ((i.l : ℝ) + -a) + φ = θ * (i.l : ℝ) + φ - a * θ by ring, show θ * ((i.l : ℝ) + a) + φ = θ * (i.l : ℝ) + φ + a * θ by ring]
    ring
  have e1 := e 1
  have e2 := e 2
  have e3 := e 3
  have e4 := e 4
  rw [e1, e2, e3, e4]
  set s := Real.sin (θ / 2) with hs
  have c1 : Real.cos (1 * θ) = 1 - 2 * s ^ 2 := by
    rw [one_mul, show θ = 2 * (θ / 2) by ring, Real.cos_two_mul, hs]
    have := Real.sin_sq_add_cos_sq (θ / 2)
    linarith
  rw [one_mul] at c1
  have c2 : Real.cos (2 * θ) = 2 * (1 - 2 * s ^ 2) ^ 2 - 1 := by
    rw [Real.cos_two_mul, c1]
  have c3 : Real.cos (3 * θ) = 4 * (1 - 2 * s ^ 2) ^ 3 - 3 * (1 - 2 * s ^ 2) := by
    rw [Real.cos_three_mul, c1]
  have c4 : Real.cos (4 * θ) = 2 * (2 * (1 - 2 * s ^ 2) ^ 2 - 1) ^ 2 - 1 := by
    rw [show 4 * θ = 2 * (2 * θ) by ring, Real.cos_two_mul, c2]
  rw [one_mul, c1, c2, c3, c4]
  unfold gain
  rw [← hs]
  ring

/-! ### Table -/

/-- Bernstein coefficients of `1 + c1 s + ... + c4 s⁴`. -/
def bern (r : Row) : ℚ × ℚ × ℚ × ℚ := (1 + r.c1 / 4, 1 + r.c1 / 2 + r.c2 / 6, 1 + 3 * r.c1 / 4 + r.c2 / 2 + r.c3 / 4, 1 + r.c1 + r.c2 + r.c3 + r.c4)

def okRow (r : Row) : Bool :=
  let b := bern r
  decide (-(1 / 700) ≤ b.1) && decide (b.1 ≤ 1) && decide (-(1 / 700) ≤ b.2.1) && decide (b.2.1 ≤ 1) && decide (-(1 / 700) ≤ b.2.2.1) &&
    decide (b.2.2.1 ≤ 1) && decide (-(1 / 700) ≤ b.2.2.2) && decide (b.2.2.2 ≤ 1)

theorem ex_rows : exTable.all okRow = true := by decide +kernel
theorem by_rows : byTable.all okRow = true := by decide +kernel
/-- The value at `s = 1`. -/
def nyqRow (r : Row) : Bool := decide ((bern r).2.2.2 ≤ 1 / 700)

theorem ex_nyq : exTable.all nyqRow = true := by decide +kernel
theorem by_nyq : byTable.all nyqRow = true := by decide +kernel
theorem ex_length : exTable.length = 100 := by decide +kernel
theorem by_length : byTable.length = 100 := by decide +kernel

theorem row_bound {r : Row} (h : okRow r = true) {t : ℝ} (h0 : 0 ≤ t) (h1 : t ≤ 1) :
    -(1 / 700) ≤ 1 + r.c1 * t + r.c2 * t ^ 2 + r.c3 * t ^ 3 + r.c4 * t ^ 4 ∧ 1 + r.c1 * t + r.c2 * t ^ 2 + r.c3 * t ^ 3 + r.c4 * t ^ 4 ≤ 1 := by
  simp only [okRow, bern, Bool.and_eq_true] at h
  obtain ⟨⟨⟨⟨⟨⟨⟨a1, a2⟩, b1⟩, b2⟩, c1⟩, c2⟩, d1⟩, d2⟩ := h
  have cast : ∀ a b : ℚ, decide (a ≤ b) = true → (a : ℝ) ≤ (b : ℝ) := fun a b h => by exact_mod_cast of_decide_eq_true h
  have a1 := cast _ _ a1
  have a2 := cast _ _ a2
  have b1 := cast _ _ b1
  have b2 := cast _ _ b2
  have c1 := cast _ _ c1
  have c2 := cast _ _ c2
  have d1 := cast _ _ d1
  have d2 := cast _ _ d2
  push_cast at a1 a2 b1 b2 c1 c2 d1 d2
  set u := 1 - t with hu
  have u0 : 0 ≤ u := by linarith
  have e : 1 + (r.c1 : ℝ) * t + r.c2 * t ^ 2 + r.c3 * t ^ 3 + r.c4 * t ^ 4 = u ^ 4 + (1 + (r.c1 : ℝ) / 4) * (4 * t * u ^ 3) +
      (1 + (r.c1 : ℝ) / 2 + r.c2 / 6) * (6 * t ^ 2 * u ^ 2) + (1 + 3 * (r.c1 : ℝ) / 4 + r.c2 / 2 + r.c3 / 4) * (4 * t ^ 3 * u) +
      (1 + (r.c1 : ℝ) + r.c2 + r.c3 + r.c4) * t ^ 4 := by rw [hu]; ring
  have o : u ^ 4 + 4 * t * u ^ 3 + 6 * t ^ 2 * u ^ 2 + 4 * t ^ 3 * u + t ^ 4 = 1 := by rw [hu]; ring
  have p0 : 0 ≤ u ^ 4 := by positivity
  have p1 : 0 ≤ 4 * t * u ^ 3 := by positivity
  have p2 : 0 ≤ 6 * t ^ 2 * u ^ 2 := by positivity
  have p3 : 0 ≤ 4 * t ^ 3 * u := by positivity
  have p4 : 0 ≤ t ^ 4 := by positivity
  rw [e]
  constructor
  · nlinarith [mul_le_mul_of_nonneg_right a1 p1, mul_le_mul_of_nonneg_right b1 p2, mul_le_mul_of_nonneg_right c1 p3, mul_le_mul_of_nonneg_right d1 p4]
  · nlinarith [mul_le_mul_of_nonneg_right a2 p1, mul_le_mul_of_nonneg_right b2 p2, mul_le_mul_of_nonneg_right c2 p3, mul_le_mul_of_nonneg_right d2 p4]

theorem rowAt_ok {t : List Row} {i : ℤ} (h1 : 1 ≤ i) (h2 : i ≤ t.length) : ∃ r ∈ t, rowAt t i = .ok r ∧ t[(i - 1).toNat]? = some r := by
  have h : (i - 1).toNat < t.length := by omega
  refine ⟨t[(i - 1).toNat], List.getElem_mem h, ?_, List.getElem?_eq_getElem h⟩
  unfold rowAt
  rw [if_pos h1, List.getElem?_eq_getElem h]

theorem index_bounds {size : ℤ} (h : 2 ≤ size) (c : ℝ) : 1 ≤ index size c ∧ index size c ≤ size - 1 := by
  unfold index
  dsimp only
  split_ifs <;> omega

theorem weight_eq {i : ℤ} (h1 : 1 ≤ i) (h2 : i ≤ 99) (c : ℝ) : weight 100 c i = c := by
  unfold weight
  rw [Int.tdiv_eq_ediv_of_nonneg (by omega), Int.ediv_eq_zero_of_lt (by omega) (by omega)]
  simp

theorem prestencil_ok {t : List Row} (ht : t.length = 100) (c : ℝ) : ∃ a ∈ t, ∃ b ∈ t, t[(index 100 c - 1).toNat]? = some a ∧
    t[(index 100 c).toNat]? = some b ∧
    prestencil t 100 c = .ok ((1 - c) * a.c1 + c * b.c1, (1 - c) * a.c2 + c * b.c2, (1 - c) * a.c3 + c * b.c3, (1 - c) * a.c4 + c * b.c4) := by
  obtain ⟨i1, i2⟩ := index_bounds (size := 100) (by norm_num) c
  obtain ⟨a, ha, ra, sa⟩ := rowAt_ok (t := t) i1 (by rw [ht]; push_cast; omega)
  obtain ⟨b, hb, rb, sb⟩ := rowAt_ok (t := t) (i := index 100 c + 1) (by omega) (by rw [ht]; push_cast; omega)
  refine ⟨a, ha, b, hb, sa, ?_, ?_⟩
  · rw [← sb]; congr 1; omega
  · unfold prestencil
    dsimp only
    rw [ra, rb]
    simp only [except_bind_ok, except_pure]
    rw [weight_eq i1 (by omega)]

theorem init_ok {c : ℝ} {lower : ℤ} (hl : lower ≠ 0) {p q : ℝ × ℝ × ℝ × ℝ} (h1 : prestencil exTable 100 c = .ok p)
    (h2 : prestencil byTable 100 c = .ok q) : initFilter 5 c lower = .ok (stencil p, stencil q) := by
  unfold initFilter
  rw [if_neg (by norm_num), if_pos hl, show ((exTable.length : ℕ) : ℤ) = 100 by rw [ex_length]; rfl, h1, h2]
  rfl

theorem gain_rows (a b : Row) (c θ : ℝ) :
    gain ((1 - c) * a.c1 + c * b.c1, (1 - c) * a.c2 + c * b.c2, (1 - c) * a.c3 + c * b.c3, (1 - c) * a.c4 + c * b.c4) θ =
      (1 - c) * gain (a.c1, a.c2, a.c3, a.c4) θ + c * gain (b.c1, b.c2, b.c3, b.c4) θ := by
  unfold gain
  ring

theorem gain_row_bound {r : Row} (h : okRow r = true) (θ : ℝ) : -(1 / 700) ≤ gain (r.c1, r.c2, r.c3, r.c4) θ ∧ gain (r.c1, r.c2, r.c3, r.c4) θ ≤ 1 := by
  have h1 : Real.sin (θ / 2) ^ 2 ≤ 1 := by nlinarith [Real.sin_sq_add_cos_sq (θ / 2), sq_nonneg (Real.cos (θ / 2))]
  have e : gain (r.c1, r.c2, r.c3, r.c4) θ = 1 + r.c1 * Real.sin (θ / 2) ^ 2 + r.c2 * (Real.sin (θ / 2) ^ 2) ^ 2 + r.c3 * (Real.sin (θ / 2) ^ 2) ^ 3 +
      r.c4 * (Real.sin (θ / 2) ^ 2) ^ 4 := by
    unfold gain
    ring
  rw [e]
  exact row_bound h (sq_nonneg _) h1

theorem gain_row_nyquist {r : Row} (h : okRow r = true) (h' : nyqRow r = true) :
    -(1 / 700) ≤ gain (r.c1, r.c2, r.c3, r.c4) Real.pi ∧ gain (r.c1, r.c2, r.c3, r.c4) Real.pi ≤ 1 / 700 := by
  refine ⟨(gain_row_bound h _).1, ?_⟩
  have h2 := of_decide_eq_true h'
  simp only [bern] at h2
  have h3 : ((1 + r.c1 + r.c2 + r.c3 + r.c4 : ℚ) : ℝ) ≤ ((1 / 700 : ℚ) : ℝ) := by exact_mod_cast h2
  push_cast at h3
  unfold gain
  rw [Real.sin_pi_div_two]
  simpa using h3

/-! ### Faults -/

theorem loop_fault {t : Comp} {e : Ex} : ∀ (o : List I3) (σ : Mem), (∃ i ∈ o, ¬ InBox (σ t).lo (σ t).hi i) → (∀ i ∈ o, e.Safe σ i) →
    loop t e o σ = .error .outOfBounds
  | [], _, h, _ => by simp at h
  | a :: o, σ, h, hs => by
    unfold loop
    rw [eval_ok (hs a (by simp))]
    simp only [except_bind_ok]
    by_cases hb : InBox (σ t).lo (σ t).hi a
    · have hset : (σ t).set a (e.den σ a) = .ok { σ t with val := Function.update (σ t).val a (e.den σ a) } := if_pos hb
      rw [hset]
      simp only [except_bind_ok]
      apply loop_fault
      · obtain ⟨i, hi, hn⟩ := h
        rcases List.mem_cons.mp hi with rfl | hi
        · exact (hn hb).elim
        · refine ⟨i, hi, ?_⟩
          simpa using hn
      · intro i hi
        refine safe_congr (fun c => ?_) (hs i (by simp [hi]))
        by_cases hc : c = t
        · subst hc; simp
        · simp [Function.update_of_ne hc]
    · have hset : (σ t).set a (e.den σ a) = .error .outOfBounds := if_neg hb
      rw [hset]; rfl

/-- Either every access of a pass is inside, or the pass fails. -/
theorem pass_fault {lo hi : I3} {e : Ex} {fin fou : Arr} (h : ¬ ∀ i, InBox lo hi i → e.Safe (bufs fin fou) i ∧ InBox fou.lo fou.hi i) :
    loop .ey e (box lo hi) (bufs fin fou) = .error .outOfBounds := by
  by_cases hs : ∀ i ∈ box lo hi, e.Safe (bufs fin fou) i
  · apply loop_fault _ _ _ hs
    push Not at h
    obtain ⟨i, hi, hn⟩ := h
    refine ⟨i, mem_box.mpr hi, ?_⟩
    simpa [bufs] using hn (hs i (mem_box.mpr hi))
  · push Not at hs
    exact loop_oob _ _ hs

theorem passes_fault {lo hi : I3} {fin : Arr} : ∀ (ss : List ℝ) (n : ℕ) (fou : Arr),
    (∃ i, InBox lo hi i ∧ ∃ m : ℕ, n ≤ m ∧ m < n + ss.length ∧ ¬ (InBox fin.lo fin.hi ⟨i.j, i.k, i.l + -(m : ℤ)⟩ ∧ InBox fin.lo fin.hi ⟨i.j, i.k, i.l + m⟩)) →
    (ss.zipIdx n).foldlM (fun (σ : Mem) (t : ℝ × ℕ) => loop .ey (passEx t.1 t.2) (box lo hi) σ) (bufs fin fou) = (.error .outOfBounds : Res Mem)
  | [], n, fou, h => by
    obtain ⟨i, _, m, h1, h2, _⟩ := h
    simp at h2; omega
  | s :: ss, n, fou, h => by
    rw [List.zipIdx_cons, List.foldlM_cons]
    by_cases hp : ∀ i, InBox lo hi i → (passEx s n).Safe (bufs fin fou) i ∧ InBox fou.lo fou.hi i
    · rw [pass_ok (by simp [passEx]) hp]
      simp only [except_bind_ok]
      apply passes_fault
      obtain ⟨i, hi, m, h1, h2, h3⟩ := h
      refine ⟨i, hi, m, ?_, by simp at h2; omega, h3⟩
      rcases Nat.eq_or_lt_of_le h1 with rfl | h1
      · exfalso
        apply h3
        have := (hp i hi).1
        simp only [passEx, add_safe, mul_safe, cst_safe, rd_safe, true_and] at this
        obtain ⟨_, q1, q2⟩ := this
        exact ⟨by simpa [bufs, I3.sh] using q1, by simpa [bufs, I3.sh] using q2⟩
      · exact h1
    · rw [pass_fault hp]; rfl

theorem filter_fault {lo hi : I3} {s : ℝ} {ss : List ℝ} {fin fou : Arr}
    (h : ¬ (Covers (ss.length + 1) lo hi fin ∧ ∀ i, InBox lo hi i → InBox fou.lo fou.hi i)) :
    applyFilter lo hi (s :: ss) fin fou = .error .outOfBounds := by
  unfold applyFilter
  dsimp only
  by_cases hp : ∀ i, InBox lo hi i → (cst s * Ex.rd .ex 0 0 0).Safe (bufs fin fou) i ∧ InBox fou.lo fou.hi i
  · rw [pass_ok (by simp) hp]
    simp only [except_bind_ok]
    rw [passes_fault ss 1]
    · rfl
    · by_contra hn
      apply h
      refine ⟨?_, fun i hi => (hp i hi).2⟩
      intro i hi d d1 d2
      push_cast at d1 d2
      by_cases hd : d = 0
      · have := (hp i hi).1
        subst hd
        simpa [bufs, I3.sh] using this
      · by_contra hb
        apply hn
        refine ⟨i, hi, d.natAbs, by omega, by omega, ?_⟩
        rintro ⟨q1, q2⟩
        rcases Int.natAbs_eq d with e | e
        · rw [← e] at q2; exact hb q2
        · rw [show -((d.natAbs : ℕ) : ℤ) = d by omega] at q1; exact hb q1
  · rw [pass_fault hp]; rfl

end Picsar.Godfrey
