import Verif.Spec.ProjLoad
import Mathlib.Algebra.Order.Floor.Ring
import Mathlib.Algebra.BigOperators.Group.List.Basic
import Mathlib.Data.List.GetD
import Mathlib.Tactic.Linarith
import Mathlib.Tactic.Positivity
import Mathlib.Tactic.Ring
import Mathlib.Tactic.FieldSimp
import Mathlib.Tactic.NormNum
/-
Histograms, their sums, and sums of integers as subnormal numbers.
-/
namespace Picsar.ProjLoad
open Picsar

/-! ### histograms -/

theorem floor_inPlane {g : Grid} {a : Axis} (hd : 0 < g.d a) (v : ℝ) (c : ℕ) : ⌊(v - g.gmin a) / g.d a⌋ = (c : ℤ) ↔ InPlane g a c v := by
  rw [Int.floor_eq_iff, le_div_iff₀ hd, div_lt_iff₀ hd, InPlane]
  push_cast
  constructor
  · rintro ⟨h1, h2⟩; constructor <;> linarith
  · rintro ⟨h1, h2⟩; constructor <;> linarith

theorem floor_inside {g : Grid} {a : Axis} (hd : 0 < g.d a) (v : ℝ) :
    (0 ≤ ⌊(v - g.gmin a) / g.d a⌋ ∧ ⌊(v - g.gmin a) / g.d a⌋ < g.n a) ↔ g.gmin a ≤ v ∧ v < g.gmin a + g.n a * g.d a := by
  rw [Int.floor_nonneg, Int.floor_lt, div_nonneg_iff, div_lt_iff₀ hd]
  push_cast
  constructor
  · rintro ⟨h1 | h1, h2⟩
    · constructor <;> linarith [h1.1]
    · exact absurd h1.2 (not_le.mpr hd)
  · rintro ⟨h1, h2⟩
    exact ⟨Or.inl ⟨by linarith, hd.le⟩, by linarith⟩

theorem bump_ok {l : List ℤ} {i : ℤ} (h0 : 0 ≤ i) (h1 : i < l.length) :
    ∃ l', bump l i = .ok l' ∧ l'.length = l.length ∧ ∀ c, c < l.length → l'.getD c 0 = l.getD c 0 + if i = (c : ℤ) then 1 else 0 := by
  have h2 : i.toNat < l.length := by omega
  refine ⟨l.set i.toNat (l[i.toNat] + 1), ?_, by simp, fun c hc => ?_⟩
  · rw [bump, if_pos h0, rd_ok h2, except_bind_ok, wr_ok h2]
  · rw [List.getD_eq_getElem _ _ (by simpa using hc), List.getD_eq_getElem _ _ hc, List.getElem_set]
    by_cases e : i.toNat = c
    · subst e; rw [if_pos rfl, if_pos (by omega)]
    · rw [if_neg e, if_neg (by omega), add_zero]

theorem bump_bad {l : List ℤ} {i : ℤ} (h : ¬ (0 ≤ i ∧ i < l.length)) : bump l i = .error .outOfBounds := by
  rw [bump]
  split_ifs with h0
  · rw [rd_oob (by omega)]; rfl
  · rfl

/-- Number of indices equal to `c`. -/
def hits (is : List ℤ) (c : ℕ) : ℤ := (is.countP fun i => decide (i = (c : ℤ)))

theorem bumps_ok (is : List ℤ) : ∀ l : List ℤ, (∀ i ∈ is, 0 ≤ i ∧ i < l.length) →
    ∃ l', is.foldlM bump l = .ok l' ∧ l'.length = l.length ∧ ∀ c, c < l.length → l'.getD c 0 = l.getD c 0 + hits is c := by
  induction is with
  | nil => intro l _; exact ⟨l, rfl, rfl, fun c _ => by simp [hits]⟩
  | cons i is ih =>
    intro l h
    obtain ⟨l1, e1, n1, v1⟩ := bump_ok (h i (by simp)).1 (h i (by simp)).2
    obtain ⟨l2, e2, n2, v2⟩ := ih l1 (fun j hj => by rw [n1]; exact h j (by simp [hj]))
    refine ⟨l2, by rw [List.foldlM_cons, e1]; exact e2, n2.trans n1, fun c hc => ?_⟩
    rw [v2 c (by omega), v1 c hc, hits, hits, List.countP_cons]
    by_cases e : i = (c : ℤ)
    · simp [e]; ring
    · simp [e]

theorem bumps_bad (is : List ℤ) : ∀ l : List ℤ, (∃ i ∈ is, ¬ (0 ≤ i ∧ i < l.length)) → is.foldlM bump l = .error .outOfBounds := by
  induction is with
  | nil => rintro l ⟨i, hi, -⟩; simp at hi
  | cons i is ih =>
    rintro l ⟨j, hj, hb⟩
    rw [List.foldlM_cons]
    by_cases h : 0 ≤ i ∧ i < l.length
    · obtain ⟨l1, e1, n1, -⟩ := bump_ok h.1 h.2
      rw [e1]
      rcases List.mem_cons.mp hj with rfl | hj
      · exact absurd h hb
      · exact ih l1 ⟨j, hj, by rw [n1]; exact hb⟩
    · rw [bump_bad h]; rfl

theorem histogram_eq (g : Grid) (a : Axis) (ps : List Pos) :
    histogram g a ps = (ps.map fun p => ⌊(p.get a - g.gmin a) / g.d a⌋).foldlM bump (List.replicate (g.n a) 0) := by
  rw [histogram]
  generalize List.replicate (g.n a) (0 : ℤ) = l
  induction ps generalizing l with
  | nil => rfl
  | cons p ps ih =>
    rw [List.map_cons, List.foldlM_cons, List.foldlM_cons]
    cases bump l ⌊(p.get a - g.gmin a) / g.d a⌋ with
    | error e => rfl
    | ok l' => exact ih l'

open Classical in
theorem hits_map {g : Grid} {a : Axis} (hd : 0 < g.d a) (ps : List Pos) (c : ℕ) :
    hits (ps.map fun p => ⌊(p.get a - g.gmin a) / g.d a⌋) c = (ps.countP fun p => decide (InPlane g a c (p.get a)) : ℕ) := by
  rw [hits, List.countP_map]
  congr 1
  refine List.countP_congr fun p _ => ?_
  simp only [Function.comp, decide_eq_true_eq]
  exact floor_inPlane hd _ _

theorem zip_getD {l k : List ℤ} {N c : ℕ} (hl : l.length = N) (hk : k.length = N) (hc : c < N) :
    (List.zipWith (· + ·) l k).getD c 0 = l.getD c 0 + k.getD c 0 := by
  rw [List.getD_eq_getElem _ _ (by simp [hl, hk, hc]), List.getD_eq_getElem _ _ (by omega), List.getD_eq_getElem _ _ (by omega), List.getElem_zipWith]

theorem reduce_from (N : ℕ) (ls : List (List ℤ)) : ∀ l0 : List ℤ, l0.length = N → (∀ l ∈ ls, l.length = N) →
    (ls.foldl (List.zipWith (· + ·)) l0).length = N ∧
    ∀ c, c < N → (ls.foldl (List.zipWith (· + ·)) l0).getD c 0 = l0.getD c 0 + (ls.map fun l => l.getD c 0).sum := by
  induction ls with
  | nil => intro l0 h0 _; exact ⟨h0, fun c _ => by simp⟩
  | cons k ls ih =>
    intro l0 h0 h
    have hk := h k (by simp)
    obtain ⟨i1, i2⟩ := ih (List.zipWith (· + ·) l0 k) (by simp [h0, hk]) (fun l hl => h l (by simp [hl]))
    refine ⟨i1, fun c hc => ?_⟩
    rw [List.foldl_cons, i2 c hc, zip_getD h0 hk hc, List.map_cons, List.sum_cons, add_assoc]

open Classical in
theorem histograms_ok {g : Grid} {a : Axis} (hd : 0 < g.d a) (procs : List (List Pos)) (h : AllInside g a procs) :
    ∃ hs, procs.mapM (histogram g a) = .ok hs ∧ (∀ l ∈ hs, l.length = g.n a) ∧
      ∀ c, c < g.n a → (hs.map fun l => l.getD c 0).sum = inPlane g a c procs := by
  induction procs with
  | nil => exact ⟨[], rfl, by simp, fun c _ => by simp [inPlane]⟩
  | cons ps procs ih =>
    obtain ⟨hs, e1, e2, e3⟩ := ih (fun q hq => h q (by simp [hq]))
    obtain ⟨l, f1, f2, f3⟩ := bumps_ok (ps.map fun p => ⌊(p.get a - g.gmin a) / g.d a⌋) (List.replicate (g.n a) 0) (fun i hi => by
      obtain ⟨p, hp, rfl⟩ := List.mem_map.mp hi
      rw [List.length_replicate]
      exact (floor_inside hd _).mpr (h ps (by simp) p hp))
    rw [← histogram_eq] at f1
    rw [List.length_replicate] at f2 f3
    refine ⟨l :: hs, by rw [List.mapM_cons, f1, except_bind_ok, e1]; rfl, by simpa [f2] using e2, fun c hc => ?_⟩
    rw [List.map_cons, List.sum_cons, e3 c hc, f3 c hc, hits_map hd, inPlane, inPlane, List.flatten_cons, List.countP_append]
    rw [List.getD_eq_getElem _ _ (by simpa using hc), List.getElem_replicate]
    push_cast
    ring

theorem histograms_bad {g : Grid} {a : Axis} (hd : 0 < g.d a) (procs : List (List Pos)) (h : ¬ AllInside g a procs) :
    procs.mapM (histogram g a) = .error .outOfBounds := by
  induction procs with
  | nil => exact absurd (fun ps hps => by simp at hps) h
  | cons ps procs ih =>
    by_cases h1 : ∀ p ∈ ps, g.gmin a ≤ p.get a ∧ p.get a < g.gmin a + g.n a * g.d a
    · have h2 : ¬ AllInside g a procs := fun h2 => h (fun q hq => by
        rcases List.mem_cons.mp hq with rfl | hq
        · exact h1
        · exact h2 q hq)
      obtain ⟨l, f1, -⟩ := bumps_ok (ps.map fun p => ⌊(p.get a - g.gmin a) / g.d a⌋) (List.replicate (g.n a) 0) (fun i hi => by
        obtain ⟨p, hp, rfl⟩ := List.mem_map.mp hi
        rw [List.length_replicate]
        exact (floor_inside hd _).mpr (h1 p hp))
      rw [List.mapM_cons, histogram_eq, f1, except_bind_ok, ih h2]
      rfl
    · push Not at h1
      obtain ⟨p, hp, hb⟩ := h1
      rw [List.mapM_cons, histogram_eq, bumps_bad _ _ ⟨_, List.mem_map.mpr ⟨p, hp, rfl⟩, ?_⟩]
      · rfl
      · rw [List.length_replicate, floor_inside hd]
        rintro ⟨b1, b2⟩
        exact absurd b2 (not_lt.mpr (hb b1))

theorem projected_ok {g : Grid} {a : Axis} (hd : 0 < g.d a) (tpp tpc : ℝ) (procs : List (List Pos)) (h : AllInside g a procs) :
    ∃ l, projected g a tpp tpc procs = .ok l ∧ l.length = g.n a ∧
      ∀ c, (hc : c < l.length) → l[c] = inPlane g a c procs * tpp + planeCells g a * tpc := by
  obtain ⟨hs, e1, e2, e3⟩ := histograms_ok hd procs h
  obtain ⟨r1, r2⟩ := reduce_from (g.n a) hs (List.replicate (g.n a) 0) (by simp) e2
  refine ⟨_, by rw [projected, e1, except_bind_ok], by rw [List.length_map]; exact r1, fun c hc => ?_⟩
  rw [List.length_map] at hc
  have hc' : c < g.n a := by rw [← r1]; exact hc
  have hv := r2 c hc'
  rw [List.getD_eq_getElem _ _ (by rw [r1]; exact hc'), e3 c hc', List.getD_eq_getElem _ _ (by simpa using hc'), List.getElem_replicate, zero_add] at hv
  rw [List.getElem_map]
  have : (reduceSum (g.n a) hs)[c] = (inPlane g a c procs : ℤ) := hv
  rw [this]
  push_cast
  rfl

theorem projected_bad {g : Grid} {a : Axis} (hd : 0 < g.d a) (tpp tpc : ℝ) (procs : List (List Pos)) (h : ¬ AllInside g a procs) :
    projected g a tpp tpc procs = .error .outOfBounds := by
  rw [projected, histograms_bad hd procs h]; rfl

/-! ### total -/

theorem inPlane_unique {g : Grid} {a : Axis} (hd : 0 < g.d a) {v : ℝ} (hv : g.gmin a ≤ v ∧ v < g.gmin a + g.n a * g.d a) :
    ∃ c0, c0 < g.n a ∧ ∀ c, InPlane g a c v ↔ c = c0 := by
  have hb := (floor_inside hd v).mpr hv
  refine ⟨⌊(v - g.gmin a) / g.d a⌋.toNat, by omega, fun c => ?_⟩
  rw [← floor_inPlane hd]
  omega

theorem range_indicator (N c0 : ℕ) (h : c0 < N) : ((List.range N).map fun c => if c = c0 then 1 else 0).sum = 1 := by
  induction N with
  | zero => omega
  | succ N ih =>
    rw [List.range_succ, List.map_append, List.sum_append]
    by_cases e : c0 = N
    · subst e
      have : ((List.range c0).map fun c => if c = c0 then 1 else 0) = (List.range c0).map fun _ => 0 := by
        refine List.map_congr_left fun c hc => ?_
        rw [if_neg (by have := List.mem_range.mp hc; omega)]
      rw [this]
      simp
    · rw [ih (by omega)]
      simp [Ne.symm e]

open Classical in
theorem planes_total {g : Grid} {a : Axis} (hd : 0 < g.d a) (qs : List Pos)
    (h : ∀ p ∈ qs, g.gmin a ≤ p.get a ∧ p.get a < g.gmin a + g.n a * g.d a) :
    ((List.range (g.n a)).map fun c => qs.countP fun p => decide (InPlane g a c (p.get a))).sum = qs.length := by
  induction qs with
  | nil => simp
  | cons p qs ih =>
    obtain ⟨c0, h0, hu⟩ := inPlane_unique hd (h p (by simp))
    have e : ∀ c, ((p :: qs).countP fun p => decide (InPlane g a c (p.get a))) =
        (qs.countP fun p => decide (InPlane g a c (p.get a))) + if c = c0 then 1 else 0 := by
      intro c
      rw [List.countP_cons]
      simp only [hu c, decide_eq_true_eq]
    simp only [e]
    rw [List.sum_map_add, ih (fun p hp => h p (by simp [hp])), range_indicator _ _ h0, List.length_cons]

theorem sum_affine (l : List ℕ) (u v : ℝ) : (l.map fun k : ℕ => (k : ℝ) * u + v).sum = (l.sum : ℕ) * u + l.length * v := by
  induction l with
  | nil => simp
  | cons k l ih => rw [List.map_cons, List.sum_cons, ih, List.sum_cons, List.length_cons]; push_cast; ring

theorem projected_sum {g : Grid} {a : Axis} (hd : 0 < g.d a) (tpp tpc : ℝ) (procs : List (List Pos)) (h : AllInside g a procs) (l : List ℝ)
    (e : projected g a tpp tpc procs = .ok l) : l.sum = procs.flatten.length * tpp + (g.n a * planeCells g a : ℕ) * tpc := by
  obtain ⟨l', e', hl, hv⟩ := projected_ok hd tpp tpc procs h
  rw [e'] at e
  injection e with e
  subst e
  have : l' = ((List.range (g.n a)).map fun c => inPlane g a c procs).map fun k : ℕ => (k : ℝ) * tpp + planeCells g a * tpc := by
    refine List.ext_getElem (by simp [hl]) fun c h1 h2 => ?_
    rw [hv c h1]
    simp
  rw [this, sum_affine]
  have ht : ((List.range (g.n a)).map fun c => inPlane g a c procs).sum = procs.flatten.length :=
    planes_total hd procs.flatten (fun p hp => by
      obtain ⟨ps, h1, h2⟩ := List.mem_flatten.mp hp
      exact h ps h1 p h2)
  rw [ht, List.length_map, List.length_range]
  push_cast
  ring

/-! ### integers added as double precision numbers -/

theorem tiny_pos : 0 < tiny := by unfold tiny; positivity

theorem real8_small {b : ℕ} (h : b < 2 ^ 53) : real8 b = b * tiny := by
  rw [real8]
  split_ifs with h0
  · rw [Nat.mod_eq_of_lt (by omega)]
  · have h1 : b / 2 ^ 52 = 1 := by omega
    have h2 : 2 ^ 52 + b % 2 ^ 52 = b := by omega
    rw [h1, h2]
    simp

theorem real8_large {b : ℕ} (h : 2 ^ 53 ≤ b) : (2 ^ 53 : ℕ) * tiny ≤ real8 b := by
  have h0 : ¬ b / 2 ^ 52 = 0 := by omega
  rw [real8, if_neg h0]
  refine mul_le_mul_of_nonneg_right ?_ tiny_pos.le
  have h1 : (2 : ℚ) ^ 1 ≤ 2 ^ (b / 2 ^ 52 - 1) := pow_le_pow_right₀ (by norm_num) (by omega)
  have h2 : ((2 ^ 52 : ℕ) : ℚ) ≤ (2 ^ 52 + b % 2 ^ 52 : ℕ) := by exact_mod_cast Nat.le_add_right _ _
  calc ((2 ^ 53 : ℕ) : ℚ) = (2 ^ 52 : ℕ) * 2 ^ 1 := by norm_num
    _ ≤ _ := mul_le_mul h2 h1 (by norm_num) (by positivity)

theorem real8_inj_small {r s : ℕ} (hs : s < 2 ^ 53) (h : real8 r = real8 s) : r = s := by
  by_cases hr : r < 2 ^ 53
  · rw [real8_small hr, real8_small hs] at h
    exact_mod_cast mul_right_cancel₀ tiny_pos.ne' h
  · have h1 := real8_large (not_lt.mp hr)
    rw [h, real8_small hs] at h1
    have h2 := le_of_mul_le_mul_right h1 tiny_pos
    have : 2 ^ 53 ≤ s := by exact_mod_cast h2
    omega

theorem nearest_exact {q : ℚ} {s : ℕ} (hs : s < 2 ^ 53) (hq : q = real8 s) (r : ℕ) : Nearest q r ↔ r = s := by
  subst hq
  constructor
  · rintro ⟨-, h⟩
    have := h s (by omega)
    rw [sub_self, abs_zero] at this
    exact real8_inj_small hs (sub_eq_zero.mp (abs_nonpos_iff.mp this))
  · rintro rfl
    refine ⟨by omega, fun s _ => ?_⟩
    rw [sub_self, abs_zero]
    exact abs_nonneg _

theorem gives_sum (t : Tree) : ∀ v, t.leaves.sum < 2 ^ 53 → (Gives false t v ↔ v = t.leaves.sum) := by
  induction t with
  | leaf b => intro v _; simp [Gives, Tree.leaves]
  | node l r ihl ihr =>
    intro v h
    rw [Tree.leaves, List.sum_append] at h ⊢
    have hl := fun v => ihl v (by omega)
    have hr := fun v => ihr v (by omega)
    simp only [Gives, hl, hr]
    have e : seen false l.leaves.sum + seen false r.leaves.sum = real8 (l.leaves.sum + r.leaves.sum) := by
      rw [real8_small h]
      simp only [seen, Bool.false_eq_true, false_and, if_false]
      rw [real8_small (by omega), real8_small (by omega)]
      push_cast
      ring
    constructor
    · rintro ⟨_, _, rfl, rfl, hn⟩
      exact (nearest_exact h e v).mp hn
    · rintro rfl
      exact ⟨_, _, rfl, rfl, (nearest_exact h e _).mpr rfl⟩

theorem gives_flushed (t : Tree) : (∀ b ∈ t.leaves, b < 2 ^ 52) →
    (∃ v, Gives true t v) ∧ (∀ v, Gives true t v → v < 2 ^ 52) ∧ (2 ≤ t.leaves.length → ∀ v, Gives true t v ↔ v = 0) := by
  induction t with
  | leaf b =>
    intro h
    refine ⟨⟨b, rfl⟩, fun v hv => ?_, fun h2 => by simp [Tree.leaves] at h2⟩
    have : v = b := hv
    subst this
    exact h v (by simp [Tree.leaves])
  | node l r ihl ihr =>
    intro h
    obtain ⟨⟨vl, hvl⟩, bl, -⟩ := ihl (fun b hb => h b (by simp [Tree.leaves, hb]))
    obtain ⟨⟨vr, hvr⟩, br, -⟩ := ihr (fun b hb => h b (by simp [Tree.leaves, hb]))
    have z : ∀ b, b < 2 ^ 52 → seen true b = 0 := fun b hb => by
      rw [seen, if_pos ⟨rfl, Nat.div_eq_of_lt hb⟩]
    have z0 : (0 : ℚ) = real8 0 := by rw [real8_small (by norm_num)]; simp
    have key : ∀ v, Gives true (.node l r) v ↔ v = 0 := by
      intro v
      constructor
      · rintro ⟨a, b, ha, hb, hn⟩
        rw [z a (bl a ha), z b (br b hb), add_zero] at hn
        exact (nearest_exact (by norm_num) z0 v).mp hn
      · rintro rfl
        refine ⟨vl, vr, hvl, hvr, ?_⟩
        rw [z vl (bl vl hvl), z vr (br vr hvr), add_zero]
        exact (nearest_exact (by norm_num) z0 0).mpr rfl
    exact ⟨⟨0, (key 0).mpr rfl⟩, fun v hv => by rw [(key v).mp hv]; norm_num, fun _ => key⟩

/-- Any list of contributions can be added one after the other. -/
theorem exists_tree (b : ℕ) (bs : List ℕ) : ∃ t : Tree, t.leaves = b :: bs := by
  induction bs generalizing b with
  | nil => exact ⟨.leaf b, rfl⟩
  | cons c bs ih =>
    obtain ⟨t, ht⟩ := ih c
    exact ⟨.node (.leaf b) t, by rw [Tree.leaves, ht]; rfl⟩

end Picsar.ProjLoad
