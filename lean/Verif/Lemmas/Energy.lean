import Verif.Spec.Energy
import Verif.Spec.Topology
import Verif.Lemmas.Grid
import Mathlib.Tactic.Ring
import Mathlib.Tactic.Linarith
import Mathlib.Tactic.Positivity
import Mathlib.Algebra.Order.BigOperators.Group.Finset
import Mathlib.Algebra.BigOperators.Ring.Finset
import Mathlib.Tactic.FieldSimp
/-
Helper lemmas for C73.
-/
namespace Picsar.Energy
open Picsar Picsar.Grid

theorem irange_sum (lo hi : ℤ) (f : ℤ → ℝ) : ((irange lo hi).map f).sum = ∑ i ∈ Finset.Icc lo hi, f i := by
  rw [← List.sum_toFinset _ (nodup_irange lo hi)]
  apply Finset.sum_congr _ fun _ _ => rfl
  ext x
  simp [mem_irange]

theorem box_sum (lo hi : I3) (f : I3 → ℝ) : ((box lo hi).map f).sum = boxSum lo hi f := by
  unfold box boxSum
  rw [← irange_sum, List.map_flatMap]
  rw [List.flatMap, List.sum_flatten, List.map_map]
  congr 1
  apply List.map_congr_left
  intro l _
  simp only [Function.comp]
  rw [← irange_sum, List.map_flatMap, List.flatMap, List.sum_flatten, List.map_map]
  congr 1
  apply List.map_congr_left
  intro k _
  simp only [Function.comp]
  rw [← irange_sum, List.map_map]
  rfl

theorem foldlM_add {α : Type} {g : α → Res ℝ} {h : α → ℝ} : ∀ (l : List α) (s : ℝ), (∀ x ∈ l, g x = .ok (h x)) →
    l.foldlM (fun (s : ℝ) x => do
      let v ← g x
      .ok (s + v)) s = (.ok (s + (l.map h).sum) : Res ℝ) := by
  intro l
  induction l with
  | nil => intro s _; simp
  | cons x l ih =>
    intro s hl
    rw [List.foldlM_cons, hl x (by simp)]
    simp only [except_bind_ok]
    rw [ih _ fun y hy => hl y (by simp [hy])]
    simp [add_assoc]

theorem foldlM_pure {α : Type} {g : ℝ → α → Res ℝ} {h : α → ℝ} : ∀ (l : List α) (s : ℝ), (∀ x ∈ l, ∀ s, g s x = .ok (s + h x)) →
    l.foldlM g s = (.ok (s + (l.map h).sum) : Res ℝ) := by
  intro l
  induction l with
  | nil => intro s _; simp
  | cons x l ih =>
    intro s hl
    rw [List.foldlM_cons, hl x (by simp)]
    simp only [except_bind_ok]
    rw [ih _ fun y hy => hl y (by simp [hy])]
    simp [add_assoc]

theorem sumSq_ok {a : Arr} {n : I3} (hb : ∀ i, InBox ⟨0, 0, 0⟩ ⟨n.j - 1, n.k - 1, n.l - 1⟩ i → InBox a.lo a.hi i) :
    sumSq a n = .ok (boxSum ⟨0, 0, 0⟩ ⟨n.j - 1, n.k - 1, n.l - 1⟩ fun i => a.val i ^ 2) := by
  unfold sumSq
  rw [foldlM_pure (h := fun i => a.val i ^ 2)]
  · rw [box_sum, zero_add]
  · intro i hi s
    unfold Arr.get
    rw [if_pos (hb i (mem_box.mp hi))]
    simp only [except_bind_ok]
    rw [abs_of_nonneg (sq_nonneg _)]

theorem fieldSum_ok {a : Arr} {n : I3} (hb : ∀ i, InBox ⟨1, 1, 1⟩ n i → InBox a.lo a.hi i) :
    fieldSum a n = .ok (boxSum ⟨1, 1, 1⟩ n fun i => a.val i ^ 2 / 2) := by
  unfold fieldSum
  rw [foldlM_pure (h := fun i => a.val i ^ 2 / 2)]
  · rw [box_sum, zero_add]
  · intro i hi s
    unfold Arr.get
    rw [if_pos (hb i (mem_box.mp hi))]
    simp only [except_bind_ok]
    congr 2
    ring

theorem boxSum_nonneg {lo hi : I3} {f : I3 → ℝ} (h : ∀ i, 0 ≤ f i) : 0 ≤ boxSum lo hi f := by
  unfold boxSum
  exact Finset.sum_nonneg fun l _ => Finset.sum_nonneg fun k _ => Finset.sum_nonneg fun j _ => h _

theorem boxSum_eq_zero {lo hi : I3} {f : I3 → ℝ} (h : ∀ i, 0 ≤ f i) : boxSum lo hi f = 0 ↔ ∀ i, InBox lo hi i → f i = 0 := by
  unfold boxSum
  constructor
  · intro e i hi
    rw [Finset.sum_eq_zero_iff_of_nonneg (fun l _ => Finset.sum_nonneg fun k _ => Finset.sum_nonneg fun j _ => h _)] at e
    have e1 := e i.l (by rw [Finset.mem_Icc]; exact ⟨hi.2.2.2.2.1, hi.2.2.2.2.2⟩)
    rw [Finset.sum_eq_zero_iff_of_nonneg (fun k _ => Finset.sum_nonneg fun j _ => h _)] at e1
    have e2 := e1 i.k (by rw [Finset.mem_Icc]; exact ⟨hi.2.2.1, hi.2.2.2.1⟩)
    rw [Finset.sum_eq_zero_iff_of_nonneg (fun j _ => h _)] at e2
    exact e2 i.j (by rw [Finset.mem_Icc]; exact ⟨hi.1, hi.2.1⟩)
  · intro e
    refine Finset.sum_eq_zero fun l hl => Finset.sum_eq_zero fun k hk => Finset.sum_eq_zero fun j hj => e _ ?_
    rw [Finset.mem_Icc] at hl hk hj
    exact ⟨hj.1, hj.2, hk.1, hk.2, hl.1, hl.2⟩

theorem boxSum_congr {lo hi : I3} {f g : I3 → ℝ} (h : ∀ i, InBox lo hi i → f i = g i) : boxSum lo hi f = boxSum lo hi g := by
  unfold boxSum
  refine Finset.sum_congr rfl fun l hl => Finset.sum_congr rfl fun k hk => Finset.sum_congr rfl fun j hj => h _ ?_
  rw [Finset.mem_Icc] at hl hk hj
  exact ⟨hj.1, hj.2, hk.1, hk.2, hl.1, hl.2⟩

theorem boxSum_add (lo hi : I3) (f g : I3 → ℝ) : boxSum lo hi (fun i => f i + g i) = boxSum lo hi f + boxSum lo hi g := by
  unfold boxSum
  simp only [Finset.sum_add_distrib]

/-- Shift of a sum. -/
theorem Icc_shift (a b o : ℤ) (f : ℤ → ℝ) : ∑ i ∈ Finset.Icc a b, f (o + i) = ∑ i ∈ Finset.Icc (o + a) (o + b), f i := by
  apply Finset.sum_bij (fun i _ => o + i)
  · intro i hi; rw [Finset.mem_Icc] at hi ⊢; omega
  · intro i _ j _ h; simpa using h
  · intro i hi
    rw [Finset.mem_Icc] at hi
    exact ⟨i - o, by rw [Finset.mem_Icc]; omega, by ring⟩
  · intro i _; rfl

theorem boxSum_shift (a b o : I3) (f : I3 → ℝ) : boxSum a b (fun i => f ⟨o.j + i.j, o.k + i.k, o.l + i.l⟩) =
    boxSum ⟨o.j + a.j, o.k + a.k, o.l + a.l⟩ ⟨o.j + b.j, o.k + b.k, o.l + b.l⟩ f := by
  unfold boxSum
  rw [← Icc_shift a.l b.l o.l fun l => _]
  refine Finset.sum_congr rfl fun l _ => ?_
  rw [← Icc_shift a.k b.k o.k fun k => _]
  refine Finset.sum_congr rfl fun k _ => ?_
  rw [← Icc_shift a.j b.j o.j fun j => _]

/-- The cells of all processes along a direction, with an offset. -/
theorem sum_split {p N o : ℤ} {lo hi : ℤ → ℤ} (h : Topology.SplitsEvenly p N lo hi) (f : ℤ → ℝ) :
    ∑ c ∈ Finset.Icc 1 p, ∑ i ∈ Finset.Icc (lo c + o) (hi c + o), f i = ∑ i ∈ Finset.Icc o (N - 1 + o), f i := by
  obtain ⟨-, -, -, h4, h5, -, -⟩ := h
  rw [← Finset.sum_biUnion]
  · refine Finset.sum_congr ?_ fun _ _ => rfl
    ext x
    simp only [Finset.mem_biUnion, Finset.mem_Icc]
    constructor
    · rintro ⟨c, ⟨c1, c2⟩, x1, x2⟩
      have := h5 c (x - o) c1 c2 (by omega) (by omega)
      omega
    · rintro ⟨x1, x2⟩
      obtain ⟨c, ⟨hc, k1, k2⟩, -⟩ := h4 (x - o) (by omega) (by omega)
      exact ⟨c, hc, by omega, by omega⟩
  · intro c hc d hd hcd
    rw [Function.onFun, Finset.disjoint_left]
    intro x hx hy
    rw [Finset.coe_Icc, Set.mem_Icc] at hc hd
    rw [Finset.mem_Icc] at hx hy
    have k := h5 c (x - o) hc.1 hc.2 (by omega) (by omega)
    obtain ⟨e, -, u⟩ := h4 (x - o) k.1 k.2
    have u1 := u c ⟨hc, by omega, by omega⟩
    have u2 := u d ⟨hd, by omega, by omega⟩
    exact hcd (by rw [u1, u2])

theorem boxSum_split {P N : I3} (o : ℤ) {lx hx ly hy lz hz : ℤ → ℤ} (h1 : Topology.SplitsEvenly P.j N.j lx hx) (h2 : Topology.SplitsEvenly P.k N.k ly hy)
    (h3 : Topology.SplitsEvenly P.l N.l lz hz) (f : I3 → ℝ) :
    boxSum ⟨1, 1, 1⟩ P (fun c => boxSum ⟨lx c.j + o, ly c.k + o, lz c.l + o⟩ ⟨hx c.j + o, hy c.k + o, hz c.l + o⟩ f) =
      boxSum ⟨o, o, o⟩ ⟨N.j - 1 + o, N.k - 1 + o, N.l - 1 + o⟩ f := by
  unfold boxSum
  dsimp only
  rw [← sum_split h3]
  refine Finset.sum_congr rfl fun cz _ => ?_
  have e1 : ∀ cy cx : ℤ, ∑ l ∈ Finset.Icc (lz cz + o) (hz cz + o), ∑ k ∈ Finset.Icc (ly cy + o) (hy cy + o), ∑ j ∈ Finset.Icc (lx cx + o) (hx cx + o), f ⟨j, k, l⟩ =
      ∑ l ∈ Finset.Icc (lz cz + o) (hz cz + o), ∑ k ∈ Finset.Icc (ly cy + o) (hy cy + o), ∑ j ∈ Finset.Icc (lx cx + o) (hx cx + o), f ⟨j, k, l⟩ := fun _ _ => rfl
  calc ∑ cy ∈ Finset.Icc 1 P.k, ∑ cx ∈ Finset.Icc 1 P.j, ∑ l ∈ Finset.Icc (lz cz + o) (hz cz + o), ∑ k ∈ Finset.Icc (ly cy + o) (hy cy + o),
        ∑ j ∈ Finset.Icc (lx cx + o) (hx cx + o), f ⟨j, k, l⟩
      = ∑ cy ∈ Finset.Icc 1 P.k, ∑ l ∈ Finset.Icc (lz cz + o) (hz cz + o), ∑ cx ∈ Finset.Icc 1 P.j, ∑ k ∈ Finset.Icc (ly cy + o) (hy cy + o),
        ∑ j ∈ Finset.Icc (lx cx + o) (hx cx + o), f ⟨j, k, l⟩ := Finset.sum_congr rfl fun cy _ => Finset.sum_comm
    _ = ∑ l ∈ Finset.Icc (lz cz + o) (hz cz + o), ∑ cy ∈ Finset.Icc 1 P.k, ∑ cx ∈ Finset.Icc 1 P.j, ∑ k ∈ Finset.Icc (ly cy + o) (hy cy + o),
        ∑ j ∈ Finset.Icc (lx cx + o) (hx cx + o), f ⟨j, k, l⟩ := Finset.sum_comm
    _ = _ := by
      refine Finset.sum_congr rfl fun l _ => ?_
      rw [← sum_split h2]
      refine Finset.sum_congr rfl fun cy _ => ?_
      rw [Finset.sum_comm]
      refine Finset.sum_congr rfl fun k _ => ?_
      rw [← sum_split h1]

/-! ### Kinetic energy -/

theorem kinVec_ok {gam : List ℝ} (h : ∀ g ∈ gam, g ≠ 0) (mc2 : ℝ) : kinVec gam mc2 = .ok ((gam.map fun g => (1 / g - 1) * mc2).sum) := by
  unfold kinVec
  rw [foldlM_pure (h := fun g => (1 / g - 1) * mc2)]
  · rw [zero_add]
  · intro g hg s
    rw [if_neg (h g hg)]

/-- Energy of a tile. -/
noncomputable def tileE (mc2 : ℝ) (t : KTile) : ℝ := (t.gam.map fun g => (1 / g - 1) * mc2).sum

theorem pass1 {w c : ℝ} {S : KSpecies} (ha : S.antenna = false) (hc : S.nppcell ≠ 0) (hg : ∀ u, ∀ g ∈ (S.tiles u).gam, g ≠ 0) : ∀ (l : List I3),
    ∃ S', l.foldlM (kinTile w c) S = .ok S' ∧ S'.antenna = S.antenna ∧ S'.mass = S.mass ∧ S'.nppcell = S.nppcell ∧
      (∀ u, (S'.tiles u).gam = (S.tiles u).gam) ∧ ∀ u, u ∈ l → (S.tiles u).gam.length ≠ 0 → (S'.tiles u).kin = some (tileE (S.mass * c ^ 2 * (w / S.nppcell)) (S.tiles u)) := by
  intro l
  induction l using List.reverseRecOn with
  | nil => exact ⟨S, rfl, rfl, rfl, rfl, fun _ => rfl, by simp⟩
  | append_singleton l u ih =>
    obtain ⟨S', e, a1, a2, a3, a4, a5⟩ := ih
    rw [List.foldlM_append, e]
    simp only [except_bind_ok, List.foldlM_cons, List.foldlM_nil]
    unfold kinTile
    rw [if_neg (by rw [a1, ha]; simp)]
    by_cases hz : (S'.tiles u).gam.length = 0
    · rw [if_pos hz]
      simp only [except_bind_ok, except_pure]
      refine ⟨S', rfl, a1, a2, a3, a4, fun v hv hl => ?_⟩
      rcases List.mem_append.mp hv with h | h
      · exact a5 v h hl
      · rw [List.mem_singleton] at h
        subst h
        exact absurd (by rw [← a4]; exact hz) hl
    · rw [if_neg hz, if_neg (by rw [a3]; exact hc), kinVec_ok (by rw [a4]; exact hg u)]
      simp only [except_bind_ok, except_pure]
      refine ⟨_, rfl, a1, a2, a3, fun v => ?_, fun v hv hl => ?_⟩
      · dsimp only
        by_cases hvu : v = u
        · subst hvu; rw [Function.update_self]; exact a4 v
        · rw [Function.update_of_ne hvu]; exact a4 v
      · dsimp only
        by_cases hvu : v = u
        · subst hvu
          rw [Function.update_self]
          dsimp only
          rw [a4, a2, a3]
          rfl
        · rw [Function.update_of_ne hvu]
          refine a5 v ?_ hl
          rcases List.mem_append.mp hv with h | h
          · exact h
          · exact absurd (List.mem_singleton.mp h) hvu

theorem kinSpecies_ok {w c : ℝ} {nt : I3} {S : KSpecies} (ha : S.antenna = false) (hc : S.nppcell ≠ 0) (hg : ∀ u, ∀ g ∈ (S.tiles u).gam, g ≠ 0) :
    kinSpecies w c nt S = .ok (boxSum ⟨1, 1, 1⟩ nt fun u => tileE (S.mass * c ^ 2 * (w / S.nppcell)) (S.tiles u)) := by
  unfold kinSpecies
  obtain ⟨S', e, a1, a2, a3, a4, a5⟩ := pass1 (w := w) (c := c) ha hc hg (box ⟨1, 1, 1⟩ nt)
  rw [e]
  simp only [except_bind_ok]
  rw [foldlM_pure (h := fun u => tileE (S.mass * c ^ 2 * (w / S.nppcell)) (S.tiles u))]
  · rw [box_sum, zero_add]
  · intro u hu s
    unfold kinAdd
    by_cases hz : (S'.tiles u).gam.length = 0
    · rw [if_pos hz]
      have : (S.tiles u).gam = [] := by rw [← a4]; exact List.length_eq_zero_iff.mp hz
      unfold tileE
      rw [this]
      simp
    · rw [if_neg hz, a5 u hu (by rw [← a4]; exact hz)]

theorem gamma_ge {c : ℝ} (hc : 0 < c) (ux uy uz : ℝ) : 1 ≤ gamma c ux uy uz ∧ (gamma c ux uy uz = 1 ↔ ux = 0 ∧ uy = 0 ∧ uz = 0) := by
  unfold gamma
  have h0 : 0 ≤ (ux ^ 2 + uy ^ 2 + uz ^ 2) / c ^ 2 := by positivity
  refine ⟨?_, ?_⟩
  · rw [Real.one_le_sqrt]; linarith
  · rw [Real.sqrt_eq_one]
    constructor
    · intro h
      have h1 : (ux ^ 2 + uy ^ 2 + uz ^ 2) / c ^ 2 = 0 := by linarith
      have h2 : ux ^ 2 + uy ^ 2 + uz ^ 2 = 0 := by
        rcases div_eq_zero_iff.mp h1 with h | h
        · exact h
        · exact absurd h (by positivity)
      refine ⟨?_, ?_, ?_⟩ <;> refine pow_eq_zero_iff two_ne_zero |>.mp ?_ <;> nlinarith [sq_nonneg ux, sq_nonneg uy, sq_nonneg uz]
    · rintro ⟨rfl, rfl, rfl⟩; simp

theorem kin_gaminv {c : ℝ} (hc : 0 < c) (m w : ℝ) (u : ℝ × ℝ × ℝ) : (1 / gaminv c u - 1) * (m * c ^ 2 * w) = kinetic m c w u ∧ gaminv c u ≠ 0 := by
  have h := (gamma_ge hc u.1 u.2.1 u.2.2).1
  have h0 : gamma c u.1 u.2.1 u.2.2 ≠ 0 := by linarith
  refine ⟨?_, ?_⟩
  · unfold gaminv kinetic
    rw [one_div_one_div]
    ring
  · unfold gaminv
    exact one_div_ne_zero h0

theorem kinSpecies_empty {w c : ℝ} {nt : I3} {S : KSpecies} (ha : S.antenna = true) (he : ∀ u, (S.tiles u).gam = []) : kinSpecies w c nt S = .ok 0 := by
  unfold kinSpecies
  have h1 : ∀ l : List I3, l.foldlM (kinTile w c) S = .ok S := by
    intro l
    induction l with
    | nil => rfl
    | cons u l ih =>
      rw [List.foldlM_cons]
      unfold kinTile
      rw [if_pos ha]
      simp only [except_bind_ok]
      exact ih
  rw [h1]
  simp only [except_bind_ok]
  rw [foldlM_pure (h := fun _ => 0)]
  · simp
  · intro u _ s
    unfold kinAdd
    rw [he]
    simp

theorem allreduce_ok {α : Type} {g : α → Res ℝ} {h : α → ℝ} (l : List α) (hl : ∀ x ∈ l, g x = .ok (h x)) :
    allreduce (l.map g) = .ok ((l.map h).sum) := by
  unfold allreduce
  rw [List.foldlM_map, foldlM_add l 0 hl, zero_add]

theorem kinSpecies_kinetic {w c : ℝ} (hc : 0 < c) {nt : I3} {S : KSpecies} {mom : I3 → List (ℝ × ℝ × ℝ)} (hm : ∀ u, (S.tiles u).gam = (mom u).map (gaminv c))
    (ha : S.antenna = false ∨ ∀ u, mom u = []) (hn : 0 < S.nppcell) :
    kinSpecies w c nt S = .ok (boxSum ⟨1, 1, 1⟩ nt fun u => ((mom u).map (kinetic S.mass c (w / S.nppcell))).sum) := by
  have key : S.antenna = false → kinSpecies w c nt S = .ok (boxSum ⟨1, 1, 1⟩ nt fun u => ((mom u).map (kinetic S.mass c (w / S.nppcell))).sum) := by
    intro h
    rw [kinSpecies_ok h (by omega)]
    · congr 1
      apply boxSum_congr
      intro u _
      unfold tileE
      rw [hm, List.map_map]
      congr 1
      apply List.map_congr_left
      intro x _
      exact (kin_gaminv hc _ _ _).1
    · intro u g hg
      rw [hm] at hg
      obtain ⟨x, _, rfl⟩ := List.mem_map.mp hg
      exact (kin_gaminv hc 0 0 _).2
  rcases ha with h | h
  · exact key h
  · cases hA : S.antenna with
    | false => exact key hA
    | true =>
      rw [kinSpecies_empty hA (by intro u; rw [hm, h]; rfl)]
      congr 1
      symm
      rw [boxSum_congr (g := fun _ => 0) (by intro u _; rw [h]; simp)]
      unfold boxSum
      simp

theorem kinetic_nonneg {m c w : ℝ} (hm : 0 ≤ m) (hc : 0 < c) (hw : 0 ≤ w) (u : ℝ × ℝ × ℝ) : 0 ≤ kinetic m c w u := by
  unfold kinetic
  have := (gamma_ge hc u.1 u.2.1 u.2.2).1
  have h1 : 0 ≤ gamma c u.1 u.2.1 u.2.2 - 1 := by linarith
  positivity

theorem kinetic_eq_zero {m c w : ℝ} (hm : 0 < m) (hc : 0 < c) (hw : 0 < w) (u : ℝ × ℝ × ℝ) : kinetic m c w u = 0 ↔ u = (0, 0, 0) := by
  unfold kinetic
  have h1 : w * m * c ^ 2 ≠ 0 := by positivity
  rw [mul_eq_zero, or_iff_right h1, sub_eq_zero, (gamma_ge hc _ _ _).2]
  constructor
  · rintro ⟨a, b, d⟩; exact Prod.ext a (Prod.ext b d)
  · rintro rfl; exact ⟨rfl, rfl, rfl⟩

theorem list_sum_nonneg {l : List ℝ} (h : ∀ x ∈ l, 0 ≤ x) : 0 ≤ l.sum := List.sum_nonneg h

theorem list_sum_eq_zero {α : Type} {f : α → ℝ} : ∀ {l : List α}, (∀ x ∈ l, 0 ≤ f x) → ((l.map f).sum = 0 ↔ ∀ x ∈ l, f x = 0) := by
  intro l
  induction l with
  | nil => simp
  | cons x l ih =>
    intro h
    have h1 := h x (by simp)
    have h2 : 0 ≤ (l.map f).sum := List.sum_nonneg (by intro y hy; obtain ⟨z, hz, rfl⟩ := List.mem_map.mp hy; exact h z (by simp [hz]))
    have ih := ih fun y hy => h y (by simp [hy])
    simp only [List.map_cons, List.sum_cons, List.mem_cons, forall_eq_or_imp]
    rw [← ih]
    constructor
    · intro e; constructor <;> linarith
    · rintro ⟨a, b⟩; rw [a, b, add_zero]

end Picsar.Energy
