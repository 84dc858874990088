import Verif.Lemmas.Tiling
import Mathlib.Tactic.NormNum
namespace Picsar.Tiling
open Picsar Picsar.Grid

theorem split_cases {nt0 nGrid : ℤ} {s : Split1} (h1 : 1 ≤ nt0) (h2 : 1 ≤ nGrid) (h : split1 nt0 nGrid = .ok s) :
    (s.nt = 1 ∧ s.nLast = nGrid) ∨ (2 ≤ s.nt ∧ s.nt = nt0 ∧ 4 ≤ s.n0 ∧ s.n0 ≤ s.nLast ∧ (s.nt - 1) * s.n0 + s.nLast = nGrid) := by
  unfold split1 at h
  rw [if_neg (by omega)] at h
  injection h with h
  subst h
  dsimp only
  have hd : nGrid.tdiv nt0 = nGrid / nt0 := Int.tdiv_eq_ediv_of_nonneg (by omega)
  rw [hd]
  have hm : nGrid / nt0 * nt0 ≤ nGrid := Int.ediv_mul_le _ (by omega)
  by_cases h4 : nGrid / nt0 < 4
  · left
    rw [if_pos h4]
    exact ⟨rfl, by ring⟩
  · rw [if_neg h4]
    rcases Int.lt_or_le 1 nt0 with h5 | h5
    · right
      exact ⟨by omega, rfl, by omega, by omega, by ring⟩
    · left
      have : nt0 = 1 := by omega
      subst this
      exact ⟨rfl, by ring⟩

variable {g : Geo1} {nt0 nGrid : ℤ}

theorem first_n (h : g.Ok nt0 nGrid) : (g.s.nt = 1 → (g.ext 1).nGrid = nGrid) ∧ (2 ≤ g.s.nt → (g.ext 1).nGrid = g.s.n0) := by
  unfold Geo1.ext tileExt
  rcases split_cases h.tiles h.grid h.split with ⟨a, b⟩ | ⟨a, -⟩
  · exact ⟨fun _ => by rw [if_pos a.symm]; exact b, fun c => by omega⟩
  · exact ⟨fun c => by omega, fun _ => by rw [if_neg (by omega), if_pos rfl]⟩

theorem inTile_iff (h : g.Ok nt0 nGrid) {x : ℝ} (hx : g.xmin ≤ x ∧ x < g.xmax) {i : ℤ} (hi : 1 ≤ i ∧ i ≤ g.s.nt) :
    g.inTile i x ↔ i = g.idx x := by
  have hdx := h.dx
  obtain ⟨f1, f2⟩ := first_n h
  unfold Geo1.idx tileIdx
  rcases split_cases h.tiles h.grid h.split with ⟨a, b⟩ | ⟨a, e0, b, c, d⟩
  · have hi1 : i = 1 := by omega
    subst hi1
    have hin : g.inTile 1 x := by
      unfold Geo1.inTile Geo1.ext tileExt
      rw [if_pos a.symm]
      dsimp only
      refine ⟨?_, hx.2⟩
      simp
      linarith [hx.1]
    refine ⟨fun _ => ?_, fun _ => hin⟩
    rw [a, f1 a]
    have h0 : 0 ≤ ⌊(x - g.xmin + g.dx / 2) / (nGrid * g.dx)⌋ := by
      rw [Int.floor_nonneg]
      refine div_nonneg (by linarith [hx.1]) (mul_nonneg ?_ hdx.le)
      have := h.grid
      exact_mod_cast (by omega : (0 : ℤ) ≤ nGrid)
    omega
  · rw [f2 a]
    have hn0 : (0 : ℝ) < g.s.n0 := by exact_mod_cast (by omega : (0 : ℤ) < g.s.n0)
    have hden : 0 < (g.s.n0 : ℝ) * g.dx := mul_pos hn0 hdx
    obtain ⟨q, hq⟩ : ∃ q, ⌊(x - g.xmin + g.dx / 2) / (g.s.n0 * g.dx)⌋ = q := ⟨_, rfl⟩
    rw [hq]
    rw [Int.floor_eq_iff, le_div_iff₀ hden, div_lt_iff₀ hden] at hq
    obtain ⟨q1, q2⟩ := hq
    have lt_of : ∀ {a b : ℤ}, (a : ℝ) * (g.s.n0 * g.dx) < (b : ℝ) * (g.s.n0 * g.dx) → a < b := by
      intro a b hab
      exact_mod_cast lt_of_mul_lt_mul_right hab hden.le
    have hq0 : 0 ≤ q := by
      have : (-1 : ℤ) < q := by
        have h' : ((0 : ℤ) : ℝ) * (g.s.n0 * g.dx) < ((q + 1 : ℤ) : ℝ) * (g.s.n0 * g.dx) := by
          push_cast
          linarith [hx.1]
        have := lt_of h'
        omega
      omega
    unfold Geo1.inTile Geo1.ext tileExt
    by_cases hl : i = g.s.nt
    · subst hl
      rw [if_pos rfl]
      dsimp only
      constructor
      · rintro ⟨l1, -⟩
        have h' : ((g.s.nt - 1 : ℤ) : ℝ) * (g.s.n0 * g.dx) < ((q + 1 : ℤ) : ℝ) * (g.s.n0 * g.dx) := by
          push_cast at l1 ⊢
          nlinarith
        have := lt_of h'
        omega
      · intro e
        have hq1 : g.s.nt - 1 ≤ q := by omega
        have : ((g.s.nt - 1 : ℤ) : ℝ) * (g.s.n0 * g.dx) ≤ (q : ℝ) * (g.s.n0 * g.dx) :=
          mul_le_mul_of_nonneg_right (by exact_mod_cast hq1) hden.le
        refine ⟨?_, hx.2⟩
        push_cast at this ⊢
        nlinarith
    · rw [if_neg hl]
      have key : (q + 1 < g.s.nt → (i = min (q + 1) g.s.nt ↔ i = q + 1)) := fun hh => by omega
      by_cases h1 : i = 1
      · subst h1
        rw [if_pos rfl]
        dsimp only
        constructor
        · rintro ⟨-, l2⟩
          have h' : (q : ℝ) * (g.s.n0 * g.dx) < ((1 : ℤ) : ℝ) * (g.s.n0 * g.dx) := by
            push_cast at l2 ⊢
            nlinarith
          have := lt_of h'
          omega
        · intro e
          have hq1 : q = 0 := by omega
          subst hq1
          refine ⟨hx.1, ?_⟩
          push_cast at q2 ⊢
          nlinarith
      · rw [if_neg h1]
        dsimp only
        constructor
        · rintro ⟨l1, l2⟩
          have h' : (q : ℝ) * (g.s.n0 * g.dx) < (i : ℝ) * (g.s.n0 * g.dx) := by
            push_cast at l2 ⊢
            nlinarith
          have h'' : ((i - 1 : ℤ) : ℝ) * (g.s.n0 * g.dx) < ((q + 1 : ℤ) : ℝ) * (g.s.n0 * g.dx) := by
            push_cast at l1 ⊢
            nlinarith
          have := lt_of h'
          have := lt_of h''
          omega
        · intro e
          have hq1 : q = i - 1 := by omega
          subst hq1
          push_cast at q1 q2 ⊢
          constructor <;> nlinarith

theorem idx_range (h : g.Ok nt0 nGrid) {x : ℝ} (hx : g.xmin ≤ x) : 1 ≤ g.idx x ∧ g.idx x ≤ g.s.nt := by
  have hdx := h.dx
  obtain ⟨f1, f2⟩ := first_n h
  unfold Geo1.idx tileIdx
  have hpos : 0 ≤ (g.ext 1).nGrid ∧ 1 ≤ g.s.nt := by
    have := h.grid
    rcases split_cases h.tiles h.grid h.split with ⟨a, b⟩ | ⟨a, e0, b, c, d⟩
    · rw [f1 a]; omega
    · rw [f2 a]; omega
  have h0 : 0 ≤ ⌊(x - g.xmin + g.dx / 2) / ((g.ext 1).nGrid * g.dx)⌋ := by
    rw [Int.floor_nonneg]
    refine div_nonneg (by linarith) (mul_nonneg ?_ hdx.le)
    exact_mod_cast hpos.1
  omega

theorem idx_home (h : g.Ok nt0 nGrid) {x : ℝ} (hx : g.xmin ≤ x ∧ x < g.xmax) : g.inTile (g.idx x) x :=
  (inTile_iff h hx (idx_range h hx.1)).mpr rfl

theorem inDom_bounds (h : g.Ok nt0 nGrid) {x : ℝ} (hx : g.inDom x) : g.xmin ≤ x ∧ x < g.xmax := by
  unfold Geo1.inDom at hx
  push Not at hx
  exact ⟨h.pmin.trans hx.1, lt_of_lt_of_le hx.2 h.pmax⟩

end Picsar.Tiling
