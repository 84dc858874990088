import Verif.Lemmas.Esirkepov
import Verif.Spec.Current
import Mathlib.Tactic.LinearCombination

namespace Picsar.Deposition
open Picsar Picsar.Grid Picsar.Spec

/-- A running sum does not depend on where it starts below the support. -/
theorem sum_start {f : ℤ → ℝ} {A B : ℤ} (hA : ∀ a, a < A → f a = 0) (hB : ∀ a, a < B → f a = 0) (j : ℤ) :
    ∑ m ∈ Finset.Icc A j, f m = ∑ m ∈ Finset.Icc B j, f m := by
  have key : ∀ {A B : ℤ}, A ≤ B → (∀ a, a < B → f a = 0) → ∑ m ∈ Finset.Icc A j, f m = ∑ m ∈ Finset.Icc B j, f m := by
    intro A B hAB hB
    symm
    apply Finset.sum_subset
    · intro m hm
      rw [Finset.mem_Icc] at hm ⊢
      omega
    · intro m h1 h2
      rw [Finset.mem_Icc] at h1 h2
      exact hB m (by omega)
  rcases le_total A B with h | h
  · exact key h hB
  · exact (key h hA).symm

/-- Beyond the support the running sum keeps its last value. -/
theorem sum_stop {f : ℤ → ℝ} {A B j : ℤ} (hj : B ≤ j) (hB : ∀ a, B < a → f a = 0) :
    ∑ m ∈ Finset.Icc A j, f m = ∑ m ∈ Finset.Icc A B, f m := by
  symm
  apply Finset.sum_subset
  · intro m hm
    rw [Finset.mem_Icc] at hm ⊢
    omega
  · intro m h1 h2
    rw [Finset.mem_Icc] at h1 h2
    exact hB m (by omega)

theorem sum_Icc_shift (f : ℤ → ℝ) (A j d : ℤ) :
    ∑ m ∈ Finset.Icc A j, f m = ∑ m ∈ Finset.Icc (A + d) (j + d), f (m - d) := by
  refine Finset.sum_bij (fun m _ => m + d) ?_ ?_ ?_ ?_
  · intro m hm
    rw [Finset.mem_Icc] at hm ⊢
    omega
  · intro a _ b _ h
    simpa using h
  · intro m hm
    rw [Finset.mem_Icc] at hm
    exact ⟨m - d, by rw [Finset.mem_Icc]; omega, by ring⟩
  · intro m _
    congr 1
    ring

theorem bspline_far {n : ℕ} {u : ℝ} (h : 2 ≤ |u|) : bspline n u = 0 := by
  unfold bspline
  split
  · rw [if_neg (by linarith)]
  · rw [if_neg (by linarith), if_neg (by linarith)]
  · rw [if_neg (by linarith)]
    split_ifs with h1
    · have : |u| = 2 := le_antisymm h1 h
      rw [this]; norm_num
    · rfl
  · rfl

theorem flux_zero_below {n : ℕ} {x xo : ℝ} {m : ℤ} (h : m < ⌊min x xo⌋ - 2) : bspline n (xo - m) - bspline n (x - m) = 0 := by
  have h1 : (⌊min x xo⌋ : ℝ) ≤ min x xo := Int.floor_le _
  have h2 : (m : ℝ) ≤ ⌊min x xo⌋ - 2 - 1 := by exact_mod_cast (by omega : m ≤ ⌊min x xo⌋ - 2 - 1)
  have h3 := min_le_left x xo
  have h4 := min_le_right x xo
  rw [bspline_far (u := xo - m) (by rw [le_abs]; left; linarith), bspline_far (u := x - m) (by rw [le_abs]; left; linarith), sub_zero]

/-- `flux` from any start below the support. -/
theorem flux_eq {n : ℕ} {x xo : ℝ} {A : ℤ} (hA : ∀ a : ℤ, a < A → bspline n (xo - a) - bspline n (x - a) = 0) (j : ℤ) :
    flux n x xo j = ∑ m ∈ Finset.Icc A j, (bspline n (xo - m) - bspline n (x - m)) :=
  sum_start (f := fun m : ℤ => bspline n (xo - m) - bspline n (x - m)) (fun _ h => flux_zero_below h) hA j

/-- The loop over one direction computes `flux`. -/
theorem dir_flux {n : ℕ} {x xo : ℝ} {i0 lo hi : ℤ} {s s0 : ℤ → ℝ} (h0 : ∀ a, a < lo ∨ hi < a → s0 a = 0 ∧ s a = 0)
    (hs : ∑ a ∈ Finset.Icc lo hi, s a = ∑ a ∈ Finset.Icc lo hi, s0 a)
    (e0 : ∀ a : ℤ, s0 (a - i0) = bspline n (x - a)) (e : ∀ a : ℤ, s (a - i0) = bspline n (xo - a)) (a : ℤ) :
    (if lo ≤ a - i0 ∧ a - i0 < hi then ∑ i ∈ Finset.Icc lo (a - i0), (s i - s0 i) else 0) = flux n x xo a := by
  have hz : ∀ m : ℤ, m < lo + i0 → bspline n (xo - m) - bspline n (x - m) = 0 := by
    intro m hm
    have := h0 (m - i0) (by omega)
    rw [← e0, ← e, this.1, this.2, sub_zero]
  have hz' : ∀ m : ℤ, hi + i0 < m → bspline n (xo - m) - bspline n (x - m) = 0 := by
    intro m hm
    have := h0 (m - i0) (by omega)
    rw [← e0, ← e, this.1, this.2, sub_zero]
  have hsum : ∀ b : ℤ, ∑ i ∈ Finset.Icc lo b, (s i - s0 i) =
      ∑ m ∈ Finset.Icc (lo + i0) (b + i0), (bspline n (xo - m) - bspline n (x - m)) := by
    intro b
    rw [sum_Icc_shift (fun i => s i - s0 i) lo b i0]
    apply Finset.sum_congr rfl
    intro m _
    rw [e0, e]
  rw [flux_eq hz a]
  split_ifs with h1
  · rw [hsum]
    congr 2
    ring
  · by_cases h2 : a - i0 < lo
    · rw [Finset.Icc_eq_empty (by omega)]
      simp
    · have h3 : hi + i0 ≤ a := by omega
      rw [sum_stop h3 hz', ← hsum, Finset.sum_sub_distrib, hs, sub_self]

theorem FF_current {n : ℕ} {g : Geo} (hg : Geo.Ok g) {p : Part} {L : Loc} (P : Prepared n g p L) (c : Comp)
    (i : I3) : FF L c i = current n g p c i := by
  obtain ⟨gx, gy, gz⟩ := hg
  obtain ⟨a, b, d⟩ := i
  have G := P.good
  have hw : (before g p).w = p.w := rfl
  have pull : ∀ (C : Prop) [Decidable C] (S : Finset ℤ) (f : ℤ → ℝ) (k : ℝ),
      (if C then ∑ i ∈ S, f i * k else 0) = (if C then ∑ i ∈ S, f i else 0) * k := by
    intro C _ S f k
    split_ifs
    · rw [Finset.sum_mul]
    · rw [zero_mul]
  cases c
  case jx =>
    rw [FF_jx L G]
    have e : ∀ i, wX L i (b - L.j0) (d - L.k0) = (L.sx i - L.sx0 i) * (L.wqx *
        ((L.sy0 (b - L.j0) + 1 / 2 * (L.sy (b - L.j0) - L.sy0 (b - L.j0))) * L.sz0 (d - L.k0) +
          (1 / 2 * L.sy0 (b - L.j0) + 1 / 3 * (L.sy (b - L.j0) - L.sy0 (b - L.j0))) * (L.sz (d - L.k0) - L.sz0 (d - L.k0)))) := by
      intro i; unfold wX; ring
    simp only [e]
    rw [pull, dir_flux G.x0 G.xs P.sx0 P.sx a]
    simp only [current, average, cells, P.sy0, P.sz0, P.sy, P.sz, P.wqx]
    ring
  case jy =>
    rw [FF_jy L G]
    have e : ∀ i, wY L (a - L.i0) i (d - L.k0) = (L.sy i - L.sy0 i) * (L.wqy *
        ((L.sz0 (d - L.k0) + 1 / 2 * (L.sz (d - L.k0) - L.sz0 (d - L.k0))) * L.sx0 (a - L.i0) +
          (1 / 2 * L.sz0 (d - L.k0) + 1 / 3 * (L.sz (d - L.k0) - L.sz0 (d - L.k0))) * (L.sx (a - L.i0) - L.sx0 (a - L.i0)))) := by
      intro i; unfold wY; ring
    simp only [e]
    rw [pull, dir_flux G.y0 G.ys P.sy0 P.sy b]
    simp only [current, average, cells, P.sx0, P.sz0, P.sx, P.sz, P.wqy]
    ring
  case jz =>
    rw [FF_jz L G]
    have e : ∀ i, wZ L (a - L.i0) (b - L.j0) i = (L.sz i - L.sz0 i) * (L.wqz *
        ((L.sx0 (a - L.i0) + 1 / 2 * (L.sx (a - L.i0) - L.sx0 (a - L.i0))) * L.sy0 (b - L.j0) +
          (1 / 2 * L.sx0 (a - L.i0) + 1 / 3 * (L.sx (a - L.i0) - L.sx0 (a - L.i0))) * (L.sy (b - L.j0) - L.sy0 (b - L.j0)))) := by
      intro i; unfold wZ; ring
    simp only [e]
    rw [pull, dir_flux G.z0 G.zs P.sz0 P.sz d]
    simp only [current, average, cells, P.sx0, P.sy0, P.sx, P.sy, P.wqz]
    ring
  all_goals
    simp only [FF, contrib, current]
    split_ifs <;> rfl

theorem room_dir {n : ℕ} (hn : n = 1 ∨ n = 2 ∨ n = 3) {X : ℝ} {lo hi i : ℤ} (h1 : lo + ((n : ℝ) + 1) / 2 < X)
    (h2 : X < hi - ((n : ℝ) + 1) / 2) (h3 : locLo n ≤ i) (h4 : i ≤ locHi n) : lo ≤ node n X + i ∧ node n X + i ≤ hi := by
  rcases hn with rfl | rfl | rfl
  · rw [node_floor (by simp)]
    norm_num [locLo, locHi] at *
    have a1 : lo + 1 ≤ ⌊X⌋ := Int.le_floor.mpr (by push_cast; linarith)
    have a2 : ⌊X⌋ < hi - 1 := Int.floor_lt.mpr (by push_cast; linarith)
    omega
  · have b := nint_bounds X
    have e : node 2 X = nint X := rfl
    rw [e]
    norm_num [locLo, locHi] at *
    have a1 : (lo : ℝ) + 1 < nint X := by linarith
    have a2 : (nint X : ℝ) < hi - 1 := by linarith
    have a1' : lo + 1 < nint X := by exact_mod_cast a1
    have a2' : nint X < hi - 1 := by exact_mod_cast a2
    omega
  · rw [node_floor (by simp)]
    norm_num [locLo, locHi] at *
    have a1 : lo + 2 ≤ ⌊X⌋ := Int.le_floor.mpr (by push_cast; linarith)
    have a2 : ⌊X⌋ < hi - 2 := Int.floor_lt.mpr (by push_cast; linarith)
    omega

theorem covers_room {n : ℕ} (hn : n = 1 ∨ n = 2 ∨ n = 3) {g : Geo} {p : Part} {L : Loc} (P : Prepared n g p L) {σ : Mem}
    (hi : ∀ c, c = .jx ∨ c = .jy ∨ c = .jz → Room n g (σ c).lo (σ c).hi p) : Covers L σ := by
  intro i j k hr c hc
  obtain ⟨i1, i2, i3, i4, i5, i6⟩ := hi c hc
  obtain ⟨r1, r2, r3, r4, r5, r6⟩ := hr
  obtain ⟨l1, l2, l3, l4, l5, l6⟩ := P.loc
  have hx := room_dir hn i1 i2 (le_trans l1 r1) (le_trans r2 l2)
  have hy := room_dir hn i3 i4 (le_trans l3 r3) (le_trans r4 l4)
  have hz := room_dir hn i5 i6 (le_trans l5 r5) (le_trans r6 l6)
  rw [P.i0, P.j0, P.k0]
  exact ⟨hx.1, hx.2, hy.1, hy.2, hz.1, hz.2⟩

theorem addF_lo (σ : Mem) (f) (c) : (addF σ f c).lo = (σ c).lo := rfl
theorem addF_hi (σ : Mem) (f) (c) : (addF σ f c).hi = (σ c).hi := rfl

theorem deposeLoop_closed {n : ℕ} (hn : n = 1 ∨ n = 2 ∨ n = 3) {g : Geo} (hg : Geo.Ok g) :
    ∀ (ps : List Part) (s : Acc), (∀ p ∈ ps, Slow g p) →
    (∀ p ∈ ps, ∀ c, c = .jx ∨ c = .jy ∨ c = .jz → Room n g (s.mem c).lo (s.mem c).hi p) →
    ∃ s', deposeLoop n g ps s = .ok s' ∧ s'.mem = addF s.mem (currents n g ps)
  | [], s, _, _ => by
    refine ⟨s, rfl, ?_⟩
    funext c; simp [addF, currents]
  | p :: ps, s, h1, h2 => by
    obtain ⟨L, e1, P⟩ := prep_ok hn hg (h1 p (by simp))
    obtain ⟨s1, e2, m1⟩ := volume_ok (s := s) P.loc (covers_room hn P (h2 p (by simp))) P.good.x P.good.y P.good.z
    obtain ⟨s2, e3, m2⟩ := deposeLoop_closed hn hg ps s1 (fun q hq => h1 q (by simp [hq])) (by
      intro q hq c hc
      rw [m1]
      exact h2 q (by simp [hq]) c hc)
    refine ⟨s2, ?_, ?_⟩
    · unfold deposeLoop
      rw [e1]
      simp only [except_bind_ok]
      rw [e2]
      simp only [except_bind_ok]
      exact e3
    · rw [m2, m1]
      funext c
      simp only [addF, Arr.mk.injEq, true_and]
      funext i
      rw [FF_current hg P]
      simp only [currents, List.map_cons, List.sum_cons]
      ring

/-- What the routine computes. -/
theorem deposeJ_closed {n : ℕ} (hn : n = 1 ∨ n = 2 ∨ n = 3) {g : Geo} (hg : Geo.Ok g) {ps : List Part} {σ : Mem}
    (h1 : ∀ p ∈ ps, Slow g p) (h2 : ∀ p ∈ ps, ∀ c, c = .jx ∨ c = .jy ∨ c = .jz → Room n g (σ c).lo (σ c).hi p) :
    deposeJ n g ps σ = .ok (addF σ (currents n g ps)) := by
  obtain ⟨s', e, m⟩ := deposeLoop_closed hn hg ps ⟨0, 0, fun _ => 0, fun _ => 0, fun _ _ => 0, fun _ _ => 0, σ⟩ h1 h2
  unfold deposeJ
  rw [e]
  simp only [except_bind_ok, except_pure]
  rw [m]

/-! ### Moments of the shape factors -/

theorem wts_moment {n : ℕ} (hn : n = 1 ∨ n = 2 ∨ n = 3) (ξ : ℝ) : ((wts n ξ).map fun w => (w.1 : ℝ) * w.2).sum = ξ := by
  rcases hn with rfl | rfl | rfl <;> simp [wts] <;> ring

theorem shapeFn_moment {ws : List (ℤ × ℝ)} {d A B : ℤ} (h : ∀ w ∈ ws, A ≤ w.1 + d ∧ w.1 + d ≤ B) :
    ∑ a ∈ Finset.Icc A B, (a : ℝ) * shapeFn ws d a = (ws.map fun w => ((w.1 : ℝ) + d) * w.2).sum := by
  induction ws with
  | nil => simp [shapeFn]
  | cons w ws ih =>
    simp only [shapeFn, List.map_cons, List.sum_cons] at ih ⊢
    rw [← ih (fun w' hw' => h w' (by simp [hw']))]
    simp only [mul_add, Finset.sum_add_distrib]
    congr 1
    rw [Finset.sum_eq_single (w.1 + d)]
    · simp
    · intro b _ hb
      rw [if_neg hb, mul_zero]
    · intro hb
      exact absurd (Finset.mem_Icc.mpr (h w (by simp))) hb

/-- The shape factors around a position have sum one and centre of mass at the position. -/
theorem moments_of {n : ℕ} (hn : n = 1 ∨ n = 2 ∨ n = 3) {x : ℝ} {A B : ℤ}
    (hr : ∀ w ∈ wts n (x - node n x), A ≤ w.1 + node n x ∧ w.1 + node n x ≤ B) :
    ∑ m ∈ Finset.Icc A B, bspline n (x - m) = 1 ∧ ∑ m ∈ Finset.Icc A B, (m : ℝ) * bspline n (x - m) = x ∧
      ∀ m : ℤ, m < A ∨ B < m → bspline n (x - m) = 0 := by
  have e : ∀ a : ℤ, bspline n (x - a) = shapeFn (wts n (x - node n x)) (node n x) a := by
    intro a
    have := shapeFn_bspline hn x 0 a
    simp only [sub_zero] at this
    rw [this]; simp
  simp only [e]
  refine ⟨by rw [shapeFn_sum hr, wts_sum hn], ?_, fun m hm => shapeFn_zero hr hm⟩
  rw [shapeFn_moment hr]
  simp only [add_mul]
  rw [List.sum_map_add, wts_moment hn, List.sum_map_mul_left, wts_sum hn]
  ring

/-- Range of the shape after and before a move of less than a cell. -/
theorem room_wts {n : ℕ} (hn : n = 1 ∨ n = 2 ∨ n = 3) {x xo : ℝ} {A B : ℤ} (hA : A + ((n : ℝ) + 1) / 2 < x)
    (hB : x < B - ((n : ℝ) + 1) / 2) (h : |xo - x| < 1) :
    ∀ w ∈ wts n (xo - node n xo), A ≤ w.1 + node n xo ∧ w.1 + node n xo ≤ B := by
  intro w hw
  have hd := node_near (n := n) h
  rw [abs_le] at hd
  have hw' := (wts_fst hn (xo - node n xo)).2 w hw
  have hlo : locLo n ≤ -1 - ((n / 2 : ℕ) : ℤ) := by rcases hn with rfl | rfl | rfl <;> simp [locLo]
  have hhi : 1 + (((n + 1) / 2 : ℕ) : ℤ) ≤ locHi n := by rcases hn with rfl | rfl | rfl <;> simp [locHi]
  have := room_dir hn hA hB (i := w.1 + (node n xo - node n x)) (by omega) (by omega)
  omega

/-- Total of a running sum. -/
theorem sum_running {f : ℤ → ℝ} {A B : ℤ} (h : A ≤ B + 1) (hs : ∑ m ∈ Finset.Icc A B, f m = 0) :
    ∑ j ∈ Finset.Icc A B, ∑ m ∈ Finset.Icc A j, f m = -∑ m ∈ Finset.Icc A B, (m : ℝ) * f m := by
  have key : ∀ k : ℕ, ∑ j ∈ Finset.Icc A (A - 1 + k), ∑ m ∈ Finset.Icc A j, f m =
      (A + k : ℝ) * ∑ m ∈ Finset.Icc A (A - 1 + k), f m - ∑ m ∈ Finset.Icc A (A - 1 + k), (m : ℝ) * f m := by
    intro k
    induction k with
    | zero => simp
    | succ k ih =>
      have e : A - 1 + ((k + 1 : ℕ) : ℤ) - 1 = A - 1 + k := by push_cast; ring
      rw [sum_Icc_last (lo := A) (i := A - 1 + ((k + 1 : ℕ) : ℤ)) (by push_cast; omega) (fun j => ∑ m ∈ Finset.Icc A j, f m),
        sum_Icc_last (lo := A) (i := A - 1 + ((k + 1 : ℕ) : ℤ)) (by push_cast; omega) (fun m => (m : ℝ) * f m), e, ih,
        sum_Icc_last (lo := A) (i := A - 1 + ((k + 1 : ℕ) : ℤ)) (by push_cast; omega) f, e]
      push_cast
      ring
  have := key (B + 1 - A).toNat
  have e : A - 1 + ((B + 1 - A).toNat : ℤ) = B := by rw [Int.toNat_of_nonneg (by omega)]; ring
  rw [e, hs] at this
  rw [this]; ring

theorem flux_total {n : ℕ} (hn : n = 1 ∨ n = 2 ∨ n = 3) {x xo : ℝ} {A B : ℤ} (hA : A + ((n : ℝ) + 1) / 2 < x)
    (hB : x < B - ((n : ℝ) + 1) / 2) (h : |xo - x| < 1) : ∑ j ∈ Finset.Icc A B, flux n x xo j = x - xo := by
  obtain ⟨a1, a2, a3⟩ := moments_of hn (room_wts hn hA hB (xo := x) (by simp))
  obtain ⟨b1, b2, b3⟩ := moments_of hn (room_wts hn hA hB h)
  have hz : ∀ a : ℤ, a < A → bspline n (xo - a) - bspline n (x - a) = 0 := by
    intro a ha
    rw [a3 a (.inl ha), b3 a (.inl ha), sub_zero]
  have hAB : A ≤ B + 1 := by
    have h0 : (0:ℝ) ≤ ((n : ℝ) + 1) / 2 := by positivity
    have : (A : ℝ) < B := by linarith
    have : A < B := by exact_mod_cast this
    omega
  simp only [flux_eq hz]
  rw [sum_running hAB (by rw [Finset.sum_sub_distrib, a1, b1, sub_self])]
  simp only [mul_sub, Finset.sum_sub_distrib]
  rw [a2, b2]; ring

/-- No current along the motion outside the shapes. -/
theorem flux_out {n : ℕ} (hn : n = 1 ∨ n = 2 ∨ n = 3) {x xo : ℝ} {A B : ℤ} (hA : A + ((n : ℝ) + 1) / 2 < x)
    (hB : x < B - ((n : ℝ) + 1) / 2) (h : |xo - x| < 1) {j : ℤ} (hj : j < A ∨ B ≤ j) : flux n x xo j = 0 := by
  obtain ⟨a1, a2, a3⟩ := moments_of hn (room_wts hn hA hB (xo := x) (by simp))
  obtain ⟨b1, b2, b3⟩ := moments_of hn (room_wts hn hA hB h)
  have hz : ∀ a : ℤ, a < A ∨ B < a → bspline n (xo - a) - bspline n (x - a) = 0 := by
    intro a ha
    rw [a3 a ha, b3 a ha, sub_zero]
  rw [flux_eq (fun a ha => hz a (.inl ha))]
  rcases hj with hj | hj
  · rw [Finset.Icc_eq_empty (by omega), Finset.sum_empty]
  · rw [sum_stop hj (fun a ha => hz a (.inr ha)), Finset.sum_sub_distrib, a1, b1, sub_self]

theorem average_total {n : ℕ} (hn : n = 1 ∨ n = 2 ∨ n = 3) {y yo z zo : ℝ} {A B C D : ℤ} (hA : A + ((n : ℝ) + 1) / 2 < y)
    (hB : y < B - ((n : ℝ) + 1) / 2) (hy : |yo - y| < 1)
    (hC : C + ((n : ℝ) + 1) / 2 < z) (hD : z < D - ((n : ℝ) + 1) / 2) (hz : |zo - z| < 1) :
    ∑ k ∈ Finset.Icc A B, ∑ l ∈ Finset.Icc C D, average n y yo z zo k l = 1 := by
  have a := (moments_of hn (room_wts hn hA hB (xo := y) (by simp))).1
  have b := (moments_of hn (room_wts hn hA hB hy)).1
  have c := (moments_of hn (room_wts hn hC hD (xo := z) (by simp))).1
  have d := (moments_of hn (room_wts hn hC hD hz)).1
  unfold average
  simp only [Finset.sum_add_distrib, ← Finset.mul_sum, ← Finset.sum_mul, Finset.sum_sub_distrib, a, b, c, d]
  ring

theorem average_out {n : ℕ} (hn : n = 1 ∨ n = 2 ∨ n = 3) {y yo z zo : ℝ} {A B : ℤ} (hA : A + ((n : ℝ) + 1) / 2 < y)
    (hB : y < B - ((n : ℝ) + 1) / 2) (hy : |yo - y| < 1) {k l : ℤ} (hk : k < A ∨ B < k) : average n y yo z zo k l = 0 := by
  have a := (moments_of hn (room_wts hn hA hB (xo := y) (by simp))).2.2 k hk
  have b := (moments_of hn (room_wts hn hA hB hy)).2.2 k hk
  unfold average
  rw [a, b]; ring

theorem average_comm (n : ℕ) (y yo z zo : ℝ) (k l : ℤ) : average n y yo z zo k l = average n z zo y yo l k := by
  unfold average; ring

/-- The move in cells. -/
theorem slow_cells {g : Geo} (hg : Geo.Ok g) {p : Part} (hs : Slow g p) :
    |cells (before g p).x g.xmin g.dx - cells p.x g.xmin g.dx| < 1 ∧ |cells (before g p).y g.ymin g.dy - cells p.y g.ymin g.dy| < 1 ∧
      |cells (before g p).z g.zmin g.dz - cells p.z g.zmin g.dz| < 1 := by
  obtain ⟨gx, gy, gz⟩ := hg
  obtain ⟨sx, sy, sz⟩ := hs
  have key : ∀ {u m d v : ℝ}, 0 < d → |g.dt * v| < d → |(u - g.dt * v - m) / d - (u - m) / d| < 1 := by
    intro u m d v hd hv
    have : (u - g.dt * v - m) / d - (u - m) / d = -(g.dt * v) / d := by field_simp; ring
    rw [this, abs_div, abs_neg, abs_of_pos hd, div_lt_one hd]
    exact hv
  exact ⟨key gx sx, key gy sy, key gz sz⟩

/-- No current outside a box with room for the particle. -/
theorem current_out {n : ℕ} (hn : n = 1 ∨ n = 2 ∨ n = 3) {g : Geo} (hg : Geo.Ok g) {p : Part} (hs : Slow g p) {lo hi : I3}
    (hr : Room n g lo hi p) (c : Comp) {i : I3} (hi' : ¬ InBox lo hi i) : current n g p c i = 0 := by
  obtain ⟨s1, s2, s3⟩ := slow_cells hg hs
  obtain ⟨r1, r2, r3, r4, r5, r6⟩ := hr
  have h : (i.j < lo.j ∨ hi.j < i.j) ∨ (i.k < lo.k ∨ hi.k < i.k) ∨ (i.l < lo.l ∨ hi.l < i.l) := by
    unfold InBox at hi'; omega
  cases c <;> simp only [current] <;> rcases h with h | h | h
  · rw [flux_out hn r1 r2 s1 (by omega)]; ring
  · rw [average_out hn r3 r4 s2 h]; ring
  · rw [average_comm, average_out hn r5 r6 s3 h]; ring
  · rw [average_out hn r1 r2 s1 h]; ring
  · rw [flux_out hn r3 r4 s2 (by omega)]; ring
  · rw [average_comm, average_out hn r5 r6 s3 h]; ring
  · rw [average_out hn r1 r2 s1 h]; ring
  · rw [average_comm, average_out hn r3 r4 s2 h]; ring
  · rw [flux_out hn r5 r6 s3 (by omega)]; ring

/-- Total current of one particle. -/
theorem current_total {n : ℕ} (hn : n = 1 ∨ n = 2 ∨ n = 3) {g : Geo} (hg : Geo.Ok g) (hdt : g.dt ≠ 0) {p : Part} (hs : Slow g p)
    {lo hi : I3} (hr : Room n g lo hi p) :
    (∑ j ∈ Finset.Icc lo.j hi.j, ∑ k ∈ Finset.Icc lo.k hi.k, ∑ l ∈ Finset.Icc lo.l hi.l, current n g p .jx ⟨j, k, l⟩) *
        (g.dx * g.dy * g.dz) = g.q * p.w * (p.ux * p.gaminv) ∧
    (∑ j ∈ Finset.Icc lo.j hi.j, ∑ k ∈ Finset.Icc lo.k hi.k, ∑ l ∈ Finset.Icc lo.l hi.l, current n g p .jy ⟨j, k, l⟩) *
        (g.dx * g.dy * g.dz) = g.q * p.w * (p.uy * p.gaminv) ∧
    (∑ j ∈ Finset.Icc lo.j hi.j, ∑ k ∈ Finset.Icc lo.k hi.k, ∑ l ∈ Finset.Icc lo.l hi.l, current n g p .jz ⟨j, k, l⟩) *
        (g.dx * g.dy * g.dz) = g.q * p.w * (p.uz * p.gaminv) := by
  obtain ⟨s1, s2, s3⟩ := slow_cells hg hs
  obtain ⟨r1, r2, r3, r4, r5, r6⟩ := hr
  obtain ⟨gx, gy, gz⟩ := hg
  refine ⟨?_, ?_, ?_⟩
  · simp only [current, mul_assoc, ← Finset.mul_sum]
    simp only [← Finset.sum_mul]
    rw [average_total hn r3 r4 s2 r5 r6 s3, flux_total hn r1 r2 s1]
    simp only [cells, before]
    field_simp
    ring
  · have e : ∀ j k l : ℤ, current n g p .jy ⟨j, k, l⟩ = flux n (cells p.y g.ymin g.dy) (cells (before g p).y g.ymin g.dy) k *
        (g.q * p.w / (g.dt * g.dx * g.dz) * average n (cells p.x g.xmin g.dx) (cells (before g p).x g.xmin g.dx)
          (cells p.z g.zmin g.dz) (cells (before g p).z g.zmin g.dz) j l) := by
      intro j k l; simp only [current]; ring
    simp only [e, ← Finset.mul_sum]
    simp only [← Finset.sum_mul]
    rw [flux_total hn r3 r4 s2]
    simp only [← Finset.mul_sum]
    rw [average_total hn r1 r2 s1 r5 r6 s3]
    simp only [cells, before]
    field_simp
    ring
  · have e : ∀ j k l : ℤ, current n g p .jz ⟨j, k, l⟩ = average n (cells p.x g.xmin g.dx) (cells (before g p).x g.xmin g.dx)
          (cells p.y g.ymin g.dy) (cells (before g p).y g.ymin g.dy) j k * (g.q * p.w / (g.dt * g.dx * g.dy) *
        flux n (cells p.z g.zmin g.dz) (cells (before g p).z g.zmin g.dz) l) := by
      intro j k l; simp only [current]; ring
    simp only [e, ← Finset.mul_sum]
    simp only [← Finset.sum_mul]
    rw [flux_total hn r5 r6 s3, average_total hn r1 r2 s1 r3 r4 s2]
    simp only [cells, before]
    field_simp
    ring

end Picsar.Deposition
