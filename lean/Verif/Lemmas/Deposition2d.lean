import Verif.Lemmas.Esirk2dLoop
import Verif.Lemmas.EsirkClosed
import Verif.Spec.Deposition2d
import Mathlib.Algebra.BigOperators.Field

namespace Picsar.Deposition2d
open Picsar Picsar.Grid Picsar.Deposition Picsar.Spec

/-! ### Shapes of order 0 to 3 -/

theorem node2_eq {n : ℕ} (hn : n = 1 ∨ n = 2 ∨ n = 3) (x : ℝ) : node2 n x = node n x := by
  rcases hn with rfl | rfl | rfl <;> simp [node2, node]

theorem order_cases {n : ℕ} (hn : n ≤ 3) : n = 0 ∨ (n = 1 ∨ n = 2 ∨ n = 3) := by omega

theorem nearest_nint (x : ℝ) : nearest x = nint x := by
  unfold nearest nint
  split_ifs
  · rfl
  · rw [← Int.ceil_neg]; congr 1; ring

theorem wts2_fst {n : ℕ} (hn : n ≤ 3) (ξ : ℝ) :
    ((wts2 n ξ).map Prod.fst).Nodup ∧ (∀ w ∈ wts2 n ξ, -((n / 2 : ℕ) : ℤ) ≤ w.1 ∧ w.1 ≤ (((n + 1) / 2 : ℕ) : ℤ)) ∧
      ∀ a : ℤ, -((n / 2 : ℕ) : ℤ) ≤ a → a ≤ (((n + 1) / 2 : ℕ) : ℤ) → ∃ w ∈ wts2 n ξ, w.1 = a := by
  rcases order_cases hn with rfl | rfl | rfl | rfl
  · refine ⟨by simp [wts2], by simp [wts2], fun a h1 h2 => ?_⟩
    norm_num at h1 h2
    have : a = 0 := by omega
    simp [wts2, this]
  · refine ⟨by simp [wts2, wts], by simp [wts2, wts], fun a h1 h2 => ?_⟩
    norm_num at h1 h2
    have : a = 0 ∨ a = 1 := by omega
    rcases this with rfl | rfl <;> simp [wts2, wts]
  · refine ⟨by simp [wts2, wts], by simp [wts2, wts], fun a h1 h2 => ?_⟩
    norm_num at h1 h2
    have : a = -1 ∨ a = 0 ∨ a = 1 := by omega
    rcases this with rfl | rfl | rfl <;> simp [wts2, wts]
  · refine ⟨by simp [wts2, wts], by simp [wts2, wts], fun a h1 h2 => ?_⟩
    norm_num at h1 h2
    have : a = -1 ∨ a = 0 ∨ a = 1 ∨ a = 2 := by omega
    rcases this with rfl | rfl | rfl | rfl <;> simp [wts2, wts]

theorem wts2_sum {n : ℕ} (hn : n ≤ 3) (ξ : ℝ) : ((wts2 n ξ).map Prod.snd).sum = 1 := by
  rcases order_cases hn with rfl | h
  · simp [wts2]
  · have : n ≠ 0 := by omega
    rw [wts2, if_neg this, wts_sum h]

theorem shapeFn_shape {n : ℕ} (hn : n ≤ 3) (x : ℝ) (i0 a : ℤ) :
    shapeFn (wts2 n (x - node2 n x)) (node2 n x - i0) a = shape n x (i0 + a) := by
  rcases order_cases hn with rfl | h
  · simp only [shapeFn, wts2, shape, if_true, nearest_nint, node2, List.map_cons, List.map_nil, List.sum_cons, List.sum_nil, add_zero]
    congr 1
    simp only [eq_iff_iff]
    omega
  · have h0 : n ≠ 0 := by omega
    rw [wts2, if_neg h0, shape, if_neg h0, node2_eq h, shapeFn_bspline h]

theorem node2_near {n : ℕ} {x y : ℝ} (h : |x - y| < 1) : |node2 n x - node2 n y| ≤ 1 := by
  by_cases hn : n % 2 = 0
  · have := node_near (n := 2) h
    simpa [node2, hn, node] using this
  · have := node_near (n := 1) h
    simpa [node2, hn, node] using this

theorem node2_far {n : ℕ} : ∀ (k : ℕ) {x y : ℝ}, |x - y| < k + 1 → |node2 n x - node2 n y| ≤ k + 1
  | 0, x, y, h => by simpa using node2_near (n := n) (by simpa using h)
  | k + 1, x, y, h => by
    have hk : (0 : ℝ) < (k : ℝ) + 2 := by positivity
    have h' : |x - y| < (k : ℝ) + 2 := by push_cast at h; linarith
    set t := y + (x - y) * ((k + 1) / (k + 2) : ℝ) with ht
    have e1 : x - t = (x - y) / (k + 2) := by rw [ht]; field_simp; ring
    have e2 : t - y = (x - y) / (k + 2) * (k + 1) := by rw [ht]; field_simp; ring
    have h0 : |(x - y) / ((k : ℝ) + 2)| < 1 := by
      rw [abs_div, abs_of_pos hk, div_lt_one hk]; exact h'
    have h1 : |x - t| < 1 := by rw [e1]; exact h0
    have h2 : |t - y| < k + 1 := by
      rw [e2, abs_mul, abs_of_pos (show (0:ℝ) < k + 1 by positivity)]
      nlinarith [show (0:ℝ) < (k:ℝ) + 1 by positivity]
    have i1 := node2_near (n := n) h1
    have i2 := node2_far (n := n) k h2
    have := abs_sub_le (node2 n x) (node2 n t) (node2 n y)
    push_cast
    omega

/-! ### Filling a local array -/

theorem fillOn_go {lo hi d : ℤ} : ∀ (ws : List (ℤ × ℝ)) (s : ℤ → ℝ), (ws.map Prod.fst).Nodup →
    (∀ w ∈ ws, lo ≤ w.1 + d ∧ w.1 + d ≤ hi) →
    ∃ s', fillOn lo hi d s ws = .ok s' ∧ (∀ w ∈ ws, s' (w.1 + d) = w.2) ∧ ∀ a, (∀ w ∈ ws, a ≠ w.1 + d) → s' a = s a
  | [], s, _, _ => ⟨s, rfl, by simp, fun _ _ => rfl⟩
  | w :: ws, s, hn, hb => by
    rw [List.map_cons, List.nodup_cons] at hn
    obtain ⟨s', e, h1, h2⟩ := fillOn_go (lo := lo) (hi := hi) (d := d) ws (Function.update s (w.1 + d) w.2) hn.2
      (fun v hv => hb v (by simp [hv]))
    refine ⟨s', ?_, ?_, ?_⟩
    · unfold fillOn at e ⊢
      rw [List.foldlM_cons, if_pos (hb w (by simp))]
      exact e
    · intro v hv
      rcases List.mem_cons.mp hv with rfl | hv
      · rw [h2, Function.update_self]
        intro u hu hne
        apply hn.1
        have : v.1 = u.1 := by omega
        rw [this]
        exact List.mem_map_of_mem hu
      · exact h1 v hv
    · intro a ha
      rw [h2 a (fun v hv => ha v (by simp [hv])), Function.update_of_ne (ha w (by simp))]

theorem shapeFn_at {ws : List (ℤ × ℝ)} {d : ℤ} (hn : (ws.map Prod.fst).Nodup) {w : ℤ × ℝ} (hw : w ∈ ws) :
    shapeFn ws d (w.1 + d) = w.2 := by
  induction ws with
  | nil => simp at hw
  | cons v ws ih =>
    rw [List.map_cons, List.nodup_cons] at hn
    simp only [shapeFn, List.map_cons, List.sum_cons] at ih ⊢
    rcases List.mem_cons.mp hw with rfl | hw
    · have : shapeFn ws d (w.1 + d) = 0 := by
        unfold shapeFn
        apply List.sum_eq_zero
        intro r hr
        rw [List.mem_map] at hr
        obtain ⟨u, hu, rfl⟩ := hr
        rw [if_neg]
        intro h
        apply hn.1
        have : w.1 = u.1 := by omega
        rw [this]
        exact List.mem_map_of_mem hu
      unfold shapeFn at this
      rw [this]; simp
    · rw [ih hn.2 hw, if_neg, zero_add]
      intro h
      apply hn.1
      have : v.1 = w.1 := by omega
      rw [this]
      exact List.mem_map_of_mem hw

theorem shapeFn_off {ws : List (ℤ × ℝ)} {d a : ℤ} (h : ∀ w ∈ ws, a ≠ w.1 + d) : shapeFn ws d a = 0 := by
  unfold shapeFn
  apply List.sum_eq_zero
  intro r hr
  rw [List.mem_map] at hr
  obtain ⟨u, hu, rfl⟩ := hr
  rw [if_neg (h u hu)]

theorem fillOn_ok {lo hi d : ℤ} {ws : List (ℤ × ℝ)} {s : ℤ → ℝ} (hn : (ws.map Prod.fst).Nodup)
    (hb : ∀ w ∈ ws, lo ≤ w.1 + d ∧ w.1 + d ≤ hi) (hs : ∀ a, (∀ w ∈ ws, a ≠ w.1 + d) → s a = 0) :
    fillOn lo hi d s ws = .ok (shapeFn ws d) := by
  obtain ⟨s', e, h1, h2⟩ := fillOn_go ws s hn hb
  rw [e]
  congr 1
  funext a
  by_cases h : ∃ w ∈ ws, a = w.1 + d
  · obtain ⟨w, hw, rfl⟩ := h
    rw [h1 w hw, shapeFn_at hn hw]
  · push Not at h
    rw [h2 a h, hs a h, shapeFn_off h]

/-- A local array that is zero off the stencil. -/
def Off (n : ℕ) (s : ℤ → ℝ) : Prop := ∀ a : ℤ, a < -((n / 2 : ℕ) : ℤ) ∨ (((n + 1) / 2 : ℕ) : ℤ) < a → s a = 0

/-- Everything about one direction. -/
structure Dir (n : ℕ) (X Xo : ℝ) (i0 lo hi : ℤ) (s0 s : ℤ → ℝ) : Prop where
  node : i0 = node2 n X
  low : lo = min 0 (node2 n Xo - node2 n X) - ((n / 2 : ℕ) : ℤ)
  high : hi = max 0 (node2 n Xo - node2 n X) + (((n + 1) / 2 : ℕ) : ℤ)
  le : lo ≤ hi
  off : Off n s0
  zero : ∀ a, a < lo ∨ hi < a → s0 a = 0 ∧ s a = 0
  sum : ∑ a ∈ Finset.Icc lo hi, s a = ∑ a ∈ Finset.Icc lo hi, s0 a
  new : ∀ a : ℤ, s0 (a - i0) = shape n X a
  old : ∀ a : ℤ, s (a - i0) = shape n Xo a

theorem dir2_ok {n : ℕ} (hn : n ≤ 3) {X Xo : ℝ} {l u : ℤ} {t : ℤ → ℝ} (ht : Off n t)
    (hl : l ≤ min 0 (node2 n Xo - node2 n X) - ((n / 2 : ℕ) : ℤ))
    (hu : max 0 (node2 n Xo - node2 n X) + (((n + 1) / 2 : ℕ) : ℤ) ≤ u) :
    fillOn l u 0 t (wts2 n (X - node2 n X)) = .ok (shapeFn (wts2 n (X - node2 n X)) 0) ∧
    fillOn l u (node2 n Xo - node2 n X) (fun _ => 0) (wts2 n (Xo - node2 n Xo)) =
      .ok (shapeFn (wts2 n (Xo - node2 n Xo)) (node2 n Xo - node2 n X)) ∧
    Dir n X Xo (node2 n X) (min 0 (node2 n Xo - node2 n X) - ((n / 2 : ℕ) : ℤ))
      (max 0 (node2 n Xo - node2 n X) + (((n + 1) / 2 : ℕ) : ℤ))
      (shapeFn (wts2 n (X - node2 n X)) 0) (shapeFn (wts2 n (Xo - node2 n Xo)) (node2 n Xo - node2 n X)) := by
  obtain ⟨nd0, of0, ex0⟩ := wts2_fst hn (X - node2 n X)
  obtain ⟨nd1, of1, ex1⟩ := wts2_fst hn (Xo - node2 n Xo)
  have r0 : ∀ w ∈ wts2 n (X - node2 n X), min 0 (node2 n Xo - node2 n X) - ((n / 2 : ℕ) : ℤ) ≤ w.1 + 0 ∧
      w.1 + 0 ≤ max 0 (node2 n Xo - node2 n X) + (((n + 1) / 2 : ℕ) : ℤ) := by
    intro w hw; have := of0 w hw; constructor <;> omega
  have r1 : ∀ w ∈ wts2 n (Xo - node2 n Xo), min 0 (node2 n Xo - node2 n X) - ((n / 2 : ℕ) : ℤ) ≤
      w.1 + (node2 n Xo - node2 n X) ∧
      w.1 + (node2 n Xo - node2 n X) ≤ max 0 (node2 n Xo - node2 n X) + (((n + 1) / 2 : ℕ) : ℤ) := by
    intro w hw; have := of1 w hw; constructor <;> omega
  refine ⟨fillOn_ok nd0 (fun w hw => ?_) (fun a ha => ?_), fillOn_ok nd1 (fun w hw => ?_) (fun _ _ => rfl), rfl, rfl, rfl,
    by omega, fun a ha => ?_, fun a ha => ⟨shapeFn_zero r0 ha, shapeFn_zero r1 ha⟩, ?_, fun a => ?_, fun a => ?_⟩
  · have := r0 w hw; constructor <;> omega
  · apply ht
    by_contra h
    push Not at h
    obtain ⟨w, hw, e⟩ := ex0 a h.1 h.2
    exact ha w hw (by omega)
  · have := r1 w hw; constructor <;> omega
  · exact shapeFn_zero (fun w hw => by rw [add_zero]; exact of0 w hw) ha
  · rw [shapeFn_sum r0, shapeFn_sum r1, wts2_sum hn, wts2_sum hn]
  · have := shapeFn_shape hn X (node2 n X) (a - node2 n X)
    rw [sub_self] at this
    rw [this]
    congr 1
    ring
  · rw [shapeFn_shape hn Xo (node2 n X) (a - node2 n X)]
    congr 1
    ring

structure Prep2 (a b : ℕ) (D : Dims) (g : Geo) (w : ℝ) (m : Move) (L : Loc2) : Prop where
  x : Dir a m.x m.xold L.i0 L.xl L.xh L.sx0 L.sx
  z : Dir b m.z m.zold L.k0 L.zl L.zh L.sz0 L.sz
  loc : LocOk2 D L
  wqx : L.wqx = g.q * w * (1 / (g.dt * g.dz))
  wqz : L.wqz = g.q * w * (1 / (g.dt * g.dx))
  wqy : L.wqy = g.q * w * m.vy * (1 / (g.dx * g.dz))

/-- The local arrays have room for the move. -/
def RoomN (n : ℕ) (l u : ℤ) (X Xo : ℝ) : Prop :=
  l ≤ min 0 (node2 n Xo - node2 n X) - ((n / 2 : ℕ) : ℤ) ∧ max 0 (node2 n Xo - node2 n X) + (((n + 1) / 2 : ℕ) : ℤ) ≤ u

theorem prep2_ok {a b : ℕ} (ha : a ≤ 3) (hb : b ≤ 3) {D : Dims} {g : Geo} {w : ℝ} {m : Move} {sx0 sz0 : ℤ → ℝ} (hx : Off a sx0)
    (hz : Off b sz0) (rx : RoomN a D.xl D.xu m.x m.xold) (rz : RoomN b D.zl D.zu m.z m.zold) :
    ∃ L, prep2 a b D g w m sx0 sz0 = .ok L ∧ Prep2 a b D g w m L := by
  obtain ⟨a1, a2, a3⟩ := dir2_ok ha hx rx.1 rx.2
  obtain ⟨b1, b2, b3⟩ := dir2_ok hb hz rz.1 rz.2
  unfold prep2
  simp only
  rw [a1, b1, a2, b2]
  simp only [except_bind_ok, except_pure]
  exact ⟨_, rfl, a3, b3, ⟨rx.1, rx.2, rz.1, rz.2⟩, rfl, rfl, rfl⟩

/-! ### What one particle adds -/

theorem shape_far {n : ℕ} {x : ℝ} {m : ℤ} (h : (m : ℝ) ≤ x - 2) : shape n x m = 0 := by
  unfold shape
  split_ifs with h0 h1
  · exfalso
    have := (nint_bounds x).1
    rw [← nearest_nint, ← h1] at this
    linarith
  · rfl
  · exact bspline_far (by rw [le_abs]; left; linarith)

theorem flux2_zero_below {n : ℕ} {x xo : ℝ} {m : ℤ} (h : m < ⌊min x xo⌋ - 2) : shape n xo m - shape n x m = 0 := by
  have h1 : (⌊min x xo⌋ : ℝ) ≤ min x xo := Int.floor_le _
  have h2 : (m : ℝ) ≤ ⌊min x xo⌋ - 2 - 1 := by exact_mod_cast (by omega : m ≤ ⌊min x xo⌋ - 2 - 1)
  have h3 := min_le_left x xo
  have h4 := min_le_right x xo
  rw [shape_far (by linarith), shape_far (by linarith), sub_zero]

theorem flux2_eq {n : ℕ} {x xo : ℝ} {A : ℤ} (hA : ∀ a : ℤ, a < A → shape n xo a - shape n x a = 0) (j : ℤ) :
    flux2 n x xo j = ∑ m ∈ Finset.Icc A j, (shape n xo m - shape n x m) :=
  sum_start (f := fun m : ℤ => shape n xo m - shape n x m) (fun _ h => flux2_zero_below h) hA j

theorem flux2_diff (n : ℕ) (x xo : ℝ) (j : ℤ) : flux2 n x xo j - flux2 n x xo (j - 1) = shape n xo j - shape n x j := by
  unfold flux2
  by_cases h : ⌊min x xo⌋ - 2 ≤ j
  · rw [sum_Icc_last h]; ring
  · rw [Finset.Icc_eq_empty (by omega), Finset.Icc_eq_empty (by omega), flux2_zero_below (by omega)]; simp

theorem dir_flux2 {n : ℕ} {x xo : ℝ} {i0 lo hi : ℤ} {s0 s : ℤ → ℝ} (G : Dir n x xo i0 lo hi s0 s) (a : ℤ) :
    (if lo ≤ a - i0 ∧ a - i0 < hi then ∑ i ∈ Finset.Icc lo (a - i0), (s i - s0 i) else 0) = flux2 n x xo a := by
  have hz : ∀ m : ℤ, m < lo + i0 → shape n xo m - shape n x m = 0 := by
    intro m hm
    have := G.zero (m - i0) (by omega)
    rw [← G.new, ← G.old, this.1, this.2, sub_zero]
  have hz' : ∀ m : ℤ, hi + i0 < m → shape n xo m - shape n x m = 0 := by
    intro m hm
    have := G.zero (m - i0) (by omega)
    rw [← G.new, ← G.old, this.1, this.2, sub_zero]
  have hsum : ∀ b : ℤ, ∑ i ∈ Finset.Icc lo b, (s i - s0 i) =
      ∑ m ∈ Finset.Icc (lo + i0) (b + i0), (shape n xo m - shape n x m) := by
    intro b
    rw [sum_Icc_shift (fun i => s i - s0 i) lo b i0]
    apply Finset.sum_congr rfl
    intro m _
    rw [G.new, G.old]
  rw [flux2_eq hz a]
  split_ifs with h1
  · rw [hsum]
    congr 2
    ring
  · by_cases h2 : a - i0 < lo
    · rw [Finset.Icc_eq_empty (by omega)]
      simp
    · have h3 : hi + i0 ≤ a := by omega
      rw [sum_stop h3 hz', ← hsum, Finset.sum_sub_distrib, G.sum, sub_self]

/-- `current2` in terms of a move in grid units. -/
noncomputable def cur2 (a b : ℕ) (g : Geo) (w : ℝ) (m : Move) (c : Comp) (i : I3) : ℝ :=
  if i.k = 0 then
    match c with
    | .jx => g.q * w / (g.dt * g.dz) * flux2 a m.x m.xold i.j * mean b m.z m.zold i.l
    | .jy => g.q * w * m.vy / (g.dx * g.dz) * average2 a b m.x m.xold m.z m.zold i.j i.l
    | .jz => g.q * w / (g.dt * g.dx) * mean a m.x m.xold i.j * flux2 b m.z m.zold i.l
    | _ => 0
  else 0

noncomputable def moveOf (rz : Bool) (g : Geo) (p : Part) : Move :=
  ⟨cells (across rz p) g.xmin g.dx, cells (across rz (before g p)) g.xmin g.dx, cells p.z g.zmin g.dz,
    cells (before g p).z g.zmin g.dz, sideways rz g p⟩

theorem current2_eq (a b : ℕ) (rz : Bool) (g : Geo) (p : Part) (c : Comp) (i : I3) :
    current2 a b rz g p c i = cur2 a b g p.w (moveOf rz g p) c i := rfl

theorem FF2_cur {a b : ℕ} {D : Dims} {g : Geo} {w : ℝ} {m : Move} {L : Loc2} (P : Prep2 a b D g w m L) (c : Comp)
    (i : I3) : FF2 L c i = cur2 a b g w m c i := by
  obtain ⟨j, k, l⟩ := i
  by_cases hk : k = 0
  swap
  · unfold FF2 cur2
    rw [if_neg hk, if_neg (by simp only; tauto)]
  subst hk
  have pull : ∀ (C : Prop) [Decidable C] (S : Finset ℤ) (f : ℤ → ℝ) (k : ℝ),
      (if C then ∑ i ∈ S, f i * k else 0) = (if C then ∑ i ∈ S, f i else 0) * k := by
    intro C _ S f k
    split_ifs
    · rw [Finset.sum_mul]
    · rw [zero_mul]
  cases c
  case jx =>
    have e : FF2 L .jx ⟨j, 0, l⟩ = (if L.xl ≤ j - L.i0 ∧ j - L.i0 < L.xh then ∑ i ∈ Finset.Icc L.xl (j - L.i0), (L.sx i - L.sx0 i) else 0) *
        (L.wqx * (L.sz0 (l - L.k0) + 1 / 2 * (L.sz (l - L.k0) - L.sz0 (l - L.k0)))) := by
      rw [← pull]
      simp only [FF2, contrib2, PX2, true_and]
      by_cases hz : L.zl ≤ l - L.k0 ∧ l - L.k0 ≤ L.zh
      · by_cases hx : L.xl ≤ j - L.i0 ∧ j - L.i0 < L.xh
        · rw [if_pos hx, if_pos ⟨by omega, by omega, hz.1, hz.2⟩, if_pos hx.2]
          apply Finset.sum_congr rfl
          intro i _
          unfold wX2; ring
        · rw [if_neg hx]
          split_ifs with h1 h2
          · unfold InR2 at h1; omega
          · rfl
          · rfl
      · have h0 := P.z.zero (l - L.k0) (by omega)
        rw [if_neg (by unfold InR2; omega)]
        simp [h0.1, h0.2]
    rw [e, dir_flux2 P.x]
    simp only [cur2, if_true, mean, P.z.new, P.z.old, P.wqx]
    ring
  case jz =>
    have e : FF2 L .jz ⟨j, 0, l⟩ = (if L.zl ≤ l - L.k0 ∧ l - L.k0 < L.zh then ∑ i ∈ Finset.Icc L.zl (l - L.k0), (L.sz i - L.sz0 i) else 0) *
        (L.wqz * (L.sx0 (j - L.i0) + 1 / 2 * (L.sx (j - L.i0) - L.sx0 (j - L.i0)))) := by
      rw [← pull]
      simp only [FF2, contrib2, PZ2, true_and]
      by_cases hx : L.xl ≤ j - L.i0 ∧ j - L.i0 ≤ L.xh
      · by_cases hz : L.zl ≤ l - L.k0 ∧ l - L.k0 < L.zh
        · rw [if_pos hz, if_pos ⟨hx.1, hx.2, by omega, by omega⟩, if_pos hz.2]
          apply Finset.sum_congr rfl
          intro i _
          unfold wZ2; ring
        · rw [if_neg hz]
          split_ifs with h1 h2
          · unfold InR2 at h1; omega
          · rfl
          · rfl
      · have h0 := P.x.zero (j - L.i0) (by omega)
        rw [if_neg (by unfold InR2; omega)]
        simp [h0.1, h0.2]
    rw [e, dir_flux2 P.z]
    simp only [cur2, if_true, mean, P.x.new, P.x.old, P.wqz]
    ring
  case jy =>
    have e : FF2 L .jy ⟨j, 0, l⟩ = wY2 L (j - L.i0) (l - L.k0) := by
      simp only [FF2, contrib2, true_and]
      by_cases h : InR2 L (j - L.i0) (l - L.k0)
      · rw [if_pos h]
      · rw [if_neg h]
        have : (j - L.i0 < L.xl ∨ L.xh < j - L.i0) ∨ (l - L.k0 < L.zl ∨ L.zh < l - L.k0) := by unfold InR2 at h; omega
        rcases this with h | h
        · have h0 := P.x.zero _ h
          simp [wY2, h0.1, h0.2]
        · have h0 := P.z.zero _ h
          simp [wY2, h0.1, h0.2]
    rw [e]
    simp only [wY2, cur2, if_true, average2, P.x.new, P.x.old, P.z.new, P.z.old, P.wqy]
    ring
  all_goals
    simp only [FF2, contrib2, cur2]
    split_ifs <;> rfl

/-! ### Room in the grid arrays -/

theorem fits_dir {n : ℕ} (hn : n ≤ 3) {X : ℝ} {lo hi : ℤ} (h : Fits n lo hi X) :
    lo ≤ node2 n X - ((n / 2 : ℕ) : ℤ) ∧ node2 n X + (((n + 1) / 2 : ℕ) : ℤ) ≤ hi := by
  obtain ⟨h1, h2⟩ := h
  have hb := nint_bounds X
  rcases order_cases hn with rfl | rfl | rfl | rfl
  · norm_num [node2] at *
    have a1 : (lo : ℝ) - 1 < nint X := by linarith
    have a2 : (nint X : ℝ) < hi + 1 := by linarith
    have a1' : lo - 1 < nint X := by exact_mod_cast a1
    have a2' : nint X < hi + 1 := by exact_mod_cast a2
    omega
  · norm_num [node2] at *
    have a1 : lo ≤ ⌊X⌋ := Int.le_floor.mpr (by linarith)
    have a2 : ⌊X⌋ < hi := Int.floor_lt.mpr (by linarith)
    omega
  · norm_num [node2] at *
    have a1 : (lo : ℝ) < nint X := by linarith
    have a2 : (nint X : ℝ) < hi := by linarith
    have a1' : lo < nint X := by exact_mod_cast a1
    have a2' : nint X < hi := by exact_mod_cast a2
    omega
  · norm_num [node2] at *
    have a1 : lo + 1 ≤ ⌊X⌋ := Int.le_floor.mpr (by push_cast; linarith)
    have a2 : ⌊X⌋ < hi - 1 := Int.floor_lt.mpr (by push_cast; linarith)
    omega

theorem covers2_ok {a b : ℕ} (ha : a ≤ 3) (hb : b ≤ 3) {D : Dims} {g : Geo} {w : ℝ} {m : Move} {L : Loc2} (P : Prep2 a b D g w m L) {σ : Mem}
    (h : ∀ c, c = .jx ∨ c = .jy ∨ c = .jz → (σ c).lo.k ≤ 0 ∧ 0 ≤ (σ c).hi.k ∧
      Fits a (σ c).lo.j (σ c).hi.j m.x ∧ Fits a (σ c).lo.j (σ c).hi.j m.xold ∧
      Fits b (σ c).lo.l (σ c).hi.l m.z ∧ Fits b (σ c).lo.l (σ c).hi.l m.zold) : Covers2 L σ := by
  intro i k hr c hc
  obtain ⟨k1, k2, f1, f2, f3, f4⟩ := h c hc
  obtain ⟨r1, r2, r3, r4⟩ := hr
  have a1 := fits_dir ha f1
  have a2 := fits_dir ha f2
  have a3 := fits_dir hb f3
  have a4 := fits_dir hb f4
  have x0 := P.x.node
  have x1 := P.x.low
  have x2 := P.x.high
  have z0 := P.z.node
  have z1 := P.z.low
  have z2 := P.z.high
  refine ⟨?_, ?_, k1, k2, ?_, ?_⟩ <;> simp only <;> omega

/-! ### The moves -/

theorem moveU_eq (g : Geo) (p : Part) : moveU g p = moveOf false g p := by
  unfold moveU moveOf
  simp only [cells, across, before, sideways, Move.mk.injEq, Bool.false_eq_true, if_false, false_and]
  refine ⟨by ring, by ring, by ring, by ring, trivial⟩

theorem moveN_eq {g : Geo} (hx : 0 < g.dx) (ht : 0 < g.dt) (rz : Bool) (p : Part) : moveN rz g p = moveOf rz g p := by
  have hd : g.dt * (1 / g.dx) ≠ 0 := by positivity
  unfold moveN moveOf
  cases rz
  · simp only [cells, across, before, sideways, Move.mk.injEq, Bool.false_eq_true, if_false, false_and]
    refine ⟨by ring, by ring, by ring, by ring, trivial⟩
  · simp only [cells, across, before, sideways, Move.mk.injEq, if_true, true_and]
    have e : ∀ u : ℝ, u * u = u ^ 2 := fun u => by ring
    simp only [e]
    refine ⟨?_, by ring, by ring, by ring, ?_⟩
    · rw [mul_div_cancel₀ _ hd]; ring
    · have : √(p.x ^ 2 + p.y ^ 2) * (1 / g.dx) = √(p.x ^ 2 + p.y ^ 2) / g.dx := by ring
      rw [this]
      by_cases h : 1 / 10 ^ 10 < √(p.x ^ 2 + p.y ^ 2) / g.dx
      · rw [if_pos h, if_pos h, if_pos h]; ring
      · rw [if_neg h, if_neg h, if_neg h]; ring

/-- A move of less than a cell fits the declared local arrays of the unrolled routines. -/
theorem roomN_slow {n : ℕ} (hn : n = 1 ∨ n = 2 ∨ n = 3) {X Xo : ℝ} (h : |Xo - X| < 1) : RoomN n (locLo n) (locHi n) X Xo := by
  have hd := node2_near (n := n) h
  rw [abs_le] at hd
  have hlo : locLo n ≤ -1 - ((n / 2 : ℕ) : ℤ) := by rcases hn with rfl | rfl | rfl <;> simp [locLo]
  have hhi : 1 + (((n + 1) / 2 : ℕ) : ℤ) ≤ locHi n := by rcases hn with rfl | rfl | rfl <;> simp [locHi]
  exact ⟨by omega, by omega⟩

theorem roomN_far {n : ℕ} {X Xo t : ℝ} (ht : 0 ≤ t) (h : |Xo - X| ≤ t) :
    RoomN n (-((n / 2 : ℕ) : ℤ) - 1 - truncZ t) ((((n + 1) / 2 : ℕ) : ℤ) + 1 + truncZ t) X Xo := by
  have e : truncZ t = ((⌊t⌋.toNat : ℕ) : ℤ) := by
    rw [truncZ, if_pos ht, Int.toNat_of_nonneg (Int.floor_nonneg.mpr ht)]
  have hk : t < (⌊t⌋.toNat : ℝ) + 1 := by
    have h1 : ((⌊t⌋.toNat : ℕ) : ℝ) = (⌊t⌋ : ℝ) := by
      rw [← Int.cast_natCast, Int.toNat_of_nonneg (Int.floor_nonneg.mpr ht)]
    rw [h1]
    exact Int.lt_floor_add_one t
  have hd := node2_far (n := n) ⌊t⌋.toNat (lt_of_le_of_lt h hk)
  rw [abs_le] at hd
  rw [e]
  exact ⟨by omega, by omega⟩

theorem across_near (g : Geo) (rz : Bool) {clight : ℝ} {p : Part} (ht : 0 < g.dt) (hs : Subluminal clight p) :
    |across rz (before g p) - across rz p| ≤ clight * g.dt := by
  obtain ⟨hc, h⟩ := hs
  apply abs_le_of_sq_le_sq _ (by positivity)
  set vx := p.ux * p.gaminv with hvx
  set vy := p.uy * p.gaminv with hvy
  set vz := p.uz * p.gaminv with hvz
  have hv : (g.dt * vx) ^ 2 + (g.dt * vy) ^ 2 ≤ (clight * g.dt) ^ 2 := by
    have h2 : vx ^ 2 + vy ^ 2 ≤ clight ^ 2 := by nlinarith [sq_nonneg vz]
    have := mul_le_mul_of_nonneg_left h2 (sq_nonneg g.dt)
    nlinarith
  cases rz
  · simp only [across, before, Bool.false_eq_true, if_false]
    rw [← hvx]
    nlinarith [sq_nonneg (g.dt * vy)]
  · simp only [across, before, if_true]
    rw [← hvx, ← hvy]
    set x := p.x
    set y := p.y
    set u := x - g.dt * vx with hu
    set v := y - g.dt * vy with hv'
    have r1 := Real.sq_sqrt (show 0 ≤ u ^ 2 + v ^ 2 by positivity)
    have r2 := Real.sq_sqrt (show 0 ≤ x ^ 2 + y ^ 2 by positivity)
    have p1 := Real.sqrt_nonneg (u ^ 2 + v ^ 2)
    have p2 := Real.sqrt_nonneg (x ^ 2 + y ^ 2)
    have cs : u * x + v * y ≤ √(u ^ 2 + v ^ 2) * √(x ^ 2 + y ^ 2) := by
      refine (le_abs_self _).trans (abs_le_of_sq_le_sq ?_ (by positivity))
      rw [mul_pow, r1, r2]
      nlinarith [sq_nonneg (u * y - v * x)]
    have e1 : x - u = g.dt * vx := by rw [hu]; ring
    have e2 : y - v = g.dt * vy := by rw [hv']; ring
    rw [← e1, ← e2] at hv
    nlinarith

theorem z_near {g : Geo} {clight : ℝ} {p : Part} (ht : 0 < g.dt) (hs : Subluminal clight p) :
    |(before g p).z - p.z| ≤ clight * g.dt := by
  obtain ⟨hc, h⟩ := hs
  apply abs_le_of_sq_le_sq _ (by positivity)
  simp only [before]
  have h2 : (p.uz * p.gaminv) ^ 2 ≤ clight ^ 2 := by nlinarith [sq_nonneg (p.ux * p.gaminv), sq_nonneg (p.uy * p.gaminv)]
  have := mul_le_mul_of_nonneg_left h2 (sq_nonneg g.dt)
  nlinarith

theorem cells_near {u v m d t : ℝ} (hd : 0 < d) (h : |u - v| ≤ t) : |cells u m d - cells v m d| ≤ t / d := by
  have : cells u m d - cells v m d = (u - v) / d := by unfold cells; ring
  rw [this, abs_div, abs_of_pos hd]
  gcongr

/-! ### The particle loops -/

theorem fit3_covers {a b : ℕ} {rz : Bool} {g : Geo} {σ : Mem} {p : Part} (h : Fit3 a b rz g σ p) :
    ∀ c, c = .jx ∨ c = .jy ∨ c = .jz → (σ c).lo.k ≤ 0 ∧ 0 ≤ (σ c).hi.k ∧
      Fits a (σ c).lo.j (σ c).hi.j (moveOf rz g p).x ∧ Fits a (σ c).lo.j (σ c).hi.j (moveOf rz g p).xold ∧
      Fits b (σ c).lo.l (σ c).hi.l (moveOf rz g p).z ∧ Fits b (σ c).lo.l (σ c).hi.l (moveOf rz g p).zold := by
  intro c hc
  obtain ⟨⟨h1, h2, h3, h4⟩, ⟨_, _, h5, h6⟩⟩ := h c hc
  exact ⟨h1, h2, h3, h5, h4, h6⟩

theorem addF_currents2 {a b : ℕ} {rz : Bool} {g : Geo} {σ : Mem} {p : Part} {ps : List Part} :
    addF (addF σ (current2 a b rz g p)) (currents2 a b rz g ps) = addF σ (currents2 a b rz g (p :: ps)) := by
  funext c
  simp only [addF, Arr.mk.injEq, true_and]
  funext i
  simp only [currents2, List.map_cons, List.sum_cons]
  ring

theorem addF_currents2_nil {a b : ℕ} {rz : Bool} {g : Geo} {σ : Mem} : addF σ (currents2 a b rz g []) = σ := by
  funext c
  simp [addF, currents2]

theorem loopN_ok {clight : ℝ} {a b : ℕ} (ha : a ≤ 3) (hb : b ≤ 3) {g : Geo} (hx : 0 < g.dx) (hz : 0 < g.dz) (ht : 0 < g.dt) (rz : Bool) :
    ∀ (ps : List Part) (s : AccN), (∀ p ∈ ps, Subluminal clight p) → (∀ p ∈ ps, Fit3 a b rz g s.mem p) → Off a s.sx0 → Off b s.sz0 →
    ∃ s', loopN clight a b rz g ps s = .ok s' ∧ s'.mem = addF s.mem (currents2 a b rz g ps)
  | [], s, _, _, _, _ => ⟨s, rfl, addF_currents2_nil.symm⟩
  | p :: ps, s, h1, h2, o1, o2 => by
    have hsub := h1 p (by simp)
    have c0 : 0 ≤ clight * g.dt / g.dx := by have := hsub.1; positivity
    have c1 : 0 ≤ clight * g.dt / g.dz := by have := hsub.1; positivity
    obtain ⟨L, e1, P⟩ := prep2_ok (D := dimsN clight a b g) (g := g) (w := p.w) (m := moveOf rz g p) ha hb o1 o2
      (roomN_far c0 (cells_near hx (across_near g rz ht hsub)))
      (roomN_far c1 (cells_near hz (z_near ht hsub)))
    obtain ⟨s1, e2, m1, x1, z1⟩ := planeN_ok (s := { s with sx0 := L.sx0, sz0 := L.sz0 }) P.loc
      (covers2_ok ha hb P (fit3_covers (h2 p (by simp)))) P.x.le P.z.le rfl rfl
    have hm : s1.mem = addF s.mem (current2 a b rz g p) := by
      rw [m1]
      congr 1
      funext c i
      rw [FF2_cur P, current2_eq]
    obtain ⟨s2, e3, m2⟩ := loopN_ok ha hb hx hz ht rz ps s1 (fun q hq => h1 q (by simp [hq])) (by
      intro q hq
      rw [hm]
      exact h2 q (by simp [hq])) (by rw [x1]; exact P.x.off) (by rw [z1]; exact P.z.off)
    refine ⟨s2, ?_, ?_⟩
    · unfold loopN
      rw [moveN_eq hx ht, e1]
      simp only [except_bind_ok]
      rw [e2]
      simp only [except_bind_ok]
      exact e3
    · rw [m2, hm, addF_currents2]

theorem deposeN_ok {clight : ℝ} {a b : ℕ} (ha : a ≤ 3) (hb : b ≤ 3) {g : Geo} (hx : 0 < g.dx) (hz : 0 < g.dz) (ht : 0 < g.dt) (rz : Bool)
    {ps : List Part} {σ : Mem} (h1 : ∀ p ∈ ps, Subluminal clight p) (h2 : ∀ p ∈ ps, Fit3 a b rz g σ p) :
    deposeN clight a b rz g ps σ = .ok (addF σ (currents2 a b rz g ps)) := by
  obtain ⟨s', e, m⟩ := loopN_ok ha hb hx hz ht rz ps ⟨fun _ _ => 0, fun _ _ => 0, fun _ => 0, fun _ => 0, σ⟩ h1 h2
    (fun _ _ => rfl) (fun _ _ => rfl)
  unfold deposeN
  rw [e]
  simp only [except_bind_ok, except_pure]
  rw [m]

theorem cells_slow {g : Geo} {u m d v : ℝ} (hd : 0 < d) (hv : |g.dt * v| < d) : |cells (u - g.dt * v) m d - cells u m d| < 1 := by
  have : cells (u - g.dt * v) m d - cells u m d = -(g.dt * v) / d := by unfold cells; field_simp; ring
  rw [this, abs_div, abs_neg, abs_of_pos hd, div_lt_one hd]
  exact hv

theorem loopU_ok {n : ℕ} (hn : n = 1 ∨ n = 2 ∨ n = 3) {g : Geo} (hx : 0 < g.dx) (hz : 0 < g.dz) :
    ∀ (ps : List Part) (s : AccU), (∀ p ∈ ps, SlowPlane g p) → (∀ p ∈ ps, Fit3 n n false g s.mem p) →
    ∃ s', loopU n g ps s = .ok s' ∧ s'.mem = addF s.mem (currents2 n n false g ps)
  | [], s, _, _ => ⟨s, rfl, addF_currents2_nil.symm⟩
  | p :: ps, s, h1, h2 => by
    have hn3 : n ≤ 3 := by omega
    obtain ⟨v1, v2⟩ := h1 p (by simp)
    obtain ⟨L, e1, P⟩ := prep2_ok (D := dimsU n) (g := g) (w := p.w) (m := moveOf false g p) (sx0 := fun _ => 0) (sz0 := fun _ => 0)
      hn3 hn3 (fun _ _ => rfl) (fun _ _ => rfl)
      (roomN_slow hn (cells_slow hx v1)) (roomN_slow hn (cells_slow hz v2))
    obtain ⟨s1, e2, m1⟩ := planeU_ok (s := s) P.loc (covers2_ok hn3 hn3 P (fit3_covers (h2 p (by simp)))) P.x.le P.z.le
    have hm : s1.mem = addF s.mem (current2 n n false g p) := by
      rw [m1]
      congr 1
      funext c i
      rw [FF2_cur P, current2_eq]
    obtain ⟨s2, e3, m2⟩ := loopU_ok hn hx hz ps s1 (fun q hq => h1 q (by simp [hq])) (by
      intro q hq
      rw [hm]
      exact h2 q (by simp [hq]))
    refine ⟨s2, ?_, ?_⟩
    · unfold loopU
      rw [moveU_eq, e1]
      simp only [except_bind_ok]
      rw [e2]
      simp only [except_bind_ok]
      exact e3
    · rw [m2, hm, addF_currents2]

theorem deposeU_ok {n : ℕ} (hn : n = 1 ∨ n = 2 ∨ n = 3) {g : Geo} (hx : 0 < g.dx) (hz : 0 < g.dz) {ps : List Part} {σ : Mem}
    (h1 : ∀ p ∈ ps, SlowPlane g p) (h2 : ∀ p ∈ ps, Fit3 n n false g σ p) :
    deposeU n g ps σ = .ok (addF σ (currents2 n n false g ps)) := by
  obtain ⟨s', e, m⟩ := loopU_ok hn hx hz ps ⟨0, 0, fun _ => 0, fun _ => 0, σ⟩ h1 h2
  unfold deposeU
  rw [e]
  simp only [except_bind_ok, except_pure]
  rw [m]

/-! ### Charge -/

theorem rhoStmts2_sum (a b : ℕ) (wq x z : ℝ) (j k l : ℤ) :
    ((rhoStmts2 a b wq x z).map fun s => if (⟨j, k, l⟩ : I3) = s.1 then s.2 else 0).sum =
      if k = 0 then shapeFn (wts2 a (x - node2 a x)) (node2 a x) j * shapeFn (wts2 b (z - node2 b z)) (node2 b z) l * wq else 0 := by
  unfold rhoStmts2
  rw [sum_flatMap]
  have hc : ∀ c : ℤ × ℝ, (((wts2 a (x - node2 a x)).map fun d =>
      ((⟨node2 a x + d.1, 0, node2 b z + c.1⟩ : I3), d.2 * c.2 * wq)).map
        fun s => if (⟨j, k, l⟩ : I3) = s.1 then s.2 else 0).sum =
      if l = c.1 + node2 b z then c.2 * (if k = 0 then shapeFn (wts2 a (x - node2 a x)) (node2 a x) j * wq else 0) else 0 := by
    intro c
    rw [List.map_map]
    have hd : ∀ d : ℤ × ℝ, ((fun s : I3 × ℝ => if (⟨j, k, l⟩ : I3) = s.1 then s.2 else 0) ∘ fun d : ℤ × ℝ =>
        ((⟨node2 a x + d.1, 0, node2 b z + c.1⟩ : I3), d.2 * c.2 * wq)) d =
        if j = d.1 + node2 a x then d.2 * (if k = 0 then (if l = c.1 + node2 b z then c.2 * wq else 0) else 0) else 0 := by
      intro d
      simp only [Function.comp_apply, I3.mk.injEq]
      rw [show node2 a x + d.1 = d.1 + node2 a x by ring, show node2 b z + c.1 = c.1 + node2 b z by ring]
      split_ifs <;> first | rfl | (simp_all; done) | (simp_all; ring)
    rw [List.map_congr_left (fun d _ => hd d), sum_mul_shape]
    split_ifs <;> ring
  rw [List.map_congr_left (fun c _ => hc c), sum_mul_shape]
  split_ifs <;> ring

/-- Density of one charge `wq` at a position in grid units. -/
theorem rhoStmts2_ok {a b : ℕ} (ha : a ≤ 3) (hb : b ≤ 3) {wq x z : ℝ} {rho : Arr} (hk : rho.lo.k ≤ 0 ∧ 0 ≤ rho.hi.k)
    (hx : Fits a rho.lo.j rho.hi.j x) (hz : Fits b rho.lo.l rho.hi.l z) :
    (rhoStmts2 a b wq x z).foldlM (fun (r : Arr) (s : I3 × ℝ) => bump r s.1 s.2) rho =
      (.ok (addA rho fun i => if i.k = 0 then wq * shape a x i.j * shape b z i.l else 0) : Res Arr) := by
  rw [bumps_ok]
  · congr 2
    funext i
    obtain ⟨j, k, l⟩ := i
    rw [rhoStmts2_sum]
    have e : ∀ {n : ℕ} (hn : n ≤ 3) (X : ℝ) (a : ℤ), shapeFn (wts2 n (X - node2 n X)) (node2 n X) a = shape n X a := by
      intro n hn X a
      have := shapeFn_shape hn X 0 a
      simpa using this
    rw [e ha, e hb]
    split_ifs <;> ring
  · intro s hs
    simp only [rhoStmts2, List.mem_flatMap, List.mem_map] at hs
    obtain ⟨c, hc, d, hd, rfl⟩ := hs
    have h1 := (wts2_fst hb (z - node2 b z)).2.1 c hc
    have h2 := (wts2_fst ha (x - node2 a x)).2.1 d hd
    have h3 := fits_dir ha hx
    have h4 := fits_dir hb hz
    refine ⟨?_, ?_, hk.1, hk.2, ?_, ?_⟩ <;> simp only <;> omega

theorem deposeRho2_ok {a b : ℕ} (ha : a ≤ 3) (hb : b ≤ 3) {rz : Bool} {g : Geo} : ∀ (ps : List Part) (rho : Arr),
    (∀ p ∈ ps, Fits2 a b rz g rho p) →
    deposeRho2 a b rz g ps rho = .ok (addA rho fun i => if i.k = 0 then densities2 a b rz g ps i.j i.l else 0)
  | [], rho, _ => by simp [deposeRho2, addA, densities2]
  | p :: ps, rho, h => by
    unfold deposeRho2
    obtain ⟨h1, h2, h3, h4⟩ := h p (by simp)
    have ex : (radius rz p.x p.y - g.xmin) * (1 / g.dx) = cells (across rz p) g.xmin g.dx := by
      cases rz <;> simp only [radius, across, cells, if_true, Bool.false_eq_true, if_false, ← pow_two] <;> ring
    have ez : (p.z - g.zmin) * (1 / g.dz) = cells p.z g.zmin g.dz := by unfold cells; ring
    simp only [ex, ez]
    rw [rhoStmts2_ok ha hb ⟨h1, h2⟩ h3 h4]
    simp only [except_bind_ok]
    rw [deposeRho2_ok ha hb ps (addA rho _) (fun q hq => h q (by simp [hq]))]
    congr 1
    simp only [addA, Arr.mk.injEq, true_and]
    funext i
    simp only [densities2, List.map_cons, List.sum_cons, density2]
    split_ifs
    · ring
    · ring

theorem deposeRhoOld2_ok {a b : ℕ} (ha : a ≤ 3) (hb : b ≤ 3) {g : Geo} : ∀ (ps : List Part) (rho : Arr),
    (∀ p ∈ ps, Fits2 a b false g rho (before g p)) →
    deposeRhoOld2 a b g ps rho = .ok (addA rho fun i => if i.k = 0 then densities2 a b false g (ps.map (before g)) i.j i.l else 0)
  | [], rho, _ => by simp [deposeRhoOld2, addA, densities2]
  | p :: ps, rho, h => by
    unfold deposeRhoOld2
    obtain ⟨h1, h2, h3, h4⟩ := h p (by simp)
    have ex : (p.x - g.xmin) * (1 / g.dx) - p.ux * p.gaminv * g.dt * (1 / g.dx) = cells (across false (before g p)) g.xmin g.dx := by
      simp only [across, cells, before, Bool.false_eq_true, if_false]; ring
    have ez : (p.z - g.zmin) * (1 / g.dz) - p.uz * p.gaminv * g.dt * (1 / g.dz) = cells (before g p).z g.zmin g.dz := by
      simp only [cells, before]; ring
    simp only [ex, ez]
    rw [rhoStmts2_ok ha hb ⟨h1, h2⟩ h3 h4]
    simp only [except_bind_ok]
    rw [deposeRhoOld2_ok ha hb ps (addA rho _) (fun q hq => h q (by simp [hq]))]
    congr 1
    simp only [addA, Arr.mk.injEq, true_and]
    funext i
    have hw : (before g p).w = p.w := rfl
    simp only [densities2, List.map_cons, List.sum_cons, density2, hw]
    split_ifs
    · ring
    · ring

/-! ### Continuity and totals -/

theorem current2_div {a b : ℕ} {rz : Bool} {g : Geo} (hx : 0 < g.dx) (hz : 0 < g.dz) (ht : g.dt ≠ 0)
    (p : Part) (j l : ℤ) :
    (current2 a b rz g p .jx ⟨j, 0, l⟩ - current2 a b rz g p .jx ⟨j - 1, 0, l⟩) / g.dx +
      (current2 a b rz g p .jz ⟨j, 0, l⟩ - current2 a b rz g p .jz ⟨j, 0, l - 1⟩) / g.dz =
      (density2 a b rz g (before g p) j l - density2 a b rz g p j l) / g.dt := by
  have hw : (before g p).w = p.w := rfl
  have h1 := flux2_diff a (cells (across rz p) g.xmin g.dx) (cells (across rz (before g p)) g.xmin g.dx) j
  have h2 := flux2_diff b (cells p.z g.zmin g.dz) (cells (before g p).z g.zmin g.dz) l
  simp only [current2, density2, if_true, hw]
  generalize cells (across rz p) g.xmin g.dx = X at *
  generalize cells (across rz (before g p)) g.xmin g.dx = Xo at *
  generalize cells p.z g.zmin g.dz = Z at *
  generalize cells (before g p).z g.zmin g.dz = Zo at *
  have e1 : g.q * p.w / (g.dt * g.dz) * flux2 a X Xo j * mean b Z Zo l - g.q * p.w / (g.dt * g.dz) * flux2 a X Xo (j - 1) * mean b Z Zo l =
      g.q * p.w / (g.dt * g.dz) * (shape a Xo j - shape a X j) * mean b Z Zo l := by rw [← h1]; ring
  have e2 : g.q * p.w / (g.dt * g.dx) * mean a X Xo j * flux2 b Z Zo l - g.q * p.w / (g.dt * g.dx) * mean a X Xo j * flux2 b Z Zo (l - 1) =
      g.q * p.w / (g.dt * g.dx) * mean a X Xo j * (shape b Zo l - shape b Z l) := by rw [← h2]; ring
  rw [e1, e2]
  simp only [mean]
  field_simp
  ring

theorem currents2_div {a b : ℕ} {rz : Bool} {g : Geo} (hx : 0 < g.dx) (hz : 0 < g.dz) (ht : g.dt ≠ 0)
    (ps : List Part) (j l : ℤ) :
    (currents2 a b rz g ps .jx ⟨j, 0, l⟩ - currents2 a b rz g ps .jx ⟨j - 1, 0, l⟩) / g.dx +
      (currents2 a b rz g ps .jz ⟨j, 0, l⟩ - currents2 a b rz g ps .jz ⟨j, 0, l - 1⟩) / g.dz =
      (densities2 a b rz g (ps.map (before g)) j l - densities2 a b rz g ps j l) / g.dt := by
  induction ps with
  | nil => simp [currents2, densities2]
  | cons p ps ih =>
    have h := current2_div (a := a) (b := b) (rz := rz) hx hz ht p j l
    simp only [currents2, densities2, List.map_cons, List.sum_cons] at ih ⊢
    have e : ∀ u v w x : ℝ, (u + w - (v + x)) / g.dt = (u - v) / g.dt + (w - x) / g.dt := by intro u v w x; ring
    rw [e, ← h, ← ih]
    ring

/-! ### Totals -/

theorem wts2_moment {n : ℕ} (h1 : 1 ≤ n) (hn : n ≤ 3) (ξ : ℝ) : ((wts2 n ξ).map fun w => (w.1 : ℝ) * w.2).sum = ξ := by
  rw [wts2, if_neg (by omega), wts_moment (by omega)]

theorem fits_wts {n : ℕ} (hn : n ≤ 3) {x : ℝ} {A B : ℤ} (h : Fits n A B x) :
    ∀ w ∈ wts2 n (x - node2 n x), A ≤ w.1 + node2 n x ∧ w.1 + node2 n x ≤ B := by
  intro w hw
  have h1 := (wts2_fst hn (x - node2 n x)).2.1 w hw
  have h2 := fits_dir hn h
  omega

theorem shape_shapeFn {n : ℕ} (hn : n ≤ 3) (x : ℝ) (a : ℤ) : shape n x a = shapeFn (wts2 n (x - node2 n x)) (node2 n x) a := by
  have := shapeFn_shape hn x 0 a
  simp only [sub_zero, zero_add] at this
  rw [this]

theorem shape_total {n : ℕ} (hn : n ≤ 3) {x : ℝ} {A B : ℤ} (h : Fits n A B x) : ∑ m ∈ Finset.Icc A B, shape n x m = 1 := by
  simp only [shape_shapeFn hn]
  rw [shapeFn_sum (fits_wts hn h), wts2_sum hn]

theorem shape_moment {n : ℕ} (h1 : 1 ≤ n) (hn : n ≤ 3) {x : ℝ} {A B : ℤ} (h : Fits n A B x) :
    ∑ m ∈ Finset.Icc A B, (m : ℝ) * shape n x m = x := by
  simp only [shape_shapeFn hn]
  rw [shapeFn_moment (fits_wts hn h)]
  simp only [add_mul]
  rw [List.sum_map_add, wts2_moment h1 hn, List.sum_map_mul_left, wts2_sum hn]
  ring

theorem shape_out {n : ℕ} (hn : n ≤ 3) {x : ℝ} {A B : ℤ} (h : Fits n A B x) {m : ℤ} (hm : m < A ∨ B < m) : shape n x m = 0 := by
  rw [shape_shapeFn hn, shapeFn_zero (fits_wts hn h) hm]

theorem fits_le {n : ℕ} (hn : n ≤ 3) {x : ℝ} {A B : ℤ} (h : Fits n A B x) : A ≤ B := by
  have := fits_dir hn h
  omega

theorem flux2_total {n : ℕ} (h1 : 1 ≤ n) (hn : n ≤ 3) {x xo : ℝ} {A B : ℤ} (h : Fits n A B x) (ho : Fits n A B xo) :
    ∑ j ∈ Finset.Icc A B, flux2 n x xo j = x - xo := by
  have hz : ∀ a : ℤ, a < A → shape n xo a - shape n x a = 0 := by
    intro a ha
    rw [shape_out hn h (.inl ha), shape_out hn ho (.inl ha), sub_zero]
  have hAB := fits_le hn h
  simp only [flux2_eq hz]
  rw [sum_running (by omega) (by rw [Finset.sum_sub_distrib, shape_total hn h, shape_total hn ho, sub_self])]
  simp only [mul_sub, Finset.sum_sub_distrib]
  rw [shape_moment h1 hn h, shape_moment h1 hn ho]; ring

theorem mean_total {n : ℕ} (hn : n ≤ 3) {x xo : ℝ} {A B : ℤ} (h : Fits n A B x) (ho : Fits n A B xo) :
    ∑ j ∈ Finset.Icc A B, mean n x xo j = 1 := by
  simp only [mean, ← Finset.sum_div, Finset.sum_add_distrib]
  rw [shape_total hn h, shape_total hn ho]; norm_num

theorem average2_total {a b : ℕ} (ha : a ≤ 3) (hb : b ≤ 3) {x xo z zo : ℝ} {A B C D : ℤ} (h : Fits a A B x) (ho : Fits a A B xo)
    (h' : Fits b C D z) (ho' : Fits b C D zo) :
    ∑ j ∈ Finset.Icc A B, ∑ l ∈ Finset.Icc C D, average2 a b x xo z zo j l = 1 := by
  simp only [average2, Finset.sum_add_distrib, ← Finset.sum_div, ← Finset.mul_sum, ← Finset.sum_mul, shape_total ha h, shape_total ha ho,
    shape_total hb h', shape_total hb ho']
  norm_num

theorem current2_total {a b : ℕ} (ha : a ≤ 3) (hb : b ≤ 3) {rz : Bool} {g : Geo} (hx : 0 < g.dx) (hz : 0 < g.dz) (ht : g.dt ≠ 0)
    {p : Part} {A : Arr} (h : Fits2 a b rz g A p) (ho : Fits2 a b rz g A (before g p)) :
    (1 ≤ a → (∑ j ∈ Finset.Icc A.lo.j A.hi.j, ∑ l ∈ Finset.Icc A.lo.l A.hi.l, current2 a b rz g p .jx ⟨j, 0, l⟩) * (g.dx * g.dz) =
      g.q * p.w * ((across rz p - across rz (before g p)) / g.dt)) ∧
    (∑ j ∈ Finset.Icc A.lo.j A.hi.j, ∑ l ∈ Finset.Icc A.lo.l A.hi.l, current2 a b rz g p .jy ⟨j, 0, l⟩) * (g.dx * g.dz) =
      g.q * p.w * sideways rz g p ∧
    (1 ≤ b → (∑ j ∈ Finset.Icc A.lo.j A.hi.j, ∑ l ∈ Finset.Icc A.lo.l A.hi.l, current2 a b rz g p .jz ⟨j, 0, l⟩) * (g.dx * g.dz) =
      g.q * p.w * (p.uz * p.gaminv)) := by
  obtain ⟨_, _, h3, h4⟩ := h
  obtain ⟨_, _, h5, h6⟩ := ho
  refine ⟨fun h1 => ?_, ?_, fun h1 => ?_⟩
  · simp only [current2, if_true, ← Finset.mul_sum, mean_total hb h4 h6, mul_one]
    rw [flux2_total h1 ha h3 h5]
    simp only [cells]
    field_simp
    ring
  · simp only [current2, if_true, ← Finset.mul_sum, average2_total ha hb h3 h5 h4 h6, mul_one]
    field_simp
  · simp only [current2, if_true, ← Finset.mul_sum, flux2_total h1 hb h4 h6]
    simp only [← Finset.sum_mul, ← Finset.mul_sum, mean_total ha h3 h5, mul_one]
    simp only [cells, before]
    field_simp
    ring

theorem density2_total {a b : ℕ} (ha : a ≤ 3) (hb : b ≤ 3) {rz : Bool} {g : Geo} (hx : 0 < g.dx) (hz : 0 < g.dz) {p : Part} {A : Arr}
    (h : Fits2 a b rz g A p) :
    (∑ j ∈ Finset.Icc A.lo.j A.hi.j, ∑ l ∈ Finset.Icc A.lo.l A.hi.l, density2 a b rz g p j l) * (g.dx * g.dz) = g.q * p.w := by
  obtain ⟨_, _, h3, h4⟩ := h
  simp only [density2, ← Finset.mul_sum, shape_total hb h4, mul_one, shape_total ha h3]
  field_simp

/-! ### Fast particles in the unrolled routines -/

theorem nint_two (x : ℝ) : nint x + 2 ≤ nint (x + 2) := by
  unfold nint
  split_ifs with h1 h2 h2
  · rw [show x + 2 + 1 / 2 = x + 1 / 2 + (2 : ℤ) by push_cast; ring, Int.floor_add_intCast]
  · linarith
  · push Not at h1
    have a1 : ⌈x - 1 / 2⌉ < x - 1 / 2 + 1 := Int.ceil_lt_add_one _
    have a2 : x + 2 + 1 / 2 < ⌊x + 2 + 1 / 2⌋ + 1 := Int.lt_floor_add_one _
    have : (⌈x - 1 / 2⌉ : ℝ) + 2 < (⌊x + 2 + 1 / 2⌋ : ℝ) + 1 := by linarith
    have : ⌈x - 1 / 2⌉ + 2 < ⌊x + 2 + 1 / 2⌋ + 1 := by exact_mod_cast this
    omega
  · rw [show x + 2 - 1 / 2 = x - 1 / 2 + (2 : ℤ) by push_cast; ring, Int.ceil_add_intCast]

theorem node2_two {n : ℕ} {x y : ℝ} (h : x + 2 ≤ y) : node2 n x + 2 ≤ node2 n y := by
  unfold node2
  split_ifs
  · exact (nint_two x).trans (nint_mono h)
  · have := Int.floor_mono h
    rw [show x + 2 = x + (2 : ℤ) by push_cast; ring, Int.floor_add_intCast] at this
    exact this

theorem node2_fast {n : ℕ} {x y : ℝ} (h : 2 ≤ |x - y|) : 2 ≤ |node2 n x - node2 n y| := by
  rw [le_abs] at h ⊢
  rcases h with h | h
  · left
    have := node2_two (n := n) (x := y) (y := x) (by linarith)
    omega
  · right
    have := node2_two (n := n) (x := x) (y := y) (by linarith)
    omega

theorem fillOn_err {lo hi d : ℤ} : ∀ (ws : List (ℤ × ℝ)) (s : ℤ → ℝ), (∃ w ∈ ws, ¬ (lo ≤ w.1 + d ∧ w.1 + d ≤ hi)) →
    fillOn lo hi d s ws = .error .outOfBounds
  | [], s, h => by simp at h
  | w :: ws, s, h => by
    unfold fillOn
    rw [List.foldlM_cons]
    by_cases hw : lo ≤ w.1 + d ∧ w.1 + d ≤ hi
    · rw [if_pos hw]
      refine fillOn_err ws _ ?_
      obtain ⟨v, hv, h'⟩ := h
      rcases List.mem_cons.mp hv with rfl | hv
      · exact (h' hw).elim
      · exact ⟨v, hv, h'⟩
    · rw [if_neg hw]; rfl

theorem fillOn_fast {n : ℕ} (hn : n = 1 ∨ n = 2 ∨ n = 3) {X Xo : ℝ} (h : 2 ≤ |Xo - X|) (s : ℤ → ℝ) :
    fillOn (locLo n) (locHi n) (node2 n Xo - node2 n X) s (wts2 n (Xo - node2 n Xo)) = .error .outOfBounds := by
  have hd := node2_fast (n := n) h
  rw [le_abs] at hd
  obtain ⟨_, _, ex⟩ := wts2_fst (n := n) (by omega) (Xo - node2 n Xo)
  apply fillOn_err
  rcases hd with hd | hd
  · obtain ⟨w, hw, e⟩ := ex (((n + 1) / 2 : ℕ) : ℤ) (by omega) (by omega)
    refine ⟨w, hw, ?_⟩
    have : locHi n < (((n + 1) / 2 : ℕ) : ℤ) + 2 := by rcases hn with rfl | rfl | rfl <;> simp [locHi]
    omega
  · obtain ⟨w, hw, e⟩ := ex (-((n / 2 : ℕ) : ℤ)) (by omega) (by omega)
    refine ⟨w, hw, ?_⟩
    have : -((n / 2 : ℕ) : ℤ) - 2 < locLo n := by rcases hn with rfl | rfl | rfl <;> simp [locLo]
    omega

theorem prep2_fast {n : ℕ} (hn : n = 1 ∨ n = 2 ∨ n = 3) {g : Geo} {w : ℝ} {m : Move} {s t : ℤ → ℝ} (h : 2 ≤ |m.xold - m.x| ∨ 2 ≤ |m.zold - m.z|)
    (L : Loc2) : prep2 n n (dimsU n) g w m s t ≠ .ok L := by
  unfold prep2
  intro he
  have e1 := fun u => fillOn_fast hn (X := m.x) (Xo := m.xold) (s := u)
  have e2 := fun u => fillOn_fast hn (X := m.z) (Xo := m.zold) (s := u)
  simp only [dimsU] at he
  cases h1 : fillOn (locLo n) (locHi n) 0 s (wts2 n (m.x - node2 n m.x)) with
  | error e => rw [h1] at he; cases he
  | ok a =>
    rw [h1] at he
    simp only [except_bind_ok] at he
    cases h2 : fillOn (locLo n) (locHi n) 0 t (wts2 n (m.z - node2 n m.z)) with
    | error e => rw [h2] at he; cases he
    | ok b =>
      rw [h2] at he
      simp only [except_bind_ok] at he
      rcases h with h | h
      · rw [e1 _ h] at he; cases he
      · cases h3 : fillOn (locLo n) (locHi n) (node2 n m.xold - node2 n m.x) (fun _ => 0) (wts2 n (m.xold - node2 n m.xold)) with
        | error e => rw [h3] at he; cases he
        | ok c =>
          rw [h3] at he
          simp only [except_bind_ok] at he
          rw [e2 _ h] at he; cases he

theorem loopU_fast {n : ℕ} (hn : n = 1 ∨ n = 2 ∨ n = 3) {g : Geo} : ∀ (ps : List Part) (s : AccU),
    (∃ p ∈ ps, 2 ≤ |(moveU g p).xold - (moveU g p).x| ∨ 2 ≤ |(moveU g p).zold - (moveU g p).z|) → ∀ s', loopU n g ps s ≠ .ok s'
  | [], s, h, s' => by simp at h
  | p :: ps, s, h, s' => by
    intro he
    unfold loopU at he
    cases h1 : prep2 n n (dimsU n) g p.w (moveU g p) (fun _ => 0) (fun _ => 0) with
    | error e => rw [h1] at he; cases he
    | ok L =>
      rw [h1] at he
      simp only [except_bind_ok] at he
      cases h2 : planeU (dimsU n) L s with
      | error e => rw [h2] at he; cases he
      | ok s1 =>
        rw [h2] at he
        simp only [except_bind_ok] at he
        obtain ⟨q, hq, hf⟩ := h
        rcases List.mem_cons.mp hq with rfl | hq
        · exact prep2_fast hn hf L h1
        · exact loopU_fast hn ps s1 ⟨q, hq, hf⟩ s' he

theorem deposeU_fast {n : ℕ} (hn : n = 1 ∨ n = 2 ∨ n = 3) {g : Geo} (hx : 0 < g.dx) (hz : 0 < g.dz) {ps : List Part} {σ : Mem}
    (h : ∃ p ∈ ps, 2 * g.dx ≤ |g.dt * (p.ux * p.gaminv)| ∨ 2 * g.dz ≤ |g.dt * (p.uz * p.gaminv)|) (σ' : Mem) :
    deposeU n g ps σ ≠ .ok σ' := by
  intro he
  unfold deposeU at he
  cases h1 : loopU n g ps ⟨0, 0, fun _ => 0, fun _ => 0, σ⟩ with
  | error e => rw [h1] at he; cases he
  | ok s =>
    refine loopU_fast hn ps _ ?_ s h1
    obtain ⟨p, hp, hf⟩ := h
    refine ⟨p, hp, ?_⟩
    have key : ∀ {u d v : ℝ}, 0 < d → 2 * d ≤ |g.dt * v| → 2 ≤ |u - g.dt * (1 / d) * v - u| := by
      intro u d v hd hv
      have : u - g.dt * (1 / d) * v - u = -(g.dt * v) / d := by field_simp; ring
      rw [this, abs_div, abs_neg, abs_of_pos hd, le_div_iff₀ hd]
      exact hv
    rcases hf with hf | hf
    · exact .inl (key hx hf)
    · exact .inr (key hz hf)

end Picsar.Deposition2d
