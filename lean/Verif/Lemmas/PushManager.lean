import Verif.Model.PushManager
import Verif.Spec.PushManager
import Verif.Lemmas.GatherAll
import Verif.Lemmas.Pushers

namespace Picsar.PushMgr
open Picsar Picsar.Grid Picsar.Gather Picsar.Push Picsar.Spec

/-! ### Interpolation -/

theorem axis_near_in {c : Cfg} (hn : Order c.n) (st : Bool) {x : ℝ} {N g : ℤ} (h0 : -(1 / 2) ≤ x) (h1 : x < N + 1 / 2)
    (hg : pushGuards c.n ≤ g) : ∀ w ∈ axisWts c st x, -g ≤ base c st x + w.1 ∧ base c st x + w.1 ≤ N + g := by
  obtain ⟨n, lower, nodal⟩ := c
  dsimp only at hn hg
  have hs := shift_cases ⟨n, lower, nodal⟩
  intro w hw
  simp only [axisWts, base, wts0, node0, Deposition.node] at hw ⊢
  generalize shift ⟨n, lower, nodal⟩ = s at hs hw ⊢
  have f1 : -1 ≤ ⌊x⌋ := Int.le_floor.mpr (by push_cast; linarith)
  have f2 : ⌊x⌋ < N + 1 := Int.floor_lt.mpr (by push_cast; linarith)
  have f3 : -1 ≤ ⌊x - s⌋ := Int.le_floor.mpr (by push_cast; rcases hs with rfl | rfl <;> linarith)
  have f4 : ⌊x - s⌋ < N + 1 := Int.floor_lt.mpr (by push_cast; rcases hs with rfl | rfl <;> linarith)
  have f5 : -1 ≤ ⌊x + 1 / 2 - s⌋ := Int.le_floor.mpr (by push_cast; rcases hs with rfl | rfl <;> linarith)
  have f6 : ⌊x + 1 / 2 - s⌋ < N + 1 := Int.floor_lt.mpr (by push_cast; rcases hs with rfl | rfl <;> linarith)
  have f7 : -1 ≤ Deposition.nint x := by
    have := (Deposition.nint_bounds x).2
    have h : (-1 : ℝ) - 1 < (Deposition.nint x : ℝ) := by
      have := (Deposition.nint_bounds x).1
      have := (Deposition.nint_bounds x).2
      linarith
    have : (-1 : ℤ) - 1 < Deposition.nint x := by exact_mod_cast h
    omega
  have f8 : Deposition.nint x < N + 1 := by
    unfold Deposition.nint
    split_ifs with h
    · exact Int.floor_lt.mpr (by push_cast; linarith)
    · have : ⌈x - 1 / 2⌉ ≤ 0 := Int.ceil_le.mpr (by push_cast; linarith)
      have : -(1 : ℝ) < N := by linarith
      have : -(1 : ℤ) < N := by exact_mod_cast this
      omega
  rcases hn with rfl | rfl | rfl <;> cases st <;> cases lower <;>
    simp [Deposition.wts, pushGuards] at hw hg ⊢ <;> (try rcases hw with rfl | rfl | rfl | rfl) <;> (try dsimp only) <;>
    (try simp only [one_div] at f5 f6) <;> constructor <;> omega

/-- The weighted sum as a sum over any ranges that contain the stencil. -/
theorem gsum_range {o : Opts} (ho : Orders o) (h3 : o.d2 = false) {p : Pos} (a : I3 → ℝ) (q : Comp) {lo hi : I3}
    (hx : ∀ w ∈ axisWts o.cx (stag q).1 p.x, lo.j ≤ base o.cx (stag q).1 p.x + w.1 ∧ base o.cx (stag q).1 p.x + w.1 ≤ hi.j)
    (hy : ∀ w ∈ axisWts o.cy (stag q).2.1 p.y, lo.k ≤ base o.cy (stag q).2.1 p.y + w.1 ∧ base o.cy (stag q).2.1 p.y + w.1 ≤ hi.k)
    (hz : ∀ w ∈ axisWts o.cz (stag q).2.2 p.z, lo.l ≤ base o.cz (stag q).2.2 p.z + w.1 ∧ base o.cz (stag q).2.2 p.z + w.1 ≤ hi.l) :
    gsum o a q p = ∑ l ∈ Finset.Icc lo.l hi.l, ∑ k ∈ Finset.Icc lo.k hi.k, ∑ j ∈ Finset.Icc lo.j hi.j,
      spline (orderAlong o.nx o.lower q 0) (p.x - samplePos o.nodal q 0 j) *
        spline (orderAlong o.ny o.lower q 1) (p.y - samplePos o.nodal q 1 k) *
        spline (orderAlong o.nz o.lower q 2) (p.z - samplePos o.nodal q 2 l) * a ⟨j, k, l⟩ := by
  obtain ⟨e1, e2, e3⟩ := off_stag o q
  have hoy : Order o.ny := ho.y.resolve_left (by simp [h3])
  have sx := axis_spline (c := o.cx) ho.x (stag q).1 p.x hx
  have sy := axis_spline (c := o.cy) hoy (stag q).2.1 p.y hy
  have sz := axis_spline (c := o.cz) ho.z (stag q).2.2 p.z hz
  have ox : orderAlong o.nx o.lower q 0 = if o.cx.lower = true ∧ (stag q).1 = true then o.cx.n - 1 else o.cx.n := by
    unfold orderAlong Opts.cx; cases q <;> rfl
  have oy : orderAlong o.ny o.lower q 1 = if o.cy.lower = true ∧ (stag q).2.1 = true then o.cy.n - 1 else o.cy.n := by
    unfold orderAlong Opts.cy; cases q <;> rfl
  have oz : orderAlong o.nz o.lower q 2 = if o.cz.lower = true ∧ (stag q).2.2 = true then o.cz.n - 1 else o.cz.n := by
    unfold orderAlong Opts.cz; cases q <;> rfl
  simp only [e1, e2, e3, ox, oy, oz]
  have R : ∀ (l k : ℤ), ∑ j ∈ Finset.Icc lo.j hi.j,
      spline (if o.cx.lower = true ∧ (stag q).1 = true then o.cx.n - 1 else o.cx.n) (p.x - (j + off o.cx (stag q).1)) *
        spline (if o.cy.lower = true ∧ (stag q).2.1 = true then o.cy.n - 1 else o.cy.n) (p.y - (k + off o.cy (stag q).2.1)) *
        spline (if o.cz.lower = true ∧ (stag q).2.2 = true then o.cz.n - 1 else o.cz.n) (p.z - (l + off o.cz (stag q).2.2)) * a ⟨j, k, l⟩ =
      spline (if o.cz.lower = true ∧ (stag q).2.2 = true then o.cz.n - 1 else o.cz.n) (p.z - (l + off o.cz (stag q).2.2)) *
      (spline (if o.cy.lower = true ∧ (stag q).2.1 = true then o.cy.n - 1 else o.cy.n) (p.y - (k + off o.cy (stag q).2.1)) *
        ((axisWts o.cx (stag q).1 p.x).map fun w => w.2 * a ⟨base o.cx (stag q).1 p.x + w.1, k, l⟩).sum) := by
    intro l k
    rw [← sx fun j => a ⟨j, k, l⟩, Finset.mul_sum, Finset.mul_sum]
    refine Finset.sum_congr rfl fun j _ => ?_
    ring
  simp only [R]
  simp only [← Finset.mul_sum]
  rw [sz fun l => ∑ k ∈ Finset.Icc lo.k hi.k,
    spline (if o.cy.lower = true ∧ (stag q).2.1 = true then o.cy.n - 1 else o.cy.n) (p.y - (k + off o.cy (stag q).2.1)) *
        ((axisWts o.cx (stag q).1 p.x).map fun w => w.2 * a ⟨base o.cx (stag q).1 p.x + w.1, k, l⟩).sum]
  unfold gsum terms
  rw [sum_map_flatMap]
  congr 1
  refine List.map_congr_left fun wz _ => ?_
  rw [sy fun k => ((axisWts o.cx (stag q).1 p.x).map fun w => w.2 * a ⟨base o.cx (stag q).1 p.x + w.1, k, base o.cz (stag q).2.2 p.z + wz.1⟩).sum]
  rw [sum_map_flatMap, ← List.sum_map_mul_left]
  unfold yWts yBase
  rw [h3]
  simp only [Bool.false_eq_true, if_false]
  congr 1
  refine List.map_congr_left fun wy _ => ?_
  rw [List.map_map, ← List.sum_map_mul_left, ← List.sum_map_mul_left]
  congr 1
  refine List.map_congr_left fun wx _ => ?_
  simp only [Function.comp]
  ring

theorem sum_shift (f : ℤ → ℝ) (a b c : ℤ) : ∑ i ∈ Finset.Icc a b, f i = ∑ i ∈ Finset.Icc (a - c) (b - c), f (i + c) := by
  refine Finset.sum_nbij' (fun i => i - c) (fun i => i + c) ?_ ?_ ?_ ?_ ?_
  · intro i hi; rw [Finset.mem_Icc] at hi ⊢; omega
  · intro i hi; rw [Finset.mem_Icc] at hi ⊢; omega
  · intro i _; omega
  · intro i _; omega
  · intro i _; congr 1; omega

theorem samplePos_add (nodal : Bool) (q : Comp) (d : Fin 3) (i c : ℤ) : samplePos nodal q d (i + c) = samplePos nodal q d i + c := by
  unfold samplePos; split_ifs <;> push_cast <;> ring

theorem orders_of {cfg : PCfg} (h : PCfgOk cfg) : Orders cfg.opts := ⟨h.nx, Or.inr h.ny, h.nz⟩

/-- Coordinates in the tile. -/
theorem cell_near {O d x : ℝ} {lo hi : ℤ} (hd : 0 < d) (h : NearNodes O d lo hi x) :
    -(1 / 2) ≤ (x - (O + lo * d)) * (1 / d) ∧ (x - (O + lo * d)) * (1 / d) < ((hi - lo : ℤ) : ℝ) + 1 / 2 ∧
      (x - O) / d = (x - (O + lo * d)) * (1 / d) + lo := by
  obtain ⟨h1, h2⟩ := h
  refine ⟨?_, ?_, ?_⟩
  · rw [mul_one_div, le_div_iff₀ hd]; linarith
  · rw [mul_one_div, div_lt_iff₀ hd]; push_cast; linarith
  · field_simp; ring

/-- The copy of the field arrays of a tile. -/
noncomputable def tileMem (σ : Mem) (t : PTile) : Mem := fun q =>
  ⟨⟨-t.g.j, -t.g.k, -t.g.l⟩, ⟨t.cells.j + t.g.j, t.cells.k + t.g.k, t.cells.l + t.g.l⟩, fun i =>
        (σ q).val ⟨t.elo.j + ((i.j + t.g.j + 1) - 1), t.elo.k + ((i.k + t.g.k + 1) - 1), t.elo.l + ((i.l + t.g.l + 1) - 1)⟩⟩

theorem copyTile_ok {σ : Mem} {t : PTile} {v : Priv} (hv : v.alloc = some t.shape) (h : PHolds σ t) : copyTile σ t v = .ok (tileMem σ t) := by
  unfold copyTile
  rw [if_pos hv, if_pos ?_]
  · rfl
  · intro q hq i hi
    have := h q (mem_comps.mp hq)
    have hi' := mem_box.mp hi
    unfold InBox at hi' ⊢
    simp only [PTile.elo, PTile.ehi] at hi'
    omega

section Part
variable {cfg : PCfg} {O : V3} {σ : Mem} {t : PTile} {p : Part}

/-- A particle near the nodes of the tile. -/
def PNear (cfg : PCfg) (O : V3) (t : PTile) (p : Part) : Prop :=
  NearNodes O.x cfg.dx t.lo.j t.hi.j p.pos.x ∧ NearNodes O.y cfg.dy t.lo.k t.hi.k p.pos.y ∧ NearNodes O.z cfg.dz t.lo.l t.hi.l p.pos.z

theorem tilePos_eq (ht : PTileOk cfg O t) (p : Part) : tilePos cfg t p =
    ⟨(p.pos.x - (O.x + t.lo.j * cfg.dx)) * (1 / cfg.dx), (p.pos.y - (O.y + t.lo.k * cfg.dy)) * (1 / cfg.dy),
      (p.pos.z - (O.z + t.lo.l * cfg.dz)) * (1 / cfg.dz)⟩ := by
  unfold tilePos cellPos
  rw [ht.ox, ht.oy, ht.oz]

theorem tile_fits (hc : PCfgOk cfg) (ht : PTileOk cfg O t) (hp : PNear cfg O t p) (q : Comp) :
    (∀ w ∈ axisWts cfg.opts.cx (stag q).1 (tilePos cfg t p).x, -t.g.j ≤ base cfg.opts.cx (stag q).1 (tilePos cfg t p).x + w.1 ∧
      base cfg.opts.cx (stag q).1 (tilePos cfg t p).x + w.1 ≤ t.cells.j + t.g.j) ∧
    (∀ w ∈ axisWts cfg.opts.cy (stag q).2.1 (tilePos cfg t p).y, -t.g.k ≤ base cfg.opts.cy (stag q).2.1 (tilePos cfg t p).y + w.1 ∧
      base cfg.opts.cy (stag q).2.1 (tilePos cfg t p).y + w.1 ≤ t.cells.k + t.g.k) ∧
    (∀ w ∈ axisWts cfg.opts.cz (stag q).2.2 (tilePos cfg t p).z, -t.g.l ≤ base cfg.opts.cz (stag q).2.2 (tilePos cfg t p).z + w.1 ∧
      base cfg.opts.cz (stag q).2.2 (tilePos cfg t p).z + w.1 ≤ t.cells.l + t.g.l) := by
  rw [tilePos_eq ht]
  obtain ⟨h1, h2, h3⟩ := hp
  have a := cell_near hc.dx h1
  have b := cell_near hc.dy h2
  have c := cell_near hc.dz h3
  exact ⟨axis_near_in (c := cfg.opts.cx) hc.nx _ a.1 a.2.1 ht.gj, axis_near_in (c := cfg.opts.cy) hc.ny _ b.1 b.2.1 ht.gk,
    axis_near_in (c := cfg.opts.cz) hc.nz _ c.1 c.2.1 ht.gl⟩

theorem tile_Fits (hc : PCfgOk cfg) (ht : PTileOk cfg O t) (hp : PNear cfg O t p) : Fits cfg.opts (tileMem σ t) (tilePos cfg t p) := by
  intro q _ e he
  obtain ⟨wz, hz', wy, hy', wx, hx', rfl⟩ := mem_terms.mp he
  obtain ⟨a, b, c⟩ := tile_fits hc ht hp q
  have a' := a wx hx'
  have b' := b wy (by simpa [yWts, PCfg.opts] using hy')
  have c' := c wz hz'
  unfold InBox tileMem yBase
  simp only [PCfg.opts, Bool.false_eq_true, if_false] at a' b' c' ⊢
  exact ⟨a'.1, a'.2, b'.1, b'.2, c'.1, c'.2⟩

/-- Interpolation on the tile is interpolation on the grid. -/
theorem tile_interp (hc : PCfgOk cfg) (ht : PTileOk cfg O t) (hσ : PHolds σ t) (hp : PNear cfg O t p) {q : Comp} (hq : IsField q) :
    gsum cfg.opts (tileMem σ t q).val q (tilePos cfg t p) = interpAt cfg O (σ q) q p.pos := by
  obtain ⟨a, b, c⟩ := tile_fits hc ht hp q
  have hh := hσ q hq
  unfold PTile.cells at a b c
  dsimp only at a b c
  rw [gsum_range (orders_of hc) rfl (lo := ⟨(σ q).lo.j - t.lo.j, (σ q).lo.k - t.lo.k, (σ q).lo.l - t.lo.l⟩)
    (hi := ⟨(σ q).hi.j - t.lo.j, (σ q).hi.k - t.lo.k, (σ q).hi.l - t.lo.l⟩) _ q
    (fun w hw => by have := a w hw; dsimp only; omega) (fun w hw => by have := b w hw; dsimp only; omega)
    (fun w hw => by have := c w hw; dsimp only; omega)]
  obtain ⟨h1, h2, h3⟩ := hp
  have a := (cell_near hc.dx h1).2.2
  have b := (cell_near hc.dy h2).2.2
  have c := (cell_near hc.dz h3).2.2
  unfold interpAt
  conv_rhs => rw [sum_shift _ _ _ t.lo.l]
  refine Finset.sum_congr rfl fun l _ => ?_
  conv_rhs => rw [sum_shift _ _ _ t.lo.k]
  refine Finset.sum_congr rfl fun k _ => ?_
  conv_rhs => rw [sum_shift _ _ _ t.lo.j]
  refine Finset.sum_congr rfl fun j _ => ?_
  rw [a, b, c, tilePos_eq ht, samplePos_add, samplePos_add, samplePos_add]
  unfold tileMem PTile.elo PCfg.opts
  dsimp only
  rw [show t.lo.j - t.g.j + (j + t.g.j + 1 - 1) = j + t.lo.j by ring, show t.lo.k - t.g.k + (k + t.g.k + 1 - 1) = k + t.lo.k by ring,
    show t.lo.l - t.g.l + (l + t.g.l + 1 - 1) = l + t.lo.l by ring]
  rw [add_sub_add_right_eq_sub, add_sub_add_right_eq_sub, add_sub_add_right_eq_sub]

theorem withFields_gathered (hc : PCfgOk cfg) (ht : PTileOk cfg O t) (hσ : PHolds σ t) (hp : PNear cfg O t p) :
    withFields (zeroFields p) (gathered cfg.opts (tileMem σ t) (tilePos cfg t p) (fieldsOf (zeroFields p))) = feels cfg O σ p := by
  have key : ∀ q, IsField q → fieldsOf (zeroFields p) q = 0 →
      gathered cfg.opts (tileMem σ t) (tilePos cfg t p) (fieldsOf (zeroFields p)) q = interpAt cfg O (σ q) q p.pos := by
    intro q hq h0
    unfold gathered
    rw [if_pos (mem_comps.mpr hq), h0, zero_add, tile_interp hc ht hσ hp hq]
  unfold withFields feels
  rw [key .ex (by simp [Spec.IsField]) rfl, key .ey (by simp [Spec.IsField]) rfl, key .ez (by simp [Spec.IsField]) rfl,
    key .bx (by simp [Spec.IsField]) rfl, key .by' (by simp [Spec.IsField]) rfl, key .bz (by simp [Spec.IsField]) rfl]
  rfl

theorem gatherOne_ok (hc : PCfgOk cfg) (ht : PTileOk cfg O t) (hσ : PHolds σ t) (hp : PNear cfg O t p) :
    gatherOne cfg t (tileMem σ t) (zeroFields p) = .ok (feels cfg O σ p) := by
  have hpos : tilePos cfg t (zeroFields p) = tilePos cfg t p := rfl
  unfold gatherOne
  rw [hpos, gather_ok (tile_Fits hc ht hp) cfg.algo (Or.inl rfl) cfg.a0 (fieldsOf (zeroFields p))]
  simp only [except_bind_ok, except_pure]
  rw [withFields_gathered hc ht hσ hp]

end Part

/-! ### Loops -/

theorem atPartM_append {f : Part → Res Part} (pre : List Part) {p p' : Part} (h : f p = .ok p') (suf : List Part) :
    atPartM f (pre.length + 1) (pre ++ p :: suf) = .ok (pre ++ p' :: suf) := by
  unfold atPartM
  have hl : pre.length < (pre ++ p :: suf).length := by simp
  simp only [rd_ok hl, except_bind_ok]
  rw [show (pre ++ p :: suf)[pre.length] = p by simp, h]
  simp only [except_bind_ok, wr_ok hl]
  simp

/-- Particle numbers of a segment. -/
def segIdx (a n : ℕ) : List ℕ := (List.range' a n).map fun (i : ℕ) => i + 1

theorem plainIdx_seg (n : ℕ) : plainIdx n = segIdx 0 n := by rw [plainIdx, List.range_eq_range', segIdx]

theorem loopM_seg {f : Part → Res Part} {g : Part → Part} : ∀ (suf pre rest : List Part), (∀ p ∈ suf, f p = .ok (g p)) →
    loopM f (segIdx pre.length suf.length) (pre ++ suf ++ rest) = .ok (pre ++ suf.map g ++ rest)
  | [], pre, rest, _ => by simp [loopM, segIdx]
  | p :: suf, pre, rest, h => by
    rw [segIdx, List.length_cons, List.range'_succ, List.map_cons, loopM]
    have h' := atPartM_append (f := f) pre (h p (by simp)) (suf ++ rest)
    rw [show pre ++ p :: suf ++ rest = pre ++ p :: (suf ++ rest) by simp, h']
    simp only [except_bind_ok]
    have ih := loopM_seg (f := f) (g := g) suf (pre ++ [g p]) rest fun x hx => h x (by simp [hx])
    simp only [List.length_append, List.length_cons, List.length_nil, segIdx] at ih
    rw [show pre ++ g p :: (suf ++ rest) = pre ++ [g p] ++ suf ++ rest by simp, ih]
    simp

theorem loopM_plain {f : Part → Res Part} {g : Part → Part} {l : List Part} (h : ∀ p ∈ l, f p = .ok (g p)) :
    loopM f (plainIdx l.length) l = .ok (l.map g) := by
  have := loopM_seg (f := f) (g := g) l [] [] h
  simpa [plainIdx_seg] using this

theorem doLoop_seg {g : Part → Part} (suf pre rest : List Part) :
    doLoop g (segIdx pre.length suf.length) (pre ++ suf ++ rest) = .ok (pre ++ suf.map g ++ rest) := doLoop_spec suf pre rest

theorem doLoop_plain {g : Part → Part} (l : List Part) : doLoop g (plainIdx l.length) l = .ok (l.map g) := by
  have := doLoop_seg (g := g) l [] []
  simpa [plainIdx_seg] using this

theorem loopM_fault {f : Part → Res Part} {e : Fault} {l : List Part} (h : ∀ p ∈ l, f p = .error e) (hl : l.length ≠ 0) :
    loopM f (plainIdx l.length) l = .error e := by
  cases l with
  | nil => simp at hl
  | cons p l =>
    rw [plainIdx_seg, segIdx, List.length_cons, List.range'_succ, List.map_cons, loopM]
    unfold atPartM
    simp only [rd, List.getElem?_cons_zero, except_bind_ok, h p (by simp), except_bind_error]

/-! ### Tiles -/

/-- A species after the step, each particle having been changed by `f`. -/
noncomputable def mapSpc (f : PSpc → Part → Part) (s : PSpc) : PSpc :=
  if s.antenna = false ∧ s.freeze = false then { s with ps := s.ps.map (f s) } else s

theorem eachSpecies_ok {work : PSpc → Res PSpc} {f : PSpc → Part → Part} : ∀ ss : List PSpc,
    (∀ s ∈ ss, Active s → s.ps.length ≠ 0 → work s = .ok { s with ps := s.ps.map (f s) }) → eachSpecies work ss = .ok (ss.map (mapSpc f))
  | [], _ => rfl
  | s :: ss, h => by
    have ih := eachSpecies_ok ss fun x hx => h x (by simp [hx])
    have hs : oneSpecies work s = Except.ok (mapSpc f s) := by
      unfold oneSpecies mapSpc
      by_cases h1 : s.antenna = true
      · rw [if_pos h1, if_neg (by simp [h1])]
      · rw [if_neg h1]
        by_cases h2 : s.freeze = true
        · rw [if_pos h2, if_neg (by simp [h2])]
        · rw [if_neg h2, if_pos (show s.antenna = false ∧ s.freeze = false from ⟨by simpa using h1, by simpa using h2⟩)]
          by_cases h3 : s.ps.length = 0
          · rw [if_pos h3]
            have : s.ps = [] := List.length_eq_zero_iff.mp h3
            cases s; simp_all
          · rw [if_neg h3, h s (by simp) ⟨by simpa using h1, by simpa using h2⟩ h3]
    unfold eachSpecies
    rw [hs, ih]
    simp

theorem not_gathered {t : PTile} (h : t.isgathered = false) {s : PSpc} (hs : s ∈ t.species) (ha : Active s) : s.ps = [] := by
  unfold PTile.isgathered at h
  rw [List.any_eq_false] at h
  have := h s hs
  rw [ha.1, ha.2] at this
  simpa using this

/-- A tile after the step. -/
noncomputable def mapTile (f : PSpc → Part → Part) (t : PTile) : PTile := { t with species := t.species.map (mapSpc f) }

theorem mapTile_idle {f : PSpc → Part → Part} {t : PTile} (h : t.isgathered = false) : mapTile f t = t := by
  have : t.species.map (mapSpc f) = t.species := by
    conv_rhs => rw [← List.map_id t.species]
    refine List.map_congr_left fun s hs => ?_
    unfold mapSpc
    split_ifs with ha
    · have := not_gathered h hs ha
      cases s; simp_all
    · rfl
  unfold mapTile
  rw [this]

/-- The private variables of a thread are consistent. -/
def Priv.Good (v : Priv) : Prop := v.alloc = none ∨ v.alloc = some v.old

theorem resize_ok {v : Priv} (hv : v.Good) (s : I3) : (v.resize s).alloc = some s ∧ (v.resize s).Good := by
  obtain ⟨a, o⟩ := v
  unfold Priv.Good Priv.resize at *
  dsimp only at *
  cases a with
  | none => simp
  | some a =>
    have ha : a = o := by simpa using hv
    subst ha
    dsimp only
    split_ifs with h
    · simp
    · have : a = s := by
        obtain ⟨j, k, l⟩ := a; obtain ⟨j', k', l'⟩ := s
        dsimp only at h
        simp only [ne_eq, not_or, not_not] at h
        simp [h.1, h.2.1, h.2.2]
      subst this; simp

theorem tileStep_ok {work : PTile → Mem → PSpc → Res PSpc} {σ : Mem} {t : PTile} {f : PSpc → Part → Part} (hσ : PHolds σ t)
    (h : ∀ s ∈ t.species, Active s → s.ps.length ≠ 0 → work t (tileMem σ t) s = .ok { s with ps := s.ps.map (f s) }) (v : Priv) (hv : v.Good) :
    ∃ v', Priv.Good v' ∧ tileStep work σ t v = .ok (mapTile f t, v') := by
  unfold tileStep
  by_cases hg : t.isgathered = true
  · obtain ⟨a, b⟩ := resize_ok hv t.shape
    refine ⟨_, b, ?_⟩
    rw [if_pos hg]
    dsimp only
    rw [copyTile_ok a hσ]
    simp only [except_bind_ok]
    rw [eachSpecies_ok t.species h]
    rfl
  · refine ⟨v, hv, ?_⟩
    rw [if_neg hg, mapTile_idle (by simpa using hg)]

theorem region_ok {work : PTile → Mem → PSpc → Res PSpc} {σ : Mem} {T : PTile → PTile} {P : PTile → Prop}
    (h : ∀ t, P t → ∀ v, Priv.Good v → ∃ v', Priv.Good v' ∧ tileStep work σ t v = .ok (T t, v')) :
    ∀ (es : List (ℕ × I3)) (v : ℕ → Priv) (tiles : I3 → PTile), (∀ th, (v th).Good) → (es.map (·.2)).Nodup →
      (∀ u ∈ es.map (·.2), P (tiles u)) →
      region work σ es v tiles = .ok fun u => if u ∈ es.map (·.2) then T (tiles u) else tiles u
  | [], v, tiles, _, _, _ => by simp [region]
  | (th, u) :: es, v, tiles, hv, hn, hP => by
    rw [List.map_cons, List.nodup_cons] at hn
    obtain ⟨v', g', e'⟩ := h (tiles u) (hP u (by simp)) (v th) (hv th)
    unfold region
    rw [e']
    simp only [except_bind_ok]
    rw [region_ok h es _ _ ?_ hn.2 ?_]
    · congr 1
      funext w
      simp only [List.map_cons, List.mem_cons]
      by_cases hw : w = u
      · subst hw
        rw [if_neg hn.1, Function.update_self, if_pos (Or.inl rfl)]
      · rw [Function.update_of_ne hw]
        simp only [hw, false_or]
    · intro x
      by_cases hx : x = th
      · subst hx; rw [Function.update_self]; exact g'
      · rw [Function.update_of_ne hx]; exact hv x
    · intro w hw
      have : w ≠ u := fun e => hn.1 (e ▸ hw)
      rw [Function.update_of_ne this]
      exact hP w (by rw [List.map_cons]; exact List.mem_cons_of_mem _ hw)

theorem region_fault {work : PTile → Mem → PSpc → Res PSpc} {σ : Mem} {f : Fault} {P : PTile → Prop}
    (h : ∀ t, P t → ∀ v, Priv.Good v → t.isgathered = true → tileStep work σ t v = .error f) :
    ∀ (es : List (ℕ × I3)) (v : ℕ → Priv) (tiles : I3 → PTile), (∀ th, (v th).Good) → (es.map (·.2)).Nodup →
      (∀ u ∈ es.map (·.2), P (tiles u)) → (∃ u ∈ es.map (·.2), (tiles u).isgathered = true) → region work σ es v tiles = .error f
  | [], _, _, _, _, _, hx => by simp at hx
  | (th, u) :: es, v, tiles, hv, hn, hP, hx => by
    rw [List.map_cons, List.nodup_cons] at hn
    unfold region
    by_cases hu : (tiles u).isgathered = true
    · rw [h (tiles u) (hP u (by simp)) (v th) (hv th) hu]; rfl
    · have e : tileStep work σ (tiles u) (v th) = .ok (tiles u, v th) := by unfold tileStep; rw [if_neg hu]
      rw [e]
      simp only [except_bind_ok]
      rw [Function.update_eq_self, Function.update_eq_self]
      refine region_fault h es v tiles hv hn.2 (fun w hw => hP w (by rw [List.map_cons]; exact List.mem_cons_of_mem _ hw)) ?_
      obtain ⟨w, hw, hg⟩ := hx
      rw [List.map_cons, List.mem_cons] at hw
      rcases hw with rfl | hw
      · exact absurd hg hu
      · exact ⟨w, hw, hg⟩

theorem tileStep_good {work : PTile → Mem → PSpc → Res PSpc} {σ : Mem} {t : PTile} {v : Priv} (hv : v.Good) {r : PTile × Priv}
    (h : tileStep work σ t v = .ok r) : r.2.Good := by
  unfold tileStep at h
  split_ifs at h with hg
  · dsimp only at h
    cases hc : copyTile σ t (v.resize t.shape) with
    | error f => rw [hc] at h; cases h
    | ok τ =>
      rw [hc] at h
      simp only [except_bind_ok] at h
      cases hs : eachSpecies (work t τ) t.species with
      | error f => rw [hs] at h; cases h
      | ok ss =>
        rw [hs] at h
        cases h
        exact (resize_ok hv t.shape).2
  · cases h
    exact hv

theorem region_blocked {work : PTile → Mem → PSpc → Res PSpc} {σ : Mem} {u0 : I3} :
    ∀ (es : List (ℕ × I3)) (v : ℕ → Priv) (tiles : I3 → PTile), (∀ th, (v th).Good) → (es.map (·.2)).Nodup → u0 ∈ es.map (·.2) →
      (∀ v, Priv.Good v → ∃ f, tileStep work σ (tiles u0) v = .error f) → ∃ f, region work σ es v tiles = .error f
  | [], _, _, _, _, hx, _ => by simp at hx
  | (th, u) :: es, v, tiles, hv, hn, hx, h => by
    rw [List.map_cons, List.nodup_cons] at hn
    unfold region
    cases he : tileStep work σ (tiles u) (v th) with
    | error f => exact ⟨f, rfl⟩
    | ok r =>
      simp only [except_bind_ok]
      have hu : u0 ≠ u := by
        rintro rfl
        obtain ⟨f, hf⟩ := h (v th) (hv th)
        rw [he] at hf; cases hf
      rw [List.map_cons, List.mem_cons] at hx
      refine region_blocked es _ _ ?_ hn.2 (hx.resolve_left hu) ?_
      · intro x
        by_cases hx : x = th
        · subst hx; rw [Function.update_self]; exact tileStep_good (hv x) he
        · rw [Function.update_of_ne hx]; exact hv x
      · rw [Function.update_of_ne hu]
        exact h

theorem init_good : ∀ th : ℕ, ((fun _ => Priv.init : ℕ → Priv) th).Good := fun _ => Or.inl rfl

end Picsar.PushMgr
