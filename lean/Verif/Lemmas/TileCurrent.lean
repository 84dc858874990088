import Verif.Lemmas.TileReduce

namespace Picsar.TileReduce
open Picsar Picsar.Grid Picsar.Deposition Picsar.Spec

/-! ### Change of origin -/

theorem cells_shift {dx : ℝ} (h : 0 < dx) (x xmin : ℝ) (a : ℤ) : cells x (xmin + a * dx) dx = cells x xmin dx - a := by
  unfold cells
  field_simp
  ring

theorem flux_shift (n : ℕ) (x xo : ℝ) (j a : ℤ) : flux n (x - a) (xo - a) (j - a) = flux n x xo j := by
  unfold flux
  rw [min_sub_sub_right, Int.floor_sub_intCast, sum_Icc_shift _ (⌊min x xo⌋ - a - 2) (j - a) a]
  rw [show ⌊min x xo⌋ - a - 2 + a = ⌊min x xo⌋ - 2 by ring, show j - a + a = j by ring]
  apply Finset.sum_congr rfl
  intro m _
  push_cast
  rw [show xo - a - (m - a) = xo - m by ring, show x - a - (m - a) = x - m by ring]

theorem average_shift (n : ℕ) (y yo z zo : ℝ) (k l a b : ℤ) :
    average n (y - a) (yo - a) (z - b) (zo - b) (k - a) (l - b) = average n y yo z zo k l := by
  unfold average
  push_cast
  simp only [sub_sub_sub_cancel_right]

variable {n : ℕ} {g : Geo} {t : GTile}

theorem current_shift (hg : Geo.Ok g) (H : TileOk n g t) (s : Spc) (p : Part) (c : Comp) (i : I3) :
    current n (tileGeo g t s) p c (rel t i) = current n (gridGeo g s) p c i := by
  obtain ⟨g1, g2, g3⟩ := hg
  cases c <;> simp only [current, tileGeo, gridGeo, rel, H.ox, H.oy, H.oz, cells_shift g1, cells_shift g2, cells_shift g3, before, flux_shift,
    average_shift]

theorem density_shift (hg : Geo.Ok g) (H : TileOk n g t) (s : Spc) (p : Part) (i : I3) :
    density n (tileGeo g t s) p (rel t i).j (rel t i).k (rel t i).l = density n (gridGeo g s) p i.j i.k i.l := by
  obtain ⟨g1, g2, g3⟩ := hg
  have h1 := cells_shift g1 p.x g.xmin t.lo.j
  have h2 := cells_shift g2 p.y g.ymin t.lo.k
  have h3 := cells_shift g3 p.z g.zmin t.lo.l
  unfold cells at h1 h2 h3
  simp only [density, tileGeo, gridGeo, rel, H.ox, H.oy, H.oz, h1, h2, h3]
  push_cast
  simp only [sub_sub_sub_cancel_right]

theorem room_shift (hg : Geo.Ok g) (H : TileOk n g t) (s : Spc) {p : Part} (h : Room n g (GTile.elo t) (GTile.ehi t) p) :
    Room n (tileGeo g t s) t.alo t.ahi p := by
  obtain ⟨g1, g2, g3⟩ := hg
  obtain ⟨r1, r2, r3, r4, r5, r6⟩ := h
  simp only [GTile.elo, GTile.ehi] at r1 r2 r3 r4 r5 r6
  push_cast at r1 r2 r3 r4 r5 r6
  simp only [Room, tileGeo, GTile.alo, GTile.ahi, GTile.cells, H.ox, H.oy, H.oz, cells_shift g1, cells_shift g2, cells_shift g3]
  push_cast
  refine ⟨?_, ?_, ?_, ?_, ?_, ?_⟩ <;> linarith

theorem room_grid (s : Spc) {lo hi : I3} {p : Part} : Room n (gridGeo g s) lo hi p ↔ Room n g lo hi p := Iff.rfl
theorem slow_grid (s : Spc) {p : Part} : Slow (gridGeo g s) p ↔ Slow g p := Iff.rfl

theorem addF_assoc' (σ : Mem) (f h : Comp → I3 → ℝ) : addF (addF σ f) h = addF σ (fun c i => f c i + h c i) := addF_add σ f h

/-- The loop over the species of a tile. -/
theorem tileJ_ok (hn : n = 1 ∨ n = 2 ∨ n = 3) (hg : Geo.Ok g) (H : TileOk n g t) : ∀ (ss : List Spc) (τ : Mem), (∀ s ∈ ss, s ∈ t.species) →
    (∀ c, (τ c).lo = t.alo ∧ (τ c).hi = t.ahi) →
    tileJ n g t ss τ = .ok (addF τ fun c i => ((ss.filter (·.depos)).map fun s => currents n (tileGeo g t s) s.ps c i).sum)
  | [], τ, _, _ => by simp [tileJ, addF_zero]
  | s :: ss, τ, hs, hb => by
    have ih := fun τ => tileJ_ok hn hg H ss τ (fun s' h' => hs s' (by simp [h']))
    unfold tileJ
    by_cases hd : s.depos = true
    · by_cases he : s.ps.isEmpty = true
      · rw [hd, he]
        simp only [Bool.not_true, Bool.false_eq_true, if_false, if_true]
        rw [ih τ hb, List.filter_cons_of_pos hd]
        have hp : s.ps = [] := List.isEmpty_iff.mp he
        simp [hp, currents]
      · rw [hd]
        simp only [Bool.not_true, Bool.false_eq_true, if_false, he]
        rw [deposeJ_closed (σ := τ) hn (g := tileGeo g t s) hg (fun p hp => H.slow s (hs s (by simp)) hd p hp) (fun p hp c _ => by
          rw [(hb c).1, (hb c).2]
          exact room_shift hg H s (H.room s (hs s (by simp)) hd p hp))]
        simp only [except_bind_ok]
        rw [ih (addF τ (currents n (tileGeo g t s) s.ps)) hb, addF_add, List.filter_cons_of_pos hd]
        simp
    · rw [Bool.not_eq_true] at hd
      rw [hd]
      simp only [Bool.not_false, if_true]
      rw [ih τ hb, List.filter_cons_of_neg (by simp [hd])]

/-- The charge deposition with the room of the shape factor. -/
theorem deposeRho_room {n : ℕ} (hn : n = 1 ∨ n = 2 ∨ n = 3) {g : Geo} : ∀ (ps : List Part) (rho : Arr),
    (∀ p ∈ ps, Room n g rho.lo rho.hi p) →
    deposeRho n g ps rho = .ok (addA rho fun i => densities n g ps i.j i.k i.l)
  | [], rho, _ => by simp [deposeRho, addA, densities]
  | p :: ps, rho, h => by
    unfold deposeRho
    simp only [show ∀ u m d : ℝ, (u - m) * (1 / d) = (u - m) / d from fun u m d => by ring]
    obtain ⟨i1, i2, i3, i4, i5, i6⟩ := h p (by simp)
    unfold cells at i1 i2 i3 i4 i5 i6
    rw [bumps_ok]
    · simp only [except_bind_ok]
      rw [deposeRho_room hn ps (addA rho _) (fun q hq => h q (by simp [hq]))]
      congr 1
      simp only [addA, Arr.mk.injEq, true_and]
      funext i
      obtain ⟨j, k, l⟩ := i
      rw [rhoStmts_sum]
      have e : ∀ (X : ℝ) (a : ℤ), shapeFn (wts n (X - node n X)) (node n X) a = bspline n (X - a) := by
        intro X a
        have := shapeFn_bspline hn X 0 a
        simpa using this
      rw [e, e, e]
      simp only [densities, List.map_cons, List.sum_cons, density]
      ring
    · intro s hs
      simp only [rhoStmts, List.mem_flatMap, List.mem_map] at hs
      obtain ⟨c, hc, b, hb, a, ha, rfl⟩ := hs
      have key : ∀ {X : ℝ} {w : ℤ × ℝ}, w ∈ wts n (X - node n X) → locLo n ≤ w.1 ∧ w.1 ≤ locHi n := by
        intro X w hw
        have := (wts_fst hn (X - node n X)).2 w hw
        rcases hn with rfl | rfl | rfl <;> norm_num [locLo, locHi] at * <;> omega
      have hx := room_dir hn i1 i2 (key ha).1 (key ha).2
      have hy := room_dir hn i3 i4 (key hb).1 (key hb).2
      have hz := room_dir hn i5 i6 (key hc).1 (key hc).2
      exact ⟨hx.1, hx.2, hy.1, hy.2, hz.1, hz.2⟩

/-- Charge in the form used by the tiles: only the array `f`. -/
noncomputable def onF (f : I3 → ℝ) (c : Comp) (i : I3) : ℝ := if c = .f then f i else 0

theorem update_addA (τ : Mem) (f : I3 → ℝ) : Function.update τ .f (addA (τ .f) f) = addF τ (onF f) := by
  funext c
  by_cases h : c = .f
  · subst h
    rw [Function.update_self]
    simp [addA, addF, onF]
  · rw [Function.update_of_ne h]
    simp [addF, onF, h]

theorem tileRho_ok (hn : n = 1 ∨ n = 2 ∨ n = 3) (hg : Geo.Ok g) (H : TileOk n g t) : ∀ (ss : List Spc) (τ : Mem), (∀ s ∈ ss, s ∈ t.species) →
    (∀ c, (τ c).lo = t.alo ∧ (τ c).hi = t.ahi) →
    tileRho n g t ss τ = .ok (addF τ (onF fun i => ((ss.filter (·.depos)).map fun s => densities n (tileGeo g t s) s.ps i.j i.k i.l).sum))
  | [], τ, _, _ => by
    have : (onF fun _ => (0 : ℝ)) = fun _ _ => 0 := by funext c i; simp [onF]
    simp [tileRho, this, addF_zero]
  | s :: ss, τ, hs, hb => by
    have ih := fun τ => tileRho_ok hn hg H ss τ (fun s' h' => hs s' (by simp [h']))
    unfold tileRho
    by_cases hd : s.depos = true
    · by_cases he : s.ps.isEmpty = true
      · rw [hd, he]
        simp only [Bool.not_true, Bool.false_eq_true, if_false, if_true]
        rw [ih τ hb, List.filter_cons_of_pos hd]
        have hp : s.ps = [] := List.isEmpty_iff.mp he
        simp [hp, densities]
      · rw [hd]
        simp only [Bool.not_true, Bool.false_eq_true, if_false, he]
        rw [deposeRho_room hn (g := tileGeo g t s) s.ps (τ .f) (fun p hp => by
          rw [(hb .f).1, (hb .f).2]
          exact room_shift hg H s (H.room s (hs s (by simp)) hd p hp))]
        simp only [except_bind_ok]
        rw [update_addA, ih (addF τ (onF fun i => densities n (tileGeo g t s) s.ps i.j i.k i.l)) hb, addF_add, List.filter_cons_of_pos hd]
        congr 2
        funext c i
        simp only [onF, List.map_cons, List.sum_cons]
        split_ifs <;> simp
    · rw [Bool.not_eq_true] at hd
      rw [hd]
      simp only [Bool.not_false, if_true]
      rw [ih τ hb, List.filter_cons_of_neg (by simp [hd])]

/-! ### What a tile contributes -/

/-- The deposition on the tile arrays succeeds and leaves `D` in them, seen from the grid. -/
structure Work (work : GTile → Res Mem) (cs : List Comp) (t : GTile) (D : Comp → I3 → ℝ) : Prop where
  shape : Shape t
  ok : ∃ τ, work t = .ok τ ∧ (∀ c, (τ c).lo = t.alo ∧ (τ c).hi = t.ahi) ∧ (t.deposited = false → ∀ c i, (τ c).val i = 0) ∧
    ∀ c ∈ cs, ∀ i, (τ c).val (rel t i) = D c i
  out : ∀ c i, (c ∈ cs → ¬ InBox (GTile.elo t) (GTile.ehi t) i) → D c i = 0

theorem tileOk_shape (H : TileOk n g t) : Shape t := ⟨H.wj, H.wk, H.wl, H.gj, H.gk, H.gl⟩

theorem idle {t : GTile} (h : t.deposited = false) {s : Spc} (hs : s ∈ t.species) (hd : s.depos = true) : s.ps = [] := by
  unfold GTile.deposited at h
  rw [List.any_eq_false] at h
  have := h s hs
  simp only [hd, Bool.true_and, Bool.not_eq_true, Bool.not_eq_false'] at this
  simpa using this

theorem sum_zero {α : Type} {l : List α} {f : α → ℝ} (h : ∀ a ∈ l, f a = 0) : (l.map f).sum = 0 := by
  apply List.sum_eq_zero
  intro x hx
  obtain ⟨a, ha, rfl⟩ := List.mem_map.mp hx
  exact h a ha

theorem work_current (hn : n = 1 ∨ n = 2 ∨ n = 3) (hg : Geo.Ok g) (H : TileOk n g t) :
    Work (fun t => tileJ n g t t.species t.zero) [.jx, .jy, .jz] t (tileCurrent n g t) := by
  refine ⟨tileOk_shape H, ⟨_, tileJ_ok hn hg H t.species t.zero (fun _ h => h) (fun _ => ⟨rfl, rfl⟩), fun _ => ⟨rfl, rfl⟩, ?_, ?_⟩, ?_⟩
  · intro hd c i
    simp only [addF, GTile.zero, zero_add]
    apply sum_zero
    intro s hs
    obtain ⟨h1, h2⟩ := List.mem_filter.mp hs
    rw [idle hd h1 h2]
    rfl
  · intro c _ i
    simp only [addF, GTile.zero, zero_add, tileCurrent, currents, current_shift hg H]
  · intro c i h
    apply sum_zero
    intro s hs
    obtain ⟨h1, h2⟩ := List.mem_filter.mp hs
    apply sum_zero
    intro p hp
    by_cases hc : c ∈ [Comp.jx, .jy, .jz]
    · exact current_out hn (g := gridGeo g s) hg (H.slow s h1 h2 p hp) (H.room s h1 h2 p hp) c (h hc)
    · simp only [List.mem_cons, List.not_mem_nil, or_false, not_or] at hc
      cases c <;> first | rfl | (exfalso; simp at hc)

theorem density_out {p : Part} {lo hi : I3} (hr : Room n g lo hi p) {i : I3} (hi' : ¬ InBox lo hi i) :
    density n g p i.j i.k i.l = 0 := by
  obtain ⟨r1, r2, r3, r4, r5, r6⟩ := hr
  unfold cells at r1 r2 r3 r4 r5 r6
  have far : ∀ (X : ℝ) (a b j : ℤ), a + ((n : ℝ) + 1) / 2 < X → X < b - ((n : ℝ) + 1) / 2 → (j < a ∨ b < j) → bspline n (X - j) = 0 := by
    intro X a b j h1 h2 h3
    have : ((n : ℝ) + 1) / 2 < |X - j| := by
      rcases h3 with h3 | h3
      · have : (j : ℝ) < a := by exact_mod_cast h3
        rw [lt_abs]; left; linarith
      · have : (b : ℝ) < j := by exact_mod_cast h3
        rw [lt_abs]; right; linarith
    unfold bspline
    split
    · rw [if_neg (by norm_num at this; linarith)]
    · norm_num at this
      rw [if_neg (by linarith), if_neg (by linarith)]
    · norm_num at this
      rw [if_neg (by linarith), if_neg (by linarith)]
    · rfl
  have h : (i.j < lo.j ∨ hi.j < i.j) ∨ (i.k < lo.k ∨ hi.k < i.k) ∨ (i.l < lo.l ∨ hi.l < i.l) := by
    unfold InBox at hi'; omega
  unfold density
  rcases h with h | h | h
  · rw [far _ _ _ _ r1 r2 h]; ring
  · rw [far _ _ _ _ r3 r4 h]; ring
  · rw [far _ _ _ _ r5 r6 h]; ring

theorem work_rho (hn : n = 1 ∨ n = 2 ∨ n = 3) (hg : Geo.Ok g) (H : TileOk n g t) :
    Work (fun t => tileRho n g t t.species t.zero) [.f] t (onF (tileDensity n g t)) := by
  refine ⟨tileOk_shape H, ⟨_, tileRho_ok hn hg H t.species t.zero (fun _ h => h) (fun _ => ⟨rfl, rfl⟩), fun _ => ⟨rfl, rfl⟩, ?_, ?_⟩, ?_⟩
  · intro hd c i
    simp only [addF, GTile.zero, zero_add, onF]
    split_ifs
    · apply sum_zero
      intro s hs
      obtain ⟨h1, h2⟩ := List.mem_filter.mp hs
      rw [idle hd h1 h2]
      rfl
    · rfl
  · intro c _ i
    simp only [addF, GTile.zero, zero_add, onF, tileDensity, densities, density_shift hg H]
  · intro c i h
    unfold onF
    split_ifs with hc
    · apply sum_zero
      intro s hs
      obtain ⟨h1, h2⟩ := List.mem_filter.mp hs
      apply sum_zero
      intro p hp
      exact density_out (g := gridGeo g s) (H.room s h1 h2 p hp) (h (by simp [hc]))
    · rfl

/-! ### The routines -/

variable {work : GTile → Res Mem} {cs : List Comp} {tiles : I3 → GTile} {us : List I3} {D : I3 → Comp → I3 → ℝ} {σ : Mem}

theorem holds_box {c : Comp} {t : GTile} (h : Holds σ c t) {i : I3} (hi : InBox (GTile.elo t) (GTile.ehi t) i) : InBox (σ c).lo (σ c).hi i := by
  unfold Holds at h
  unfold InBox at hi ⊢
  omega

theorem own_ext {t : GTile} (H : Shape t) {i : I3} (h : InBox t.lo t.hi i) : InBox (GTile.elo t) (GTile.ehi t) i := by
  obtain ⟨h1, h2, h3, h4, h5, h6⟩ := H
  simp only [InBox, GTile.elo, GTile.ehi] at h ⊢
  omega

theorem seqTile_ok (hn : cs.Nodup) {t : GTile} {D : Comp → I3 → ℝ} (W : Work work cs t D) (hh : ∀ c ∈ cs, Holds σ c t) :
    seqTile work cs t σ = .ok (addF σ D) := by
  obtain ⟨τ, h1, h2, h3, h4⟩ := W.ok
  unfold seqTile
  rw [h1]
  simp only [except_bind_ok]
  by_cases hd : t.deposited = true
  · rw [if_pos hd, adds_ok (good_all h2)]
    simp only [except_bind_ok]
    rw [adds_fold _ _ (fun a ha => holds_box (hh _ (mem_all ha).1) (mem_all ha).2)]
    congr 2
    funext c i
    rw [con_all hn]
    split_ifs with h
    · exact h4 c h.1 i
    · exact (W.out c i fun hc hi => h ⟨hc, hi⟩).symm
  · rw [if_neg hd]
    rw [Bool.not_eq_true] at hd
    have : D = fun _ _ => 0 := by
      funext c i
      by_cases hc : c ∈ cs
      · rw [← h4 c hc i, h3 hd]
      · exact W.out c i fun h => absurd h hc
    rw [this, addF_zero]
    rfl

theorem seqRun_ok (hn : cs.Nodup) : ∀ (us : List I3) (σ : Mem), (∀ u ∈ us, Work work cs (tiles u) (D u)) →
    (∀ u ∈ us, ∀ c ∈ cs, Holds σ c (tiles u)) →
    seqRun work cs tiles us σ = .ok (addF σ fun c i => (us.map fun u => D u c i).sum)
  | [], σ, _, _ => by simp [seqRun, addF_zero]
  | u :: us, σ, hw, hh => by
    unfold seqRun
    rw [List.foldlM_cons, seqTile_ok hn (hw u (by simp)) (hh u (by simp))]
    simp only [except_bind_ok]
    have := seqRun_ok hn us (addF σ (D u)) (fun v hv => hw v (by simp [hv])) (fun v hv => hh v (by simp [hv]))
    unfold seqRun at this
    rw [this, addF_add]
    simp

/-- The four lists of every tile, and what they add. -/
structure Lists (work : GTile → Res Mem) (cs : List Comp) (tiles : I3 → GTile) (us : List I3) (D : I3 → Comp → I3 → ℝ) (σ : Mem)
    (o x y z : I3 → List Add) : Prop where
  eq : ∀ u ∈ us, phases work cs (tiles u) = .ok [o u, x u, y u, z u]
  fo : ∀ u ∈ us, Fits σ (o u)
  fx : ∀ u ∈ us, Fits σ (x u)
  fy : ∀ u ∈ us, Fits σ (y u)
  fz : ∀ u ∈ us, Fits σ (z u)
  mo : ∀ u ∈ us, ∀ a ∈ o u, InBox (tiles u).lo (tiles u).hi a.i
  mx : ∀ u ∈ us, ∀ a ∈ x u, InX (tiles u) a.i
  my : ∀ u ∈ us, ∀ a ∈ y u, InY (tiles u) a.i
  mz : ∀ u ∈ us, ∀ a ∈ z u, InZ (tiles u) a.i
  sum : ∀ u ∈ us, ∀ c i, con (o u) c i + con (x u) c i + con (y u) c i + con (z u) c i = D u c i
  cx : ∀ u ∈ us, ∀ c i, c ∈ cs → InX (tiles u) i → con (x u) c i = D u c i
  all : ∀ u ∈ us, (tiles u).deposited = true → ∀ c i, c ∈ cs → InX (tiles u) i → ∃ a ∈ x u, a.c = c ∧ a.i = i

theorem lists_exist (hn : cs.Nodup) (hw : ∀ u ∈ us, Work work cs (tiles u) (D u)) (hh : ∀ u ∈ us, ∀ c ∈ cs, Holds σ c (tiles u)) :
    ∃ o x y z, Lists work cs tiles us D σ o x y z := by
  have key : ∀ u, ∃ q : List Add × List Add × List Add × List Add, u ∈ us → ∃ τ, Four work cs (tiles u) q.1 q.2.1 q.2.2.1 q.2.2.2 τ ∧
      ∀ c ∈ cs, ∀ i, (τ c).val (rel (tiles u) i) = D u c i := by
    intro u
    by_cases hu : u ∈ us
    · obtain ⟨τ, h1, h2, h3, h4⟩ := (hw u hu).ok
      obtain ⟨o, x, y, z, F⟩ := four_ok (hw u hu).shape hn h1 h2 h3
      exact ⟨(o, x, y, z), fun _ => ⟨τ, F, h4⟩⟩
    · exact ⟨([], [], [], []), fun h => absurd h hu⟩
  choose q hq using key
  refine ⟨fun u => (q u).1, fun u => (q u).2.1, fun u => (q u).2.2.1, fun u => (q u).2.2.2, ?_⟩
  constructor
  · intro u hu; obtain ⟨τ, F, _⟩ := hq u hu; exact F.eq
  · intro u hu a ha
    obtain ⟨τ, F, _⟩ := hq u hu
    exact holds_box (hh u hu _ (F.mo a ha).1) (own_ext (hw u hu).shape (F.mo a ha).2)
  · intro u hu a ha
    obtain ⟨τ, F, _⟩ := hq u hu
    exact holds_box (hh u hu _ (F.mx a ha).1) (F.mx a ha).2.1
  · intro u hu a ha
    obtain ⟨τ, F, _⟩ := hq u hu
    exact holds_box (hh u hu _ (F.my a ha).1) (F.my a ha).2.1
  · intro u hu a ha
    obtain ⟨τ, F, _⟩ := hq u hu
    exact holds_box (hh u hu _ (F.mz a ha).1) (F.mz a ha).2.1
  · intro u hu a ha; obtain ⟨τ, F, _⟩ := hq u hu; exact (F.mo a ha).2
  · intro u hu a ha; obtain ⟨τ, F, _⟩ := hq u hu; exact (F.mx a ha).2
  · intro u hu a ha; obtain ⟨τ, F, _⟩ := hq u hu; exact (F.my a ha).2
  · intro u hu a ha; obtain ⟨τ, F, _⟩ := hq u hu; exact (F.mz a ha).2
  · intro u hu c i
    obtain ⟨τ, F, h4⟩ := hq u hu
    rw [F.co, F.cx, F.cy, F.cz, parts (hw u hu).shape]
    split_ifs with h
    · exact h4 c h.1 i
    · exact ((hw u hu).out c i fun hc hi => h ⟨hc, hi⟩).symm
  · intro u hu c i hc hi
    obtain ⟨τ, F, h4⟩ := hq u hu
    rw [F.cx, if_pos ⟨hc, hi⟩]
    exact h4 c hc i
  · intro u hu; obtain ⟨τ, F, _⟩ := hq u hu; exact F.all

theorem lists_unique {o x y z o' x' y' z' : I3 → List Add} (h : Lists work cs tiles us D σ o x y z)
    (h' : ∀ u ∈ us, phases work cs (tiles u) = .ok [o' u, x' u, y' u, z' u]) : Lists work cs tiles us D σ o' x' y' z' := by
  have e : ∀ u ∈ us, o' u = o u ∧ x' u = x u ∧ y' u = y u ∧ z' u = z u := by
    intro u hu
    have := (h' u hu).symm.trans (h.eq u hu)
    simp only [Except.ok.injEq, List.cons.injEq, and_true] at this
    exact this
  constructor
  · exact h'
  · intro u hu; rw [(e u hu).1]; exact h.fo u hu
  · intro u hu; rw [(e u hu).2.1]; exact h.fx u hu
  · intro u hu; rw [(e u hu).2.2.1]; exact h.fy u hu
  · intro u hu; rw [(e u hu).2.2.2]; exact h.fz u hu
  · intro u hu; rw [(e u hu).1]; exact h.mo u hu
  · intro u hu; rw [(e u hu).2.1]; exact h.mx u hu
  · intro u hu; rw [(e u hu).2.2.1]; exact h.my u hu
  · intro u hu; rw [(e u hu).2.2.2]; exact h.mz u hu
  · intro u hu; rw [(e u hu).1, (e u hu).2.1, (e u hu).2.2.1, (e u hu).2.2.2]; exact h.sum u hu
  · intro u hu; rw [(e u hu).2.1]; exact h.cx u hu
  · intro u hu; rw [(e u hu).2.1]; exact h.all u hu

theorem sum_perm {us vs : List I3} (h : vs.Perm us) (f : I3 → ℝ) : (vs.map f).sum = (us.map f).sum := (h.map f).sum_eq

theorem sum_four {o x y z : I3 → List Add} (L : Lists work cs tiles us D σ o x y z) (c : Comp) (i : I3) :
    (us.map fun u => con (o u) c i).sum + (us.map fun u => con (x u) c i).sum + (us.map fun u => con (y u) c i).sum +
      (us.map fun u => con (z u) c i).sum = (us.map fun u => D u c i).sum := by
  rw [← List.sum_map_add, ← List.sum_map_add, ← List.sum_map_add]
  congr 1
  apply List.map_congr_left
  intro u hu
  exact L.sum u hu c i

/-- One thread. -/
theorem serial_ok (hn : cs.Nodup) (hw : ∀ u ∈ us, Work work cs (tiles u) (D u)) (hh : ∀ u ∈ us, ∀ c ∈ cs, Holds σ c (tiles u))
    {o1 o2 o3 o4 : List I3} (h1 : o1.Perm us) (h2 : o2.Perm us) (h3 : o3.Perm us) (h4 : o4.Perm us) {r : Res Mem}
    (h : SerialRun work cs tiles us o1 o2 o3 o4 σ r) : r = .ok (addF σ fun c i => (us.map fun u => D u c i).sum) := by
  obtain ⟨o, x, y, z, L⟩ := lists_exist (σ := σ) hn hw hh
  rcases h with ⟨u, hu, e, he, _⟩ | ⟨o', x', y', z', he, hr⟩
  · rw [L.eq u hu] at he; exact absurd he (by simp)
  · have L' := lists_unique L he
    have fx : ∀ f, serialLoop o2 x' (addF σ f) = _ := fun f => serialLoop_ok x' o2 (addF σ f) (fun v hv => L'.fx v (h2.mem_iff.mp hv))
    have fy : ∀ f, serialLoop o3 y' (addF σ f) = _ := fun f => serialLoop_ok y' o3 (addF σ f) (fun v hv => L'.fy v (h3.mem_iff.mp hv))
    have fz : ∀ f, serialLoop o4 z' (addF σ f) = _ := fun f => serialLoop_ok z' o4 (addF σ f) (fun v hv => L'.fz v (h4.mem_iff.mp hv))
    rw [hr, serialLoop_ok o' o1 σ (fun v hv => L'.fo v (h1.mem_iff.mp hv))]
    simp only [except_bind_ok]
    rw [fx, addF_add]
    simp only [except_bind_ok]
    rw [fy, addF_add]
    simp only [except_bind_ok]
    rw [fz, addF_add]
    congr 2
    funext c i
    rw [sum_perm h1, sum_perm h2, sum_perm h3, sum_perm h4]
    exact sum_four L' c i

theorem run_ok {us : List I3} (hn : us.Nodup) {p : I3 → List Add} {σ : Mem} (hf : ∀ v ∈ us, Fits σ (p v)) (ha : Apart us p)
    {r : Res Mem} (h : Run us ⟨σ, fun u => ⟨p u, none⟩⟩ r) : r = .ok (addF σ (fun c i => (us.map fun v => con (p v) c i).sum)) :=
  run_apart hn hf ha h (inv_init us p σ)

theorem loops_ok {us : List I3} (hn : us.Nodup) : ∀ (ps : List (I3 → List Add)) (σ : Mem), (∀ p ∈ ps, ∀ v ∈ us, Fits σ (p v)) →
    (∀ p ∈ ps, Apart us p) → ∀ {r : Res Mem}, Loops us ps σ r →
    r = .ok (addF σ fun c i => (ps.map fun p => (us.map fun v => con (p v) c i).sum).sum)
  | [], σ, _, _, r, h => by
    cases h
    simp [addF_zero]
  | p :: ps, σ, hf, ha, r, h => by
    cases h with
    | fault h => exact absurd (run_ok hn (hf p (by simp)) (ha p (by simp)) h) (by simp)
    | cons h h' =>
      have e := run_ok hn (hf p (by simp)) (ha p (by simp)) h
      rw [Except.ok.injEq] at e
      subst e
      rw [loops_ok hn ps (addF σ fun c i => (us.map fun v => con (p v) c i).sum) (fun q hq => hf q (by simp [hq])) (fun q hq => ha q (by simp [hq])) h', addF_add]
      simp

/-- Any number of threads, no two tiles meeting in the same loop. -/
theorem omp_ok (hn : cs.Nodup) (hu : us.Nodup) (hw : ∀ u ∈ us, Work work cs (tiles u) (D u)) (hh : ∀ u ∈ us, ∀ c ∈ cs, Holds σ c (tiles u))
    (do' : ∀ u ∈ us, ∀ v ∈ us, u ≠ v → ∀ i, ¬ (InBox (tiles u).lo (tiles u).hi i ∧ InBox (tiles v).lo (tiles v).hi i))
    (dx : ∀ u ∈ us, ∀ v ∈ us, u ≠ v → ∀ i, ¬ (InX (tiles u) i ∧ InX (tiles v) i))
    (dy : ∀ u ∈ us, ∀ v ∈ us, u ≠ v → ∀ i, ¬ (InY (tiles u) i ∧ InY (tiles v) i))
    (dz : ∀ u ∈ us, ∀ v ∈ us, u ≠ v → ∀ i, ¬ (InZ (tiles u) i ∧ InZ (tiles v) i)) {r : Res Mem}
    (h : OmpRun work cs tiles us σ r) : r = .ok (addF σ fun c i => (us.map fun u => D u c i).sum) := by
  obtain ⟨o, x, y, z, L⟩ := lists_exist (σ := σ) hn hw hh
  rcases h with ⟨u, hu, e, he, _⟩ | ⟨o', x', y', z', he, hr⟩
  · rw [L.eq u hu] at he; exact absurd he (by simp)
  · have L' := lists_unique L he
    rw [loops_ok hu _ σ ?_ ?_ hr]
    · congr 2
      funext c i
      rw [← sum_four L' c i]
      simp only [List.map_cons, List.map_nil, List.sum_cons, List.sum_nil]
      ring
    · intro p hp v hv
      simp only [List.mem_cons, List.not_mem_nil, or_false] at hp
      rcases hp with rfl | rfl | rfl | rfl
      exacts [L'.fo v hv, L'.fx v hv, L'.fy v hv, L'.fz v hv]
    · intro p hp u hu v hv huv a ha b hb e
      simp only [List.mem_cons, List.not_mem_nil, or_false] at hp
      rcases hp with rfl | rfl | rfl | rfl
      · exact do' u hu v hv huv a.i ⟨L'.mo u hu a ha, e.2 ▸ L'.mo v hv b hb⟩
      · exact dx u hu v hv huv a.i ⟨L'.mx u hu a ha, e.2 ▸ L'.mx v hv b hb⟩
      · exact dy u hu v hv huv a.i ⟨L'.my u hu a ha, e.2 ▸ L'.my v hv b hb⟩
      · exact dz u hu v hv huv a.i ⟨L'.mz u hu a ha, e.2 ▸ L'.mz v hv b hb⟩

/-- Some execution adds everything. -/
theorem omp_exists (hn : cs.Nodup) (hu : us.Nodup) (hw : ∀ u ∈ us, Work work cs (tiles u) (D u)) (hh : ∀ u ∈ us, ∀ c ∈ cs, Holds σ c (tiles u)) :
    OmpRun work cs tiles us σ (.ok (addF σ fun c i => (us.map fun u => D u c i).sum)) := by
  obtain ⟨o, x, y, z, L⟩ := lists_exist (σ := σ) hn hw hh
  refine .inr ⟨o, x, y, z, L.eq, ?_⟩
  have e : (addF σ fun c i => (us.map fun u => D u c i).sum) = addF (addF (addF (addF σ fun c i => (us.map fun u => con (o u) c i).sum)
      fun c i => (us.map fun u => con (x u) c i).sum) fun c i => (us.map fun u => con (y u) c i).sum)
      fun c i => (us.map fun u => con (z u) c i).sum := by
    rw [addF_add, addF_add, addF_add]
    congr 1
    funext c i
    rw [← sum_four L c i]; ring
  rw [e]
  have ex : ∀ f, Run us ⟨addF σ f, fun u => ⟨x u, none⟩⟩ _ := fun f => run_exists hu x (addF σ f) L.fx
  have ey : ∀ f h, Run us ⟨addF (addF σ f) h, fun u => ⟨y u, none⟩⟩ _ := fun f h => run_exists hu y (addF (addF σ f) h) L.fy
  have ez : ∀ f h k, Run us ⟨addF (addF (addF σ f) h) k, fun u => ⟨z u, none⟩⟩ _ := fun f h k => run_exists hu z (addF (addF (addF σ f) h) k) L.fz
  exact .cons (run_exists hu o σ L.fo) (.cons (ex _) (.cons (ey _ _) (.cons (ez _ _ _) .nil)))

/-- Two tiles whose guard cells in x share an element: some execution loses what the second adds to it. -/
theorem omp_lost (hn : cs.Nodup) (hu : us.Nodup) (hw : ∀ u ∈ us, Work work cs (tiles u) (D u)) (hh : ∀ u ∈ us, ∀ c ∈ cs, Holds σ c (tiles u))
    {u v : I3} (hu' : u ∈ us) (hv : v ∈ us) (huv : u ≠ v) {c : Comp} (hc : c ∈ cs) {i : I3} (h1 : InX (tiles u) i) (h2 : InX (tiles v) i)
    (hd : (tiles u).deposited = true) :
    ∃ τ, OmpRun work cs tiles us σ (.ok τ) ∧ (τ c).val i = (σ c).val i + (us.map fun w => D w c i).sum - D v c i := by
  obtain ⟨o, x, y, z, L⟩ := lists_exist (σ := σ) hn hw hh
  obtain ⟨a, ha, rfl, rfl⟩ := L.all u hu' hd c i hc h1
  have r1 := run_exists hu o σ L.fo
  set σ1 := addF σ fun c i => (us.map fun u => con (o u) c i).sum with e1
  obtain ⟨τ, r2, b2, v2⟩ := run_lost (σ := σ1) hu (p := x) L.fx hu' hv huv ha
  have r3 := run_exists hu y τ (fun w hw => fits_congr b2 (L.fy w hw))
  have r4 := run_exists hu z (addF τ fun c i => (us.map fun u => con (y u) c i).sum) (fun w hw => fits_congr b2 (L.fz w hw))
  refine ⟨_, .inr ⟨o, x, y, z, L.eq, .cons r1 (.cons r2 (.cons r3 (.cons r4 .nil)))⟩, ?_⟩
  rw [← sum_four L a.c a.i, ← L.cx v hv a.c a.i hc h2]
  simp only [addF]
  rw [v2, e1]
  simp only [addF]
  ring

/-! ### Sums over the particles -/

theorem sum_toDeposit (h : ℝ → Part → ℝ) (tiles : I3 → GTile) (us : List I3) :
    ((toDeposit tiles us).map fun e => h e.1 e.2).sum =
      (us.map fun u => (((tiles u).species.filter (·.depos)).map fun s => (s.ps.map fun p => h s.q p).sum).sum).sum := by
  unfold toDeposit
  rw [sum_flatMap]
  congr 1
  apply List.map_congr_left
  intro u _
  rw [sum_flatMap]
  congr 1
  apply List.map_congr_left
  intro s _
  rw [List.map_map]
  rfl

theorem sum_tiles (n : ℕ) (g : Geo) (tiles : I3 → GTile) (us : List I3) (c : Comp) (i : I3) :
    (us.map fun u => tileCurrent n g (tiles u) c i).sum = totalCurrent n g (toDeposit tiles us) c i :=
  (sum_toDeposit (fun q p => current n ⟨q, g.xmin, g.ymin, g.zmin, g.dx, g.dy, g.dz, g.dt⟩ p c i) tiles us).symm

theorem sum_tiles_rho (n : ℕ) (g : Geo) (tiles : I3 → GTile) (us : List I3) (i : I3) :
    (us.map fun u => tileDensity n g (tiles u) i).sum = totalCharge n g (toDeposit tiles us) i :=
  (sum_toDeposit (fun q p => density n ⟨q, g.xmin, g.ymin, g.zmin, g.dx, g.dy, g.dz, g.dt⟩ p i.j i.k i.l) tiles us).symm

theorem beyond_inX {t : GTile} (H : Shape t) {i : I3} (h : BeyondX t i) : InX t i := by
  obtain ⟨h1, h2, h3, h4, h5, h6⟩ := H
  simp only [BeyondX] at h
  simp only [InX, InBox, GTile.elo, GTile.ehi]
  omega

/-! ### Tiles in a row -/

theorem row_order {tiles : I3 → GTile} {nt : I3} (h : Row tiles nt) (hs : ∀ u ∈ box ⟨1, 1, 1⟩ nt, Shape (tiles u)) {G : ℤ}
    (hG : ∀ j, 1 ≤ j → j ≤ nt.j → (tiles ⟨j, 1, 1⟩).g.j ≤ G ∧ 2 * G ≤ (tiles ⟨j, 1, 1⟩).hi.j - (tiles ⟨j, 1, 1⟩).lo.j + 1) :
    ∀ (d : ℕ) (a : ℤ), 1 ≤ a → a + 1 + d ≤ nt.j → (tiles ⟨a, 1, 1⟩).hi.j + 1 ≤ (tiles ⟨a + 1 + d, 1, 1⟩).lo.j ∧
      ((tiles ⟨a, 1, 1⟩).hi.j + 1 = (tiles ⟨a + 1 + d, 1, 1⟩).lo.j ∨ (tiles ⟨a, 1, 1⟩).hi.j + 2 * G < (tiles ⟨a + 1 + d, 1, 1⟩).lo.j)
  | 0, a, h1, h2 => by
    have := h.2.2.1 a h1 (by push_cast at h2; omega)
    simp only [Nat.cast_zero, add_zero]
    omega
  | d + 1, a, h1, h2 => by
    push_cast at h2 ⊢
    have ih := row_order h hs hG d a h1 (by omega)
    have e := h.2.2.1 (a + 1 + d) (by omega) (by omega)
    have w := hG (a + 1 + d) (by omega) (by omega)
    obtain ⟨s1, _, _, s4, _, _⟩ := hs ⟨a + 1 + d, 1, 1⟩ (mem_box.mpr ⟨by dsimp only; omega, by dsimp only; omega, le_refl _, h.1.ge, le_refl _, h.2.1.ge⟩)
    rw [show a + 1 + ((d : ℤ) + 1) = a + 1 + d + 1 by ring, e]
    omega

theorem row_pair {tiles : I3 → GTile} {nt : I3} (h : Row tiles nt) (hs : ∀ u ∈ box ⟨1, 1, 1⟩ nt, Shape (tiles u)) {u v : I3}
    (hu : u ∈ box ⟨1, 1, 1⟩ nt) (hv : v ∈ box ⟨1, 1, 1⟩ nt) (huv : u.j < v.j) (i : I3) :
    ¬ (InBox (tiles u).lo (tiles u).hi i ∧ InBox (tiles v).lo (tiles v).hi i) ∧ ¬ (InX (tiles u) i ∧ InX (tiles v) i) ∧
    ¬ (InY (tiles u) i ∧ InY (tiles v) i) ∧ ¬ (InZ (tiles u) i ∧ InZ (tiles v) i) := by
  obtain ⟨G, hG⟩ := h.2.2.2
  have su := hs u hu
  have sv := hs v hv
  obtain ⟨uj, uk, ul⟩ := u
  obtain ⟨vj, vk, vl⟩ := v
  rw [mem_box] at hu hv
  simp only [InBox, h.1, h.2.1] at hu hv
  obtain rfl : uk = 1 := by omega
  obtain rfl : ul = 1 := by omega
  obtain rfl : vk = 1 := by omega
  obtain rfl : vl = 1 := by omega
  dsimp only at huv
  obtain ⟨d, hd⟩ := Int.le.dest (show uj + 1 ≤ vj by omega)
  have o := row_order h hs hG d uj (by omega) (by omega)
  rw [hd] at o
  have gu := hG uj (by omega) (by omega)
  have gv := hG vj (by omega) (by omega)
  obtain ⟨a1, a2, a3, a4, a5, a6⟩ := su
  obtain ⟨b1, b2, b3, b4, b5, b6⟩ := sv
  refine ⟨?_, ?_, ?_, ?_⟩
  · simp only [InBox]; omega
  · simp only [InX, InBox, GTile.elo, GTile.ehi]; omega
  · simp only [InY, InBox, GTile.elo, GTile.ehi]; omega
  · simp only [InZ, InBox, GTile.elo, GTile.ehi]; omega

theorem row_disjoint {tiles : I3 → GTile} {nt : I3} (h : Row tiles nt) (hs : ∀ u ∈ box ⟨1, 1, 1⟩ nt, Shape (tiles u)) {u v : I3}
    (hu : u ∈ box ⟨1, 1, 1⟩ nt) (hv : v ∈ box ⟨1, 1, 1⟩ nt) (huv : u ≠ v) (i : I3) :
    ¬ (InBox (tiles u).lo (tiles u).hi i ∧ InBox (tiles v).lo (tiles v).hi i) ∧ ¬ (InX (tiles u) i ∧ InX (tiles v) i) ∧
    ¬ (InY (tiles u) i ∧ InY (tiles v) i) ∧ ¬ (InZ (tiles u) i ∧ InZ (tiles v) i) := by
  rcases lt_trichotomy u.j v.j with e | e | e
  · exact row_pair h hs hu hv e i
  · exfalso
    apply huv
    obtain ⟨uj, uk, ul⟩ := u
    obtain ⟨vj, vk, vl⟩ := v
    rw [mem_box] at hu hv
    simp only [InBox, h.1, h.2.1] at hu hv
    simp only [I3.mk.injEq]
    dsimp only at e
    omega
  · obtain ⟨h1, h2, h3, h4⟩ := row_pair h hs hv hu e i
    exact ⟨fun q => h1 q.symm, fun q => h2 q.symm, fun q => h3 q.symm, fun q => h4 q.symm⟩

end Picsar.TileReduce
