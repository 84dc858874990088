import Verif.Lemmas.Sorting
import Mathlib.Tactic.NormNum
/-
C65: particle sorting.
-/
namespace Picsar.Props
open Picsar Picsar.Grid Picsar.Sorting Picsar.Spec.Sorting

/-- Particle `p` lies in the sorting box of the tile: between the (shifted) lower faces and one bin
beyond the upper faces. -/
def InSortBox3 (S : Params) (T : Tile) (p : Part) : Prop :=
  (T.xmin + S.shiftx ≤ p.x ∧ p.x < T.xmax + S.dx) ∧ (T.ymin + S.shifty ≤ p.y ∧ p.y < T.ymax + S.dy) ∧
    (T.zmin + S.shiftz ≤ p.z ∧ p.z < T.zmax + S.dz)

/-- C65, 3-D routine: for particles in the sorting box nothing is accessed out of range, and
position, momentum, gamma factor and weight are rearranged together, ordered by cell, stably within a
cell; array elements beyond the particle count are untouched. What is missing from C65: the other
`pid` columns are not rearranged (`C65_columns_refuted`). -/
theorem C65_sort_3d_partial (S : Params) (T : Tile) (l : List Part) (hS : 0 < S.dx ∧ 0 < S.dy ∧ 0 < S.dz)
    (hnp : T.np = l.length) (hl : T.part.Holds l) (hbox : ∀ p ∈ l, InSortBox3 S T p)
    (cell : Part → ℤ × ℤ × ℤ)
    (hcell : ∀ p ∈ l, InCell (T.xmin + S.shiftx) S.dx p.x (cell p).1 ∧
      InCell (T.ymin + S.shifty) S.dy p.y (cell p).2.1 ∧
      InCell (T.zmin + S.shiftz) S.dz p.z (cell p).2.2) :
    ∃ T' l', sortTile3 S T = .ok T' ∧ T'.np = T.np ∧ T'.part.Holds l' ∧
      StableSort cell lexLe l l' ∧ T'.part.n = T.part.n ∧
      (∀ i : ℤ, T.np < i → T'.part.val i = T.part.val i) := by
  by_cases h0 : T.np = 0
  · refine ⟨T, l, by unfold sortTile3; rw [if_pos h0], rfl, hl, ?_, rfl, fun _ _ => rfl⟩
    have : l = [] := List.length_eq_zero_iff.mp (by omega)
    subst this
    exact ⟨List.Perm.refl _, List.Pairwise.nil, fun _ => rfl⟩
  have hr : ∀ p ∈ l, (0 ≤ (cell p).1 ∧ (cell p).1 < (boxOf S T).nx) ∧
      (0 ≤ (cell p).2.1 ∧ (cell p).2.1 < (boxOf S T).ny) ∧
      (0 ≤ (cell p).2.2 ∧ (cell p).2.2 < (boxOf S T).nz) ∧
      (boxOf S T).id3 p = (cell p).2.2 * (boxOf S T).nx * (boxOf S T).ny
        + (cell p).2.1 * (boxOf S T).nx + (cell p).1 + 1 := by
    intro p hp
    obtain ⟨c1, c2, c3⟩ := hcell p hp
    obtain ⟨b1, b2, b3⟩ := hbox p hp
    rw [inCell_iff hS.1] at c1
    rw [inCell_iff hS.2.1] at c2
    rw [inCell_iff hS.2.2] at c3
    have r1 := floor_range hS.1 b1.1 b1.2
    have r2 := floor_range hS.2.1 b2.1 b2.2
    have r3 := floor_range hS.2.2 b3.1 b3.2
    rw [c1] at r1
    rw [c2] at r2
    rw [c3] at r3
    refine ⟨r1, r2, r3, ?_⟩
    rw [← c1, ← c2, ← c3]
    rfl
  set B := boxOf S T with hB
  have hkey : ∀ p ∈ l, B.id3 p = ((B.id3 p - 1).toNat : ℕ) + 1 ∧
      (B.id3 p - 1).toNat < (B.nx * B.ny * B.nz).toNat := by
    intro p hp
    obtain ⟨a, b, c, e⟩ := hr p hp
    have := id_range a b c
    omega
  obtain ⟨Q, e, q1, q2, q3⟩ := binSort_eq (fun p => (B.id3 p - 1).toNat) hl hkey
  have hm : ((B.nx * B.ny * B.nz).toNat : ℤ) = B.nx * B.ny * B.nz := by
    rcases l with _ | ⟨p, l⟩
    · simp at hnp; omega
    · obtain ⟨a, b, c, -⟩ := hr p (by simp)
      have := id_range a b c
      omega
  rw [hm] at e
  refine ⟨{ T with part := Q }, _, ?_, rfl, q2, ?_, q1, fun i hi => q3 i (by omega)⟩
  · unfold sortTile3
    rw [if_neg h0]
    dsimp only
    rw [← hB, hnp, e]
    rfl
  · refine stable_of_tab (fun p hp => (hkey p hp).2) ?_ ?_
    · intro p hp q hq
      obtain ⟨a, b, c, e⟩ := hr p hp
      obtain ⟨a', b', c', e'⟩ := hr q hq
      constructor
      · intro h
        rw [e, e', h]
      · intro h
        have r := id_range a b c
        have r' := id_range a' b' c'
        have h1 := id_lex a b a' b' (c := (cell p).2.2) (c' := (cell q).2.2) (by omega)
        have h2 := id_lex a' b' a b (c := (cell q).2.2) (c' := (cell p).2.2) (by omega)
        ext <;> omega
    · intro p hp q hq h
      obtain ⟨a, b, c, e⟩ := hr p hp
      obtain ⟨a', b', c', e'⟩ := hr q hq
      have r := id_range a b c
      have r' := id_range a' b' c'
      exact id_lex a b a' b' (by omega)

/-- Two particles at `x = 3/2` and `x = 1/2` in the tile `[0,2) × [0,1) × [0,1)`, unit bins; the
`pid` columns 2 and 3 hold `(10, 11)` and `(20, 21)`. -/
noncomputable def pA : Part := ⟨3/2, 1/2, 1/2, 1, 0, 0, 1, 7⟩
noncomputable def pB : Part := ⟨1/2, 1/2, 1/2, 2, 0, 0, 1, 8⟩
noncomputable def exTile : Tile :=
  ⟨2, FArr.ofList [pA, pB], FArr.ofList [[10, 11], [20, 21]], 0, 0, 0, 2, 1, 1⟩
def exParams : Params := ⟨1, 1, 1, 0, 0, 0⟩

theorem exTile_box : ∀ p ∈ [pA, pB], InSortBox3 exParams exTile p := by
  intro p hp
  simp only [List.mem_cons, List.not_mem_nil, or_false] at hp
  rcases hp with rfl | rfl <;> unfold InSortBox3 exParams exTile <;> simp only [pA, pB] <;> norm_num

theorem exTile_cell : ∀ p ∈ [pA, pB],
    InCell (exTile.xmin + exParams.shiftx) exParams.dx p.x ((⌊p.x⌋, 0, 0) : ℤ × ℤ × ℤ).1 ∧
      InCell (exTile.ymin + exParams.shifty) exParams.dy p.y ((⌊p.x⌋, 0, 0) : ℤ × ℤ × ℤ).2.1 ∧
      InCell (exTile.zmin + exParams.shiftz) exParams.dz p.z ((⌊p.x⌋, 0, 0) : ℤ × ℤ × ℤ).2.2 := by
  intro p hp
  have h := Int.floor_le p.x
  have h' := Int.lt_floor_add_one p.x
  simp only [List.mem_cons, List.not_mem_nil, or_false] at hp
  refine ⟨⟨?_, ?_⟩, ⟨?_, ?_⟩, ⟨?_, ?_⟩⟩ <;> simp only [exTile, exParams] <;> try linarith
  all_goals rcases hp with rfl | rfl <;> norm_num [pA, pB]

/-- The hypotheses of `C65_sort_3d_partial` are met by a tile whose particles really move. -/
example : ∃ T' l', sortTile3 exParams exTile = .ok T' ∧ T'.np = exTile.np ∧ T'.part.Holds l' ∧
    StableSort (fun p => ((⌊p.x⌋, 0, 0) : ℤ × ℤ × ℤ)) lexLe [pA, pB] l' ∧
    T'.part.n = exTile.part.n ∧ (∀ i : ℤ, exTile.np < i → T'.part.val i = exTile.part.val i) :=
  C65_sort_3d_partial exParams exTile [pA, pB] ⟨one_pos, one_pos, one_pos⟩ rfl (FArr.holds_ofList _)
    exTile_box _ exTile_cell

/-- C65 fails for the whole records: with `npid = 3` the sort leaves the `pid` columns 2 and 3 where
they were, so in the tile above each particle ends up with the other one's values. -/
theorem C65_columns_refuted :
    ∃ T', sortTile3 exParams exTile = .ok T' ∧
      exTile.part.Holds [pA, pB] ∧ exTile.pidRest.Holds [[10, 11], [20, 21]] ∧
      T'.part.Holds [pB, pA] ∧ T'.pidRest.Holds [[10, 11], [20, 21]] := by
  obtain ⟨T', l', e, hn, hl', hs, -, -⟩ := C65_sort_3d_partial exParams exTile [pA, pB]
    ⟨one_pos, one_pos, one_pos⟩ rfl (FArr.holds_ofList _) exTile_box _ exTile_cell
  have hfA : ⌊pA.x⌋ = 1 := by rw [Int.floor_eq_iff]; norm_num [pA]
  have hfB : ⌊pB.x⌋ = 0 := by rw [Int.floor_eq_iff]; norm_num [pB]
  have hlen := hs.perm.length_eq
  have : l' = [pB, pA] := by
    have h1 := hs.stable (0, 0, 0)
    have h2 := hs.stable (1, 0, 0)
    simp only [List.filter_cons, hfA, hfB, List.filter_nil] at h1 h2
    match l', hlen with
    | [a, b], _ =>
      have hm := hs.perm.mem_iff (a := a)
      have hm' := hs.perm.mem_iff (a := b)
      simp only [List.mem_cons, List.not_mem_nil, or_false, true_or, or_true, true_iff] at hm hm'
      have hsort := hs.sorted
      simp only [List.pairwise_cons, List.mem_singleton, forall_eq, List.Pairwise.nil,
        List.not_mem_nil, false_implies, implies_true, and_true] at hsort
      rcases hm with rfl | rfl <;> rcases hm' with rfl | rfl
      · simp only [List.filter_cons, hfA, List.filter_nil] at h1
        simp at h1
      · unfold lexLe at hsort
        simp [hfA, hfB] at hsort
      · rfl
      · simp only [List.filter_cons, hfB, List.filter_nil] at h2
        simp at h2
  subst this
  refine ⟨T', e, FArr.holds_ofList _, FArr.holds_ofList _, hl', ?_⟩
  have : T'.pidRest = exTile.pidRest := by
    have h := e
    unfold sortTile3 at h
    rw [if_neg (by norm_num [exTile])] at h
    dsimp only at h
    rcases hb : binSort exTile.np ((boxOf exParams exTile).nx * (boxOf exParams exTile).ny *
      (boxOf exParams exTile).nz) (boxOf exParams exTile).id3 exTile.part with _ | o
    · rw [hb] at h; cases h
    · rw [hb] at h
      simp only [except_bind_ok] at h
      cases h
      rfl
  rw [this]
  exact FArr.holds_ofList _

/-- C65 fails for particles of the tile when a positive sorting shift is chosen: a particle between the
tile's lower face and the shifted face gets bin number 0, and the bin counter array is accessed out of
range. -/
theorem C65_shift_refuted :
    sortTile3 ⟨1, 1, 1, 1/2, 0, 0⟩ ⟨1, FArr.ofList [⟨1/4, 1/2, 1/2, 0, 0, 0, 1, 1⟩], FArr.ofList [[]],
      0, 0, 0, 1, 1, 1⟩ = .error .outOfBounds := by
  unfold sortTile3
  rw [if_neg (by norm_num)]
  have h1 : ⌊((1 : ℝ)/4 - (0 + 1/2)) * (1 / 1)⌋ = -1 := by rw [Int.floor_eq_iff]; norm_num
  have h2 : ⌊((1 : ℝ)/2 - (0 + 0)) * (1 / 1)⌋ = 0 := by rw [Int.floor_eq_iff]; norm_num
  dsimp only
  unfold binSort
  have hr : irange 1 1 = [1] := rfl
  rw [hr]
  simp only [List.foldlM_cons, List.foldlM_nil]
  rw [FArr.get_ok (v := ⟨1/4, 1/2, 1/2, 0, 0, 0, 1, 1⟩) (by simp [FArr.ofList]) (by simp [FArr.ofList])]
  simp only [except_bind_ok]
  rw [FArr.set_ok _ (by simp [FArr.fill])]
  simp only [except_bind_ok]
  rw [FArr.get_ok (v := 0) (by simp [FArr.fill])
    (by simp only [Function.update_self, Bins.id3, boxOf]; rw [h1, h2]; simp)]
  simp only [except_bind_ok]
  rw [FArr.get_oob (by simp)]
  rfl

/-- Particle `p` lies in the 2-D sorting box of the tile. -/
def InSortBox2 (S : Params) (T : Tile) (p : Part) : Prop :=
  (T.xmin + S.shiftx ≤ p.x ∧ p.x < T.xmax + S.dx) ∧ (T.zmin + S.shiftz ≤ p.z ∧ p.z < T.zmax + S.dz)

/-- C65, 2-D routine: as `C65_sort_3d_partial`, cells numbered in `x` and `z`. The routine does not
move `y`, which is the same for all particles of a 2-D run (hypothesis `hy`). -/
theorem C65_sort_2d_partial (S : Params) (T : Tile) (l : List Part) (hS : 0 < S.dx ∧ 0 < S.dz)
    (hnp : T.np = l.length) (hl : T.part.Holds l) (hbox : ∀ p ∈ l, InSortBox2 S T p)
    (y0 : ℝ) (hy : ∀ p ∈ l, p.y = y0) (cell : Part → ℤ × ℤ × ℤ)
    (hcell : ∀ p ∈ l, InCell (T.xmin + S.shiftx) S.dx p.x (cell p).1 ∧ (cell p).2.1 = 0 ∧
      InCell (T.zmin + S.shiftz) S.dz p.z (cell p).2.2) :
    ∃ T' l', sortTile2 S T = .ok T' ∧ T'.np = T.np ∧ T'.part.Holds l' ∧
      StableSort cell lexLe l l' ∧ T'.part.n = T.part.n ∧
      (∀ i : ℤ, T.np < i → T'.part.val i = T.part.val i) := by
  by_cases h0 : T.np = 0
  · refine ⟨T, l, by unfold sortTile2; rw [if_pos h0], rfl, hl, ?_, rfl, fun _ _ => rfl⟩
    have : l = [] := List.length_eq_zero_iff.mp (by omega)
    subst this
    exact ⟨List.Perm.refl _, List.Pairwise.nil, fun _ => rfl⟩
  have hr : ∀ p ∈ l, (0 ≤ (cell p).1 ∧ (cell p).1 < (boxOf S T).nx) ∧
      (0 ≤ (cell p).2.2 ∧ (cell p).2.2 < (boxOf S T).nz) ∧
      (boxOf S T).id2 p = (cell p).2.2 * (boxOf S T).nx + (cell p).1 + 1 := by
    intro p hp
    obtain ⟨c1, -, c3⟩ := hcell p hp
    obtain ⟨b1, b3⟩ := hbox p hp
    rw [inCell_iff hS.1] at c1
    rw [inCell_iff hS.2] at c3
    have r1 := floor_range hS.1 b1.1 b1.2
    have r3 := floor_range hS.2 b3.1 b3.2
    rw [c1] at r1
    rw [c3] at r3
    refine ⟨r1, r3, ?_⟩
    rw [← c1, ← c3]
    rfl
  set B := boxOf S T with hB
  have one : (0 : ℤ) ≤ 0 ∧ (0 : ℤ) < 1 := by omega
  have hrange : ∀ p ∈ l, 0 ≤ B.id2 p - 1 ∧ B.id2 p - 1 < B.nx * B.nz := by
    intro p hp
    obtain ⟨a, c, e⟩ := hr p hp
    have := id_range a one c
    simp only [mul_one, zero_mul, add_zero] at this
    omega
  have hkey : ∀ p ∈ l, B.id2 p = ((B.id2 p - 1).toNat : ℕ) + 1 ∧
      (B.id2 p - 1).toNat < (B.nx * B.nz).toNat := by
    intro p hp
    have := hrange p hp
    omega
  obtain ⟨Q, e, q1, q2, q3⟩ := binSort_eq (fun p => (B.id2 p - 1).toNat) hl hkey
  have hm : ((B.nx * B.nz).toNat : ℤ) = B.nx * B.nz := by
    rcases l with _ | ⟨p, l⟩
    · simp at hnp; omega
    · have := hrange p (by simp)
      omega
  rw [hm] at e
  have hst : StableSort cell lexLe l (tab (fun p => (B.id2 p - 1).toNat) l (B.nx * B.nz).toNat) := by
    refine stable_of_tab (fun p hp => (hkey p hp).2) ?_ ?_
    · intro p hp q hq
      obtain ⟨a, c, e⟩ := hr p hp
      obtain ⟨a', c', e'⟩ := hr q hq
      constructor
      · intro h
        rw [e, e', h]
      · intro h
        have r := hrange p hp
        have r' := hrange q hq
        have h1 := id_lex a one a' one (c := (cell p).2.2) (c' := (cell q).2.2) (by
          simp only [mul_one, zero_mul, add_zero]; omega)
        have h2 := id_lex a' one a one (c := (cell q).2.2) (c' := (cell p).2.2) (by
          simp only [mul_one, zero_mul, add_zero]; omega)
        have hp0 := (hcell p hp).2.1
        have hq0 := (hcell q hq).2.1
        ext <;> omega
    · intro p hp q hq h
      obtain ⟨a, c, e⟩ := hr p hp
      obtain ⟨a', c', e'⟩ := hr q hq
      have r := hrange p hp
      have r' := hrange q hq
      have h1 := id_lex a one a' one (c := (cell p).2.2) (c' := (cell q).2.2) (by
          simp only [mul_one, zero_mul, add_zero]; omega)
      have hp0 := (hcell p hp).2.1
      have hq0 := (hcell q hq).2.1
      unfold lexLe
      omega
  have hlen := hst.perm.length_eq
  refine ⟨{ T with part := ⟨Q.n, fun i => do
          let o ← Q.val i
          let p ← T.part.val i
          some { o with y := p.y }⟩ }, tab (fun p => (B.id2 p - 1).toNat) l (B.nx * B.nz).toNat,
    ?_, ?_, ?_, hst, ?_, ?_⟩
  · unfold sortTile2
    rw [if_neg h0]
    dsimp only
    rw [← hB, hnp, e]
    rfl
  · rfl
  · refine ⟨q2.1, fun i hi => ?_⟩
    dsimp only
    rw [q2.2 i hi, hl.2 i (by omega)]
    simp only [Option.bind_eq_bind, Option.bind_some]
    rw [hy _ (List.getElem_mem _), ← hy _ (hst.perm.mem_iff.mp (List.getElem_mem hi))]
  · exact q1
  · intro i hi
    dsimp only
    rw [q3 i (by omega)]
    rcases T.part.val i with _ | p <;> rfl

/-- The 2-D hypotheses are met by the tile above. -/
example : ∃ T' l', sortTile2 exParams exTile = .ok T' ∧ T'.np = exTile.np ∧ T'.part.Holds l' ∧
    StableSort (fun p => ((⌊p.x⌋, 0, 0) : ℤ × ℤ × ℤ)) lexLe [pA, pB] l' ∧
    T'.part.n = exTile.part.n ∧ (∀ i : ℤ, exTile.np < i → T'.part.val i = exTile.part.val i) :=
  C65_sort_2d_partial exParams exTile [pA, pB] ⟨one_pos, one_pos⟩ rfl (FArr.holds_ofList _)
    (fun p hp => ⟨(exTile_box p hp).1, (exTile_box p hp).2.2⟩) (1/2)
    (by intro p hp; simp at hp; rcases hp with rfl | rfl <;> rfl)
    _ (fun p hp => ⟨(exTile_cell p hp).1, rfl, (exTile_cell p hp).2.2⟩)

end Picsar.Props
