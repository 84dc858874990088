import Verif.Spec.Loading
import Verif.Lemmas.ChargeVec
import Verif.Lemmas.PartBuffers
import Mathlib.Data.Multiset.Bind
import Mathlib.Analysis.Complex.ExponentialBounds
import Mathlib.Analysis.Real.Pi.Bounds

namespace Picsar.Loading
open Picsar Picsar.Grid Picsar.Deposition Picsar.Spec

/-! ### Which cells are filled -/

theorem nint_nonneg_eq {x : ℝ} (h : 0 ≤ x) : nint x = ⌊x + 1 / 2⌋ := if_pos h

theorem nint_nonpos {x : ℝ} (h : x ≤ 0) : nint x ≤ 0 := by
  unfold nint
  split_ifs with h0
  · have : x = 0 := le_antisymm h h0
    subst this
    norm_num
  · rw [Int.ceil_le]
    push_cast
    linarith

theorem first_le {a : Axis} (hd : 0 < a.d) {smin : ℝ} {j : ℤ} (hj : 0 ≤ j) : first a smin ≤ j ↔ smin < a.lo + (j + 1 / 2) * a.d := by
  have hj' : (0 : ℝ) ≤ j := by exact_mod_cast hj
  unfold first
  rcases le_total 0 (smin - a.lo) with h | h
  · rw [max_eq_left h, nint_nonneg_eq (div_nonneg h hd.le), ← Int.lt_add_one_iff, Int.floor_lt, ← sub_pos, ← sub_pos (b := smin)]
    have e : ((j + 1 : ℤ) : ℝ) - ((smin - a.lo) / a.d + 1 / 2) = (a.lo + (j + 1 / 2) * a.d - smin) / a.d := by
      field_simp; push_cast; ring
    rw [e, div_pos_iff_of_pos_right hd]
  · rw [max_eq_right h, zero_div, nint_nonneg_eq le_rfl]
    norm_num
    constructor
    · intro _
      nlinarith
    · intro _
      exact hj

theorem lt_last {a : Axis} {n : ℤ} (ha : HasCells a n) {smax : ℝ} {j : ℤ} (hj : 0 ≤ j) :
    j < last a smax ↔ j < n ∧ a.lo + (j + 1 / 2) * a.d ≤ smax := by
  obtain ⟨hd, hn, hhi⟩ := ha
  have hj' : (0 : ℝ) ≤ j := by exact_mod_cast hj
  have key : ∀ t : ℝ, j < nint (t / a.d) ↔ (j + 1 / 2) * a.d ≤ t := by
    intro t
    rcases le_total 0 t with h | h
    · rw [nint_nonneg_eq (div_nonneg h hd.le), ← Int.add_one_le_iff, Int.le_floor]
      push_cast
      rw [← sub_nonneg, ← sub_nonneg (b := (j + 1 / 2) * a.d)]
      have e : t / a.d + 1 / 2 - (j + 1) = (t - (j + 1 / 2) * a.d) / a.d := by field_simp; ring
      rw [e, div_nonneg_iff]
      constructor
      · rintro (h1 | h1)
        · exact h1.1
        · exact absurd h1.2 (not_le.mpr hd)
      · intro h1
        exact Or.inl ⟨h1, hd.le⟩
    · constructor
      · intro h1
        have := nint_nonpos (div_nonpos_of_nonpos_of_nonneg h hd.le)
        omega
      · intro h1
        nlinarith
  unfold last
  rw [key, le_min_iff, hhi]
  constructor
  · rintro ⟨h1, h2⟩
    refine ⟨?_, by linarith⟩
    have : (j : ℝ) + 1 / 2 ≤ n := by
      have : (j + 1 / 2) * a.d ≤ n * a.d := by linarith
      exact le_of_mul_le_mul_right this hd
    have : (j : ℝ) < n := by linarith
    exact_mod_cast this
  · rintro ⟨h1, h2⟩
    refine ⟨by linarith, ?_⟩
    have : (j : ℝ) + 1 ≤ n := by exact_mod_cast h1
    have := mul_le_mul_of_nonneg_right (show (j : ℝ) + 1 / 2 ≤ n by linarith) hd.le
    linarith

theorem first_nonneg {a : Axis} (hd : 0 < a.d) (smin : ℝ) : 0 ≤ first a smin := by
  unfold first
  rw [nint_nonneg_eq (div_nonneg (le_max_right _ _) hd.le), Int.le_floor]
  have := div_nonneg (le_max_right (smin - a.lo) 0) hd.le
  push_cast
  linarith

/-- The cells of the loops are the cells of the subdomain with the middle between the limits. -/
theorem mem_cellsOf {a : Axis} {n : ℤ} (ha : HasCells a n) {smin smax : ℝ} {j : ℤ} :
    j ∈ cellsOf a smin smax ↔ 0 ≤ j ∧ j < n ∧ Filled a smin smax j := by
  unfold cellsOf Filled
  rw [mem_irange]
  have h0 := first_nonneg ha.1 smin
  constructor
  · rintro ⟨h1, h2⟩
    have hj : 0 ≤ j := by omega
    have h3 := (lt_last ha hj (smax := smax)).mp (by omega)
    exact ⟨hj, h3.1, (first_le ha.1 hj).mp h1, h3.2⟩
  · rintro ⟨hj, h1, h2, h3⟩
    have h4 := (lt_last ha hj).mpr ⟨h1, h3⟩
    exact ⟨(first_le ha.1 hj).mpr h2, by omega⟩

/-! ### Positions -/

theorem place_in {a : Axis} (hd : 0 < a.d) {npp ip : ℤ} (h1 : 1 ≤ ip) (h2 : ip ≤ npp) (j : ℤ) : InCell1 a j (place a npp j ip) := by
  have hn : (0 : ℝ) < npp := by exact_mod_cast (show 0 < npp by omega)
  have h1' : (1 : ℝ) ≤ ip := by exact_mod_cast h1
  have h2' : (ip : ℝ) ≤ npp := by exact_mod_cast h2
  unfold InCell1 place
  have e : a.d / npp * (ip - 1 / 2) = a.d * ((ip - 1 / 2) / npp) := by ring
  have l0 : 0 ≤ (ip - 1 / 2 : ℝ) / npp := div_nonneg (by linarith) hn.le
  have l1 : (ip - 1 / 2 : ℝ) / npp < 1 := by rw [div_lt_one hn]; linarith
  rw [e]
  constructor
  · nlinarith
  · nlinarith

theorem place2_in {a : Axis} (hd : 0 < a.d) {npp ip : ℤ} (h1 : 1 ≤ ip) (h2 : ip ≤ npp) (j : ℤ) : InCell1 a j (place2 a npp j ip) := by
  have hn : (0 : ℝ) < npp := by exact_mod_cast (show 0 < npp by omega)
  have h1' : (1 : ℝ) ≤ ip := by exact_mod_cast h1
  have h2' : (ip : ℝ) ≤ npp := by exact_mod_cast h2
  unfold InCell1 place2
  have e : a.d / npp * (ip - 1) = a.d * ((ip - 1) / npp) := by ring
  have l0 : 0 ≤ (ip - 1 : ℝ) / npp := div_nonneg (by linarith) hn.le
  have l1 : (ip - 1 : ℝ) / npp < 1 := by rw [div_lt_one hn]; linarith
  rw [e]
  constructor
  · nlinarith
  · nlinarith

theorem inCell1_unique {a : Axis} (hd : 0 < a.d) {j j' : ℤ} {x : ℝ} (h : InCell1 a j x) (h' : InCell1 a j' x) : j = j' := by
  unfold InCell1 at h h'
  have a1 : (j : ℝ) < j' + 1 := by
    have : (j : ℝ) * a.d < (j' + 1) * a.d := by linarith [h.1, h'.2]
    exact lt_of_mul_lt_mul_right this hd.le
  have a2 : (j' : ℝ) < j + 1 := by
    have : (j' : ℝ) * a.d < (j + 1) * a.d := by linarith [h'.1, h.2]
    exact lt_of_mul_lt_mul_right this hd.le
  have b1 : j < j' + 1 := by exact_mod_cast a1
  have b2 : j' < j + 1 := by exact_mod_cast a2
  omega

theorem inCell1_iff {a : Axis} (hd : 0 < a.d) {j : ℤ} {x : ℝ} (h : InCell1 a j x) (J : ℤ) : InCell1 a J x ↔ j = J :=
  ⟨fun h' => inCell1_unique hd h h', fun e => e ▸ h⟩

/-! ### Weight of a cell -/

theorem sum_ite_irange (a b J : ℤ) (v : ℝ) : ((irange a b).map fun j => if j = J then v else 0).sum = if a ≤ J ∧ J ≤ b then v else 0 := by
  split_ifs with h
  · rw [ChargeVec.sum_irange_one h _ (fun x _ _ hx => if_neg hx), if_pos rfl]
  · apply List.sum_eq_zero
    intro t ht
    obtain ⟨j, hj, rfl⟩ := List.mem_map.mp ht
    rw [mem_irange] at hj
    refine if_neg ?_
    rintro rfl
    exact h hj

theorem sum_ite_cells (a : Axis) (smin smax : ℝ) (J : ℤ) (v : ℝ) :
    ((cellsOf a smin smax).map fun j => if j = J then v else 0).sum = if J ∈ cellsOf a smin smax then v else 0 := by
  unfold cellsOf
  rw [sum_ite_irange]
  simp only [mem_irange]

theorem length_irange' (n : ℤ) (h : 0 ≤ n) : ((irange 1 n).length : ℤ) = n := by
  unfold irange
  rw [List.length_map, List.length_range]
  omega

theorem sum_const_irange (n : ℤ) (h : 0 ≤ n) (v : ℝ) : ((irange 1 n).map fun _ => v).sum = n * v := by
  have e := length_irange' n h
  rw [List.map_const', List.sum_replicate, nsmul_eq_mul]
  congr 1
  exact_mod_cast e

open Classical in
theorem cell_weight {m : Dom} {s : Sp} (hx : 0 < m.x.d) (hy : 0 < m.y.d) (hz : 0 < m.z.d) (hp : 1 ≤ s.npp) (J K L : ℤ) :
    ((sites m s).map fun p => if InCell m J K L p then p.w else 0).sum =
      if J ∈ cellsOf m.x s.xmin s.xmax ∧ K ∈ cellsOf m.y s.ymin s.ymax ∧ L ∈ cellsOf m.z s.zmin s.zmax then m.nc * m.x.d * m.y.d * m.z.d else 0 := by
  have hn : (0 : ℝ) < s.npp := by exact_mod_cast (show 0 < s.npp by omega)
  unfold sites
  rw [sum_flatMap]
  have inner : ∀ l k j, (((irange 1 s.npp).map fun ip => (⟨place m.x s.npp j ip, place m.y s.npp k ip, place m.z s.npp l ip,
      m.nc * m.x.d * m.y.d * m.z.d / s.npp⟩ : Site)).map fun p => if InCell m J K L p then p.w else 0).sum =
      if j = J then (if k = K then (if l = L then m.nc * m.x.d * m.y.d * m.z.d else 0) else 0) else 0 := by
    intro l k j
    have e : ∀ ip ∈ irange 1 s.npp, ((fun p : Site => if InCell m J K L p then p.w else 0) ∘ fun ip => (⟨place m.x s.npp j ip, place m.y s.npp k ip,
        place m.z s.npp l ip, m.nc * m.x.d * m.y.d * m.z.d / s.npp⟩ : Site)) ip =
        if j = J then (if k = K then (if l = L then m.nc * m.x.d * m.y.d * m.z.d / s.npp else 0) else 0) else 0 := by
      intro ip hip
      rw [mem_irange] at hip
      have hP : InCell m J K L ⟨place m.x s.npp j ip, place m.y s.npp k ip, place m.z s.npp l ip, m.nc * m.x.d * m.y.d * m.z.d / s.npp⟩ ↔
          (j = J ∧ k = K ∧ l = L) := by
        unfold InCell
        rw [inCell1_iff hx (place_in hx hip.1 hip.2 j), inCell1_iff hy (place_in hy hip.1 hip.2 k), inCell1_iff hz (place_in hz hip.1 hip.2 l)]
      simp only [Function.comp_apply, hP]
      by_cases h1 : j = J <;> by_cases h2 : k = K <;> by_cases h3 : l = L <;> simp [h1, h2, h3]
    rw [List.map_map, List.map_congr_left e, sum_const_irange _ (by omega)]
    split_ifs
    · field_simp
    all_goals simp
  have mid : ∀ l, ((((cellsOf m.y s.ymin s.ymax).flatMap fun k => (cellsOf m.x s.xmin s.xmax).flatMap fun j => (irange 1 s.npp).map fun ip =>
      (⟨place m.x s.npp j ip, place m.y s.npp k ip, place m.z s.npp l ip, m.nc * m.x.d * m.y.d * m.z.d / s.npp⟩ : Site)).map
      fun p => if InCell m J K L p then p.w else 0)).sum =
      if l = L then (if K ∈ cellsOf m.y s.ymin s.ymax ∧ J ∈ cellsOf m.x s.xmin s.xmax then m.nc * m.x.d * m.y.d * m.z.d else 0) else 0 := by
    intro l
    rw [sum_flatMap]
    have e : ∀ k, (((cellsOf m.x s.xmin s.xmax).flatMap fun j => (irange 1 s.npp).map fun ip =>
      (⟨place m.x s.npp j ip, place m.y s.npp k ip, place m.z s.npp l ip, m.nc * m.x.d * m.y.d * m.z.d / s.npp⟩ : Site)).map
      fun p => if InCell m J K L p then p.w else 0).sum =
      if k = K then (if J ∈ cellsOf m.x s.xmin s.xmax then (if l = L then m.nc * m.x.d * m.y.d * m.z.d else 0) else 0) else 0 := by
      intro k
      rw [sum_flatMap]
      simp only [inner]
      rw [sum_ite_cells]
      by_cases h1 : J ∈ cellsOf m.x s.xmin s.xmax <;> by_cases h2 : k = K <;> simp [h1, h2]
    simp only [e]
    rw [sum_ite_cells]
    by_cases h1 : J ∈ cellsOf m.x s.xmin s.xmax <;> by_cases h2 : K ∈ cellsOf m.y s.ymin s.ymax <;> by_cases h3 : l = L <;> simp [h1, h2, h3]
  simp only [mid]
  rw [sum_ite_cells]
  by_cases h1 : J ∈ cellsOf m.x s.xmin s.xmax <;> by_cases h2 : K ∈ cellsOf m.y s.ymin s.ymax <;>
    by_cases h3 : L ∈ cellsOf m.z s.zmin s.zmax <;> simp [h1, h2, h3]

open Classical in
theorem cell_weight2 {m : Dom} {s : Sp} (hx : 0 < m.x.d) (hz : 0 < m.z.d) (hp : 1 ≤ s.npp) (J L : ℤ) :
    ((sites2 m s).map fun p => if InCell1 m.x J p.x ∧ InCell1 m.z L p.z then p.w else 0).sum =
      if J ∈ cellsOf m.x s.xmin s.xmax ∧ L ∈ cellsOf m.z s.zmin s.zmax then m.nc * m.x.d * m.z.d else 0 := by
  have hn : (0 : ℝ) < s.npp := by exact_mod_cast (show 0 < s.npp by omega)
  unfold sites2
  rw [sum_flatMap]
  have inner : ∀ l j, (((irange 1 s.npp).map fun ip => (⟨place2 m.x s.npp j ip, 0, place2 m.z s.npp l ip,
      m.nc * m.x.d * m.z.d / s.npp⟩ : Site)).map fun p => if InCell1 m.x J p.x ∧ InCell1 m.z L p.z then p.w else 0).sum =
      if j = J then (if l = L then m.nc * m.x.d * m.z.d else 0) else 0 := by
    intro l j
    have e : ∀ ip ∈ irange 1 s.npp, ((fun p : Site => if InCell1 m.x J p.x ∧ InCell1 m.z L p.z then p.w else 0) ∘ fun ip => (⟨place2 m.x s.npp j ip, 0,
        place2 m.z s.npp l ip, m.nc * m.x.d * m.z.d / s.npp⟩ : Site)) ip =
        if j = J then (if l = L then m.nc * m.x.d * m.z.d / s.npp else 0) else 0 := by
      intro ip hip
      rw [mem_irange] at hip
      simp only [Function.comp_apply, inCell1_iff hx (place2_in hx hip.1 hip.2 j), inCell1_iff hz (place2_in hz hip.1 hip.2 l)]
      by_cases h1 : j = J <;> by_cases h3 : l = L <;> simp [h1, h3]
    rw [List.map_map, List.map_congr_left e, sum_const_irange _ (by omega)]
    split_ifs
    · field_simp
    all_goals simp
  have mid : ∀ l, ((((cellsOf m.x s.xmin s.xmax).flatMap fun j => (irange 1 s.npp).map fun ip =>
      (⟨place2 m.x s.npp j ip, 0, place2 m.z s.npp l ip, m.nc * m.x.d * m.z.d / s.npp⟩ : Site)).map
      fun p => if InCell1 m.x J p.x ∧ InCell1 m.z L p.z then p.w else 0)).sum =
      if l = L then (if J ∈ cellsOf m.x s.xmin s.xmax then m.nc * m.x.d * m.z.d else 0) else 0 := by
    intro l
    rw [sum_flatMap]
    simp only [inner]
    rw [sum_ite_cells]
    by_cases h1 : J ∈ cellsOf m.x s.xmin s.xmax <;> by_cases h3 : l = L <;> simp [h1, h3]
  simp only [mid]
  rw [sum_ite_cells]
  by_cases h1 : J ∈ cellsOf m.x s.xmin s.xmax <;> by_cases h3 : L ∈ cellsOf m.z s.zmin s.zmax <;> simp [h1, h3]

/-! ### Cutting the domain -/

theorem mono_cuts {c : ℕ → ℤ} (h : ∀ r, c r ≤ c (r + 1)) : Monotone c := monotone_nat_of_le_succ h

theorem slice_cells {a : Axis} {c : ℕ → ℤ} {R : ℕ} (h : Cuts a c R) (r : ℕ) : HasCells (slice a c r) (c (r + 1) - c r) := by
  refine ⟨h.1, by have := h.2.2.1 r; omega, ?_⟩
  simp only [slice]
  push_cast
  ring

theorem whole_cells {a : Axis} {c : ℕ → ℤ} {R : ℕ} (h : Cuts a c R) : HasCells a (c R) := by
  refine ⟨h.1, ?_, h.2.2.2⟩
  have := mono_cuts h.2.2.1 (Nat.zero_le R)
  rw [h.2.1] at this
  exact this

/-- The cells that a process fills, numbered in the whole domain. -/
noncomputable def shifted (a : Axis) (c : ℕ → ℤ) (smin smax : ℝ) (r : ℕ) : List ℤ := (cellsOf (slice a c r) smin smax).map (· + c r)

theorem mem_shifted {a : Axis} {c : ℕ → ℤ} {R : ℕ} (h : Cuts a c R) {smin smax : ℝ} {r : ℕ} {j : ℤ} :
    j ∈ shifted a c smin smax r ↔ c r ≤ j ∧ j < c (r + 1) ∧ Filled a smin smax j := by
  have hs := slice_cells h r
  have e : ∀ i : ℤ, Filled (slice a c r) smin smax i ↔ Filled a smin smax (i + c r) := by
    intro i
    unfold Filled slice
    have : a.lo + c r * a.d + ((i : ℝ) + 1 / 2) * a.d = a.lo + (((i + c r : ℤ) : ℝ) + 1 / 2) * a.d := by push_cast; ring
    simp only [this]
  unfold shifted
  rw [List.mem_map]
  constructor
  · rintro ⟨i, hi, rfl⟩
    rw [mem_cellsOf hs, e] at hi
    exact ⟨by omega, by omega, hi.2.2⟩
  · rintro ⟨h1, h2, h3⟩
    refine ⟨j - c r, ?_, by omega⟩
    rw [mem_cellsOf hs, e]
    exact ⟨by omega, by omega, by rwa [sub_add_cancel]⟩

theorem nodup_cellsOf (a : Axis) (smin smax : ℝ) : (cellsOf a smin smax).Nodup := nodup_irange _ _

theorem shifted_perm {a : Axis} {c : ℕ → ℤ} {R : ℕ} (h : Cuts a c R) (smin smax : ℝ) :
    ((List.range R).flatMap (shifted a c smin smax)).Perm (cellsOf a smin smax) := by
  have hm := mono_cuts h.2.2.1
  refine (List.perm_ext_iff_of_nodup ?_ (nodup_cellsOf _ _ _)).mpr ?_
  · rw [List.nodup_flatMap]
    refine ⟨fun r _ => (nodup_cellsOf _ _ _).map (fun x y e => by simpa using e), ?_⟩
    refine List.Pairwise.imp ?_ (List.pairwise_lt_range (n := R))
    intro r r' hr j h1 h2
    rw [mem_shifted h] at h1 h2
    have := hm (show r + 1 ≤ r' from hr)
    omega
  · intro j
    rw [List.mem_flatMap, mem_cellsOf (whole_cells h)]
    constructor
    · rintro ⟨r, hr, hj⟩
      rw [mem_shifted h] at hj
      rw [List.mem_range] at hr
      have h0 := hm (Nat.zero_le r)
      have h1 := hm (show r + 1 ≤ R from hr)
      rw [h.2.1] at h0
      exact ⟨by omega, by omega, hj.2.2⟩
    · rintro ⟨h0, h1, hf⟩
      have key : ∀ n, j < c n → ∃ r < n, c r ≤ j ∧ j < c (r + 1) := by
        intro n
        induction n with
        | zero => intro hlt; rw [h.2.1] at hlt; omega
        | succ n ih =>
          intro hlt
          by_cases hn : j < c n
          · obtain ⟨r, hr, hh⟩ := ih hn
            exact ⟨r, by omega, hh⟩
          · exact ⟨n, by omega, by omega, hlt⟩
      obtain ⟨r, hr, h2, h3⟩ := key R h1
      exact ⟨r, List.mem_range.mpr hr, (mem_shifted h).mpr ⟨h2, h3, hf⟩⟩

theorem place_slice (a : Axis) (c : ℕ → ℤ) (r : ℕ) (npp j ip : ℤ) : place (slice a c r) npp j ip = place a npp (j + c r) ip := by
  unfold place slice
  push_cast
  ring

theorem place2_slice (a : Axis) (c : ℕ → ℤ) (r : ℕ) (npp j ip : ℤ) : place2 (slice a c r) npp j ip = place2 a npp (j + c r) ip := by
  unfold place2 slice
  push_cast
  ring

/-- The particles of one cell. -/
noncomputable def cellSites (m : Dom) (s : Sp) (l k j : ℤ) : List Site :=
  (irange 1 s.npp).map fun ip => ⟨place m.x s.npp j ip, place m.y s.npp k ip, place m.z s.npp l ip, m.nc * m.x.d * m.y.d * m.z.d / s.npp⟩

theorem sites_eq (m : Dom) (s : Sp) : sites m s = (cellsOf m.z s.zmin s.zmax).flatMap fun l => (cellsOf m.y s.ymin s.ymax).flatMap fun k =>
    (cellsOf m.x s.xmin s.xmax).flatMap fun j => cellSites m s l k j := rfl

theorem sites_slice (m : Dom) (cx cy cz : ℕ → ℤ) (rx ry rz : ℕ) (s : Sp) :
    sites (subdomain m cx cy cz rx ry rz) s = (shifted m.z cz s.zmin s.zmax rz).flatMap fun l => (shifted m.y cy s.ymin s.ymax ry).flatMap fun k =>
      (shifted m.x cx s.xmin s.xmax rx).flatMap fun j => cellSites m s l k j := by
  rw [sites_eq]
  unfold shifted
  simp only [List.flatMap_map]
  simp only [subdomain, cellSites, place_slice]
  rfl

theorem sites_perm {m : Dom} {cx cy cz : ℕ → ℤ} {Rx Ry Rz : ℕ} (hx : Cuts m.x cx Rx) (hy : Cuts m.y cy Ry) (hz : Cuts m.z cz Rz) (s : Sp) :
    ((List.range Rz).flatMap fun rz => (List.range Ry).flatMap fun ry => (List.range Rx).flatMap fun rx =>
      sites (subdomain m cx cy cz rx ry rz) s).Perm (sites m s) := by
  have px := Multiset.coe_eq_coe.mpr (shifted_perm hx s.xmin s.xmax)
  have py := Multiset.coe_eq_coe.mpr (shifted_perm hy s.ymin s.ymax)
  have pz := Multiset.coe_eq_coe.mpr (shifted_perm hz s.zmin s.zmax)
  simp only [sites_slice]
  rw [sites_eq, ← Multiset.coe_eq_coe]
  rw [← Multiset.coe_bind] at px py pz
  simp only [← Multiset.coe_bind]
  rw [← px, ← py, ← pz]
  simp only [Multiset.bind_assoc]
  refine Multiset.bind_congr fun rz _ => ?_
  have e1 : ∀ ry, ((List.range Rx : Multiset ℕ).bind fun rx => (shifted m.z cz s.zmin s.zmax rz : Multiset ℤ).bind fun l =>
      (shifted m.y cy s.ymin s.ymax ry : Multiset ℤ).bind fun k => (shifted m.x cx s.xmin s.xmax rx : Multiset ℤ).bind fun j =>
        (cellSites m s l k j : Multiset Site)) =
      (shifted m.z cz s.zmin s.zmax rz : Multiset ℤ).bind fun l => (shifted m.y cy s.ymin s.ymax ry : Multiset ℤ).bind fun k =>
        (List.range Rx : Multiset ℕ).bind fun rx => (shifted m.x cx s.xmin s.xmax rx : Multiset ℤ).bind fun j =>
        (cellSites m s l k j : Multiset Site) := by
    intro ry
    rw [Multiset.bind_bind]
    exact Multiset.bind_congr fun l _ => Multiset.bind_bind _ _
  simp only [e1]
  rw [Multiset.bind_bind]

/-! ### Velocities -/

theorem radius_le (r : ℝ) : √(-2 * Real.log (max (1 / 10 ^ 10) r)) ≤ 7 := by
  have hv : (1 : ℝ) / 10 ^ 10 ≤ max (1 / 10 ^ 10) r := le_max_left _ _
  have h10 : Real.log 10 ≤ 2.4 := by
    have h1 : Real.log ((10 : ℝ) ^ 3) ≤ Real.log ((2 : ℝ) ^ 10) := Real.log_le_log (by norm_num) (by norm_num)
    rw [Real.log_pow, Real.log_pow] at h1
    push_cast at h1
    have := Real.log_two_lt_d9
    linarith
  have h2 : -24 ≤ Real.log (max (1 / 10 ^ 10) r) := by
    have h3 : Real.log (1 / 10 ^ 10) ≤ Real.log (max (1 / 10 ^ 10) r) := Real.log_le_log (by norm_num) hv
    rw [one_div, Real.log_inv, Real.log_pow] at h3
    push_cast at h3
    rw [one_div]
    linarith
  rw [Real.sqrt_le_iff]
  constructor <;> linarith

theorem radius_ge : 6 ≤ √(-2 * Real.log (max (1 / 10 ^ 10) 0)) := by
  have h10 : (2 : ℝ) ≤ Real.log 10 := by
    have h1 : Real.log ((2 : ℝ) ^ 3) ≤ Real.log 10 := Real.log_le_log (by norm_num) (by norm_num)
    rw [Real.log_pow] at h1
    push_cast at h1
    have := Real.log_two_gt_d9
    linarith
  rw [max_eq_left (by norm_num), one_div, Real.log_inv, Real.log_pow]
  apply Real.le_sqrt_of_sq_le
  push_cast
  linarith

/-- Minkowski's inequality for the drift and the thermal part. -/
theorem norm_lt {a1 a2 a3 b1 b2 b3 B c : ℝ} (hB : 0 ≤ B) (hb : b1 ^ 2 + b2 ^ 2 + b3 ^ 2 ≤ B ^ 2) (h : √(a1 ^ 2 + a2 ^ 2 + a3 ^ 2) + B < c) :
    (a1 + b1) ^ 2 + (a2 + b2) ^ 2 + (a3 + b3) ^ 2 < c ^ 2 := by
  have hA := Real.sqrt_nonneg (a1 ^ 2 + a2 ^ 2 + a3 ^ 2)
  have hA2 := Real.sq_sqrt (show 0 ≤ a1 ^ 2 + a2 ^ 2 + a3 ^ 2 by positivity)
  generalize √(a1 ^ 2 + a2 ^ 2 + a3 ^ 2) = A at *
  have hd : (a1 * b1 + a2 * b2 + a3 * b3) ^ 2 ≤ (A * B) ^ 2 := by
    have h1 : (a1 * b1 + a2 * b2 + a3 * b3) ^ 2 ≤ (a1 ^ 2 + a2 ^ 2 + a3 ^ 2) * (b1 ^ 2 + b2 ^ 2 + b3 ^ 2) := by
      nlinarith [sq_nonneg (a1 * b2 - a2 * b1), sq_nonneg (a1 * b3 - a3 * b1), sq_nonneg (a2 * b3 - a3 * b2)]
    rw [← hA2] at h1
    calc _ ≤ _ := h1
      _ ≤ A ^ 2 * B ^ 2 := mul_le_mul_of_nonneg_left hb (sq_nonneg A)
      _ = _ := by ring
  have hd' := abs_le_of_sq_le_sq' hd (mul_nonneg hA hB)
  have hc : (A + B) ^ 2 < c ^ 2 := by
    have : 0 ≤ A + B := by linarith
    nlinarith
  nlinarith

theorem thermal_lt {c : ℝ} {s : Sp} (hs : BelowLight c s) (r1 r2 r3 : ℝ) :
    (thermal s r1 r2 r3).1 ^ 2 + (thermal s r1 r2 r3).2.1 ^ 2 + (thermal s r1 r2 r3).2.2 ^ 2 < c ^ 2 := by
  unfold thermal
  dsimp only
  have hR := radius_le r1
  have hR0 := Real.sqrt_nonneg (-2 * Real.log (max (1 / 10 ^ 10) r1))
  generalize √(-2 * Real.log (max (1 / 10 ^ 10) r1)) = R at *
  have cs1 := Real.sin_sq_add_cos_sq (2 * Real.pi * r2)
  have cs2 := Real.sin_sq_add_cos_sq (2 * Real.pi * r3)
  generalize Real.cos (2 * Real.pi * r2) = C2 at *
  generalize Real.sin (2 * Real.pi * r2) = S2 at *
  generalize Real.cos (2 * Real.pi * r3) = C3 at *
  generalize Real.sin (2 * Real.pi * r3) = S3 at *
  have hM := hs.2
  have m1 : |s.vtx| ≤ max |s.vtx| (max |s.vty| |s.vtz|) := le_max_left _ _
  have m2 : |s.vty| ≤ max |s.vtx| (max |s.vty| |s.vtz|) := (le_max_left _ _).trans (le_max_right _ _)
  have m3 : |s.vtz| ≤ max |s.vtx| (max |s.vty| |s.vtz|) := (le_max_right _ _).trans (le_max_right _ _)
  generalize max |s.vtx| (max |s.vty| |s.vtz|) = M at *
  have hM0 : 0 ≤ M := (abs_nonneg _).trans m1
  have q1 : s.vtx ^ 2 ≤ M ^ 2 := by rw [← sq_abs]; exact pow_le_pow_left₀ (abs_nonneg _) m1 2
  have q2 : s.vty ^ 2 ≤ M ^ 2 := by rw [← sq_abs]; exact pow_le_pow_left₀ (abs_nonneg _) m2 2
  have q3 : s.vtz ^ 2 ≤ M ^ 2 := by rw [← sq_abs]; exact pow_le_pow_left₀ (abs_nonneg _) m3 2
  refine norm_lt (B := 7 * M) (by linarith) ?_ hM
  have e : (s.vtx * R * C2 * C3) ^ 2 + (s.vty * R * C2 * S3) ^ 2 + (s.vtz * R * S2) ^ 2 =
      R ^ 2 * (s.vtx ^ 2 * (C2 * C3) ^ 2 + s.vty ^ 2 * (C2 * S3) ^ 2 + s.vtz ^ 2 * S2 ^ 2) := by ring
  rw [e]
  have i1 : s.vtx ^ 2 * (C2 * C3) ^ 2 + s.vty ^ 2 * (C2 * S3) ^ 2 + s.vtz ^ 2 * S2 ^ 2 ≤ M ^ 2 := by
    have a1 := mul_le_mul_of_nonneg_right q1 (sq_nonneg (C2 * C3))
    have a2 := mul_le_mul_of_nonneg_right q2 (sq_nonneg (C2 * S3))
    have a3 := mul_le_mul_of_nonneg_right q3 (sq_nonneg S2)
    have e2 : M ^ 2 * (C2 * C3) ^ 2 + M ^ 2 * (C2 * S3) ^ 2 + M ^ 2 * S2 ^ 2 = M ^ 2 := by
      have : (C2 * C3) ^ 2 + (C2 * S3) ^ 2 + S2 ^ 2 = 1 := by
        have : C2 ^ 2 * (S3 ^ 2 + C3 ^ 2) = C2 ^ 2 := by rw [cs2, mul_one]
        nlinarith
      rw [← mul_add, ← mul_add, this, mul_one]
    linarith
  calc R ^ 2 * (s.vtx ^ 2 * (C2 * C3) ^ 2 + s.vty ^ 2 * (C2 * S3) ^ 2 + s.vtz ^ 2 * S2 ^ 2) ≤ 7 ^ 2 * M ^ 2 :=
        mul_le_mul (pow_le_pow_left₀ hR0 hR 2) i1 (by positivity) (by norm_num)
    _ = _ := by ring

theorem particle_ok {c : ℝ} (hc : 0 < c) (p : Site) {v : ℝ × ℝ × ℝ} (h : v.1 ^ 2 + v.2.1 ^ 2 + v.2.2 ^ 2 < c ^ 2) : ∃ r, particle c p v = .ok r := by
  have hq : 0 < 1 - (v.1 ^ 2 + v.2.1 ^ 2 + v.2.2 ^ 2) * (1 / c ^ 2) := by
    have : (v.1 ^ 2 + v.2.1 ^ 2 + v.2.2 ^ 2) * (1 / c ^ 2) < 1 := by
      rw [mul_one_div, div_lt_one (by positivity)]
      exact h
    linarith
  unfold particle
  dsimp only
  rw [if_neg (not_lt.mpr hq.le), if_neg (Real.sqrt_pos.mpr hq).ne']
  exact ⟨_, rfl⟩

theorem particle_spec {c : ℝ} {p : Site} {v : ℝ × ℝ × ℝ} {r : Part} (h : particle c p v = .ok r) : siteOf r = p ∧ 0 < r.gaminv ∧
    r.ux * r.gaminv = v.1 ∧ r.uy * r.gaminv = v.2.1 ∧ r.uz * r.gaminv = v.2.2 ∧
    r.gaminv ^ 2 = 1 - (v.1 ^ 2 + v.2.1 ^ 2 + v.2.2 ^ 2) / c ^ 2 := by
  unfold particle at h
  dsimp only at h
  split_ifs at h with h1 h2
  obtain rfl := Except.ok.inj h
  have hp := lt_of_le_of_ne (Real.sqrt_nonneg _) (Ne.symm h2)
  refine ⟨rfl, hp, div_mul_cancel₀ _ h2, div_mul_cancel₀ _ h2, div_mul_cancel₀ _ h2, ?_⟩
  rw [Real.sq_sqrt (not_lt.mp h1), mul_one_div]

/-! ### The loops -/

theorem mapM_ok {α β : Type} {f : α → Res β} : ∀ {l : List α}, (∀ a ∈ l, ∃ b, f a = .ok b) → ∃ r, l.mapM f = .ok r
  | [], _ => ⟨[], rfl⟩
  | a :: l, h => by
    obtain ⟨b, hb⟩ := h a (List.mem_cons_self ..)
    obtain ⟨r, hr⟩ := mapM_ok (l := l) fun x hx => h x (List.mem_cons_of_mem _ hx)
    exact ⟨b :: r, by rw [List.mapM_cons, hb, except_bind_ok, hr]; rfl⟩

theorem mapM_forall {α β : Type} {f : α → Res β} : ∀ {l : List α} {r : List β}, l.mapM f = .ok r → List.Forall₂ (fun a b => f a = .ok b) l r
  | [], r, h => by
    have : ([] : List β) = r := Except.ok.inj h
    subst this
    exact .nil
  | a :: l, r, h => by
    rw [List.mapM_cons] at h
    cases hb : f a with
    | error e => rw [hb] at h; cases h
    | ok b =>
      rw [hb, except_bind_ok] at h
      cases hr : l.mapM f with
      | error e => rw [hr] at h; cases h
      | ok t =>
        rw [hr, except_bind_ok] at h
        have : b :: t = r := Except.ok.inj h
        subst this
        exact .cons hb (mapM_forall hr)

theorem forall_map {α β γ : Type} {R : α → β → Prop} {f : α → γ} {g : β → γ} (h : ∀ a b, R a b → g b = f a) {l : List α} {r : List β}
    (hl : List.Forall₂ R l r) : r.map g = l.map f := by
  induction hl with
  | nil => rfl
  | cons h1 _ ih => rw [List.map_cons, List.map_cons, h _ _ h1, ih]

theorem loadEach_ok {one : Sp → ℕ → Res (List Part)} {draws : Sp → ℕ} : ∀ {ss : List Sp} {n : ℕ},
    (∀ s ∈ ss, s.antenna = false → ∀ n, ∃ ps, one s n = .ok ps) → ∃ res, loadEach one draws ss n = .ok res
  | [], n, _ => ⟨[], rfl⟩
  | s :: ss, n, h => by
    unfold loadEach
    have ih := fun k => loadEach_ok (one := one) (draws := draws) (n := k) fun x hx => h x (List.mem_cons_of_mem _ hx)
    split_ifs with ha
    · obtain ⟨r, hr⟩ := ih n
      rw [hr]
      exact ⟨_, rfl⟩
    · obtain ⟨ps, hp⟩ := h s (List.mem_cons_self ..) (by simpa using ha) n
      obtain ⟨r, hr⟩ := ih (n + draws s)
      rw [hp, except_bind_ok, hr]
      exact ⟨_, rfl⟩

theorem loadEach_forall {one : Sp → ℕ → Res (List Part)} {draws : Sp → ℕ} : ∀ {ss : List Sp} {n : ℕ} {res : List (List Part)},
    loadEach one draws ss n = .ok res → List.Forall₂ (fun s ps => (s.antenna = true ∧ ps = []) ∨ (s.antenna = false ∧ ∃ k, one s k = .ok ps)) ss res
  | [], n, res, h => by
    have : ([] : List (List Part)) = res := Except.ok.inj h
    subst this
    exact .nil
  | s :: ss, n, res, h => by
    unfold loadEach at h
    split_ifs at h with ha
    · cases hr : loadEach one draws ss n with
      | error e => rw [hr] at h; cases h
      | ok t =>
        rw [hr] at h
        have : [] :: t = res := Except.ok.inj h
        subst this
        exact .cons (.inl ⟨ha, rfl⟩) (loadEach_forall hr)
    · cases hp : one s n with
      | error e => rw [hp] at h; cases h
      | ok ps =>
        rw [hp, except_bind_ok] at h
        cases hr : loadEach one draws ss (n + draws s) with
        | error e => rw [hr] at h; cases h
        | ok t =>
          rw [hr] at h
          have : ps :: t = res := Except.ok.inj h
          subst this
          exact .cons (.inr ⟨by simpa using ha, n, hp⟩) (loadEach_forall hr)

theorem uniform_sites {m : Dom} {s : Sp} {rng : ℕ → ℝ} {n : ℕ} {ps : List Part} (h : uniform m s rng n = .ok ps) : ps.map siteOf = sites m s := by
  unfold uniform at h
  have hf := mapM_forall h
  have : ps.map siteOf = (sites m s).zipIdx.map fun a => a.1 := by
    refine forall_map ?_ hf
    intro a b hab
    exact (particle_spec hab).1
  rw [this]
  exact List.zipIdx_map_fst 0 _

theorem uniform2_sites {m : Dom} {s : Sp} {rng : ℕ → ℝ} {n : ℕ} {ps : List Part} (h : uniform2 m s rng n = .ok ps) : ps.map siteOf = sites2 m s := by
  unfold uniform2 at h
  have hf := mapM_forall h
  have : ps.map siteOf = (sites2 m s).zipIdx.map fun a => a.1 := by
    refine forall_map ?_ hf
    intro a b hab
    exact (particle_spec hab).1
  rw [this]
  exact List.zipIdx_map_fst 0 _

theorem random_length {m : Dom} {s : Sp} {rng : ℕ → ℝ} {n : ℕ} {ps : List Part} (h : random m s rng n = .ok ps) : ps.length = (slots m s).length := by
  have := (mapM_forall h).length_eq
  rw [List.length_zipIdx] at this
  exact this.symm

theorem forall_mem_right {α β : Type} {R : α → β → Prop} {l : List α} {r : List β} (h : List.Forall₂ R l r) {b : β} (hb : b ∈ r) : ∃ a ∈ l, R a b := by
  induction h with
  | nil => simp at hb
  | @cons x y _ _ h1 _ ih =>
    rcases List.mem_cons.mp hb with rfl | hb
    · exact ⟨x, List.mem_cons_self .., h1⟩
    · obtain ⟨a, ha, hr⟩ := ih hb
      exact ⟨a, List.mem_cons_of_mem _ ha, hr⟩

theorem mapM_error {α β : Type} {f : α → Res β} {e : Fault} (h : ∀ a, f a = .error e) : ∀ {l : List α}, l ≠ [] → l.mapM f = .error e
  | [], hl => absurd rfl hl
  | a :: l, _ => by rw [List.mapM_cons, h a]; rfl

theorem uniform_ok {m : Dom} {s : Sp} (hs : BelowLight m.c s) (rng : ℕ → ℝ) (n : ℕ) : ∃ ps, uniform m s rng n = .ok ps :=
  mapM_ok fun _ _ => particle_ok hs.1 _ (thermal_lt hs _ _ _)

theorem uniform2_ok {m : Dom} {s : Sp} (hs : BelowLight m.c s) (rng : ℕ → ℝ) (n : ℕ) : ∃ ps, uniform2 m s rng n = .ok ps :=
  mapM_ok fun _ _ => particle_ok hs.1 _ (thermal_lt hs _ _ _)

theorem random_ok {m : Dom} {s : Sp} (hs : BelowLight m.c s) (rng : ℕ → ℝ) (n : ℕ) : ∃ ps, random m s rng n = .ok ps :=
  mapM_ok fun _ _ => particle_ok hs.1 _ (thermal_lt hs _ _ _)

/-- What the first two distributions do to every species. -/
theorem load_forall {pdistr : ℤ} {m : Dom} {rng : ℕ → ℝ} {ss : List Sp} {res : List (List Part)} (hd : pdistr = 1 ∨ pdistr = 2)
    (h : loadParticles pdistr 3 m rng ss = .ok res) : List.Forall₂ (fun s ps => (s.antenna = true ∧ ps = []) ∨
      (s.antenna = false ∧ ∃ k, (pdistr = 1 ∧ uniform m s rng k = .ok ps) ∨ (pdistr = 2 ∧ random m s rng k = .ok ps))) ss res := by
  unfold loadParticles at h
  rcases hd with rfl | rfl
  · rw [if_pos rfl, if_pos rfl] at h
    refine (loadEach_forall h).imp ?_
    rintro s ps (h1 | ⟨h1, k, h2⟩)
    · exact .inl h1
    · exact .inr ⟨h1, k, .inl ⟨rfl, h2⟩⟩
  · rw [if_neg (by norm_num), if_pos rfl] at h
    refine (loadEach_forall h).imp ?_
    rintro s ps (h1 | ⟨h1, k, h2⟩)
    · exact .inl h1
    · exact .inr ⟨h1, k, .inr ⟨rfl, h2⟩⟩

theorem load_forall2 {m : Dom} {rng : ℕ → ℝ} {ss : List Sp} {res : List (List Part)} (h : loadParticles 1 2 m rng ss = .ok res) :
    List.Forall₂ (fun s ps => (s.antenna = true ∧ ps = []) ∨ (s.antenna = false ∧ ∃ k, uniform2 m s rng k = .ok ps)) ss res := by
  unfold loadParticles at h
  rw [if_pos rfl, if_neg (by norm_num), if_pos rfl] at h
  exact loadEach_forall h

theorem forall_getD {α β : Type} {R : α → β → Prop} {l : List α} {r : List β} (h : List.Forall₂ R l r) (d : β) (i : ℕ) :
    (l[i]? = none ∧ r.getD i d = d) ∨ ∃ a, l[i]? = some a ∧ R a (r.getD i d) := by
  induction h generalizing i with
  | nil => exact .inl ⟨rfl, rfl⟩
  | @cons a b _ _ h1 _ ih =>
    cases i with
    | zero => exact .inr ⟨a, rfl, h1⟩
    | succ i => simpa using ih i

theorem loaded_sites {m : Dom} {rng : ℕ → ℝ} {ss : List Sp} {res : List (List Part)} (h : loadParticles 1 3 m rng ss = .ok res) (i : ℕ) :
    (res.getD i []).map siteOf = match ss[i]? with
      | none => []
      | some s => if s.antenna then [] else sites m s := by
  rcases forall_getD (load_forall (.inl rfl) h) [] i with ⟨h1, h2⟩ | ⟨s, h1, (⟨h2, h3⟩ | ⟨h2, k, (⟨-, h3⟩ | ⟨h3, -⟩)⟩)⟩
  · rw [h2, h1]; rfl
  · rw [h3, h1]; simp [h2]
  · rw [h1, uniform_sites h3]; simp [h2]
  · omega

theorem loaded_sites2 {m : Dom} {rng : ℕ → ℝ} {ss : List Sp} {res : List (List Part)} (h : loadParticles 1 2 m rng ss = .ok res) (i : ℕ) :
    (res.getD i []).map siteOf = match ss[i]? with
      | none => []
      | some s => if s.antenna then [] else sites2 m s := by
  rcases forall_getD (load_forall2 h) [] i with ⟨h1, h2⟩ | ⟨s, h1, (⟨h2, h3⟩ | ⟨h2, k, h3⟩)⟩
  · rw [h2, h1]; rfl
  · rw [h3, h1]; simp [h2]
  · rw [h1, uniform2_sites h3]; simp [h2]

theorem mem_sites {m : Dom} {s : Sp} {p : Site} (h : p ∈ sites m s) : ∃ l ∈ cellsOf m.z s.zmin s.zmax, ∃ k ∈ cellsOf m.y s.ymin s.ymax,
    ∃ j ∈ cellsOf m.x s.xmin s.xmax, ∃ ip ∈ irange 1 s.npp,
      p = ⟨place m.x s.npp j ip, place m.y s.npp k ip, place m.z s.npp l ip, m.nc * m.x.d * m.y.d * m.z.d / s.npp⟩ := by
  unfold sites at h
  rw [List.mem_flatMap] at h
  obtain ⟨l, hl, h⟩ := h
  rw [List.mem_flatMap] at h
  obtain ⟨k, hk, h⟩ := h
  rw [List.mem_flatMap] at h
  obtain ⟨j, hj, h⟩ := h
  obtain ⟨ip, hip, rfl⟩ := List.mem_map.mp h
  exact ⟨l, hl, k, hk, j, hj, ip, hip, rfl⟩

theorem mem_slots {m : Dom} {s : Sp} {p : Unit} (h : p ∈ slots m s) : (∃ l, l ∈ cellsOf m.z s.zmin s.zmax) ∧ (∃ k, k ∈ cellsOf m.y s.ymin s.ymax) ∧
    (∃ j, j ∈ cellsOf m.x s.xmin s.xmax) := by
  unfold slots at h
  rw [List.mem_flatMap] at h
  obtain ⟨l, hl, h⟩ := h
  rw [List.mem_flatMap] at h
  obtain ⟨k, hk, h⟩ := h
  rw [List.mem_flatMap] at h
  obtain ⟨j, hj, h⟩ := h
  exact ⟨⟨l, hl⟩, ⟨k, hk⟩, ⟨j, hj⟩⟩

theorem inCell_inside {a : Axis} {n j : ℤ} (ha : HasCells a n) (h0 : 0 ≤ j) (h1 : j < n) {x : ℝ} (h : InCell1 a j x) : a.lo ≤ x ∧ x < a.hi := by
  obtain ⟨hd, -, hhi⟩ := ha
  have h0' : (0 : ℝ) ≤ j := by exact_mod_cast h0
  have h1' : (j : ℝ) + 1 ≤ n := by exact_mod_cast h1
  unfold InCell1 at h
  have := mul_le_mul_of_nonneg_right h1' hd.le
  have := mul_nonneg h0' hd.le
  rw [hhi]
  constructor <;> linarith [h.1, h.2]

theorem anywhere_inside {a : Axis} {n j : ℤ} (ha : HasCells a n) (h0 : 0 ≤ j) (h1 : j < n) {r : ℝ} (hr : 0 ≤ r) : a.lo ≤ anywhere a r ∧ anywhere a r < a.hi := by
  obtain ⟨hd, -, hhi⟩ := ha
  have hn : (0 : ℝ) < n := by exact_mod_cast (show 0 < n by omega)
  have hl : 0 < a.hi - a.lo := by rw [hhi]; have := mul_pos hn hd; linarith
  have h2 : 0 ≤ min r (999 / 1000) := le_min hr (by norm_num)
  have h3 : min r (999 / 1000) ≤ 999 / 1000 := min_le_right _ _
  unfold anywhere
  have h4 := mul_nonneg h2 hl.le
  have h5 := mul_le_mul_of_nonneg_right h3 hl.le
  constructor <;> linarith

/-- Positions are inside the subdomain. -/
theorem load_inside {pdistr : ℤ} {m : Dom} {rng : ℕ → ℝ} {ss : List Sp} {res : List (List Part)} (hd : pdistr = 1 ∨ pdistr = 2)
    (h : loadParticles pdistr 3 m rng ss = .ok res) (hu : Uniform01 rng) {nx ny nz : ℤ} (hx : HasCells m.x nx) (hy : HasCells m.y ny)
    (hz : HasCells m.z nz) : ∀ ps ∈ res, ∀ p ∈ ps, (m.x.lo ≤ p.x ∧ p.x < m.x.hi) ∧ (m.y.lo ≤ p.y ∧ p.y < m.y.hi) ∧ (m.z.lo ≤ p.z ∧ p.z < m.z.hi) := by
  intro ps hps p hp
  obtain ⟨s, -, (⟨-, rfl⟩ | ⟨-, k, (⟨-, h1⟩ | ⟨-, h1⟩)⟩)⟩ := forall_mem_right (load_forall hd h) hps
  · simp at hp
  · have h2 : siteOf p ∈ sites m s := by rw [← uniform_sites h1]; exact List.mem_map_of_mem hp
    obtain ⟨l, hl, k, hk, j, hj, ip, hip, e⟩ := mem_sites h2
    rw [mem_cellsOf hx] at hj
    rw [mem_cellsOf hy] at hk
    rw [mem_cellsOf hz] at hl
    rw [mem_irange] at hip
    unfold siteOf at e
    simp only [Site.mk.injEq] at e
    obtain ⟨e1, e2, e3, -⟩ := e
    rw [e1, e2, e3]
    exact ⟨inCell_inside hx hj.1 hj.2.1 (place_in hx.1 hip.1 hip.2 j), inCell_inside hy hk.1 hk.2.1 (place_in hy.1 hip.1 hip.2 k),
      inCell_inside hz hl.1 hl.2.1 (place_in hz.1 hip.1 hip.2 l)⟩
  · unfold random at h1
    obtain ⟨a, ha, e⟩ := forall_mem_right (mapM_forall h1) hp
    obtain ⟨⟨l, hl⟩, ⟨k', hk⟩, ⟨j, hj⟩⟩ := mem_slots (List.fst_mem_of_mem_zipIdx ha)
    rw [mem_cellsOf hx] at hj
    rw [mem_cellsOf hy] at hk
    rw [mem_cellsOf hz] at hl
    have e' := (particle_spec e).1
    unfold siteOf at e'
    simp only [Site.mk.injEq] at e'
    obtain ⟨e1, e2, e3, -⟩ := e'
    rw [e1, e2, e3]
    exact ⟨anywhere_inside hx hj.1 hj.2.1 (hu _).1, anywhere_inside hy hk.1 hk.2.1 (hu _).1, anywhere_inside hz hl.1 hl.2.1 (hu _).1⟩

theorem sites_length (m : Dom) (s : Sp) : (slots m s).length = (sites m s).length := by
  unfold slots sites
  simp only [List.length_flatMap, List.length_map]

theorem map_const_of {α β : Type} {f : α → β} {b : β} {l : List α} (h : ∀ a ∈ l, f a = b) : l.map f = List.replicate l.length b := by
  rw [List.map_congr_left h, List.map_const']

theorem random_weights {m : Dom} {s : Sp} {rng : ℕ → ℝ} {n : ℕ} {ps : List Part} (h : random m s rng n = .ok ps) :
    ps.map (·.w) = (sites m s).map (·.w) := by
  have hl := random_length h
  unfold random at h
  rw [map_const_of (b := m.nc * m.x.d * m.y.d * m.z.d / s.npp) (f := fun p : Part => p.w), map_const_of (b := m.nc * m.x.d * m.y.d * m.z.d / s.npp) (f := fun p : Site => p.w), hl, sites_length]
  · intro p hp
    obtain ⟨l, hl, k, hk, j, hj, ip, hip, rfl⟩ := mem_sites hp
    rfl
  · intro p hp
    obtain ⟨a, ha, e⟩ := forall_mem_right (mapM_forall h) hp
    have e' := (particle_spec e).1
    unfold siteOf at e'
    simp only [Site.mk.injEq] at e'
    exact e'.2.2.2

end Picsar.Loading
