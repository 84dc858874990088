import Verif.Lemmas.RemapPartMsg
import Mathlib.Data.List.GetD
/-
Destinations of particles, and message passing.
-/
namespace Picsar.RemapPart
open Picsar Picsar.Grid Picsar.Tiling Picsar.PartExchange Picsar.Remap Picsar.LoadBalance

variable {n : ℕ}

/-! ### Destination along an axis -/

/-- Process `i` along the axis owns position `v`. -/
def In (C : Cuts) (i : ℕ) (v : ℝ) : Prop := C.Btw (C.ncmin.getD i 0) (C.ncmax.getD i 0 + 1) v

/-- Cell of a position. -/
noncomputable def cell (C : Cuts) (v : ℝ) : ℤ := ⌊(v - C.gmin) / C.d⌋

theorem btw_cell {C : Cuts} (hd : 0 < C.d) {a b : ℤ} {v : ℝ} : C.Btw a b v ↔ a ≤ cell C v ∧ cell C v < b := by
  unfold Cuts.Btw cell
  rw [Int.le_floor, Int.floor_lt, le_div_iff₀ hd, div_lt_iff₀ hd]
  constructor
  · rintro ⟨h1, h2⟩; exact ⟨by linarith, by linarith⟩
  · rintro ⟨h1, h2⟩; exact ⟨by linarith, by linarith⟩

theorem in_cell {C : Cuts} (hC : C.Ok) {i : ℕ} {v : ℝ} : In C i v ↔ C.ncmin.getD i 0 ≤ cell C v ∧ cell C v ≤ C.ncmax.getD i 0 := by
  unfold In
  rw [btw_cell hC.d, Int.lt_add_one_iff]

theorem in_unique {C : Cuts} (hC : C.Ok) {i j : ℕ} (hi : i < C.ncmin.length) (hj : j < C.ncmin.length) {v : ℝ} (h1 : In C i v) (h2 : In C j v) : i = j := by
  rw [in_cell hC] at h1 h2
  have hl := hC.len
  rw [List.getD_eq_getElem _ _ hi, List.getD_eq_getElem _ _ (by omega)] at h1
  rw [List.getD_eq_getElem _ _ hj, List.getD_eq_getElem _ _ (by omega)] at h2
  rcases lt_trichotomy i j with h | h | h
  · have := hC.ordered i j hj (by omega) h; omega
  · exact h
  · have := hC.ordered j i hi (by omega) h; omega

theorem in_exists {C : Cuts} (hC : C.Ok) {v : ℝ} (h : C.Btw 0 C.N v) : ∃ i, i < C.ncmin.length ∧ In C i v := by
  have := (btw_cell hC.d (a := 0) (b := C.N)).mp (by exact_mod_cast h)
  obtain ⟨i, h1, h2, h3⟩ := hC.cover _ this.1 this.2
  refine ⟨i, h1, ?_⟩
  rw [in_cell hC, List.getD_eq_getElem _ _ h1, List.getD_eq_getElem _ _ h2]
  exact h3

theorem axis_ok {C : Cuts} {A : AxisInfo} {c i : ℕ} (hC : C.Ok) (hA : Fit C A c) (hc : c < C.ncmin.length) (hi : i < C.ncmin.length) {v : ℝ}
    (h : In C i v) : axisProc A v = .ok (i : ℤ) := by
  have hl := hC.len
  unfold axisProc
  by_cases hv : v < A.lo ∨ v ≥ A.hi
  · rw [if_pos hv]
    have h' := (in_cell hC).mp h
    have hmin : 0 ≤ C.ncmin.getD i 0 := by
      rw [List.getD_eq_getElem _ _ hi]
      exact hC.nonneg _ (List.getElem_mem hi)
    have hpos : 0 ≤ (v - A.gmin) / A.d := by
      rw [hA.gmin, hA.d]
      have : (0 : ℤ) ≤ cell C v := by omega
      unfold cell at this
      exact Int.floor_nonneg.mp this
    have ht : trunc ((v - A.gmin) / A.d) = cell C v := by
      unfold trunc
      rw [if_pos hpos, hA.gmin, hA.d]
      rfl
    rw [ht, hA.ncmin, hA.ncmax]
    obtain ⟨r, e, k, -⟩ := Props.C67_interval_search C.ncmin C.ncmax hl (cell C v) (fun j hj => hC.nonempty j hj (by omega))
      (fun a b hab hb => hC.ordered a b hb (by omega) hab)
    rw [e, (k i hi).mpr]
    rw [List.getD_eq_getElem _ _ hi, List.getD_eq_getElem _ _ (by omega)] at h'
    exact h'
  · rw [if_neg hv]
    push Not at hv
    have hcv : In C c v := by
      unfold In Cuts.Btw
      rw [hA.lo, hA.hi] at hv
      push_cast
      exact hv
    rw [hA.coord, in_unique hC hc hi hcv h]

/-! ### Destination -/

theorem lim_ok {N : ℕ} {D : Domain} {at_ : Fin N → Place} {L1 L2 : Fin N → Lim} {P : Fin N → Proc n} (h : Agree D at_ L1 L2 P) (r : Fin N) : (L2 r).Ok := by
  obtain ⟨px, py, pz, -⟩ := h.place r
  have key : ∀ {C : Cuts} (hC : C.Ok) {i : ℕ} (hi : i < C.ncmin.length), C.ncmin.getD i 0 ≤ C.ncmax.getD i 0 + 1 := by
    intro C hC i hi
    have := hC.nonempty i hi (by rw [← hC.len]; exact hi)
    rw [List.getD_eq_getElem _ _ hi, List.getD_eq_getElem _ _ (by rw [← hC.len]; exact hi)]
    omega
  rw [h.new r]
  refine ⟨key h.x px, ?_, key h.z pz⟩
  unfold limits
  dsimp only
  split_ifs with hd
  · exact le_rfl
  · exact key (h.y (by simpa using hd)) py

theorem owns_in {N : ℕ} {D : Domain} {at_ : Fin N → Place} {L1 L2 : Fin N → Lim} {P : Fin N → Proc n} (h : Agree D at_ L1 L2 P) (r : Fin N) (p : Part n) :
    D.Owns (L2 r) p ↔ In D.x (at_ r).x p.x ∧ (D.dim2 = false → In D.y (at_ r).y p.y) ∧ In D.z (at_ r).z p.z := by
  rw [h.new r]
  unfold Domain.Owns limits In
  cases hd : D.dim2 <;> simp

theorem owns_unique {N : ℕ} {D : Domain} {at_ : Fin N → Place} {L1 L2 : Fin N → Lim} {P : Fin N → Proc n} (h : Agree D at_ L1 L2 P) {r s : Fin N} {p : Part n}
    (h1 : D.Owns (L2 r) p) (h2 : D.Owns (L2 s) p) : r = s := by
  rw [owns_in h] at h1 h2
  apply h.inj
  obtain ⟨a1, a2, a3, a4⟩ := h.place r
  obtain ⟨b1, b2, b3, b4⟩ := h.place s
  have ex := in_unique h.x a1 b1 h1.1 h2.1
  have ez := in_unique h.z a3 b3 h1.2.2 h2.2.2
  have ey : (at_ r).y = (at_ s).y := by
    by_cases hd : D.dim2 = true
    · rw [a4 hd, b4 hd]
    · have hd' : D.dim2 = false := by simpa using hd
      exact in_unique (h.y hd') a2 b2 (h1.2.1 hd') (h2.2.1 hd')
  cases hr : at_ r
  cases hs : at_ s
  simp only [hr, hs] at ex ey ez
  rw [ex, ey, ez]

theorem owner_exists {N : ℕ} {D : Domain} {at_ : Fin N → Place} {L1 L2 : Fin N → Lim} {P : Fin N → Proc n} (h : Agree D at_ L1 L2 P) (r : Fin N) {p : Part n}
    (hp : D.Has p) : ∃ d, D.Owns (L2 d) p := by
  obtain ⟨i, hi, i1⟩ := in_exists h.x hp.1
  obtain ⟨k, hk, k1⟩ := in_exists h.z hp.2.2
  have hj : ∃ j, j < D.y.ncmin.length ∧ (D.dim2 = true → j = 0) ∧ (D.dim2 = false → In D.y j p.y) := by
    by_cases hd : D.dim2 = true
    · obtain ⟨-, a2, -, a4⟩ := h.place r
      exact ⟨(at_ r).y, a2, a4, fun e => by rw [hd] at e; cases e⟩
    · have hd' : D.dim2 = false := by simpa using hd
      obtain ⟨j, j1, j2⟩ := in_exists (h.y hd') (hp.2.1 hd')
      exact ⟨j, j1, fun e => absurd e hd, fun _ => j2⟩
  obtain ⟨j, hj, j1, j2⟩ := hj
  obtain ⟨d, e, -⟩ := h.rank ⟨i, j, k⟩ ⟨hi, hj, hk, j1⟩
  refine ⟨d, ?_⟩
  rw [owns_in h, e]
  exact ⟨i1, j2, k1⟩

theorem meets {N : ℕ} {D : Domain} {at_ : Fin N → Place} {L1 L2 : Fin N → Lim} {P : Fin N → Proc n} (h : Agree D at_ L1 L2 P) {r d : Fin N} {p : Part n}
    (h1 : D.Owns (L1 r) p) (h2 : D.Owns (L2 d) p) : (inter3 (L1 r) (L2 d)).1 = true := by
  have hx1 := (btw_cell h.x.d).mp h1.1
  have hx2 := (btw_cell h.x.d).mp h2.1
  have hz1 := (btw_cell h.z.d).mp h1.2.2
  have hz2 := (btw_cell h.z.d).mp h2.2.2
  have hy : ∃ c, ((L1 r).lo.k ≤ c ∧ c ≤ (L1 r).hi.k) ∧ ((L2 d).lo.k ≤ c ∧ c ≤ (L2 d).hi.k) := by
    by_cases hd : D.dim2 = true
    · obtain ⟨f1, f2⟩ := h.flat hd r
      refine ⟨0, by omega, ?_⟩
      rw [h.new d]
      simp [limits, hd]
    · have hd' : D.dim2 = false := by simpa using hd
      have a := (btw_cell (h.y hd').d).mp (h1.2.1 hd')
      have b := (btw_cell (h.y hd').d).mp (h2.2.1 hd')
      exact ⟨cell D.y p.y, by omega, by omega⟩
  obtain ⟨c, hy1, hy2⟩ := hy
  refine inter3_flag (h.old r) (lim_ok h d) (p := ⟨cell D.x p.x, c, cell D.z p.z⟩) ?_ ?_
  · exact ⟨hx1.1, hx1.2.le, hy1.1, hy1.2, hz1.1, hz1.2.le⟩
  · exact ⟨hx2.1, hx2.2.le, hy2.1, hy2.2, hz2.1, hz2.2.le⟩

theorem ranks_sorted {N : ℕ} (L1 L2 : Fin N → Lim) (r : Fin N) : ((sendTo L1 L2 r).map fun d => (d.val : ℤ)).Pairwise (· ≤ ·) := by
  rw [List.pairwise_map]
  refine List.Pairwise.sublist List.filter_sublist ?_
  exact (List.pairwise_lt_finRange N).imp fun h => by
    have : (_ : Fin N).val < (_ : Fin N).val := h
    exact_mod_cast this.le

theorem route_ok {N : ℕ} {D : Domain} {at_ : Fin N → Place} {L1 L2 : Fin N → Lim} {P : Fin N → Proc n} (h : Agree D at_ L1 L2 P) {r d : Fin N} {p : Part n}
    (h1 : D.Owns (L1 r) p) (h2 : D.Owns (L2 d) p) :
    route (P r) p = .ok (if d = r then none else some ((sendTo L1 L2 r).idxOf d + 1 : ℤ)) ∧ (d ≠ r → d ∈ sendTo L1 L2 r) := by
  have hin := (owns_in h d p).mp h2
  obtain ⟨a1, a2, a3, a4⟩ := h.place r
  obtain ⟨b1, b2, b3, b4⟩ := h.place d
  have ex := axis_ok h.x (h.fx r) a1 b1 hin.1
  have ez := axis_ok h.z (h.fz r) a3 b3 hin.2.2
  have ey : yProc (P r) p = .ok ((at_ d).y : ℤ) := by
    unfold yProc
    rw [h.dim2 r]
    by_cases hd : D.dim2 = true
    · rw [if_pos hd, (h.fy r).1, a4 hd, b4 hd]
    · have hd' : D.dim2 = false := by simpa using hd
      rw [if_neg hd]
      exact axis_ok (h.y hd') ((h.fy r).2 hd') a2 b2 (hin.2.1 hd')
  have hmem : d ≠ r → d ∈ sendTo L1 L2 r := fun hne => by
    unfold sendTo
    rw [List.mem_filter]
    exact ⟨List.mem_finRange d, by simpa using ⟨hne, meets h h1 h2⟩⟩
  refine ⟨?_, hmem⟩
  unfold route
  rw [ex]
  simp only [except_bind_ok]
  rw [ey]
  simp only [except_bind_ok]
  rw [ez]
  simp only [except_bind_ok]
  rw [(h.fx r).coord, (h.fy r).1, (h.fz r).coord]
  by_cases hdr : d = r
  · subst hdr
    simp
  · have hne : ((at_ d).x : ℤ) ≠ (at_ r).x ∨ ((at_ d).y : ℤ) ≠ (at_ r).y ∨ ((at_ d).z : ℤ) ≠ (at_ r).z := by
      by_contra hc
      push Not at hc
      apply hdr
      apply h.inj
      obtain ⟨c1, c2, c3⟩ := hc
      cases hd' : at_ d
      cases hr' : at_ r
      simp only [hd', hr', Nat.cast_inj] at c1 c2 c3
      rw [c1, c2, c3]
    rw [if_pos hne, if_neg hdr]
    obtain ⟨d', e1, e2⟩ := h.rank (at_ d) (h.place d)
    have : d' = d := h.inj _ _ e1
    subst this
    rw [e2 r, h.ranks r]
    obtain ⟨q, eq, q1, q2⟩ := Props.C67_rank_search ((sendTo L1 L2 r).map fun d => (d.val : ℤ)) (d'.val : ℤ) (ranks_sorted L1 L2 r)
    have hm := hmem hdr
    obtain ⟨i, hi, qi, ei⟩ := q2 (fun hq => q1.mp hq (List.mem_map.mpr ⟨d', hm, rfl⟩))
    rw [List.length_map] at hi
    rw [List.getElem_map] at ei
    have hid : (sendTo L1 L2 r)[i] = d' := by
      apply Fin.ext
      exact_mod_cast ei
    have hidx : (sendTo L1 L2 r).idxOf d' = i := by
      rw [← hid]
      exact List.Nodup.idxOf_getElem ((List.nodup_finRange N).filter _) i hi
    rw [eq, except_bind_ok, if_pos (by rw [List.length_map]; omega), qi, hidx]

/-- Destination of a particle and the process that owns it. -/
theorem dest_ok {N : ℕ} {D : Domain} {at_ : Fin N → Place} {L1 L2 : Fin N → Lim} {P : Fin N → Proc n} (h : Agree D at_ L1 L2 P) {r : Fin N} {p : Part n}
    (h1 : D.Owns (L1 r) p) (hp : D.Has p) : (dest (P r) p = none ↔ D.Owns (L2 r) p) ∧
    ∀ d ∈ sendTo L1 L2 r, dest (P r) p = some ((sendTo L1 L2 r).idxOf d + 1 : ℤ) ↔ D.Owns (L2 d) p := by
  obtain ⟨e, he⟩ := owner_exists h r hp
  obtain ⟨k, km⟩ := route_ok h h1 he
  have hd : dest (P r) p = if e = r then none else some ((sendTo L1 L2 r).idxOf e + 1 : ℤ) := by unfold dest; rw [k]
  rw [hd]
  constructor
  · by_cases her : e = r
    · subst her; simpa using he
    · rw [if_neg her]
      exact ⟨fun hc => (by cases hc), fun ho => absurd (owns_unique h he ho) her⟩
  · intro d hdm
    have hdr : d ≠ r := by
      unfold sendTo at hdm
      rw [List.mem_filter] at hdm
      simpa using (by simpa using hdm.2 : d ≠ r ∧ _).1
    by_cases her : e = r
    · rw [if_pos her]
      exact ⟨fun hc => (by cases hc), fun ho => absurd ((owns_unique h ho he).trans her) hdr⟩
    · rw [if_neg her]
      constructor
      · intro hc
        have : (sendTo L1 L2 r).idxOf e = (sendTo L1 L2 r).idxOf d := by
          injection hc with hc
          omega
        have := (List.idxOf_inj (km her)).mp this
        exact this ▸ he
      · intro ho
        rw [owns_unique h he ho]

end Picsar.RemapPart
