import Verif.Props.TileReduce

/-
C92: deposition of the charge tile by tile.
-/
namespace Picsar.Props
open Picsar Picsar.Grid Picsar.Deposition Picsar.Spec Picsar.TileReduce

variable {n : ℕ} {g : Geo} {tiles : I3 → GTile} {nt : I3} {σ : Mem}

theorem holds_F (hh : ∀ u, InBox ⟨1, 1, 1⟩ nt u → Holds σ .f (tiles u)) : ∀ u ∈ box ⟨1, 1, 1⟩ nt, ∀ c ∈ [Comp.f], Holds σ c (tiles u) := by
  intro u hu c hc
  rw [List.mem_singleton] at hc
  subst hc
  exact hh u (mem_box.mp hu)

theorem sum_onF (n : ℕ) (g : Geo) (tiles : I3 → GTile) (us : List I3) (i : I3) :
    (us.map fun u => onF (tileDensity n g (tiles u)) .f i).sum = totalCharge n g (toDeposit tiles us) i := by
  rw [← sum_tiles_rho]
  rfl

theorem sum_onF_ne (us : List I3) {c : Comp} (hc : c ≠ .f) (i : I3) : (us.map fun u => onF (tileDensity n g (tiles u)) c i).sum = 0 :=
  sum_zero fun _ _ => if_neg hc

/-- What the deposition must do: the charge of all the particles is added to the charge array, nothing else changes. -/
theorem charge_added (us : List I3) : ∃ τ, addF σ (fun c i => (us.map fun u => onF (tileDensity n g (tiles u)) c i).sum) = τ ∧
    (∀ c, c ≠ .f → τ c = σ c) ∧ (τ .f).lo = (σ .f).lo ∧ (τ .f).hi = (σ .f).hi ∧
    ∀ i, (τ .f).val i = (σ .f).val i + totalCharge n g (toDeposit tiles us) i := by
  refine ⟨_, rfl, fun c hc => ?_, rfl, rfl, fun i => ?_⟩
  · simp only [addF, sum_onF_ne us hc, add_zero]
  · simp only [addF]
    rw [sum_onF]

/-- **C92** (partial: one thread) The charge routine executed by one thread, taking the tiles in any order in each of the four loops, stays inside the
arrays and adds to the charge array the charge density of all the particles, each exactly once. -/
theorem C92_one_thread_partial (n : ℕ) (hn : n = 1 ∨ n = 2 ∨ n = 3) (g : Geo) (hg : Geo.Ok g) (tiles : I3 → GTile) (nt : I3) (σ : Mem)
    (ht : ∀ u, InBox ⟨1, 1, 1⟩ nt u → TileOk n g (tiles u)) (hh : ∀ u, InBox ⟨1, 1, 1⟩ nt u → Holds σ .f (tiles u))
    (o1 o2 o3 o4 : List I3) (h1 : o1.Perm (box ⟨1, 1, 1⟩ nt)) (h2 : o2.Perm (box ⟨1, 1, 1⟩ nt)) (h3 : o3.Perm (box ⟨1, 1, 1⟩ nt))
    (h4 : o4.Perm (box ⟨1, 1, 1⟩ nt)) (r : Res Mem)
    (h : SerialRun (fun t => tileRho n g t t.species t.zero) [.f] tiles (box ⟨1, 1, 1⟩ nt) o1 o2 o3 o4 σ r) :
    ∃ τ, r = .ok τ ∧ (∀ c, c ≠ .f → τ c = σ c) ∧ (τ .f).lo = (σ .f).lo ∧ (τ .f).hi = (σ .f).hi ∧
      ∀ i, (τ .f).val i = (σ .f).val i + totalCharge n g (toDeposit tiles (box ⟨1, 1, 1⟩ nt)) i := by
  rw [serial_ok (by decide) (works_rho hn hg fun u hu => ht u (mem_box.mp hu)) (holds_F hh) h1 h2 h3 h4 h]
  obtain ⟨τ, e, k⟩ := charge_added (n := n) (g := g) (tiles := tiles) (σ := σ) (box ⟨1, 1, 1⟩ nt)
  exact ⟨τ, by rw [e], k⟩

/-- **C92** (partial: a row of tiles along x) Every execution of the charge routine, any number of threads and any interleaving, adds the charge density
of all the particles when the domain is cut in tiles along x only, each at least twice as wide as the guard cells; and there is one. -/
theorem C92_row_partial (n : ℕ) (hn : n = 1 ∨ n = 2 ∨ n = 3) (g : Geo) (hg : Geo.Ok g) (tiles : I3 → GTile) (nt : I3) (σ : Mem)
    (ht : ∀ u, InBox ⟨1, 1, 1⟩ nt u → TileOk n g (tiles u)) (hh : ∀ u, InBox ⟨1, 1, 1⟩ nt u → Holds σ .f (tiles u)) (hr : Row tiles nt) :
    (∃ r, OmpRho n g tiles nt σ r) ∧ ∀ r, OmpRho n g tiles nt σ r →
      ∃ τ, r = .ok τ ∧ (∀ c, c ≠ .f → τ c = σ c) ∧ (τ .f).lo = (σ .f).lo ∧ (τ .f).hi = (σ .f).hi ∧
        ∀ i, (τ .f).val i = (σ .f).val i + totalCharge n g (toDeposit tiles (box ⟨1, 1, 1⟩ nt)) i := by
  have hw := works_rho hn hg (nt := nt) fun u hu => ht u (mem_box.mp hu)
  have hs : ∀ u ∈ box ⟨1, 1, 1⟩ nt, Shape (tiles u) := fun u hu => (hw u hu).shape
  refine ⟨⟨_, omp_exists (by decide) (nodup_box _ _) hw (holds_F hh)⟩, fun r h => ?_⟩
  rw [omp_ok (by decide) (nodup_box _ _) hw (holds_F hh) (fun u hu v hv e i => (row_disjoint hr hs hu hv e i).1)
    (fun u hu v hv e i => (row_disjoint hr hs hu hv e i).2.1) (fun u hu v hv e i => (row_disjoint hr hs hu hv e i).2.2.1)
    (fun u hu v hv e i => (row_disjoint hr hs hu hv e i).2.2.2) h]
  obtain ⟨τ, e, k⟩ := charge_added (n := n) (g := g) (tiles := tiles) (σ := σ) (box ⟨1, 1, 1⟩ nt)
  exact ⟨τ, by rw [e], k⟩

/-- **C92** (negative) Two tiles whose slabs in x share a node to which the second contributes charge: some execution ends with a wrong charge there. -/
theorem C92_race_refuted (n : ℕ) (hn : n = 1 ∨ n = 2 ∨ n = 3) (g : Geo) (hg : Geo.Ok g) (tiles : I3 → GTile) (nt : I3) (σ : Mem)
    (ht : ∀ u, InBox ⟨1, 1, 1⟩ nt u → TileOk n g (tiles u)) (hh : ∀ u, InBox ⟨1, 1, 1⟩ nt u → Holds σ .f (tiles u))
    (u v : I3) (hu : InBox ⟨1, 1, 1⟩ nt u) (hv : InBox ⟨1, 1, 1⟩ nt v) (huv : u ≠ v) (i : I3) (h1 : BeyondX (tiles u) i)
    (h2 : BeyondX (tiles v) i) (hd : (tiles u).deposited = true) (h0 : tileDensity n g (tiles v) i ≠ 0) :
    ∃ τ, OmpRho n g tiles nt σ (.ok τ) ∧
      (τ .f).val i ≠ (σ .f).val i + totalCharge n g (toDeposit tiles (box ⟨1, 1, 1⟩ nt)) i := by
  have hw := works_rho hn hg (nt := nt) fun u hu => ht u (mem_box.mp hu)
  obtain ⟨τ, r, e⟩ := omp_lost (σ := σ) (by decide) (nodup_box _ _) hw (holds_F hh) (mem_box.mpr hu)
    (mem_box.mpr hv) huv (c := .f) (by simp) (beyond_inX (hw u (mem_box.mpr hu)).shape h1)
    (beyond_inX (hw v (mem_box.mpr hv)).shape h2) hd
  refine ⟨τ, r, ?_⟩
  rw [e, sum_onF]
  intro h
  apply h0
  have : onF (tileDensity n g (tiles v)) .f i = tileDensity n g (tiles v) i := if_pos rfl
  rw [← this]
  linarith

/-! ### Instances: the tiles of C85 -/

theorem tr_density (y : ℝ) (hy : y = 13 / 4 ∨ y = 15 / 4) : density 1 trGeo (trPart y) 4 3 4 = (4 - y) / 4 := by
  rcases hy with rfl | rfl
  all_goals
    unfold density trGeo trPart
    norm_num [bspline, abs_le]

-- non-vacuity of C92_row_partial
example : ∃ τ, OmpRho 1 trGeo trTiles ⟨2, 1, 1⟩ trMem (.ok τ) ∧ (τ .f).val ⟨4, 3, 4⟩ = 3 / 16 := by
  obtain ⟨⟨r, h⟩, k⟩ := C92_row_partial 1 tr_order trGeo tr_geo trTiles ⟨2, 1, 1⟩ trMem (fun u _ => tr_ok u)
    (fun u hu => tr_holds (by norm_num) (by norm_num) u hu .f)
    ⟨rfl, rfl, fun j _ _ => by simp only [trTiles]; ring, 2, fun j _ _ => by simp only [trTiles]; omega⟩
  obtain ⟨τ, rfl, -, -, -, v⟩ := k r h
  refine ⟨τ, h, ?_⟩
  have hb : box ⟨1, 1, 1⟩ ⟨2, 1, 1⟩ = [⟨1, 1, 1⟩, ⟨2, 1, 1⟩] := by decide +kernel
  have hl : toDeposit trTiles [⟨1, 1, 1⟩, ⟨2, 1, 1⟩] = [(1, trPart (13 / 4))] := by simp [toDeposit, trTiles]
  have h1 : density 1 ⟨1, trGeo.xmin, trGeo.ymin, trGeo.zmin, trGeo.dx, trGeo.dy, trGeo.dz, trGeo.dt⟩ (trPart (13 / 4)) 4 3 4 = (4 - 13 / 4) / 4 :=
    tr_density _ (.inl rfl)
  rw [v, hb, hl]
  simp only [totalCharge, List.map_cons, List.map_nil, List.sum_cons, List.sum_nil, h1, trMem]
  norm_num

-- the race happens, at the same node as for the current
example : ∃ τ, OmpRho 1 trGeo trTiles ⟨2, 2, 1⟩ trMem (.ok τ) ∧
    (τ .f).val ⟨4, 3, 4⟩ ≠ (trMem .f).val ⟨4, 3, 4⟩ + totalCharge 1 trGeo (toDeposit trTiles (box ⟨1, 1, 1⟩ ⟨2, 2, 1⟩)) ⟨4, 3, 4⟩ := by
  have h0 : tileDensity 1 trGeo (trTiles ⟨1, 2, 1⟩) ⟨4, 3, 4⟩ = (4 - 15 / 4) / 4 := by
    have h2 : density 1 ⟨1, trGeo.xmin, trGeo.ymin, trGeo.zmin, trGeo.dx, trGeo.dy, trGeo.dz, trGeo.dt⟩ (trPart (15 / 4)) 4 3 4 = (4 - 15 / 4) / 4 :=
      tr_density _ (.inr rfl)
    have e : (trTiles ⟨1, 2, 1⟩).species = [⟨true, 1, [trPart (15 / 4)]⟩] := by simp [trTiles]
    simp only [tileDensity, e, densities, gridGeo, List.filter_cons, List.filter_nil, if_true, List.map_cons, List.map_nil, List.sum_cons,
      List.sum_nil, h2, add_zero]
  exact C92_race_refuted 1 tr_order trGeo tr_geo trTiles ⟨2, 2, 1⟩ trMem (fun u _ => tr_ok u)
    (fun u hu => tr_holds (by norm_num) (by norm_num) u hu .f) ⟨1, 1, 1⟩ ⟨1, 2, 1⟩ (by decide) (by decide) (by decide) ⟨4, 3, 4⟩
    (by simp [BeyondX, trTiles]) (by simp [BeyondX, trTiles]) (by simp [GTile.deposited, trTiles])
    (by rw [h0]; norm_num)

end Picsar.Props
