import Verif.Lemmas.TileCurrent
import Verif.Lemmas.DeposeFault
import Verif.Model.PicLoop
import Verif.Model.Tiling

/-
C85: deposition of the current tile by tile. C92: deposition of the charge tile by tile.
-/
namespace Picsar.Props
open Picsar Picsar.Grid Picsar.Deposition Picsar.Spec Picsar.TileReduce

/-- The three arrays of the current. -/
def IsJ (c : Comp) : Prop := c = .jx ∨ c = .jy ∨ c = .jz

theorem mem_J {c : Comp} (h : c ∈ [Comp.jx, .jy, .jz]) : IsJ c := by simpa [IsJ] using h

variable {n : ℕ} {g : Geo} {tiles : I3 → GTile} {nt : I3} {σ : Mem}

theorem works (hn : n = 1 ∨ n = 2 ∨ n = 3) (hg : Geo.Ok g) (ht : ∀ u ∈ box ⟨1, 1, 1⟩ nt, TileOk n g (tiles u)) :
    ∀ u ∈ box ⟨1, 1, 1⟩ nt, Work (fun t => tileJ n g t t.species t.zero) [.jx, .jy, .jz] (tiles u) (tileCurrent n g (tiles u)) :=
  fun u hu => work_current hn hg (ht u hu)

theorem works_rho (hn : n = 1 ∨ n = 2 ∨ n = 3) (hg : Geo.Ok g) (ht : ∀ u ∈ box ⟨1, 1, 1⟩ nt, TileOk n g (tiles u)) :
    ∀ u ∈ box ⟨1, 1, 1⟩ nt, Work (fun t => tileRho n g t t.species t.zero) [.f] (tiles u) (onF (tileDensity n g (tiles u))) :=
  fun u hu => work_rho hn hg (ht u hu)

theorem holds_J (hh : ∀ u ∈ box ⟨1, 1, 1⟩ nt, ∀ c, IsJ c → Holds σ c (tiles u)) :
    ∀ u ∈ box ⟨1, 1, 1⟩ nt, ∀ c ∈ [Comp.jx, .jy, .jz], Holds σ c (tiles u) := fun u hu c hc => hh u hu c (mem_J hc)

/-- **C85** Sequential deposition tile by tile, any particles on any tiles: it stays inside the arrays and adds to the grid the current of all the
particles, each exactly once, wherever they are in their tiles. -/
theorem C85_sequential (n : ℕ) (hn : n = 1 ∨ n = 2 ∨ n = 3) (g : Geo) (hg : Geo.Ok g) (tiles : I3 → GTile) (nt : I3) (σ : Mem)
    (ht : ∀ u, InBox ⟨1, 1, 1⟩ nt u → TileOk n g (tiles u)) (hh : ∀ u, InBox ⟨1, 1, 1⟩ nt u → ∀ c, IsJ c → Holds σ c (tiles u)) :
    ∃ τ, depositSeq n g tiles nt σ = .ok τ ∧ ∀ c, (τ c).lo = (σ c).lo ∧ (τ c).hi = (σ c).hi ∧
      ∀ i, (τ c).val i = (σ c).val i + totalCurrent n g (toDeposit tiles (box ⟨1, 1, 1⟩ nt)) c i := by
  refine ⟨_, seqRun_ok (by decide) _ σ (works hn hg fun u hu => ht u (mem_box.mp hu)) (holds_J fun u hu => hh u (mem_box.mp hu)),
    fun c => ⟨rfl, rfl, fun i => ?_⟩⟩
  simp only [addF]
  rw [sum_tiles]

/-- **C85** The division in tiles is invisible: two divisions holding the same particles, in whatever order, give the same current. -/
theorem C85_tiling_irrelevant (n : ℕ) (hn : n = 1 ∨ n = 2 ∨ n = 3) (g : Geo) (hg : Geo.Ok g) (tiles tiles' : I3 → GTile) (nt nt' : I3) (σ : Mem)
    (ht : ∀ u, InBox ⟨1, 1, 1⟩ nt u → TileOk n g (tiles u)) (hh : ∀ u, InBox ⟨1, 1, 1⟩ nt u → ∀ c, IsJ c → Holds σ c (tiles u))
    (ht' : ∀ u, InBox ⟨1, 1, 1⟩ nt' u → TileOk n g (tiles' u)) (hh' : ∀ u, InBox ⟨1, 1, 1⟩ nt' u → ∀ c, IsJ c → Holds σ c (tiles' u))
    (hp : (toDeposit tiles (box ⟨1, 1, 1⟩ nt)).Perm (toDeposit tiles' (box ⟨1, 1, 1⟩ nt'))) :
    depositSeq n g tiles nt σ = depositSeq n g tiles' nt' σ := by
  unfold depositSeq
  rw [seqRun_ok (by decide) _ σ (works hn hg fun u hu => ht u (mem_box.mp hu)) (holds_J fun u hu => hh u (mem_box.mp hu)),
    seqRun_ok (by decide) _ σ (works hn hg fun u hu => ht' u (mem_box.mp hu)) (holds_J fun u hu => hh' u (mem_box.mp hu))]
  congr 2
  funext c i
  rw [sum_tiles, sum_tiles]
  exact (hp.map _).sum_eq

theorem deposeAll_closed (hn : n = 1 ∨ n = 2 ∨ n = 3) (hg : Geo.Ok g) : ∀ (l : List (ℝ × List Part)) (σ : Mem),
    (∀ s ∈ l, ∀ p ∈ s.2, Slow g p) → (∀ s ∈ l, ∀ p ∈ s.2, ∀ c, IsJ c → Room n g (σ c).lo (σ c).hi p) →
    PicLoop.deposeAll n g l σ = .ok (addF σ fun c i => (l.map fun s => currents n { g with q := s.1 } s.2 c i).sum)
  | [], σ, _, _ => by simp [PicLoop.deposeAll, addF_zero]
  | s :: l, σ, h1, h2 => by
    unfold PicLoop.deposeAll
    rw [deposeJ_closed (g := { g with q := s.1 }) hn hg (h1 s (by simp)) (h2 s (by simp))]
    simp only [except_bind_ok]
    rw [deposeAll_closed hn hg l (addF σ (currents n { g with q := s.1 } s.2)) (fun s' h' => h1 s' (by simp [h'])) (fun s' h' => h2 s' (by simp [h'])),
      addF_add]
    simp

/-- **C85** It gives the same arrays as depositing all the particles directly on the grid, without tiles. -/
theorem C85_like_direct (n : ℕ) (hn : n = 1 ∨ n = 2 ∨ n = 3) (g : Geo) (hg : Geo.Ok g) (tiles : I3 → GTile) (nt : I3) (σ : Mem)
    (ht : ∀ u, InBox ⟨1, 1, 1⟩ nt u → TileOk n g (tiles u)) (hh : ∀ u, InBox ⟨1, 1, 1⟩ nt u → ∀ c, IsJ c → Holds σ c (tiles u)) :
    depositSeq n g tiles nt σ =
      PicLoop.deposeAll n g ((box ⟨1, 1, 1⟩ nt).flatMap fun u => ((tiles u).species.filter (·.depos)).map fun s => (s.q, s.ps)) σ := by
  have key : ∀ s ∈ ((box ⟨1, 1, 1⟩ nt).flatMap fun u => ((tiles u).species.filter (·.depos)).map fun s => (s.q, s.ps)),
      ∃ u, InBox ⟨1, 1, 1⟩ nt u ∧ ∃ s' ∈ (tiles u).species, s'.depos = true ∧ s.2 = s'.ps := by
    intro s hs
    obtain ⟨u, hu, hs⟩ := List.mem_flatMap.mp hs
    obtain ⟨s', hs', rfl⟩ := List.mem_map.mp hs
    obtain ⟨h1, h2⟩ := List.mem_filter.mp hs'
    exact ⟨u, mem_box.mp hu, s', h1, h2, rfl⟩
  rw [deposeAll_closed hn hg]
  · unfold depositSeq
    rw [seqRun_ok (by decide) _ σ (works hn hg fun u hu => ht u (mem_box.mp hu)) (holds_J fun u hu => hh u (mem_box.mp hu))]
    congr 2
    funext c i
    rw [sum_flatMap]
    congr 1
    apply List.map_congr_left
    intro u _
    rw [List.map_map]
    rfl
  · intro s hs p hp
    obtain ⟨u, hu, s', h1, h2, e⟩ := key s hs
    exact (ht u hu).slow s' h1 h2 p (e ▸ hp)
  · intro s hs p hp c hc
    obtain ⟨u, hu, s', h1, h2, e⟩ := key s hs
    obtain ⟨r1, r2, r3, r4, r5, r6⟩ := (ht u hu).room s' h1 h2 p (e ▸ hp)
    obtain ⟨b1, b2, b3, b4, b5, b6⟩ := hh u hu c hc
    have c1 : (((σ c).lo.j : ℤ) : ℝ) ≤ ((GTile.elo (tiles u)).j : ℤ) := by exact_mod_cast b1
    have c2 : (((GTile.ehi (tiles u)).j : ℤ) : ℝ) ≤ ((σ c).hi.j : ℤ) := by exact_mod_cast b2
    have c3 : (((σ c).lo.k : ℤ) : ℝ) ≤ ((GTile.elo (tiles u)).k : ℤ) := by exact_mod_cast b3
    have c4 : (((GTile.ehi (tiles u)).k : ℤ) : ℝ) ≤ ((σ c).hi.k : ℤ) := by exact_mod_cast b4
    have c5 : (((σ c).lo.l : ℤ) : ℝ) ≤ ((GTile.elo (tiles u)).l : ℤ) := by exact_mod_cast b5
    have c6 : (((GTile.ehi (tiles u)).l : ℤ) : ℝ) ≤ ((σ c).hi.l : ℤ) := by exact_mod_cast b6
    exact ⟨by linarith, by linarith, by linarith, by linarith, by linarith, by linarith⟩

/-- **C85** (partial: one thread) The OpenMP routine executed by one thread, taking the tiles in any order in each of the four loops: the same. -/
theorem C85_one_thread_partial (n : ℕ) (hn : n = 1 ∨ n = 2 ∨ n = 3) (g : Geo) (hg : Geo.Ok g) (tiles : I3 → GTile) (nt : I3) (σ : Mem)
    (ht : ∀ u, InBox ⟨1, 1, 1⟩ nt u → TileOk n g (tiles u)) (hh : ∀ u, InBox ⟨1, 1, 1⟩ nt u → ∀ c, IsJ c → Holds σ c (tiles u))
    (o1 o2 o3 o4 : List I3) (h1 : o1.Perm (box ⟨1, 1, 1⟩ nt)) (h2 : o2.Perm (box ⟨1, 1, 1⟩ nt)) (h3 : o3.Perm (box ⟨1, 1, 1⟩ nt))
    (h4 : o4.Perm (box ⟨1, 1, 1⟩ nt)) (r : Res Mem)
    (h : SerialRun (fun t => tileJ n g t t.species t.zero) [.jx, .jy, .jz] tiles (box ⟨1, 1, 1⟩ nt) o1 o2 o3 o4 σ r) :
    r = depositSeq n g tiles nt σ := by
  unfold depositSeq
  rw [seqRun_ok (by decide) _ σ (works hn hg fun u hu => ht u (mem_box.mp hu)) (holds_J fun u hu => hh u (mem_box.mp hu))]
  exact serial_ok (by decide) (works hn hg fun u hu => ht u (mem_box.mp hu)) (holds_J fun u hu => hh u (mem_box.mp hu)) h1 h2 h3 h4 h

/-- **C85** (partial: a row of tiles along x) Every execution of the OpenMP routine, any number of threads and any interleaving of their reads and
writes, gives the current of the sequential routine when the domain is cut in tiles along x only, each at least twice as wide as the guard cells. -/
theorem C85_row_partial (n : ℕ) (hn : n = 1 ∨ n = 2 ∨ n = 3) (g : Geo) (hg : Geo.Ok g) (tiles : I3 → GTile) (nt : I3) (σ : Mem)
    (ht : ∀ u, InBox ⟨1, 1, 1⟩ nt u → TileOk n g (tiles u)) (hh : ∀ u, InBox ⟨1, 1, 1⟩ nt u → ∀ c, IsJ c → Holds σ c (tiles u))
    (hr : Row tiles nt) :
    (∃ r, OmpCurrent n g tiles nt σ r) ∧ ∀ r, OmpCurrent n g tiles nt σ r → r = depositSeq n g tiles nt σ := by
  have hw := works hn hg (nt := nt) fun u hu => ht u (mem_box.mp hu)
  have hs : ∀ u ∈ box ⟨1, 1, 1⟩ nt, Shape (tiles u) := fun u hu => (hw u hu).shape
  refine ⟨⟨_, omp_exists (by decide) (nodup_box _ _) hw (holds_J fun u hu => hh u (mem_box.mp hu))⟩, fun r h => ?_⟩
  unfold depositSeq
  rw [seqRun_ok (by decide) _ σ hw (holds_J fun u hu => hh u (mem_box.mp hu))]
  exact omp_ok (by decide) (nodup_box _ _) hw (holds_J fun u hu => hh u (mem_box.mp hu))
    (fun u hu v hv e i => (row_disjoint hr hs hu hv e i).1) (fun u hu v hv e i => (row_disjoint hr hs hu hv e i).2.1)
    (fun u hu v hv e i => (row_disjoint hr hs hu hv e i).2.2.1) (fun u hu v hv e i => (row_disjoint hr hs hu hv e i).2.2.2) h

/-- **C85** (negative) The loop over the faces in x adds whole slabs, transverse guard cells included, without synchronisation: whenever the slabs of
two tiles share a node to which the second contributes, some execution ends with a wrong current there. -/
theorem C85_race_refuted (n : ℕ) (hn : n = 1 ∨ n = 2 ∨ n = 3) (g : Geo) (hg : Geo.Ok g) (tiles : I3 → GTile) (nt : I3) (σ : Mem)
    (ht : ∀ u, InBox ⟨1, 1, 1⟩ nt u → TileOk n g (tiles u)) (hh : ∀ u, InBox ⟨1, 1, 1⟩ nt u → ∀ c, IsJ c → Holds σ c (tiles u))
    (u v : I3) (hu : InBox ⟨1, 1, 1⟩ nt u) (hv : InBox ⟨1, 1, 1⟩ nt v) (huv : u ≠ v) (i : I3) (h1 : BeyondX (tiles u) i)
    (h2 : BeyondX (tiles v) i) (hd : (tiles u).deposited = true) (c : Comp) (hc : IsJ c) (h0 : tileCurrent n g (tiles v) c i ≠ 0) :
    ∃ τ, OmpCurrent n g tiles nt σ (.ok τ) ∧
      (τ c).val i ≠ (σ c).val i + totalCurrent n g (toDeposit tiles (box ⟨1, 1, 1⟩ nt)) c i := by
  have hw := works hn hg (nt := nt) fun u hu => ht u (mem_box.mp hu)
  obtain ⟨τ, r, e⟩ := omp_lost (σ := σ) (by decide) (nodup_box _ _) hw (holds_J fun u hu => hh u (mem_box.mp hu)) (mem_box.mpr hu)
    (mem_box.mpr hv) huv (c := c) (by rcases hc with rfl | rfl | rfl <;> simp) (beyond_inX (hw u (mem_box.mpr hu)).shape h1)
    (beyond_inX (hw v (mem_box.mpr hv)).shape h2) hd
  refine ⟨τ, r, ?_⟩
  rw [e, sum_tiles]
  intro h
  apply h0
  linarith

/-! ### An instance: two by two tiles of 4x4x8 nodes, a particle on each of the two lower ones in x -/

noncomputable def trGeo : Geo := ⟨1, 0, 0, 0, 1, 1, 1, 1⟩
noncomputable def trPart (y : ℝ) : Part := ⟨13 / 4, y, 4, 0, 1 / 4, 0, 1, 1⟩
noncomputable def trTiles (u : I3) : GTile :=
  ⟨⟨4 * (u.j - 1), 4 * (u.k - 1), 0⟩, ⟨4 * (u.j - 1) + 3, 4 * (u.k - 1) + 3, 7⟩, ⟨2, 2, 2⟩, 4 * (u.j - 1), 4 * (u.k - 1), 0,
    [⟨true, 1, if u = ⟨1, 1, 1⟩ then [trPart (13 / 4)] else if u = ⟨1, 2, 1⟩ then [trPart (15 / 4)] else []⟩]⟩
def trMem : Mem := fun _ => ⟨⟨-2, -2, -2⟩, ⟨9, 9, 9⟩, fun _ => 0⟩

theorem tr_geo : Geo.Ok trGeo := by unfold Geo.Ok trGeo; norm_num
theorem tr_order : (1 : ℕ) = 1 ∨ (1 : ℕ) = 2 ∨ (1 : ℕ) = 3 := .inl rfl

theorem tr_part {u : I3} {s : Spc} (hs : s ∈ (trTiles u).species) {p : Part} (hp : p ∈ s.ps) :
    (u = ⟨1, 1, 1⟩ ∧ p = trPart (13 / 4)) ∨ (u = ⟨1, 2, 1⟩ ∧ p = trPart (15 / 4)) := by
  simp only [trTiles, List.mem_singleton] at hs
  subst hs
  by_cases h1 : u = ⟨1, 1, 1⟩
  · left
    simpa [h1] using hp
  · by_cases h2 : u = ⟨1, 2, 1⟩
    · right
      simpa [h2] using hp
    · simp [h1, h2] at hp

theorem tr_ok (u : I3) : TileOk 1 trGeo (trTiles u) where
  wj := by simp [trTiles]
  wk := by simp [trTiles]
  wl := by simp [trTiles]
  gj := by simp [trTiles]
  gk := by simp [trTiles]
  gl := by simp [trTiles]
  ox := by simp [trTiles, trGeo]
  oy := by simp [trTiles, trGeo]
  oz := by simp [trTiles, trGeo]
  slow := by
    intro s hs _ p hp
    rcases tr_part hs hp with ⟨-, rfl⟩ | ⟨-, rfl⟩ <;> (unfold Slow trGeo trPart; norm_num [abs_lt])
  room := by
    intro s hs _ p hp
    rcases tr_part hs hp with ⟨rfl, rfl⟩ | ⟨rfl, rfl⟩ <;>
      (unfold Room GTile.elo GTile.ehi trGeo trPart trTiles Spec.cells; norm_num)

theorem tr_holds {nt : I3} (h1 : nt.j ≤ 2) (h2 : nt.k ≤ 2) (u : I3) (hu : InBox ⟨1, 1, 1⟩ nt u) (c : Comp) : Holds trMem c (trTiles u) := by
  obtain ⟨a1, a2, a3, a4, a5, a6⟩ := hu
  simp only [Holds, trMem, trTiles, GTile.elo, GTile.ehi]
  dsimp only at *
  refine ⟨?_, ?_, ?_, ?_, ?_, ?_⟩ <;> omega

/-- Current of the particle of tile (1, 2, 1) at node (4, 3, 4), beyond the upper face in x. -/
theorem tr_current (y : ℝ) (hy : y = 13 / 4 ∨ y = 15 / 4) : current 1 trGeo (trPart y) .jy ⟨4, 3, 4⟩ = 1 / 16 := by
  have f1 : ⌊(3 : ℝ)⌋ = 3 := by simp
  have f2 : ⌊(7 / 2 : ℝ)⌋ = 3 := by rw [Int.floor_eq_iff]; norm_num
  have I : (Finset.Icc (1 : ℤ) 3) = {1, 2, 3} := by decide
  rcases hy with rfl | rfl
  · have e : flux 1 (13 / 4) 3 3 = 1 / 4 := by
      unfold flux
      rw [min_eq_right (by norm_num), f1, show (3 : ℤ) - 2 = 1 by norm_num, I]
      norm_num [bspline, abs_le]
    have e2 : average 1 (13 / 4) (13 / 4) 4 4 4 4 = 1 / 4 := by
      unfold average
      norm_num [bspline, abs_le]
    have e3 : current 1 trGeo (trPart (13 / 4)) .jy ⟨4, 3, 4⟩ = 1 * 1 / (1 * 1 * 1) * flux 1 (13 / 4) 3 3 * average 1 (13 / 4) (13 / 4) 4 4 4 4 := by
      unfold current before trGeo trPart Spec.cells
      norm_num
    rw [e3, e, e2]
    norm_num
  · have e : flux 1 (15 / 4) (7 / 2) 3 = 1 / 4 := by
      unfold flux
      rw [min_eq_right (by norm_num), f2, show (3 : ℤ) - 2 = 1 by norm_num, I]
      norm_num [bspline, abs_le]
    have e2 : average 1 (13 / 4) (13 / 4) 4 4 4 4 = 1 / 4 := by
      unfold average
      norm_num [bspline, abs_le]
    have e3 : current 1 trGeo (trPart (15 / 4)) .jy ⟨4, 3, 4⟩ = 1 * 1 / (1 * 1 * 1) * flux 1 (15 / 4) (7 / 2) 3 * average 1 (13 / 4) (13 / 4) 4 4 4 4 := by
      unfold current before trGeo trPart Spec.cells
      norm_num
    rw [e3, e, e2]
    norm_num

theorem tr_all : toDeposit trTiles (box ⟨1, 1, 1⟩ ⟨2, 2, 1⟩) = [(1, trPart (13 / 4)), (1, trPart (15 / 4))] := by
  have : box ⟨1, 1, 1⟩ ⟨2, 2, 1⟩ = [⟨1, 1, 1⟩, ⟨2, 1, 1⟩, ⟨1, 2, 1⟩, ⟨2, 2, 1⟩] := by decide +kernel
  rw [this]
  simp [toDeposit, trTiles]

theorem tr_total : totalCurrent 1 trGeo (toDeposit trTiles (box ⟨1, 1, 1⟩ ⟨2, 2, 1⟩)) .jy ⟨4, 3, 4⟩ = 1 / 8 := by
  rw [tr_all]
  have h1 : current 1 ⟨1, trGeo.xmin, trGeo.ymin, trGeo.zmin, trGeo.dx, trGeo.dy, trGeo.dz, trGeo.dt⟩ (trPart (13 / 4)) .jy ⟨4, 3, 4⟩ = 1 / 16 :=
    tr_current _ (.inl rfl)
  have h2 : current 1 ⟨1, trGeo.xmin, trGeo.ymin, trGeo.zmin, trGeo.dx, trGeo.dy, trGeo.dz, trGeo.dt⟩ (trPart (15 / 4)) .jy ⟨4, 3, 4⟩ = 1 / 16 :=
    tr_current _ (.inr rfl)
  simp only [totalCurrent, List.map_cons, List.map_nil, List.sum_cons, List.sum_nil, h1, h2]
  norm_num

-- non-vacuity of C85_sequential, C85_like_direct and C85_one_thread_partial: the four tiles meet the hypotheses, and both particles deposit at (4, 3, 4)
example : ∃ τ, depositSeq 1 trGeo trTiles ⟨2, 2, 1⟩ trMem = .ok τ ∧ (τ .jy).val ⟨4, 3, 4⟩ = 1 / 8 := by
  obtain ⟨τ, e, h⟩ := C85_sequential 1 tr_order trGeo tr_geo trTiles ⟨2, 2, 1⟩ trMem (fun u _ => tr_ok u)
    (fun u hu c _ => tr_holds (by norm_num) (by norm_num) u hu c)
  refine ⟨τ, e, ?_⟩
  rw [(h .jy).2.2, tr_total]
  simp [trMem]

-- the race of C85_race_refuted happens: both tiles (1, 1, 1) and (1, 2, 1) add to node (4, 3, 4) in the loop over the faces in x
example : ∃ τ, OmpCurrent 1 trGeo trTiles ⟨2, 2, 1⟩ trMem (.ok τ) ∧ (τ .jy).val ⟨4, 3, 4⟩ ≠ 1 / 8 := by
  have h0 : tileCurrent 1 trGeo (trTiles ⟨1, 2, 1⟩) .jy ⟨4, 3, 4⟩ = 1 / 16 := by
    have h2 : current 1 ⟨1, trGeo.xmin, trGeo.ymin, trGeo.zmin, trGeo.dx, trGeo.dy, trGeo.dz, trGeo.dt⟩ (trPart (15 / 4)) .jy ⟨4, 3, 4⟩ = 1 / 16 :=
      tr_current _ (.inr rfl)
    have e : (trTiles ⟨1, 2, 1⟩).species = [⟨true, 1, [trPart (15 / 4)]⟩] := by simp [trTiles]
    simp only [tileCurrent, e, currents, gridGeo, List.filter_cons, List.filter_nil, if_true, List.map_cons, List.map_nil, List.sum_cons,
      List.sum_nil, h2]
    norm_num
  obtain ⟨τ, e, h⟩ := C85_race_refuted 1 tr_order trGeo tr_geo trTiles ⟨2, 2, 1⟩ trMem (fun u _ => tr_ok u)
    (fun u hu c _ => tr_holds (by norm_num) (by norm_num) u hu c) ⟨1, 1, 1⟩ ⟨1, 2, 1⟩ (by decide) (by decide) (by decide) ⟨4, 3, 4⟩
    (by simp [BeyondX, trTiles]) (by simp [BeyondX, trTiles]) (by simp [GTile.deposited, trTiles]) .jy (.inr (.inl rfl))
    (by rw [h0]; norm_num)
  refine ⟨τ, e, ?_⟩
  rw [tr_total] at h
  simpa [trMem] using h

-- non-vacuity of C85_row_partial: the two lower tiles form a row
example : ∃ r, OmpCurrent 1 trGeo trTiles ⟨2, 1, 1⟩ trMem r ∧ r = depositSeq 1 trGeo trTiles ⟨2, 1, 1⟩ trMem := by
  obtain ⟨⟨r, h⟩, k⟩ := C85_row_partial 1 tr_order trGeo tr_geo trTiles ⟨2, 1, 1⟩ trMem (fun u _ => tr_ok u)
    (fun u hu c _ => tr_holds (by norm_num) (by norm_num) u hu c)
    ⟨rfl, rfl, fun j _ _ => by simp only [trTiles]; ring, 2, fun j _ _ => by simp only [trTiles]; omega⟩
  exact ⟨r, h, k r h⟩

-- non-vacuity of C85_tiling_irrelevant: the same tiles numbered from the other end in y
noncomputable def trTiles' (u : I3) : GTile := trTiles ⟨u.j, 3 - u.k, u.l⟩
example : depositSeq 1 trGeo trTiles ⟨2, 2, 1⟩ trMem = depositSeq 1 trGeo trTiles' ⟨2, 2, 1⟩ trMem := by
  refine C85_tiling_irrelevant 1 tr_order trGeo tr_geo trTiles trTiles' ⟨2, 2, 1⟩ ⟨2, 2, 1⟩ trMem (fun u _ => tr_ok u)
    (fun u hu c _ => tr_holds (by norm_num) (by norm_num) u hu c) (fun u _ => tr_ok _) (fun u hu c _ => ?_) ?_
  · refine tr_holds (nt := ⟨2, 2, 1⟩) (by norm_num) (by norm_num) _ ?_ c
    obtain ⟨a1, a2, a3, a4, a5, a6⟩ := hu
    dsimp only at *
    refine ⟨?_, ?_, ?_, ?_, ?_, ?_⟩ <;> dsimp only <;> omega
  · rw [tr_all]
    have : box ⟨1, 1, 1⟩ ⟨2, 2, 1⟩ = [⟨1, 1, 1⟩, ⟨2, 1, 1⟩, ⟨1, 2, 1⟩, ⟨2, 2, 1⟩] := by decide +kernel
    rw [this]
    simp only [toDeposit, trTiles', trTiles]
    simp
    exact List.Perm.swap _ _ _

/-! ### The tiles the code makes are large enough -/

/-- **C85** The guard cells given to the tiles are enough, and the tile with its guard cells lies inside the grid arrays: a particle of the domain on
tile `i` has room for its shape of order `n`, if there are at least `n/2 + 1` guard cells around the domain (more than that if the particle may be
exactly on the lower edge of the tile). -/
theorem C85_guards_suffice (n : ℕ) (hn : n = 1 ∨ n = 2 ∨ n = 3) (nt nGrid : ℤ) (hnt : 1 ≤ nt) (hN : 1 ≤ nGrid) (s : Tiling.Split1)
    (h : Tiling.split1 nt nGrid = .ok s) (xmin dx : ℝ) (hdx : 0 < dx) (G : ℤ) (hG : (n : ℤ) + 2 ≤ 2 * G) (i : ℤ) (hi : 1 ≤ i ∧ i ≤ s.nt) :
    let e := Tiling.tileExt s xmin (xmin + (nGrid - 1) * dx) dx i
    let γ := guardCells n G s.nt i
    e.gridMin = xmin + e.nMin * dx ∧ e.nMin ≤ e.nMax ∧ 0 ≤ γ ∧ -G ≤ e.nMin - γ ∧ e.nMax + γ ≤ nGrid - 1 + G ∧
    ∀ x, xmin ≤ x → e.lo ≤ x → x < e.hi → (e.lo < x ∨ (n : ℤ) + 2 < 2 * G) →
      ((e.nMin - γ : ℤ) : ℝ) + ((n : ℝ) + 1) / 2 < cells x xmin dx ∧ cells x xmin dx < ((e.nMax + γ : ℤ) : ℝ) - ((n : ℝ) + 1) / 2 := by
  have hn3 : (n : ℤ) ≤ 3 := by omega
  have hn1 : (1 : ℤ) ≤ n := by omega
  have nG : (n : ℝ) + 2 ≤ 2 * G := by exact_mod_cast hG
  have n1 : (1 : ℝ) ≤ n := by exact_mod_cast hn1
  have pos : ∀ x a : ℝ, xmin + a * dx ≤ x → a ≤ cells x xmin dx := by
    intro x a hx
    unfold cells
    rw [le_div_iff₀ hdx]; linarith
  have spos : ∀ x a : ℝ, xmin + a * dx < x → a < cells x xmin dx := by
    intro x a hx
    unfold cells
    rw [lt_div_iff₀ hdx]; linarith
  have neg : ∀ x a : ℝ, x < xmin + a * dx → cells x xmin dx < a := by
    intro x a hx
    unfold cells
    rw [div_lt_iff₀ hdx]; linarith
  unfold Tiling.split1 at h
  rw [if_neg (by omega)] at h
  simp only [Except.ok.injEq] at h
  set n0 := nGrid.tdiv nt with hn0
  have hdiv : n0 * nt ≤ nGrid := by
    rw [hn0, Int.tdiv_eq_ediv_of_nonneg (by omega)]
    exact Int.ediv_mul_le _ (by omega)
  have hn0' : 0 ≤ n0 := Int.tdiv_nonneg (by omega) (by omega)
  -- the split: one tile, or tiles of at least four nodes
  have hs : (s.nt = 1 ∧ s.nLast = nGrid) ∨ (4 ≤ s.n0 ∧ s.n0 * s.nt ≤ nGrid ∧ s.nLast = s.n0 + (nGrid - s.n0 * s.nt)) := by
    rw [← h]
    by_cases c : n0 < 4
    · left
      simp only [c, if_true]
      exact ⟨trivial, by ring⟩
    · right
      simp only [c, if_false]
      exact ⟨by omega, hdiv, trivial⟩
  clear h hdiv hn0' hn0
  clear_value n0
  intro e γ
  -- a tile that is not the last is followed by another
  have hprod : s.nt ≠ 1 → i ≠ s.nt → 4 ≤ s.n0 ∧ i * s.n0 + s.nLast ≤ nGrid ∧ 4 ≤ s.nLast := by
    intro h1 h2
    rcases hs with hs | ⟨a, b, c⟩
    · exact absurd hs.1 h1
    · refine ⟨a, ?_, ?_⟩
      · nlinarith [show i + 1 ≤ s.nt by omega]
      · omega
  by_cases hl : i = s.nt
  · -- last tile
    have he : e = ⟨s.nLast, (i - 1) * s.n0, (i - 1) * s.n0 + (s.nLast - 1), xmin + ((i - 1) * s.n0 : ℤ) * dx,
        xmin + ((i - 1) * s.n0 : ℤ) * dx + (s.nLast - 1 : ℤ) * dx, xmin + ((i - 1) * s.n0 : ℤ) * dx - dx / 2, xmin + (nGrid - 1) * dx⟩ :=
      if_pos hl
    have hγ : γ = G := if_neg (by omega)
    have hmax : (i - 1) * s.n0 + (s.nLast - 1) = nGrid - 1 := by
      rcases hs with ⟨a, b⟩ | ⟨a, b, c⟩
      · rw [hl, a, b]; ring
      · rw [hl, c]; ring
    have hmin : 0 ≤ (i - 1) * s.n0 ∧ (i - 1) * s.n0 ≤ nGrid - 1 := by
      rcases hs with ⟨a, b⟩ | ⟨a, b, c⟩
      · rw [hl, a]; simp; omega
      · exact ⟨mul_nonneg (by omega) (by omega), by nlinarith⟩
    rw [he, hγ]
    dsimp only
    refine ⟨rfl, by omega, by omega, by omega, by omega, fun x x0 x1 x2 x3 => ⟨?_, ?_⟩⟩
    · push_cast
      have hm : ((i : ℝ) - 1) * s.n0 = (((i - 1) * s.n0 : ℤ) : ℝ) := by push_cast; ring
      rw [hm]
      rcases x3 with x3 | x3
      · have := spos x ((((i - 1) * s.n0 : ℤ) : ℝ) - 1 / 2) (by linarith)
        linarith
      · have := pos x ((((i - 1) * s.n0 : ℤ) : ℝ) - 1 / 2) (by linarith)
        have x3' : (n : ℝ) + 2 < 2 * G := by exact_mod_cast x3
        linarith
    · have := neg x (nGrid - 1) x2
      rw [hmax]
      push_cast
      linarith
  · have hnt1 : s.nt ≠ 1 := by omega
    obtain ⟨p1, p2, p3⟩ := hprod hnt1 hl
    by_cases hf : i = 1
    · have he : e = ⟨s.n0, (i - 1) * s.n0, (i - 1) * s.n0 + (s.n0 - 1), xmin, xmin + (s.n0 - 1 : ℤ) * dx, xmin,
          xmin + (s.n0 - 1 : ℤ) * dx + dx / 2⟩ := (if_neg hl).trans (if_pos hf)
      have hγ : γ = G := if_neg (by omega)
      rw [he, hγ]
      subst hf
      dsimp only
      rw [sub_self, zero_mul, zero_add]
      refine ⟨by simp, by omega, by omega, by omega, by omega, fun x x0 x1 x2 x3 => ⟨?_, ?_⟩⟩
      · have := pos x 0 (by linarith)
        push_cast
        linarith
      · have := neg x ((s.n0 - 1 : ℤ) + 1 / 2) (by linarith)
        push_cast at this ⊢
        linarith
    · have he : e = ⟨s.n0, (i - 1) * s.n0, (i - 1) * s.n0 + (s.n0 - 1), xmin + ((i - 1) * s.n0 : ℤ) * dx,
          xmin + ((i - 1) * s.n0 : ℤ) * dx + (s.n0 - 1 : ℤ) * dx, xmin + ((i - 1) * s.n0 : ℤ) * dx - dx / 2,
          xmin + ((i - 1) * s.n0 : ℤ) * dx + (s.n0 - 1 : ℤ) * dx + dx / 2⟩ := (if_neg hl).trans (if_neg hf)
      have hγ : γ = n + 1 := by
        have : γ = max ((n : ℤ) + 1) 2 := if_pos (by omega)
        omega
      have hmin : s.n0 ≤ (i - 1) * s.n0 := by nlinarith [show 2 ≤ i by omega]
      have hmul : i * s.n0 = (i - 1) * s.n0 + s.n0 := by ring
      rw [he, hγ]
      dsimp only
      refine ⟨rfl, by omega, by omega, by omega, by omega, fun x x0 x1 x2 x3 => ⟨?_, ?_⟩⟩
      · have := pos x ((((i - 1) * s.n0 : ℤ) : ℝ) - 1 / 2) (by linarith)
        push_cast at this ⊢
        linarith
      · have := neg x ((((i - 1) * s.n0 : ℤ) : ℝ) + ((s.n0 - 1 : ℤ) : ℝ) + 1 / 2) (by linarith)
        push_cast at this ⊢
        linarith

-- three tiles of 7, 7 and 8 nodes, order 3, three guard cells: a particle at 6.25 on the first tile has room
example : (((6 : ℤ) + 3 : ℤ) : ℝ) - 2 > Spec.cells 6.25 0 1 := by
  have h := C85_guards_suffice 3 (by norm_num) 3 22 (by norm_num) (by norm_num) ⟨3, 7, 8⟩ rfl 0 1 (by norm_num) 3 (by norm_num) 1 (by norm_num)
  have e : Tiling.tileExt ⟨3, 7, 8⟩ 0 (0 + (((22 : ℤ) : ℝ) - 1) * 1) 1 1 = ⟨7, (1 - 1) * 7, (1 - 1) * 7 + (7 - 1), 0, 0 + ((7 - 1 : ℤ) : ℝ) * 1, 0,
      0 + ((7 - 1 : ℤ) : ℝ) * 1 + 1 / 2⟩ := (if_neg (by norm_num)).trans (if_pos rfl)
  have γ : guardCells 3 3 3 1 = 3 := rfl
  dsimp only at h
  rw [e, γ] at h
  have := (h.2.2.2.2.2 6.25 (by norm_num) (by norm_num) (by norm_num) (.inr (by norm_num))).2
  norm_num at this ⊢
  linarith

/-! ### But not with the default number of guard cells -/

/-- **C85** (negative) Order 3 and the default number of guard cells, two tiles or more: on the first tile a particle just beyond the last node of the
tile, where the tile still owns it, that came from beyond the next node makes the deposition write outside the arrays of the tile. -/
theorem C85_default_guards_refuted (nt nGrid : ℤ) (s : Tiling.Split1) (_h : Tiling.split1 nt nGrid = .ok s) (h2 : 2 ≤ s.nt)
    (g : Geo) (hg : Geo.Ok g) (t : GTile) (xmax : ℝ) (e : Tiling.Ext) (he : e = Tiling.tileExt s g.xmin xmax g.dx 1)
    (ht : t.lo.j = e.nMin ∧ t.hi.j = e.nMax ∧ t.xmin = e.gridMin ∧ t.g.j = guardCells 3 defaultGuards s.nt 1)
    (sp : Spc) (hs : sp ∈ t.species) (hd : sp.depos = true) (p : Part) (hp : p ∈ sp.ps) (hsl : Slow g p)
    (_hx : e.gridMax ≤ p.x ∧ p.x < e.hi) (hb : e.gridMax + g.dx ≤ (before g p).x) :
    tileJ 3 g t t.species t.zero = .error .outOfBounds := by
  have he' : e = ⟨s.n0, (1 - 1) * s.n0, (1 - 1) * s.n0 + (s.n0 - 1), g.xmin, g.xmin + (s.n0 - 1 : ℤ) * g.dx, g.xmin,
      g.xmin + (s.n0 - 1 : ℤ) * g.dx + g.dx / 2⟩ := he.trans ((if_neg (by omega)).trans (if_pos rfl))
  have hγ : guardCells 3 defaultGuards s.nt 1 = 2 := if_neg (by omega)
  obtain ⟨t1, t2, t3, t4⟩ := ht
  rw [hγ] at t4
  rw [he'] at t1 t2 t3 hb
  dsimp only at t1 t2 t3 hb
  refine tileJ_overflow (by norm_num) hg hs hd hp hsl ?_
  have hc : t.cells.j = s.n0 - 1 := by
    simp only [GTile.cells]
    omega
  have hn : (s.n0 : ℤ) ≤ node 3 (Spec.cells (before g p).x t.xmin g.dx) := by
    have : node 3 (Spec.cells (before g p).x t.xmin g.dx) = ⌊Spec.cells (before g p).x t.xmin g.dx⌋ := if_neg (by norm_num)
    rw [this, Int.le_floor]
    unfold Spec.cells
    rw [le_div_iff₀ hg.1, t3]
    push_cast at hb
    linarith
  have h3 : (((3 + 1) / 2 : ℕ) : ℤ) = 2 := by norm_num
  rw [hc, t4, h3]
  omega

-- three tiles of 7, 7 and 8 nodes: a particle at 6.25 that came from 7
example : ∃ (t : GTile) (p : Part), Slow trGeo p ∧ (Tiling.tileExt ⟨3, 7, 8⟩ 0 21 1 1).lo ≤ p.x ∧ p.x < (Tiling.tileExt ⟨3, 7, 8⟩ 0 21 1 1).hi ∧
    t.species = [⟨true, 1, [p]⟩] ∧ tileJ 3 trGeo t t.species t.zero = .error .outOfBounds := by
  have e : Tiling.tileExt ⟨3, 7, 8⟩ 0 21 1 1 = ⟨7, (1 - 1) * 7, (1 - 1) * 7 + (7 - 1), 0, 0 + ((7 - 1 : ℤ) : ℝ) * 1, 0,
      0 + ((7 - 1 : ℤ) : ℝ) * 1 + 1 / 2⟩ := (if_neg (by norm_num)).trans (if_pos rfl)
  refine ⟨⟨⟨0, 0, 0⟩, ⟨6, 7, 7⟩, ⟨2, 2, 2⟩, 0, 0, 0, [⟨true, 1, [⟨25 / 4, 4, 4, -3 / 4, 0, 0, 1, 1⟩]⟩]⟩, ⟨25 / 4, 4, 4, -3 / 4, 0, 0, 1, 1⟩, ?_, ?_, ?_,
    rfl, ?_⟩
  · unfold Slow trGeo; norm_num [abs_lt]
  · rw [e]; norm_num
  · rw [e]; norm_num
  · refine C85_default_guards_refuted 3 22 ⟨3, 7, 8⟩ rfl (by norm_num) trGeo tr_geo _ 21 _ rfl ?_ ⟨true, 1, [⟨25 / 4, 4, 4, -3 / 4, 0, 0, 1, 1⟩]⟩ ?_ rfl
      ⟨25 / 4, 4, 4, -3 / 4, 0, 0, 1, 1⟩ ?_ ?_ ?_ ?_
    · change 0 = (Tiling.tileExt ⟨3, 7, 8⟩ 0 21 1 1).nMin ∧ 6 = (Tiling.tileExt ⟨3, 7, 8⟩ 0 21 1 1).nMax ∧
        0 = (Tiling.tileExt ⟨3, 7, 8⟩ 0 21 1 1).gridMin ∧ 2 = guardCells 3 defaultGuards 3 1
      rw [e]
      norm_num [guardCells, defaultGuards]
    · simp
    · simp
    · unfold Slow trGeo; norm_num [abs_lt]
    · change (Tiling.tileExt ⟨3, 7, 8⟩ 0 21 1 1).gridMax ≤ 25 / 4 ∧ 25 / 4 < (Tiling.tileExt ⟨3, 7, 8⟩ 0 21 1 1).hi
      rw [e]; norm_num
    · change (Tiling.tileExt ⟨3, 7, 8⟩ 0 21 1 1).gridMax + 1 ≤ 25 / 4 - 1 * (-3 / 4 * 1)
      rw [e]; norm_num

end Picsar.Props
