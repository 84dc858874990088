import Verif.Model.Deposition

/-
Deposition tile by tile and addition of the tile arrays to the grid arrays:
src/particle_deposition/current_deposition/current_deposition_manager_3d.F90 (pxrdepose_currents_on_grid_jxjyjz_esirkepov_sub_openmp
1534-1813, _esirkepov_sub_seq 2233-2315; the tile reduction of _classical_sub_openmp 513-790 is the same text) and
src/particle_deposition/charge_deposition/charge_deposition_manager.F90 (pxrdepose_rho_on_grid_sub_openmp_3d 516-743).
An iteration of an `!$OMP DO` loop is a thread of its own (an execution with fewer threads is one of the interleavings); `!$OMP END DO` is a barrier.
An array assignment is executed element by element, each element with a separate read and write of the grid array.
The arrays of a tile are private to its iteration, so their values are computed when the program of the iteration is built.
-/
namespace Picsar.TileReduce
open Picsar Picsar.Grid Picsar.Deposition

/-- The particles of a species on one tile: `ldodepos`, `charge`, and the first `np_tile(1)` particles. -/
structure Spc where
  depos : Bool
  q : ℝ
  ps : List Part

/-- `particle_tile` as the deposition uses it: `nx_tile_min`.., `nx_tile_max`.., guard cells `nxg_tile`.., `x_grid_tile_min`.. and the particles of
every species. -/
structure GTile where
  lo : I3
  hi : I3
  g : I3
  xmin : ℝ
  ymin : ℝ
  zmin : ℝ
  species : List Spc

/-- Guard cells of tile `i` of `nt` along one direction, order `n`, `G = nxjguards` (src/parallelization/tiling/tiling.F90:763-778). -/
def guardCells (n : ℕ) (G nt i : ℤ) : ℤ := if i > 1 ∧ i < nt then max (n + 1) 2 else G

/-- `nxjguards` when the input does not give it: `default_init` computes `nxjguards=MAX(nox, 2_idp)` while `nox` still has its default value 1, before the
input file is read (src/initialization/control_file.F90:108-116); setting `nox` (641-643) or `nguardsx` (905-907) in the input file does not change it,
only `njguardsx` does (923-925). -/
def defaultGuards : ℤ := max 1 2

/-- `nx_cells_tile = nx_grid_tile-1 = nx_tile_max-nx_tile_min` (src/parallelization/tiling/tiling.F90:157-183). -/
def GTile.cells (t : GTile) : I3 := ⟨t.hi.j - t.lo.j, t.hi.k - t.lo.k, t.hi.l - t.lo.l⟩

/-- Bounds `-ng1:n1+ng1, ...` of `arr1`, `arr2`, `arr3` (tiling.F90:836-841). -/
def GTile.alo (t : GTile) : I3 := ⟨-t.g.j, -t.g.k, -t.g.l⟩
def GTile.ahi (t : GTile) : I3 := ⟨t.cells.j + t.g.j, t.cells.k + t.g.k, t.cells.l + t.g.l⟩

/-- `currg%arr1=0.; currg%arr2=0.; currg%arr3=0.` (manager_3d 1609-1611); the three arrays are held under `jx`, `jy`, `jz`, the single array of the
charge (charge manager 589) under `f`. -/
def GTile.zero (t : GTile) : Mem := fun _ => ⟨t.alo, t.ahi, fun _ => 0⟩

/-- `isdeposited` (manager_3d 1612-1622, 1651-1658). -/
def GTile.deposited (t : GTile) : Bool := t.species.any fun s => s.depos && !s.ps.isEmpty

/-- Arguments of the deposition on a tile: the charge of the species and the origin of the tile. -/
def tileGeo (g : Geo) (t : GTile) (s : Spc) : Geo := ⟨s.q, t.xmin, t.ymin, t.zmin, g.dx, g.dy, g.dz, g.dt⟩

/-- Loop over the species of a tile, current (manager_3d 1613-1632). -/
noncomputable def tileJ (n : ℕ) (g : Geo) (t : GTile) : List Spc → Mem → Res Mem
  | [], τ => .ok τ
  | s :: ss, τ =>
    if !s.depos then tileJ n g t ss τ
    else if s.ps.isEmpty then tileJ n g t ss τ
    else do
      let τ ← deposeJ n (tileGeo g t s) s.ps τ
      tileJ n g t ss τ

/-- Loop over the species of a tile, charge (charge manager 591-607). -/
noncomputable def tileRho (n : ℕ) (g : Geo) (t : GTile) : List Spc → Mem → Res Mem
  | [], τ => .ok τ
  | s :: ss, τ =>
    if !s.depos then tileRho n g t ss τ
    else if s.ps.isEmpty then tileRho n g t ss τ
    else do
      let a ← deposeRho n (tileGeo g t s) s.ps (τ .f)
      tileRho n g t ss (Function.update τ .f a)

/-- One element of `jxg(...) = jxg(...) + currg%arr1(...)`. -/
structure Add where
  c : Comp
  i : I3
  v : ℝ

/-- `A(alo:ahi) = A(alo:ahi) + B(blo:bhi)`. -/
structure Sec where
  c : Comp
  alo : I3
  ahi : I3
  blo : I3
  bhi : I3

/-- The elements of an array assignment; the sections must have the same shape and the tile array must contain its section. -/
noncomputable def Sec.adds (τ : Mem) (s : Sec) : Res (List Add) :=
  if s.ahi.j - s.alo.j = s.bhi.j - s.blo.j ∧ s.ahi.k - s.alo.k = s.bhi.k - s.blo.k ∧ s.ahi.l - s.alo.l = s.bhi.l - s.blo.l then
    (box s.alo s.ahi).mapM fun i => do
      let v ← (τ s.c).get ⟨s.blo.j + (i.j - s.alo.j), s.blo.k + (i.k - s.alo.k), s.blo.l + (i.l - s.alo.l)⟩
      pure ⟨s.c, i, v⟩
  else .error .outOfBounds

/-- A sequence of array assignments. -/
noncomputable def adds (τ : Mem) (ss : List Sec) : Res (List Add) := do
  let ls ← ss.mapM fun s => s.adds τ
  pure ls.flatten

/-- Own cells of the tile (manager_3d 1633-1640, charge manager 608-611). -/
def secOwn (cs : List Comp) (t : GTile) : List Sec := cs.map fun c => ⟨c, t.lo, t.hi, ⟨0, 0, 0⟩, t.cells⟩

/-- Guard cells beyond the faces in x, over the whole transverse extent (manager_3d 1676-1699, charge manager 648-654). -/
def secX (cs : List Comp) (t : GTile) : List Sec := cs.flatMap fun c =>
  [⟨c, ⟨t.lo.j - t.g.j, t.lo.k - t.g.k, t.lo.l - t.g.l⟩, ⟨t.lo.j - 1, t.hi.k + t.g.k, t.hi.l + t.g.l⟩,
      ⟨-t.g.j, -t.g.k, -t.g.l⟩, ⟨-1, t.cells.k + t.g.k, t.cells.l + t.g.l⟩⟩,
    ⟨c, ⟨t.hi.j + 1, t.lo.k - t.g.k, t.lo.l - t.g.l⟩, ⟨t.hi.j + t.g.j, t.hi.k + t.g.k, t.hi.l + t.g.l⟩,
      ⟨t.cells.j + 1, -t.g.k, -t.g.l⟩, ⟨t.cells.j + t.g.j, t.cells.k + t.g.k, t.cells.l + t.g.l⟩⟩]

/-- Guard cells beyond the faces in y (manager_3d 1735-1752, charge manager 691-695). -/
def secY (cs : List Comp) (t : GTile) : List Sec := cs.flatMap fun c =>
  [⟨c, ⟨t.lo.j, t.lo.k - t.g.k, t.lo.l - t.g.l⟩, ⟨t.hi.j, t.lo.k - 1, t.hi.l + t.g.l⟩,
      ⟨0, -t.g.k, -t.g.l⟩, ⟨t.cells.j, -1, t.cells.l + t.g.l⟩⟩,
    ⟨c, ⟨t.lo.j, t.hi.k + 1, t.lo.l - t.g.l⟩, ⟨t.hi.j, t.hi.k + t.g.k, t.hi.l + t.g.l⟩,
      ⟨0, t.cells.k + 1, -t.g.l⟩, ⟨t.cells.j, t.cells.k + t.g.k, t.cells.l + t.g.l⟩⟩]

/-- Guard cells beyond the faces in z (manager_3d 1788-1805, charge manager 732-736). -/
def secZ (cs : List Comp) (t : GTile) : List Sec := cs.flatMap fun c =>
  [⟨c, ⟨t.lo.j, t.lo.k, t.lo.l - t.g.l⟩, ⟨t.hi.j, t.hi.k, t.lo.l - 1⟩,
      ⟨0, 0, -t.g.l⟩, ⟨t.cells.j, t.cells.k, -1⟩⟩,
    ⟨c, ⟨t.lo.j, t.lo.k, t.hi.l + 1⟩, ⟨t.hi.j, t.hi.k, t.hi.l + t.g.l⟩,
      ⟨0, 0, t.cells.l + 1⟩, ⟨t.cells.j, t.cells.k, t.cells.l + t.g.l⟩⟩]

/-- The whole tile array at once, in the sequential routine (manager_3d 2271-2276, 2304-2311). -/
def secAll (cs : List Comp) (t : GTile) : List Sec := cs.map fun c =>
  ⟨c, ⟨t.lo.j - t.g.j, t.lo.k - t.g.k, t.lo.l - t.g.l⟩, ⟨t.hi.j + t.g.j, t.hi.k + t.g.k, t.hi.l + t.g.l⟩, t.alo, t.ahi⟩

/-! ### Sequential routine -/

/-- One tile: deposition in the tile arrays (`work`), then the additions (manager_3d 2268-2312). -/
noncomputable def seqTile (work : GTile → Res Mem) (cs : List Comp) (t : GTile) (σ : Mem) : Res Mem := do
  let τ ← work t
  if t.deposited then
    let l ← adds τ (secAll cs t)
    l.foldlM (fun (σ : Mem) (a : Add) => bumpMem σ a.c a.i a.v) σ
  else pure σ

/-- `DO iz=1, ntilez; DO iy=1, ntiley; DO ix=1, ntilex` (manager_3d 2261-2314); `us` is the list of the tiles in this order. -/
noncomputable def seqRun (work : GTile → Res Mem) (cs : List Comp) (tiles : I3 → GTile) (us : List I3) (σ : Mem) : Res Mem :=
  us.foldlM (fun (σ : Mem) (u : I3) => seqTile work cs (tiles u) σ) σ

/-- `pxrdepose_currents_on_grid_jxjyjz_esirkepov_sub_seq` (manager_3d 2233-2315). -/
noncomputable def depositSeq (n : ℕ) (g : Geo) (tiles : I3 → GTile) (nt : I3) (σ : Mem) : Res Mem :=
  seqRun (fun t => tileJ n g t t.species t.zero) [.jx, .jy, .jz] tiles (box ⟨1, 1, 1⟩ nt) σ

/-! ### OpenMP routine -/

/-- The additions of a tile in the four loops; none if nothing was deposited on it (manager_3d 1633, 1659, 1718, 1771). -/
noncomputable def phases (work : GTile → Res Mem) (cs : List Comp) (t : GTile) : Res (List (List Add)) := do
  let τ ← work t
  if t.deposited then do
    let o ← adds τ (secOwn cs t)
    let x ← adds τ (secX cs t)
    let y ← adds τ (secY cs t)
    let z ← adds τ (secZ cs t)
    pure [o, x, y, z]
  else pure [[], [], [], []]

/-- The iteration of one tile: additions still to make, and the value read by the one in progress. -/
structure Thr where
  todo : List Add
  reg : Option ℝ

/-- Grid arrays and iterations of one parallel loop. -/
structure Cfg where
  mem : Mem
  thr : I3 → Thr

/-- Next access of the iteration `u` to a grid array: read the element, or write it back; `none` when the iteration is finished. -/
noncomputable def step (u : I3) (s : Cfg) : Option (Res Cfg) :=
  match s.thr u with
  | ⟨[], _⟩ => none
  | ⟨a :: r, none⟩ => some (do
    let x ← (s.mem a.c).get a.i
    pure ⟨s.mem, Function.update s.thr u ⟨a :: r, some x⟩⟩)
  | ⟨a :: r, some x⟩ => some (do
    let b ← (s.mem a.c).set a.i (x + a.v)
    pure ⟨Function.update s.mem a.c b, Function.update s.thr u ⟨r, none⟩⟩)

/-- Executions of a parallel loop over the tiles `us`, up to the barrier or to a fault: any iteration may advance at any time. -/
inductive Run (us : List I3) : Cfg → Res Mem → Prop
  | done {s : Cfg} : (∀ u ∈ us, (s.thr u).todo = []) → Run us s (.ok s.mem)
  | fault {s : Cfg} {u : I3} {e : Fault} : u ∈ us → step u s = some (.error e) → Run us s (.error e)
  | step {s s' : Cfg} {u : I3} {r : Res Mem} : u ∈ us → step u s = some (.ok s') → Run us s' r → Run us s r

/-- Executions of the parallel loops one after the other; `ps` gives the additions of every tile in every loop. -/
inductive Loops (us : List I3) : List (I3 → List Add) → Mem → Res Mem → Prop
  | nil {σ : Mem} : Loops us [] σ (.ok σ)
  | fault {p : I3 → List Add} {ps : List (I3 → List Add)} {σ : Mem} {e : Fault} :
      Run us ⟨σ, fun u => ⟨p u, none⟩⟩ (.error e) → Loops us (p :: ps) σ (.error e)
  | cons {p : I3 → List Add} {ps : List (I3 → List Add)} {σ τ : Mem} {r : Res Mem} :
      Run us ⟨σ, fun u => ⟨p u, none⟩⟩ (.ok τ) → Loops us ps τ r → Loops us (p :: ps) σ r

/-- Outcomes of the OpenMP routine: a fault in the deposition on some tile, or an execution of the four loops. -/
def OmpRun (work : GTile → Res Mem) (cs : List Comp) (tiles : I3 → GTile) (us : List I3) (σ : Mem) (r : Res Mem) : Prop :=
  (∃ u ∈ us, ∃ e, phases work cs (tiles u) = .error e ∧ r = .error e) ∨
  ∃ o x y z : I3 → List Add, (∀ u ∈ us, phases work cs (tiles u) = .ok [o u, x u, y u, z u]) ∧ Loops us [o, x, y, z] σ r

/-- `pxrdepose_currents_on_grid_jxjyjz_esirkepov_sub_openmp` (manager_3d 1534-1813). -/
def OmpCurrent (n : ℕ) (g : Geo) (tiles : I3 → GTile) (nt : I3) (σ : Mem) (r : Res Mem) : Prop :=
  OmpRun (fun t => tileJ n g t t.species t.zero) [.jx, .jy, .jz] tiles (box ⟨1, 1, 1⟩ nt) σ r

/-- `pxrdepose_rho_on_grid_sub_openmp_3d` (charge manager 516-743), charge array under `f`. -/
def OmpRho (n : ℕ) (g : Geo) (tiles : I3 → GTile) (nt : I3) (σ : Mem) (r : Res Mem) : Prop :=
  OmpRun (fun t => tileRho n g t t.species t.zero) [.f] tiles (box ⟨1, 1, 1⟩ nt) σ r

/-- One parallel loop executed by one thread, the tiles in the order `us`. -/
noncomputable def serialLoop (us : List I3) (p : I3 → List Add) (σ : Mem) : Res Mem :=
  us.foldlM (fun (σ : Mem) (u : I3) => (p u).foldlM (fun (σ : Mem) (a : Add) => bumpMem σ a.c a.i a.v) σ) σ

/-- The OpenMP routine executed by one thread; `o1`, ..., `o4` are the orders in which the four loops take the tiles (`schedule(runtime)`). -/
def SerialRun (work : GTile → Res Mem) (cs : List Comp) (tiles : I3 → GTile) (us o1 o2 o3 o4 : List I3) (σ : Mem) (r : Res Mem) : Prop :=
  (∃ u ∈ us, ∃ e, phases work cs (tiles u) = .error e ∧ r = .error e) ∨
  ∃ o x y z : I3 → List Add, (∀ u ∈ us, phases work cs (tiles u) = .ok [o u, x u, y u, z u]) ∧
    r = (do
      let σ ← serialLoop o1 o σ
      let σ ← serialLoop o2 x σ
      let σ ← serialLoop o3 y σ
      serialLoop o4 z σ)

end Picsar.TileReduce
