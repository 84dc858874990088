import Verif.Model.Grid
import Mathlib.Data.Real.Basic
import Mathlib.Algebra.Order.Floor.Ring
import Mathlib.Algebra.Order.Archimedean.Real.Basic

/-
Processor topology and domain decomposition: `setup_communicator` and the splitting part of `mpi_initialise`,
src/parallelization/mpi/mpi_routines.F90. Integers are unbounded (the code uses 64-bit and, in the split, 32-bit integers).
-/
namespace Picsar.Topology
open Picsar Picsar.Grid

/-- `nprocx`, `nprocy`, `nprocz`. -/
structure PGrid where
  nx : ℤ
  ny : ℤ
  nz : ℤ

/-- `nprocx*nprocy*nprocz`. -/
def PGrid.nproc (P : PGrid) : ℤ := P.nx * P.ny * P.nz

/-- Coordinate of the neighbour in one direction (mpi_routines.F90:387-394, 396-402, 404-410 for topology 2 and 456-463, 465-471,
473-479 for topology 1: the same three-way branch). -/
def neight (n c d : ℤ) : ℤ :=
  if c + d < 0 then c + n - 1
  else if c + d > n - 1 then c - (n - 1)
  else c + d

/-- Coordinates of a rank, topology 1 (mpi_routines.F90:432-434; `MOD` and `/` truncate). -/
def coords1 (P : PGrid) (rank : ℤ) : I3 :=
  let x := Int.tmod rank P.nx
  let y := Int.tmod (Int.tdiv (rank - x) P.nx) P.ny
  ⟨x, y, Int.tdiv (rank - x - y * P.nx) (P.nx * P.ny)⟩

/-- `neighbour(ix,iy,iz)`, topology 1 (mpi_routines.F90:452-487). -/
def neighbour1 (P : PGrid) (rank : ℤ) (d : I3) : ℤ :=
  let c := coords1 P rank
  neight P.nx c.j d.j + P.nx * neight P.ny c.k d.k + P.nx * P.ny * neight P.nz c.l d.l

/-- Coordinates given by `MPI_CART_CREATE`/`MPI_CART_COORDS` with `dims = (/nprocz, nprocy, nprocx/)` and the assignment of
`x_coords` from `coordinates(3)`, `y_coords` from `coordinates(2)`, `z_coords` from `coordinates(1)` (mpi_routines.F90:236, 513-516,
550-564). The MPI standard numbers the processes of a Cartesian communicator in row-major order: the last dimension varies
fastest. -/
def coordsCart (P : PGrid) (rank : ℤ) : I3 := ⟨rank % P.nx, rank / P.nx % P.ny, rank / (P.nx * P.ny)⟩

/-- `MPI_CART_RANK` with all dimensions periodic: coordinates are first reduced to their range. -/
def cartRank (P : PGrid) (c : I3) : ℤ := (c.l % P.nz * P.ny + c.k % P.ny) * P.nx + c.j % P.nx

/-- `neighbour(ix,iy,iz)`, Cartesian topology (mpi_routines.F90:569-588; `periods` is true in every direction, so `op` stays
true). -/
def neighbourCart (P : PGrid) (rank : ℤ) (d : I3) : ℤ :=
  let c := coordsCart P rank
  cartRank P ⟨c.j + d.j, c.k + d.k, c.l + d.l⟩

/-- `topo_array(0:nprocx-1, 0:nprocy-1, 0:nprocz-1)`. -/
abbrev Topo := I3 → ℤ

/-- Bounds of `topo_array`. -/
def InTopo (P : PGrid) (i : I3) : Prop := InBox ⟨0, 0, 0⟩ ⟨P.nx - 1, P.ny - 1, P.nz - 1⟩ i

instance (P : PGrid) (i : I3) : Decidable (InTopo P i) := by unfold InTopo; infer_instance

/-- Read of `topo_array`. -/
def topoGet (P : PGrid) (t : Topo) (i : I3) : Res ℤ := if InTopo P i then .ok (t i) else .error .outOfBounds

/-- Write of `topo_array`. -/
def topoSet (P : PGrid) (t : Topo) (i : I3) (v : ℤ) : Res Topo :=
  if InTopo P i then .ok (Function.update t i v) else .error .outOfBounds

/-- The indices of the loops over `iz`, `iy`, `ix`. -/
def cells (P : PGrid) : List I3 := box ⟨0, 0, 0⟩ ⟨P.nx - 1, P.ny - 1, P.nz - 1⟩

/-- Numbering of the subdomains (mpi_routines.F90:317-324). -/
def topoInit (P : PGrid) : List I3 → Topo → Res Topo
  | [], t => .ok t
  | i :: is, t => do
    let t ← topoSet P t i (i.j + i.k * P.nx + i.l * P.ny * P.nx)
    topoInit P is t

/-- `INT(r*(n-1))` for a real argument. -/
noncomputable def drawn (r : ℝ) (n : ℤ) : ℤ := ⌊r * ((n : ℝ) - 1)⌋

/-- The random permutation (mpi_routines.F90:325-341): at each index three numbers are drawn and two entries are exchanged. `r` is
the stream of random numbers. -/
noncomputable def topoShuffle (P : PGrid) (r : ℕ → ℝ) : List I3 → ℕ → Topo → Res Topo
  | [], _, t => .ok t
  | i :: is, n, t => do
    let c : I3 := ⟨drawn (r n) P.nx, drawn (r (n + 1)) P.ny, drawn (r (n + 2)) P.nz⟩
    let rankyz ← topoGet P t i
    let v ← topoGet P t c
    let t ← topoSet P t i v
    let t ← topoSet P t c rankyz
    topoShuffle P r is (n + 3) t

/-- The array broadcast by rank 0 (mpi_routines.F90:315-347). `t0` is the content of the array before. -/
noncomputable def topo (P : PGrid) (r : ℕ → ℝ) (t0 : Topo) : Res Topo := do
  let t ← topoInit P (cells P) t0
  topoShuffle P r (cells P) 0 t

/-- Each rank looks for its coordinates; the last match wins, without a match the coordinates keep the values they had before, here
`none` (mpi_routines.F90:351-366). -/
def coords2 (P : PGrid) (t : Topo) (rank : ℤ) : List I3 → Option I3 → Option I3
  | [], c => c
  | i :: is, c => coords2 P t rank is (if rank = t i then some i else c)

/-- `neighbour(ix,iy,iz)`, topology 2 (mpi_routines.F90:383-416). -/
def neighbour2 (P : PGrid) (t : Topo) (rank : ℤ) (d : I3) : Res ℤ := do
  match coords2 P t rank (cells P) none with
  | none => .error .uninitialised
  | some c => topoGet P t ⟨neight P.nx c.j d.j, neight P.ny c.k d.k, neight P.nz c.l d.l⟩

/-- `INTEGER :: a(1:n)` with elements that have not been assigned. -/
structure IArr where
  n : ℤ
  val : ℤ → Option ℤ

/-- Read of an element. -/
def IArr.get (a : IArr) (i : ℤ) : Res ℤ :=
  if 1 ≤ i ∧ i ≤ a.n then
    match a.val i with
    | some v => .ok v
    | none => .error .uninitialised
  else .error .outOfBounds

/-- Write of an element. -/
def IArr.set (a : IArr) (i v : ℤ) : Res IArr :=
  if 1 ≤ i ∧ i ≤ a.n then .ok { a with val := Function.update a.val i (some v) } else .error .outOfBounds

/-- `cell_x_min`, `cell_x_max`. -/
structure Split where
  cmin : IArr
  cmax : IArr

/-- Body of the two loops (mpi_routines.F90:1458-1465): `len` is `nx0` or `nx0+1`. -/
def splitStep (len : ℤ) (s : Split) (idim : ℤ) : Res Split := do
  let m ← s.cmax.get (idim - 1)
  let cmin ← s.cmin.set idim (m + 1)
  let lo ← cmin.get idim
  let cmax ← s.cmax.set idim (lo + len - 1)
  pure ⟨cmin, cmax⟩

/-- Split of `ncells` cells among `nproc` processes in one direction (mpi_routines.F90:1435-1437, 1441-1445, 1456-1465; the
directions x, y and z are treated alike). -/
def split (ncells nproc : ℤ) : Res Split := do
  let n0 := Int.tdiv ncells nproc
  let np := if n0 * nproc ≠ ncells then (n0 + 1) * nproc - ncells else nproc
  let cmin ← IArr.set ⟨nproc, fun _ => none⟩ 1 0
  let cmax ← IArr.set ⟨nproc, fun _ => none⟩ 1 (n0 - 1)
  let s ← (irange 2 np).foldlM (splitStep n0) ⟨cmin, cmax⟩
  (irange (np + 1) nproc).foldlM (splitStep (n0 + 1)) s

/-- `x_global(ix)`, with `dx = (xmax-xmin)/nx_global` (mpi_routines.F90:1515-1518, 1726-1728). -/
noncomputable def xGlobal (xmin xmax : ℝ) (ncells i : ℤ) : ℝ := xmin + i * ((xmax - xmin) / ncells)

/-- `x_min_local`, `x_max_local` of the process with coordinate `c`: `x_grid_mins(c+1)`, `x_grid_maxs(c+1)`
(mpi_routines.F90:1737-1740, 1573-1574). -/
noncomputable def localExtent (xmin xmax : ℝ) (ncells : ℤ) (s : Split) (c : ℤ) : Res (ℝ × ℝ) := do
  let lo ← s.cmin.get (c + 1)
  let hi ← s.cmax.get (c + 1)
  pure (xGlobal xmin xmax ncells lo, xGlobal xmin xmax ncells (hi + 1))

/-- `nx = nx_grid - 1` with `nx_grid = nx_global_grid_max - nx_global_grid_min + 1` of the process with coordinate `c`
(mpi_routines.F90:1492-1493, 1505, 1510). -/
def localCells (s : Split) (c : ℤ) : Res ℤ := do
  let lo ← s.cmin.get (c + 1)
  let hi ← s.cmax.get (c + 1)
  pure (hi + 1 - lo + 1 - 1)

/-- Check of the split at start-up in one direction: grid points of the global grid divided by the processes must not be fewer than
the guard cells (mpi_routines.F90:279-291). -/
def splitAccepted (nglobalGrid nproc nguards : ℤ) : Bool := !decide (Int.tdiv nglobalGrid nproc < nguards)

end Picsar.Topology
