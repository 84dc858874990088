import Verif.Model.Tiling
import Verif.Model.Topology
/-
Boundary conditions of particles that leave the subdomain: the loops over the particles of a border tile in
src/boundary_conditions/particle_boundaries.F90 (`particle_bcs_mpi_blocking`, `particle_bcs_mpi_non_blocking`,
`particle_bcs_mpi_non_blocking_2d`, `particle_bcs_tiles_and_mpi_3d`), for one particle, and the limits set up by `mpi_initialise`
(src/parallelization/mpi/mpi_routines.F90). Real arithmetic.
-/
namespace Picsar.ParticleBcs
open Picsar Picsar.Grid Picsar.Tiling

variable {n : ℕ}

/-- The three directions. -/
inductive Ax where
  | x | y | z
deriving DecidableEq

/-- `part_x(i)`, `part_y(i)`, `part_z(i)`. -/
def pos (p : Part n) : Ax → ℝ
  | .x => p.x
  | .y => p.y
  | .z => p.z

/-- `part_ux(i)`, `part_uy(i)`, `part_uz(i)`. -/
def mom (p : Part n) : Ax → ℝ
  | .x => p.ux
  | .y => p.uy
  | .z => p.uz

/-- Assignment to a coordinate. -/
def setPos (p : Part n) (a : Ax) (v : ℝ) : Part n :=
  match a with
  | .x => { p with x := v }
  | .y => { p with y := v }
  | .z => { p with z := v }

/-- `part_ux(i) = - part_ux(i)`. -/
def negMom (p : Part n) (a : Ax) : Part n :=
  match a with
  | .x => { p with ux := - p.ux }
  | .y => { p with uy := - p.uy }
  | .z => { p with uz := - p.uz }

/-- Components of a direction `(xbd, ybd, zbd)`. -/
def dirOf (d : I3) : Ax → ℤ
  | .x => d.j
  | .y => d.k
  | .z => d.l

/-- Assignment to `xbd`, `ybd` or `zbd`. -/
def setDir (d : I3) (a : Ax) (v : ℤ) : I3 :=
  match a with
  | .x => ⟨v, d.k, d.l⟩
  | .y => ⟨d.j, v, d.l⟩
  | .z => ⟨d.j, d.k, v⟩

/-- Limits of one direction: `x_min_local_part`, `x_max_local_part`, `xmin_part`, `xmax_part`, `length_x_part`, `dx`, the flags
`x_min_boundary_part`, `x_max_boundary_part` and the boundary types `pbound_x_min`, `pbound_x_max`. -/
structure Axis where
  lo : ℝ
  hi : ℝ
  gmin : ℝ
  gmax : ℝ
  len : ℝ
  dx : ℝ
  bmin : Bool
  bmax : Bool
  kmin : ℤ
  kmax : ℤ

/-- `x_tile_min`, `x_tile_max` of the tile, per direction. -/
structure TileLim where
  lo : Ax → ℝ
  hi : Ax → ℝ

/-- The four versions of the loop: blocking (particle_boundaries.F90:1087-1289), non-blocking (1446-1689), non-blocking 2-D (1866-1990)
and combined with the tile exchange (2238-2518). -/
inductive Mode where
  | blocking | nonBlocking | nonBlocking2d | combined
deriving DecidableEq

/-- What happens to a particle: it is removed, stays in the tile, or is put into the send buffer of a direction. -/
inductive Outcome (n : ℕ) where
  | removed
  | kept (p : Part n)
  | sent (d : I3) (p : Part n)

/-- State of the scan of one particle: `go p d rm` with the particle as modified so far, `(xbd, ybd, zbd)` and `remove_from_sim`, or
finished by a `CYCLE`. -/
inductive Scan (n : ℕ) where
  | go (p : Part n) (d : I3) (rm : Bool)
  | stop (o : Outcome n)

/-- `MIN(MAX(v, lo+dx/2), hi-dx/2)`. -/
noncomputable def clamp (lo hi dx v : ℝ) : ℝ := min (max v (lo + 1 / 2 * dx)) (hi - 1 / 2 * dx)

/-- The "sanity check" after re-injection (particle_boundaries.F90:1110-1115 and its copies); the 2-D version leaves y alone
(1894-1897). -/
noncomputable def clampAll (m : Mode) (A : Ax → Axis) (T : TileLim) (p : Part n) : Part n :=
  let p := setPos p .x (clamp (T.lo .x) (T.hi .x) (A .x).dx p.x)
  let p := if m = .nonBlocking2d then p else setPos p .y (clamp (T.lo .y) (T.hi .y) (A .y).dx p.y)
  setPos p .z (clamp (T.lo .z) (T.hi .z) (A .z).dx p.z)

/-- `part_ux(i)=0.`, `part_uy(i)=0.`, `part_uz(i)=0.`; `part_gaminv` is not changed. -/
def stopped (p : Part n) : Part n := { p with ux := 0, uy := 0, uz := 0 }

/-- The `SELECT CASE` of a flagged face, `side = -1` for the lower and `1` for the upper one, `x0` the coordinate when the direction was
entered (e.g. particle_boundaries.F90:1097-1120, 1127-1150 for x, blocking). Type 1: blocking, 2-D and combined versions remove the
particle and `CYCLE`, the non-blocking version only sets `remove_from_sim`. Type 2 is missing in the 2-D and combined versions. -/
noncomputable def cases (m : Mode) (A : Ax → Axis) (T : TileLim) (a : Ax) (side kind : ℤ) (wall x0 : ℝ) (p : Part n) (d : I3) (rm : Bool) : Scan n :=
  if kind = 1 then
    match m with
    | .nonBlocking => .go p d true
    | _ => .stop .removed
  else if kind = 2 ∧ (m = .blocking ∨ m = .nonBlocking) then
    .go (negMom (setPos p a (x0 - side * (A a).dx)) a) (setDir d a 0) rm
  else if kind = 3 then .stop (.kept (clampAll m A T (stopped (setPos p a (2 * wall - pos p a)))))
  else .go (setPos p a (x0 - side * (A a).len)) d rm

/-- One face: `xbd` is set, and the type of the boundary is looked at if the face is flagged. -/
noncomputable def face (m : Mode) (A : Ax → Axis) (T : TileLim) (a : Ax) (side : ℤ) (x0 : ℝ) (p : Part n) (d : I3) (rm : Bool) : Scan n :=
  if (if side = -1 then (A a).bmin else (A a).bmax) = true then
    cases m A T a side (if side = -1 then (A a).kmin else (A a).kmax) (if side = -1 then (A a).gmin else (A a).gmax) x0 p (setDir d a side) rm
  else .go p (setDir d a side) rm

/-- Continue unless a `CYCLE` was met. -/
def Scan.andThen (s : Scan n) (f : Part n → I3 → Bool → Scan n) : Scan n :=
  match s with
  | .go p d rm => f p d rm
  | .stop o => .stop o

open Classical in
/-- One direction: lower face, then upper face. In the blocking and non-blocking versions the second test is made after the first with the
same `part_xyz` (particle_boundaries.F90:1092-1151), in the combined version it is an `ELSE IF` (2258-2318). In y the tests of the first
two versions include `c_dim .EQ. 3`, the 2-D version has none. -/
noncomputable def axis (m : Mode) (A : Ax → Axis) (T : TileLim) (a : Ax) (p : Part n) (d : I3) (rm : Bool) : Scan n :=
  let x0 := pos p a
  if a = .y ∧ m = .nonBlocking2d then .go p d rm else
  if m = .combined then
    if x0 < (A a).lo then face m A T a (-1) x0 p d rm
    else if x0 ≥ (A a).hi then face m A T a 1 x0 p d rm
    else .go p d rm
  else
    (if x0 < (A a).lo then face m A T a (-1) x0 p d rm else .go p d rm).andThen fun p d rm =>
      if x0 ≥ (A a).hi then face m A T a 1 x0 p d rm else .go p d rm

/-- Test of case 1 of the combined version: the particle did not leave the tile (particle_boundaries.F90:2246-2249). -/
def inTile (T : TileLim) (p : Part n) : Prop := ∀ a, T.lo a ≤ pos p a ∧ pos p a < T.hi a

/-- Test of case 2 of the combined version: the particle left the subdomain (particle_boundaries.F90:2252-2255). -/
def outDom (A : Ax → Axis) (p : Part n) : Prop := ∃ a, pos p a < (A a).lo ∨ (A a).hi ≤ pos p a

/-- End of the scan: particles with a direction are sent, or removed if flagged (particle_boundaries.F90:1265-1285, 1659-1686). The combined
version reaches this point only for particles that left the subdomain and sends without a test (2484-2517). -/
def finish (m : Mode) : Scan n → Outcome n
  | .stop o => o
  | .go p d rm =>
    if m = .combined then .sent d p
    else if |d.j| + |d.k| + |d.l| > 0 then (if rm then .removed else .sent d p) else .kept p

open Classical in
/-- The scan of one particle of a border tile. In the combined version the particles of cases 1 and 3 (in the tile or in the subdomain) stay
on the rank: `kept`. -/
noncomputable def scan (m : Mode) (A : Ax → Axis) (T : TileLim) (p : Part n) : Outcome n :=
  if m = .combined ∧ (inTile T p ∨ ¬ outDom A p) then .kept p else
  finish m (((axis m A T .x p ⟨0, 0, 0⟩ false).andThen (axis m A T .y)).andThen (axis m A T .z))

/-- Limits of the particle domain at one face (mpi_routines.F90:1600-1613 lower x face, 1615-1628 upper x face; y and z alike): the wall
`xmin_part`/`xmax_part`, the flag, and the local limit. `edge` is `xmin`/`xmax`, `off` the offset `offset_grid_part_x_min`/`_max`, `loc` is
`x_min_local`/`x_max_local` of the same side, `bnd` is `x_min_boundary`/`x_max_boundary`. -/
structure FaceLim where
  wall : ℝ
  flag : Bool
  lim : ℝ

open Classical in
noncomputable def faceLim (kind : ℤ) (edge off locMin locMax loc : ℝ) (bnd : Bool) : FaceLim :=
  if kind = 3 ∨ kind = 1 then
    if edge + off ≥ locMin ∧ edge + off < locMax then ⟨edge + off, true, edge + off⟩ else ⟨edge + off, false, loc⟩
  else ⟨edge, bnd, loc⟩

/-- The limits of one direction on the process with coordinate `c` (mpi_routines.F90:369-370 flags, 1573-1574 local extents, 1600-1628,
1691). -/
noncomputable def mkAxis (xmin xmax offMin offMax : ℝ) (ncells : ℤ) (s : Topology.Split) (nproc c kmin kmax : ℤ) : Res Axis := do
  let e ← Topology.localExtent xmin xmax ncells s c
  let a := faceLim kmin xmin offMin e.1 e.2 e.1 (decide (c = 0))
  let b := faceLim kmax xmax offMax e.1 e.2 e.2 (decide (c = nproc - 1))
  .ok ⟨a.lim, b.lim, a.wall, b.wall, b.wall - a.wall, (xmax - xmin) / ncells, a.flag, b.flag, kmin, kmax⟩

end Picsar.ParticleBcs
