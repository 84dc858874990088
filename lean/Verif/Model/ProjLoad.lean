import Verif.Model.LoadBalance
import Mathlib.Algebra.Order.Floor.Defs
import Mathlib.Algebra.Order.Archimedean.Real.Basic
import Mathlib.Data.Real.Basic
/-
Load of the planes of cells in each direction, time per particle and per cell, and the new split of the domain
(src/housekeeping/load_balancing.F90). Real arithmetic, except for the reduction of the number of particles, where an integer is summed as if it were
a double precision number: there the bits are modelled.
-/
namespace Picsar.ProjLoad
open Picsar Picsar.LoadBalance

/-- Position of a particle. -/
structure Pos where
  x : ℝ
  y : ℝ
  z : ℝ

/-- Axis. -/
inductive Axis
  | x
  | y
  | z
  deriving DecidableEq

/-- Global grid (modules.F90: `c_dim`, `nx_global`, ..., `x_grid_min`, ..., `dx`, ...). -/
structure Grid where
  dim2 : Bool
  n : Axis → ℕ
  gmin : Axis → ℝ
  d : Axis → ℝ

/-- `load_part(i)=load_part(i)+1` (load_balancing.F90:2076, 2131, 2186) for an array with lower bound 0. -/
def bump (l : List ℤ) (i : ℤ) : Res (List ℤ) :=
  if 0 ≤ i then do
    let v ← rd l i.toNat
    wr l i.toNat (v + 1)
  else .error .outOfBounds

/-- Coordinate of a particle along an axis: `part_x`, `part_y`, `part_z`. -/
def Pos.get (p : Pos) : Axis → ℝ
  | .x => p.x
  | .y => p.y
  | .z => p.z

/-- Local distribution of the particles of a process (load_balancing.F90:2060-2082, 2118-2138, 2172-2193): particles of all species and tiles in the
order of the loops. -/
noncomputable def histogram (g : Grid) (a : Axis) (ps : List Pos) : Res (List ℤ) :=
  ps.foldlM (fun l p => bump l ⌊(p.get a - g.gmin a) / g.d a⌋) (List.replicate (g.n a) 0)

/-- `MPI_ALLREDUCE` with `MPI_SUM` of arrays of `N` integers (load_balancing.F90:2085, 2141, 2196). -/
def reduceSum (N : ℕ) (ls : List (List ℤ)) : List ℤ := ls.foldl (List.zipWith (· + ·)) (List.replicate N 0)

/-- Number of cells that multiplies `time_per_cell` (load_balancing.F90:2089-2094, 2145, 2200-2205): the two-dimensional case is distinguished
for x and z only. -/
def planeCells (g : Grid) : Axis → ℕ
  | .x => if g.dim2 then g.n .z else g.n .y * g.n .z
  | .y => g.n .x * g.n .z
  | .z => if g.dim2 then g.n .x else g.n .x * g.n .y

/-- `get_projected_load_on_x`, `_y`, `_z` (load_balancing.F90:2050-2206) on all processes together; the argument `nxg` is `nx_global`. -/
noncomputable def projected (g : Grid) (a : Axis) (tpp tpc : ℝ) (procs : List (List Pos)) : Res (List ℝ) := do
  let hs ← procs.mapM (histogram g a)
  .ok ((reduceSum (g.n a) hs).map fun (k : ℤ) => (k : ℝ) * tpp + (planeCells g a : ℝ) * tpc)

/-- One direction of `compute_new_split` (load_balancing.F90:1969-1971). -/
noncomputable def splitDir (g : Grid) (tpp tpc : ℝ) (procs : List (List Pos)) (P : Axis → ℕ) (a : Axis) : Res (List (ℕ × ℕ)) := do
  let l ← projected g a tpp tpc procs
  balance l (P a)

/-- `compute_new_split` (load_balancing.F90:1955-1981). -/
noncomputable def newSplit (g : Grid) (tpp tpc : ℝ) (P : Axis → ℕ) (procs : List (List Pos)) :
    Res (List (ℕ × ℕ) × List (ℕ × ℕ) × List (ℕ × ℕ)) := do
  let x ← splitDir g tpp tpc procs P .x
  let y ← splitDir g tpp tpc procs P .y
  let z ← splitDir g tpp tpc procs P .z
  .ok (x, y, z)

/-- `compute_new_split_2D` (load_balancing.F90:1923-1943). -/
noncomputable def newSplit2 (g : Grid) (tpp tpc : ℝ) (P : Axis → ℕ) (procs : List (List Pos)) : Res (List (ℕ × ℕ) × List (ℕ × ℕ)) := do
  let x ← splitDir g tpp tpc procs P .x
  let z ← splitDir g tpp tpc procs P .z
  .ok (x, z)

/-- Spacing of the subnormal double precision numbers. -/
def tiny : ℚ := 1 / 2 ^ 1074

/-- Value of the double precision number with the bits of the integer `b`, 0 ≤ `b` < 2047·2^52: 52 bits of fraction below the exponent. -/
def real8 (b : ℕ) : ℚ :=
  if b / 2 ^ 52 = 0 then (b % 2 ^ 52 : ℕ) * tiny else (2 ^ 52 + b % 2 ^ 52 : ℕ) * 2 ^ (b / 2 ^ 52 - 1) * tiny

/-- Value an addition sees; processors set to flush subnormals (`daz`) see zero. -/
def seen (daz : Bool) (b : ℕ) : ℚ := if daz ∧ b / 2 ^ 52 = 0 then 0 else real8 b

/-- `r` is a double precision number nearest to `q`. -/
def Nearest (q : ℚ) (r : ℕ) : Prop := r < 2047 * 2 ^ 52 ∧ ∀ s, s < 2047 * 2 ^ 52 → |real8 r - q| ≤ |real8 s - q|

/-- Order in which a reduction adds the contributions of the processes: MPI leaves it open. -/
inductive Tree
  | leaf (b : ℕ)
  | node (l r : Tree)

/-- Contributions. -/
def Tree.leaves : Tree → List ℕ
  | .leaf b => [b]
  | .node l r => l.leaves ++ r.leaves

/-- `MPI_ALLREDUCE` with `MPI_REAL8` and `MPI_SUM` of 64-bit integers (load_balancing.F90:1841): the bits that come out. -/
def Gives (daz : Bool) : Tree → ℕ → Prop
  | .leaf b, v => v = b
  | .node l r, v => ∃ a b, Gives daz l a ∧ Gives daz r b ∧ Nearest (seen daz a + seen daz b) v

/-- `compute_time_per_part` (load_balancing.F90:1830-1848) for processes with the given `local_time_part` and `npart_local`;
`tpp` is a possible value of `global_time_per_part`. -/
def TimePerPart (daz : Bool) (procs : List (ℝ × ℕ)) (tpp : ℝ) : Prop :=
  ∃ t n, t.leaves.Perm (procs.map Prod.snd) ∧ Gives daz t n ∧
    tpp = if n = 0 then 0 else (procs.map fun q => if q.2 = 0 then 0 else q.1).sum / n

/-- `compute_time_per_cell` (load_balancing.F90:1862-1875) for processes with the given `local_time_cell`. -/
noncomputable def timePerCell (g : Grid) (times : List ℝ) : ℝ :=
  if g.dim2 then times.sum / (g.n .x * g.n .z) else times.sum / (g.n .x * g.n .y * g.n .z)

end Picsar.ProjLoad
