import Verif.Model.Datatypes
import Mathlib.Data.Nat.Digits.Defs

/-
The field files of src/ios/simple_io.F90: when a field is dumped, under which name, and which bytes every process writes through the
MPI datatypes of src/parallelization/mpi/mpi_derived_types.F90.
-/
namespace Picsar.FieldFile
open Picsar Picsar.Grid Picsar.Exchange Picsar.Datatypes

/-! ### Files -/

/-- A number written to a file: a double precision real (8 bytes) or an `INTEGER(isp)` (4 bytes). -/
inductive Datum
  | real (v : ℝ)
  | int (n : ℤ)

def Datum.width : Datum → ℤ
  | .real _ => 8
  | .int _ => 4

/-- Content of a file: `some (d, k)` at a byte is byte number `k` of the representation of `d`; `none` is a byte never written. -/
abbrev File := ℤ → Option (Datum × ℤ)

/-- Write of `d` at byte `o`. -/
def put (f : File) (o : ℤ) (d : Datum) : File := fun b => if o ≤ b ∧ b < o + d.width then some (d, b - o) else f b

/-- Writes in this order. -/
def putAll (f : File) (ws : List (ℤ × Datum)) : File := ws.foldl (fun f w => put f w.1 w.2) f

/-- Stream output of a list of numbers from byte `o`. -/
def stream : File → ℤ → List Datum → File
  | f, _, [] => f
  | f, o, d :: ds => stream (put f o d) (o + d.width) ds

/-! ### Datatypes -/

/-- `MPI_TYPE_CREATE_SUBARRAY(3, sizes, subsizes, starts, MPI_ORDER_FORTRAN)`: displacements, in elements, in the order of the type
map. The MPI standard requires `1 <= subsizes(i) <= sizes(i)` and `0 <= starts(i) <= sizes(i)-subsizes(i)`; otherwise the call fails,
which ends the program with the default error handler. -/
def subarray (sizes sub start : Ax → ℤ) : Res (List ℤ) :=
  if (∀ a ∈ [Ax.x, Ax.y, Ax.z], 1 ≤ sub a ∧ 0 ≤ start a ∧ start a + sub a ≤ sizes a) then
    .ok ((box ⟨start .x, start .y, start .z⟩ ⟨start .x + sub .x - 1, start .y + sub .y - 1, start .z + sub .z - 1⟩).map fun i =>
      i.j + sizes .x * (i.k + sizes .y * i.l))
  else .error .exception

/-- `create_grid_derived_type(mpidbl, nx, ny, nz, nx_global_grid_min, ...)` (mpi_derived_types.F90:60-66, 102-123). -/
def gridType (glob n gmin : Ax → ℤ) : Res (List ℤ) := subarray glob n gmin

/-- `create_current_grid_subarray(ngx, ngy, ngz)` through `create_grid_subarray` with `n1 = nx+1` (mpi_derived_types.F90:78-89,
211-235). -/
def gridSubarray (g n : Ax → ℤ) : Res (List ℤ) :=
  let n1 : Ax → ℤ := fun a => n a + 1
  let start : Ax → ℤ := fun a => 1 + g a
  let nglobal : Ax → ℤ := fun a => n1 a + 2 * g a
  subarray nglobal (fun a => n1 a - 1) (fun a => start a - 1)

/-! ### One dump -/

/-- What one process brings to a dump: its cells `nx, ny, nz`, the global index of its first cell `nx_global_grid_min, ...`
(mpi_routines.F90:1492-1512), and the array as it was allocated. -/
structure Local where
  n : Ax → ℤ
  gmin : Ax → ℤ
  alloc : Fld
  mem : ℤ → ℝ

/-- Read of the element at this position in the memory of the array. -/
noncomputable def Local.load (L : Local) (d : ℤ) : Res ℝ := if 0 ≤ d ∧ d < L.alloc.total then .ok (L.mem d) else .error .outOfBounds

/-- Size of the header in bytes, `offset = 8*6 + 4*3` (simple_io.F90:515). -/
def offset : ℤ := 8 * 6 + 4 * 3

/-- Limits of the domain and numbers of cells, `xmin, xmax, ..., nx_global, ...`. -/
structure Domain where
  lo : Ax → ℝ
  hi : Ax → ℝ
  cells : Ax → ℤ

/-- The header, written by process 0 (simple_io.F90:506-512). -/
def header (D : Domain) : List Datum :=
  [.real (D.lo .x), .real (D.hi .x), .int (D.cells .x), .real (D.lo .y), .real (D.hi .y), .int (D.cells .y),
    .real (D.lo .z), .real (D.hi .z), .int (D.cells .z)]

/-- `write_single_array_to_file` on one process: the elements of `suba` in memory go to the elements of the view `subt`
(simple_io.F90:548-583). The two types have equally many elements, so that one element of the view is used. `g` are the guard cells
`nxg, nyg, nzg` of the dummy argument. -/
noncomputable def writesOf (D : Domain) (g : Ax → ℤ) (L : Local) : Res (List (ℤ × Datum)) := do
  let subt ← gridType D.cells L.n L.gmin
  let suba ← gridSubarray g L.n
  let vals ← suba.mapM L.load
  pure ((subt.zip vals).map fun p => (offset + 8 * p.1, Datum.real p.2))

/-- The writes of all processes. -/
noncomputable def allWrites (D : Domain) (g : Ax → ℤ) (Ls : List Local) : Res (List (ℤ × Datum)) := do
  let wss ← Ls.mapM (writesOf D g)
  pure wss.flatten

/-- `write_3d_field_array_to_file` (simple_io.F90:492-524) for a file with content `f`: the header comes first, since the barrier
precedes the collective write; the elements of the collective write arrive in the order `order`. Neither the Fortran `OPEN` (stream
access, status unknown) nor `MPI_FILE_OPEN` truncates the file. -/
def dumped (f : File) (D : Domain) (order : List (ℤ × Datum)) : File := putAll (stream f 0 (header D)) order

/-! ### Which fields, when, under which name -/

/-- The quantities of `output_routines`. -/
inductive Q | ex | ey | ez | bx | by' | bz | jx | jy | jz | divj | divb | dive | rho
  deriving DecidableEq

/-- The quantities in the order of the code (simple_io.F90:97-198). -/
def Q.all : List Q := [.ex, .ey, .ez, .bx, .by', .bz, .jx, .jy, .jz, .divj, .divb, .dive, .rho]

/-- The quantities dumped at step `it` (simple_io.F90:90-93 and the tests `c_output_xx .EQ. 1`). -/
def dumps (flag : Q → ℤ) (freq stepMin stepMax it : ℤ) : List Q :=
  if freq ≥ 1 ∧ it ≥ stepMin ∧ it ≤ stepMax ∧ Int.tmod (it - stepMin) freq = 0 then Q.all.filter fun q => flag q = 1 else []

/-- Base names `fileex, ...` (modules.F90:1000-1024). -/
def Q.base : Q → List Char
  | .ex => ['e', 'x'] | .ey => ['e', 'y'] | .ez => ['e', 'z'] | .bx => ['b', 'x'] | .by' => ['b', 'y'] | .bz => ['b', 'z']
  | .jx => ['j', 'x'] | .jy => ['j', 'y'] | .jz => ['j', 'z'] | .divj => ['d', 'i', 'v', 'j'] | .divb => ['d', 'i', 'v', 'b']
  | .dive => ['d', 'i', 'v', 'e'] | .rho => ['r', 'h', 'o']

/-- Decimal notation. -/
def decimal (n : ℕ) : List Char := if n = 0 then ['0'] else (Nat.digits 10 n).reverse.map Nat.digitChar

/-- `WRITE(strtemp, '(I5)') it`, then `TRIM(ADJUSTL(strtemp))` (simple_io.F90:89): a number that needs more than five characters is
written as five asterisks. -/
def i5 (it : ℕ) : List Char := if (decimal it).length ≤ 5 then decimal it else ['*', '*', '*', '*', '*']

/-- Name of the file, `'./RESULTS/'//TRIM(ADJUSTL(fileex))//TRIM(ADJUSTL(strtemp))//'.pxr'` (simple_io.F90:101-102). -/
def fileName (q : Q) (it : ℕ) : List Char := "./RESULTS/".toList ++ (q.base ++ (i5 it ++ ".pxr".toList))

end Picsar.FieldFile
