import Verif.Model.FieldExchange

/-
The MPI datatypes of the exchange routines: built by src/parallelization/mpi/mpi_derived_types.F90, kept between calls by
src/boundary_conditions/field_boundaries.F90. Displacements and extents are counted in array elements (the code multiplies all of
them by the size of a double).
-/
namespace Picsar.Datatypes
open Picsar Picsar.Grid Picsar.Exchange

/-- An array as declared in the exchange routines, `field(-nxg:nx_local+nxg, ...)`. -/
structure Fld where
  n : Ax → ℤ
  g : Ax → ℤ

/-- `sizes(a) = nx_local + 1 + 2*nxg` (field_boundaries.F90:123-125, 299-301, 412-414, 1143-1145). -/
def Fld.sizes (F : Fld) (a : Ax) : ℤ := F.n a + 1 + 2 * F.g a

/-- `subsizes` for the exchange along `a`: `nxg+1` planes, full extent in the other directions (136-138, 178-180, 218-220). -/
def Fld.sub (F : Fld) (a b : Ax) : ℤ := if b = a then F.g a + 1 else F.sizes b

/-- Position of an element in the memory of the array (column-major). -/
def Fld.addr (F : Fld) (i : I3) : ℤ :=
  (i.j + F.g .x) + F.sizes .x * (i.k + F.g .y) + F.sizes .x * F.sizes .y * (i.l + F.g .z)

/-- Number of elements of the array. -/
def Fld.total (F : Fld) : ℤ := F.sizes .x * F.sizes .y * F.sizes .z

/-- A datatype: displacements of its elements, and its extent. -/
structure DType where
  disp : List ℤ
  extent : ℤ

/-- `MPI_TYPE_VECTOR(count, blocklength, stride)`. -/
def typeVector (count blk stride : ℤ) : List ℤ :=
  (irange 0 (count - 1)).flatMap fun k => (irange 0 (blk - 1)).map fun i => k * stride + i

/-- `MPI_TYPE_CREATE_STRUCT` with `MPI_LB` at 0, a type at `d` and `MPI_UB` at `ub`. -/
def typeStruct (d : ℤ) (t : List ℤ) (ub : ℤ) : DType := ⟨t.map (d + ·), ub⟩

/-- `MPI_TYPE_CONTIGUOUS(count, type)`. -/
def typeContiguous (count : ℤ) (t : DType) : List ℤ := (irange 0 (count - 1)).flatMap fun k => t.disp.map (k * t.extent + ·)

/-- `create_3d_array_derived_type(mpitype, n_local, n_global, start)` with `start = 1` (mpi_derived_types.F90:138-188). -/
def create3d (nl ng : Ax → ℤ) : DType :=
  let start : Ax → ℤ := fun _ => 1
  let vec2d := typeVector (nl .y) (nl .x) (ng .x)
  let vec2dSub := typeStruct ((start .x - 1) + ng .x * (start .y - 1)) vec2d (ng .x * ng .y)
  let vec3d := typeContiguous (nl .z) vec2dSub
  typeStruct (ng .x * ng .y * (start .z - 1)) vec3d (ng .x * ng .y * ng .z)

/-- The types of one routine, `mpi_dtypes(1:3)` (or 4:6, 7:9, 10:12): unset while `is_dtype_init` is true. The flags are set to true
at the start of the program (modules.F90:778-781) and nowhere else. -/
def Cache := Ax → Option DType

/-- The type used in a call (field_boundaries.F90:141-144 and likewise for the other directions). -/
def used (C : Cache) (F : Fld) (a : Ax) : DType := (C a).getD (create3d (F.sub a) F.sizes)

/-- The types after a call. -/
def call (C : Cache) (F : Fld) : Cache := fun a => some (used C F a)

/-- The types after a history of calls of the routine. -/
def after (hist : List Fld) : Cache := hist.foldl call fun _ => none

/-- First element of the slab that starts at plane `s` along `a`, e.g. `field(nx_local-nxg, -nyg, -nzg)`. -/
def Fld.corner (F : Fld) (a : Ax) (s : ℤ) : I3 := upd ⟨-F.g .x, -F.g .y, -F.g .z⟩ a s

/-- Memory positions transferred by a send or receive of one element of the type, starting at plane `s`. -/
def transferred (C : Cache) (F : Fld) (a : Ax) (s : ℤ) : List ℤ := (used C F a).disp.map (F.addr (F.corner a s) + ·)

end Picsar.Datatypes
