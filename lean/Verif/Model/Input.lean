import Verif.Base
import Mathlib.Data.Rat.Defs
import Mathlib.Data.Int.Notation
import Mathlib.Data.Nat.Notation

/-
Reading of the simulation parameters: src/initialization/control_file.F90.
Character strings are lists of characters. Each section reader is a chain `IF (INDEX(buffer, 'key') > 0) ... ELSE IF ...`, given here as the list
of its branches in the order of the code. Real values are rationals (a decimal constant is one); their rounding is not modelled, nor is the size of
the integer variables. List-directed reads (`READ(buffer, *)`) are a parameter of the model: what the run-time library reads from a text.
-/
namespace Picsar.Input
open Picsar

open Lean in
/-- `c!"abc"` is the list of characters `['a', 'b', 'c']`. -/
macro:max "c!" s:str : term => do
  let cs := s.getString.toList.map (fun c => Syntax.mkCharLit c)
  `([$(cs.toArray),*])

/-- `string_length` (src/modules/modules.F90:93). -/
def stringLength : ℕ := 264

/-- Assignment of a text to a `CHARACTER(LEN=string_length)` variable: truncated or filled with blanks. It is also what `READ(fh_input, '(A)') buffer`
and `GETARG(i, buffer)` put in `buffer`. -/
def toBuffer (l : List Char) : List Char := (l ++ List.replicate stringLength ' ').take stringLength

def indexFrom (k : List Char) : List Char → ℕ → ℕ
  | [], _ => 0
  | c :: s, i => if k.isPrefixOf (c :: s) then i else indexFrom k s (i + 1)

/-- Fortran intrinsic `INDEX(s, k)` for non-empty `k`: position, from 1, of the first occurrence, or 0. -/
def index (s k : List Char) : ℕ := indexFrom k s 1

/-- A parameter (name of the Fortran variable). -/
abbrev Name := List Char

/-- Type of a parameter. -/
inductive Kind
  | int | real | logic | text
  deriving DecidableEq, Repr

/-- Value of a parameter. -/
inductive Val
  | int (n : ℤ)
  | real (x : ℚ)
  | logic (b : Bool)
  | text (s : List Char)
  deriving DecidableEq, Repr

/-- What a list-directed `READ(text, *) x` gives to a variable of that type; `none`: the read fails and the program stops. -/
abbrev Reader := Kind → List Char → Option Val

def digit (c : Char) : Option ℕ :=
  if '0'.toNat ≤ c.toNat ∧ c.toNat ≤ '9'.toNat then some (c.toNat - '0'.toNat) else none

def digits : List Char → ℕ → Option ℕ
  | [], a => some a
  | c :: s, a => match digit c with
    | some d => digits s (10 * a + d)
    | none => none

def number : List Char → Option ℤ
  | [] => none
  | s => (digits s 0).map fun n => (n : ℤ)

/-- Integer field without its blanks: a sign and digits; an empty field is zero. -/
def field : List Char → Option Val
  | [] => some (.int 0)
  | '-' :: s => (number s).map fun n => .int (-n)
  | '+' :: s => (number s).map fun n => .int n
  | s => (number s).map fun n => .int n

/-- `READ(text, '(i10)') n`: the first ten characters; blanks do not count. -/
def readI10 (t : List Char) : Option Val := field ((t.take 10).filter fun c => c ≠ ' ')

/-- Format of a `READ` statement. -/
inductive Fmt
  | i10 | free
  deriving DecidableEq, Repr

/-- A branch of a chain: the keyword, the format (`none` when the branch has no `READ`), the variable read, what is stored in it, and the other
variables assigned. -/
structure Branch where
  key : List Char
  fmt : Option Fmt
  kind : Kind
  dest : Name
  post : Val → Val := id
  also : Val → List (Name × Val) := fun _ => []

/-- `READ(...,'(i10)') dest`. -/
def bi (key : List Char) (dest : Name) : Branch := { key, fmt := some .i10, kind := .int, dest }
/-- `READ(..., *) dest`. -/
def bf (key : List Char) (kind : Kind) (dest : Name) : Branch := { key, fmt := some .free, kind, dest }

def Val.pred : Val → Val
  | .int n => .int (n - 1)
  | v => v

def Val.scale (c : ℚ) : Val → Val
  | .real x => .real (x * c)
  | v => v

/-- Values of all the parameters. -/
abbrev Env := Name → Option Val

def Env.set (e : Env) (n : Name) (v : Val) : Env := fun m => if m = n then some v else e m

def Env.sets (e : Env) (l : List (Name × Val)) : Env := l.foldl (fun e a => e.set a.1 a.2) e

/-- Physical constants (src/modules/modules.F90:57, 61, 64 or 73). -/
structure Consts where
  emass : ℚ
  echarge : ℚ
  clight : ℚ

/-- Compilation flags `FFTW` and `P3DFFT`. -/
structure Flags where
  fftw : Bool
  p3dfft : Bool

def Flags.tail (F : Flags) (k : List Char → Name → Branch) : List Branch :=
  if F.fftw then k c!"nb_group_z" c!"nb_group_z" :: (if F.p3dfft then [k c!"nb_group_y" c!"nb_group_y"] else []) else []

/-- `IF(c_dim == 2) ny = 1` (control_file.F90:429, 565). -/
def dim2 : Val → List (Name × Val)
  | .int 2 => [(c!"ny", .int 1)]
  | _ => []

/-- The chain of `read_from_cl` (control_file.F90:267-430), in its order. -/
def clTable (F : Flags) : List Branch :=
  [bi c!"ntilex" c!"ntilex", bi c!"ntiley" c!"ntiley", bi c!"ntilez" c!"ntilez", bi c!"distr" c!"pdistr",
   bi c!"nprocx" c!"nprocx", bi c!"nprocy" c!"nprocy", bi c!"nprocz" c!"nprocz",
   bi c!"nox" c!"nox", bi c!"noy" c!"noy", bi c!"noz" c!"noz",
   bf c!"tmax" .real c!"tmax", bf c!"nsteps" .int c!"nsteps", bf c!"dtcoef" .real c!"dtcoef",
   bf c!"nx" .int c!"nx_global_grid", bf c!"ny" .int c!"ny_global_grid", bf c!"nz" .int c!"nz_global_grid",
   bf c!"fieldgathe" .int c!"fieldgathe", bf c!"currdepo" .int c!"currdepo", bf c!"rhodepo" .int c!"rhodepo",
   bf c!"partcom" .int c!"partcom", bf c!"particle_pusher" .int c!"particle_pusher",
   bf c!"sorting" .int c!"sorting_activated", bf c!"lvec_curr_depo" .int c!"lvec_curr_depo",
   bf c!"l_plasma" .logic c!"l_plasma", bf c!"l_spectral" .logic c!"l_spectral",
   bf c!"absorbing_bcs_x" .logic c!"absorbing_bcs_x", bf c!"absorbing_bcs_y" .logic c!"absorbing_bcs_y",
   bf c!"absorbing_bcs_z" .logic c!"absorbing_bcs_z",
   bi c!"nxpml" c!"nx_pml", bi c!"nypml" c!"ny_pml", bi c!"nzpml" c!"nz_pml",
   bf c!"g_spectral" .logic c!"g_spectral", bf c!"fftw_with_mpi" .logic c!"fftw_with_mpi",
   bf c!"fftw_hybrid" .logic c!"fftw_hybrid", bf c!"p3dfft_flag" .logic c!"p3dfft_flag",
   bf c!"p3dfft_stride" .logic c!"p3dfft_stride", bf c!"fftw_mpi_tr" .logic c!"fftw_mpi_transpose",
   bf c!"lvec_charge_depo" .int c!"lvec_charge_depo", bf c!"lvec_fieldgathe" .int c!"lvec_fieldgathe",
   bf c!"mpicom_curr" .int c!"mpicom_curr", bf c!"mpi_buf_size" .int c!"mpi_buf_size", bf c!"nsteps" .int c!"nsteps",
   { bf c!"nguardsx" .int c!"nxguards" with also := fun v => [(c!"nxjguards", v)] },
   { bf c!"nguardsy" .int c!"nyguards" with also := fun v => [(c!"nyjguards", v)] },
   { bf c!"nguardsz" .int c!"nzguards" with also := fun v => [(c!"nzjguards", v)] }] ++
  (if F.fftw then [bf c!"ngguards_x" .int c!"nxg_group", bf c!"ngguards_y" .int c!"nyg_group", bf c!"ngguards_z" .int c!"nzg_group"] else []) ++
  F.tail (fun k d => bf k .int d) ++
  [{ bf c!"c_dim" .int c!"c_dim" with also := dim2 }]

/-- The sections of an input file. -/
inductive Sec
  | cpusplit | plasma | solver | sorting | timestat | main | species | dump | output | temporal | antenna
  deriving DecidableEq, Repr

/-- `SELECT CASE(TRIM(ADJUSTL(section_name)))` (control_file.F90:478-501), with the argument without trailing blanks. -/
def secOf (name : List Char) : Option Sec :=
  if name = c!"section::main" then some .main
  else if name = c!"section::species" then some .species
  else if name = c!"section::antenna" then some .antenna
  else if name = c!"section::output" then some .output
  else if name = c!"section::cpusplit" then some .cpusplit
  else if name = c!"section::plasma" then some .plasma
  else if name = c!"section::temporal" then some .temporal
  else if name = c!"section::solver" then some .solver
  else if name = c!"section::timestat" then some .timestat
  else if name = c!"section::sorting" then some .sorting
  else if name = c!"section::particle_dump" then some .dump
  else none

/-- `read_cpusplit_section` (control_file.F90:520-569). -/
def cpusplitTable : List Branch :=
  [bi c!"nprocx" c!"nprocx", bi c!"nprocy" c!"nprocy", bi c!"nprocz" c!"nprocz", bi c!"topology" c!"topology",
   bi c!"mpicom_curr" c!"mpicom_curr", bi c!"partcom" c!"partcom", bi c!"fg_p_pp_separated" c!"fg_p_pp_separated",
   bi c!"particle_pusher" c!"particle_pusher", bi c!"lvec_curr_depo" c!"lvec_curr_depo", bi c!"lvec_charge_depo" c!"lvec_charge_depo",
   bi c!"lvec_fieldgathe" c!"lvec_fieldgathe", bi c!"mpi_buf_size" c!"mpi_buf_size", { bi c!"c_dim" c!"c_dim" with also := dim2 }]

/-- `read_plasma_section` (control_file.F90:587-608). -/
def plasmaTable : List Branch :=
  [bf c!"nlab" .real c!"nlab", bf c!"gamma0" .real c!"g0", bf c!"pdistr" .int c!"pdistr", bi c!"particle_pusher" c!"particle_pusher"]

/-- `read_solver_section` (control_file.F90:626-722). The branch of `mpi_buf_size` (671-672) has no `READ`. -/
def solverTable (F : Flags) : List Branch :=
  [bi c!"norderx" c!"norderx", bi c!"nordery" c!"nordery", bi c!"norderz" c!"norderz", bi c!"nox" c!"nox",
   bi c!"nx_pml" c!"nx_pml", bi c!"ny_pml" c!"ny_pml", bi c!"nz_pml" c!"nz_pml", bi c!"noy" c!"noy", bi c!"noz" c!"noz",
   bi c!"currdepo" c!"currdepo", bi c!"fieldgathe" c!"fieldgathe", bi c!"rhodepo" c!"rhodepo", bi c!"partcom" c!"partcom",
   { bi c!"mpi_buf_size" c!"mpi_buf_size" with fmt := none },
   bf c!"l_spectral" .logic c!"l_spectral", bf c!"absorbing_bcs_x" .logic c!"absorbing_bcs_x",
   bf c!"absorbing_bcs_y" .logic c!"absorbing_bcs_y", bf c!"absorbing_bcs_z" .logic c!"absorbing_bcs_z",
   bf c!"g_spectral" .logic c!"g_spectral", bf c!"l_staggered" .logic c!"l_staggered", bf c!"fftw_with_mpi" .logic c!"fftw_with_mpi",
   bf c!"fftw_mpi_tr" .logic c!"fftw_mpi_transpose", bf c!"fftw_hybrid" .logic c!"fftw_hybrid", bf c!"p3dfft_flag" .logic c!"p3dfft_flag",
   bf c!"p3dfft_stride" .logic c!"p3dfft_stride"] ++
  F.tail bi ++
  [bi c!"fg_p_pp_separated" c!"fg_p_pp_separated"]

/-- `read_sorting_section` (control_file.F90:745-778). -/
def sortingTable : List Branch :=
  [bi c!"activation" c!"sorting_activated", bf c!"dx" .real c!"sorting_dx", bf c!"dy" .real c!"sorting_dy", bf c!"dz" .real c!"sorting_dz",
   bf c!"shiftx" .real c!"sorting_shiftx", bf c!"shifty" .real c!"sorting_shifty", bf c!"shiftz" .real c!"sorting_shiftz",
   bf c!"verbose" .logic c!"sorting_verbose"]

/-- `read_timestat_section` (control_file.F90:796-820). -/
def timestatTable : List Branch :=
  [bi c!"activation" c!"timestat_activated", bi c!"period" c!"timestat_period", bi c!"it_start" c!"timestat_itstart",
   bi c!"per_it" c!"timestat_perit", bi c!"buffersize" c!"nbuffertimestat"]

/-- `read_main_section` (control_file.F90:839-949). -/
def mainTable (F : Flags) : List Branch :=
  [bi c!"c_dim" c!"c_dim",
   { bi c!"nx" c!"nx_global_grid" with also := fun v => [(c!"nx_global", v.pred)] },
   { bi c!"ny" c!"ny_global_grid" with also := fun v => [(c!"ny_global", v.pred)] },
   { bi c!"nz" c!"nz_global_grid" with also := fun v => [(c!"nz_global", v.pred)] },
   bi c!"ntilex" c!"ntilex", bi c!"ntiley" c!"ntiley", bi c!"ntilez" c!"ntilez",
   bf c!"dx" .real c!"dx", bf c!"dy" .real c!"dy", bf c!"dz" .real c!"dz",
   bf c!"xmin" .real c!"xmin", bf c!"ymin" .real c!"ymin", bf c!"zmin" .real c!"zmin",
   bf c!"xmax" .real c!"xmax", bf c!"ymax" .real c!"ymax", bf c!"zmax" .real c!"zmax",
   bf c!"t_max" .real c!"tmax", bf c!"nsteps" .int c!"nsteps", bf c!"dtcoef" .real c!"dtcoef",
   { bi c!"nguardsx" c!"nxguards" with also := fun v => if F.fftw then [(c!"nxg_group", v)] else [] },
   { bi c!"nguardsy" c!"nyguards" with also := fun v => if F.fftw then [(c!"nyg_group", v)] else [] },
   { bi c!"nguardsz" c!"nzguards" with also := fun v => if F.fftw then [(c!"nzg_group", v)] else [] },
   bi c!"njguardsx" c!"nxjguards", bi c!"njguardsy" c!"nyjguards", bi c!"njguardsz" c!"nzjguards"] ++
  (if F.fftw then [bi c!"ngguards_z" c!"nzg_group", bi c!"ngguards_y" c!"nyg_group", bi c!"ngguards_x" c!"nxg_group"] else []) ++
  [bf c!"l_plasma" .logic c!"l_plasma"]

/-- `read_species_section` (control_file.F90:995-1066). -/
def speciesTable (K : Consts) : List Branch :=
  [bf c!"name" .text c!"name", { bf c!"mass" .real c!"mass" with post := Val.scale K.emass },
   { bf c!"charge" .real c!"charge" with post := Val.scale K.echarge }, bi c!"nppcell" c!"nppcell",
   bf c!"x_min" .real c!"x_min", bf c!"x_max" .real c!"x_max", bf c!"y_min" .real c!"y_min", bf c!"y_max" .real c!"y_max",
   bf c!"z_min" .real c!"z_min", bf c!"z_max" .real c!"z_max",
   { bf c!"vdrift_x" .real c!"vdrift_x" with post := Val.scale K.clight }, { bf c!"vdrift_y" .real c!"vdrift_y" with post := Val.scale K.clight },
   { bf c!"vdrift_z" .real c!"vdrift_z" with post := Val.scale K.clight }, { bf c!"vth_x" .real c!"vth_x" with post := Val.scale K.clight },
   { bf c!"vth_y" .real c!"vth_y" with post := Val.scale K.clight }, { bf c!"vth_z" .real c!"vth_z" with post := Val.scale K.clight },
   bf c!"sorting_period" .int c!"sorting_period", bf c!"sorting_start" .int c!"sorting_start"]

/-- `read_particle_dumps_section` (control_file.F90:1109-1170). -/
def dumpTable : List Branch :=
  [bf c!"dump_x_min" .real c!"dump_x_min", bf c!"dump_x_max" .real c!"dump_x_max", bf c!"species_name" .text c!"dump_name",
   bf c!"dump_y_min" .real c!"dump_y_min", bf c!"dump_y_max" .real c!"dump_y_max", bf c!"dump_z_min" .real c!"dump_z_min",
   bf c!"dump_z_max" .real c!"dump_z_max", bf c!"dump_ux_min" .real c!"dump_ux_min", bf c!"dump_ux_max" .real c!"dump_ux_max",
   bf c!"dump_uy_min" .real c!"dump_uy_min", bf c!"dump_uy_max" .real c!"dump_uy_max", bf c!"dump_uz_min" .real c!"dump_uz_min",
   bf c!"dump_uz_max" .real c!"dump_uz_max", bi c!"diag_period" c!"diag_period"]

/-- `read_output_section` (control_file.F90:1189-1246). -/
def outputTable : List Branch :=
  [bi c!"output_frequency" c!"output_frequency", bi c!"output_step_min" c!"output_step_min", bi c!"output_step_max" c!"output_step_max",
   bi c!"ex" c!"c_output_ex", bi c!"ey" c!"c_output_ey", bi c!"ez" c!"c_output_ez", bi c!"bx" c!"c_output_bx", bi c!"by" c!"c_output_by",
   bi c!"bz" c!"c_output_bz", bi c!"jx" c!"c_output_jx", bi c!"jy" c!"c_output_jy", bi c!"jz" c!"c_output_jz", bi c!"rho" c!"c_output_rho",
   bi c!"dive" c!"c_output_dive", bi c!"divj" c!"c_output_divj", bi c!"divb" c!"c_output_divb"]

/-- `read_temporal_output_section` (control_file.F90:1266-1309). -/
def temporalTable : List Branch :=
  [bi c!"frequency" c!"temdiag_frequency", bi c!"format" c!"temdiag_format", bi c!"kinE" c!"temdiag_act_list(1)",
   bi c!"exE" c!"temdiag_act_list(2)", bi c!"eyE" c!"temdiag_act_list(3)", bi c!"ezE" c!"temdiag_act_list(4)",
   bi c!"bxE" c!"temdiag_act_list(5)", bi c!"byE" c!"temdiag_act_list(6)", bi c!"bzE" c!"temdiag_act_list(7)",
   bi c!"divE-rho" c!"temdiag_act_list(8)", bi c!"rho" c!"temdiag_act_list(9)", bi c!"divE" c!"temdiag_act_list(10)"]

/-- `read_antenna_section` (control_file.F90:1373-1435). -/
def antennaTable : List Branch :=
  [bf c!"vector_x" .real c!"vector(1)", bf c!"vector_y" .real c!"vector(2)", bf c!"vector_z" .real c!"vector(3)",
   bf c!"spot_x" .real c!"spot_x", bf c!"spot_y" .real c!"spot_y", bf c!"spot_z" .real c!"spot_z",
   bf c!"lambda_laser" .real c!"lambda_laser", bf c!"pvec_x" .real c!"polvector1(1)", bf c!"pvec_y" .real c!"polvector1(2)",
   bf c!"pvec_z" .real c!"polvector1(3)", bf c!"laser_ctau" .real c!"laser_ctau", bf c!"t_peak" .real c!"t_peak",
   bf c!"laser_a_1" .real c!"laser_a_1", bf c!"laser_a_2" .real c!"laser_a_2", bf c!"laser_w0" .real c!"laser_w0",
   bf c!"polangle" .real c!"polangle", bi c!"temporal_order" c!"temporal_order", bi c!"window" c!"time_window"]

def tableOf (F : Flags) (K : Consts) : Sec → List Branch
  | .cpusplit => cpusplitTable
  | .plasma => plasmaTable
  | .solver => solverTable F
  | .sorting => sortingTable
  | .timestat => timestatTable
  | .main => mainTable F
  | .species => speciesTable K
  | .dump => dumpTable
  | .output => outputTable
  | .temporal => temporalTable
  | .antenna => antennaTable

/-- The keyword of the last branch of the chain, that ends the section; `read_temporal_output_section` has none. -/
def endKey : Sec → Option (List Char)
  | .cpusplit => some c!"end::cpusplit"
  | .plasma => some c!"end::plasma"
  | .solver => some c!"end::solver"
  | .sorting => some c!"end::sorting"
  | .timestat => some c!"end::timestat"
  | .main => some c!"end::main"
  | .species => some c!"end::species"
  | .dump => some c!"end::particle_dump"
  | .output => some c!"end::output"
  | .temporal => none
  | .antenna => some c!"end::antenna"

/-- The first branch whose keyword occurs in the buffer. -/
def chain (tbl : List Branch) (buf : List Char) : Option Branch := tbl.find? fun b => 0 < index buf b.key

/-- The `READ` statement of a branch. -/
def Branch.read (rd : Reader) (b : Branch) (t : List Char) : Option (Option Val) :=
  match b.fmt with
  | none => some none
  | some .i10 => (readI10 t).map some
  | some .free => (rd b.kind t).map some

/-- The body of a branch, on the text `t`. A failed read stops the program. -/
def Branch.run (rd : Reader) (b : Branch) (t : List Char) (e : Env) : Res Env :=
  match b.read rd t with
  | none => .error .exception
  | some none => .ok e
  | some (some v) => .ok ((e.set b.dest (b.post v)).sets (b.also v))

/-- Body of the loop of a section reader, on one line: the new values and `end_section`. -/
def body (rd : Reader) (tbl : List Branch) (endk : Option (List Char)) (buf : List Char) (e : Env) : Res (Env × Bool) :=
  if 0 < index buf c!"#" then .ok (e, false)
  else match chain tbl buf with
    | some b => do
      let e ← b.run rd (buf.drop (index buf c!"=")) e
      .ok (e, false)
    | none => match endk with
      | some k => .ok (e, decide (0 < index buf k))
      | none => .ok (e, false)

/-- The parameters, the species, the particle dumps, the `end_section` variables that the section readers keep from one call to the next, and the
section being read. -/
structure St where
  env : Env
  species : List Env
  dumps : List Env
  ended : Sec → Bool
  mode : Option Sec

/-- `nspecies_max` (src/modules/modules.F90:651), also the size of `particle_dumps`. -/
def nspeciesMax : ℕ := 40

def blank : Env := fun _ => none

/-- Initial values of a species (control_file.F90:974-993). Its name is not set. -/
def speciesInit (K : Consts) : Env :=
  blank.sets [(c!"charge", .real (-K.echarge)), (c!"mass", .real K.emass), (c!"nppcell", .int 0), (c!"x_min", .real 0), (c!"x_max", .real 0),
    (c!"y_min", .real 0), (c!"y_max", .real 0), (c!"z_min", .real 0), (c!"z_max", .real 0), (c!"vdrift_x", .real 0), (c!"vdrift_y", .real 0),
    (c!"vdrift_z", .real 0), (c!"vth_x", .real 0), (c!"vth_y", .real 0), (c!"vth_z", .real 0), (c!"sorting_period", .int 0),
    (c!"sorting_start", .int 0), (c!"species_npart", .int 0)]

/-- Initial values of an antenna (control_file.F90:1334-1371). -/
def antennaInit (K : Consts) : Env :=
  blank.sets [(c!"charge", .real 1), (c!"mass", .real K.emass), (c!"name", .text c!"laser_antenna"), (c!"nppcell", .int 1),
    (c!"x_min", .real 0), (c!"x_max", .real 0), (c!"y_min", .real 0), (c!"y_max", .real 0), (c!"z_min", .real 0), (c!"z_max", .real 0),
    (c!"vdrift_x", .real 0), (c!"vdrift_y", .real 0), (c!"vdrift_z", .real 0), (c!"vth_x", .real 0), (c!"vth_y", .real 0), (c!"vth_z", .real 0),
    (c!"sorting_period", .int 0), (c!"sorting_start", .int 0), (c!"species_npart", .int 0), (c!"ldodepos", .logic true),
    (c!"is_antenna", .logic true), (c!"polangle", .real 0), (c!"spot_x", .real 0), (c!"spot_y", .real 0), (c!"spot_z", .real 0),
    (c!"lambda_laser", .real 0), (c!"laser_ctau", .real 0), (c!"laser_a_1", .real 0), (c!"laser_a_2", .real 0), (c!"laser_w0", .real 0),
    (c!"temporal_order", .int 2), (c!"t_peak", .real 0), (c!"time_window", .int 0), (c!"vector(1)", .real 0), (c!"vector(2)", .real 0),
    (c!"vector(3)", .real 0), (c!"polvector1(1)", .real 0), (c!"polvector1(2)", .real 0), (c!"polvector1(3)", .real 0),
    (c!"polvector2(1)", .real 0), (c!"polvector2(2)", .real 0), (c!"polvector2(3)", .real 0)]

/-- The values of `n` in `e`, if it has one, given to `m`. -/
def copy (e : Env) (n m : Name) : List (Name × Val) := match e n with
  | some v => [(m, v)]
  | none => []

/-- Initial values of a particle dump (control_file.F90:1092-1107). -/
def dumpInit (e : Env) : Env :=
  blank.sets ([(c!"ispecies", .int (-1))] ++ copy e c!"xmin" c!"dump_x_min" ++ copy e c!"xmax" c!"dump_x_max" ++ copy e c!"ymin" c!"dump_y_min" ++
    copy e c!"ymax" c!"dump_y_max" ++ copy e c!"zmin" c!"dump_z_min" ++ copy e c!"zmax" c!"dump_z_max" ++
    [(c!"dump_ux_min", .real 10000000), (c!"dump_ux_max", .real 1000000000), (c!"dump_uy_min", .real 10000000),
     (c!"dump_uy_max", .real 1000000000), (c!"dump_uz_min", .real 10000000), (c!"dump_uz_max", .real 1000000000), (c!"diag_period", .int (-1))])

/-- The search of a species by its name (control_file.F90:1124-1129): the first species, from the position `i`, such that
`INDEX(dump_name, species%name) > 0`, both `CHARACTER(LEN=string_length)`. A species whose name was never set has an undefined name. -/
def findSpecies (nm : List Char) : List Env → ℤ → Res (Option ℤ)
  | [], _ => .ok none
  | s :: r, i => match s c!"name" with
    | some (.text t) => if 0 < index (toBuffer nm) (toBuffer t) then .ok (some i) else findSpecies nm r (i + 1)
    | _ => .error .uninitialised

/-- After `READ(...) dump_name` (control_file.F90:1124-1132): the species of that name, if any. `dump_name` is a local variable, so it does not stay. -/
def lookup (species : List Env) (e : Env) : Res Env :=
  match e c!"dump_name" with
  | some (.text t) => do
    let e : Env := fun n => if n = c!"dump_name" then none else e n
    match ← findSpecies t species 1 with
    | some i => .ok (e.set c!"ispecies" (.int i))
    | none => .ok e
  | _ => .ok e

/-- Replaces the last element. -/
def setLast {α : Type} (l : List α) (x : α) : List α := l.dropLast ++ [x]

/-- Pointing at the next element of `species_parray` (`curr => species_parray(nspecies)`), whose size is `nspecies_max`. -/
def grow (l : List Env) (e : Env) : Res (List Env) :=
  if l.length < nspeciesMax then .ok (l ++ [e]) else .error .outOfBounds

/-- `IF(absorbing_bcs_x .OR. absorbing_bcs_y .OR. absorbing_bcs_z) absorbing_bcs = .TRUE.` (control_file.F90:435, 726). -/
def absorbing (e : Env) : Env :=
  if e c!"absorbing_bcs_x" = some (.logic true) ∨ e c!"absorbing_bcs_y" = some (.logic true) ∨ e c!"absorbing_bcs_z" = some (.logic true) then
    e.set c!"absorbing_bcs" (.logic true)
  else e

/-- Start of a section reader: new species or dump, `end_section=.FALSE.` in the readers that have this statement (control_file.F90:994, 1108, 1373). -/
def enter (K : Consts) (sec : Sec) (st : St) : Res St :=
  match sec with
  | .species => do
    let sp ← grow st.species (speciesInit K)
    .ok { st with species := sp, mode := some .species }
  | .antenna => do
    let sp ← grow st.species (antennaInit K)
    .ok { st with species := sp, mode := some .antenna }
  | .dump => do
    let d ← grow st.dumps (dumpInit st.env)
    .ok { st with dumps := d, mode := some .dump }
  | .solver => .ok (if st.ended .solver then { st with env := absorbing st.env } else { st with mode := some .solver })
  | s => .ok (if st.ended s then st else { st with mode := some s })

/-- End of a section reader: `absorbing_bcs` (726), second species of an antenna (1433-1478; the second species has all the attributes of the first
one, with the opposite charge). -/
def leave (sec : Sec) (st : St) : Res St :=
  match sec with
  | .solver => .ok { st with env := absorbing st.env, mode := none }
  | .antenna => match st.species.getLast? with
    | some e => do
      let sp ← grow st.species (e.set c!"charge" (.real (-1)))
      .ok { st with species := sp, mode := none }
    | none => .error .outOfBounds
  | _ => .ok { st with mode := none }

/-- One line read by a section reader. -/
def inSection (F : Flags) (K : Consts) (rd : Reader) (sec : Sec) (buf : List Char) (st : St) : Res (St × Bool) :=
  match sec with
  | .species => do
    let (e, b) ← body rd (tableOf F K sec) (endKey sec) buf (st.species.getLastD blank)
    .ok ({ st with species := setLast st.species e }, b)
  | .antenna => do
    let (e, b) ← body rd (tableOf F K sec) (endKey sec) buf (st.species.getLastD blank)
    .ok ({ st with species := setLast st.species e }, b)
  | .dump => do
    let (e, b) ← body rd (tableOf F K sec) (endKey sec) buf (st.dumps.getLastD blank)
    let e ← lookup st.species e
    .ok ({ st with dumps := setLast st.dumps e }, b)
  | _ => do
    let (e, b) ← body rd (tableOf F K sec) (endKey sec) buf st.env
    .ok ({ st with env := e }, b)

/-- `TRIM`: without trailing blanks. -/
def trim (s : List Char) : List Char := (s.reverse.dropWhile (· = ' ')).reverse

/-- One line of the input file. `read_input_file` (control_file.F90:470-503) and the section readers it calls are nested loops that read the same
unit; they are written as one loop over the lines that remembers which reader is active. -/
def line (F : Flags) (K : Consts) (rd : Reader) (st : St) (l : List Char) : Res St :=
  let buf := toBuffer l
  match st.mode with
  | none =>
    let ix := index buf c!"section::"
    if 0 < ix then
      match secOf (trim (buf.drop (ix - 1))) with
      | some sec => enter K sec st
      | none => .ok st
    else .ok st
  | some sec => do
    let (st, e) ← inSection F K rd sec buf st
    if e then leave sec { st with ended := fun s => if s = sec then true else st.ended s }
    else .ok st

/-- The lines of the file in order, then the end of the file: the `READ` fails and leaves `buffer` as it was, and the body of the active loop runs
a last time on the last line (control_file.F90:470-471 and the loops of the section readers). -/
def lines (F : Flags) (K : Consts) (rd : Reader) : List (List Char) → List Char → St → Res St
  | [], last, st => match st.mode with
    | none => .ok st
    | some sec => do
      let (st, _) ← inSection F K rd sec (toBuffer last) st
      leave sec st
  | l :: r, _, st => do
    let st ← line F K rd st l
    lines F K rd r l st

/-- `read_input_file` on the lines of the file. -/
def readFile (F : Flags) (K : Consts) (rd : Reader) (file : List (List Char)) (e : Env) : Res St :=
  lines F K rd file [] ⟨e, [], [], fun _ => false, none⟩

/-- The options of the command line, taken two by two (control_file.F90:265-431): the loop goes up to `COMMAND_ARGUMENT_COUNT()-1`. -/
def options (F : Flags) (rd : Reader) : List (List Char) → Env → Res Env
  | o :: v :: r, e => do
    let e ← match chain (clTable F) (toBuffer o) with
      | some b => b.run rd (toBuffer v) e
      | none => .ok e
    options F rd r e
  | _, e => .ok e

/-- The first argument is skipped when it names an input file (control_file.F90:259-264). -/
def skipFile : List (List Char) → List (List Char)
  | a :: r => if 0 < index (toBuffer a) c!".pixr" then r else a :: r
  | [] => []

/-- `read_from_cl` (control_file.F90:257-437). -/
def readCl (F : Flags) (rd : Reader) (args : List (List Char)) (e : Env) : Res Env := do
  let e ← options F rd (skipFile args) e
  .ok (absorbing e)

end Picsar.Input
