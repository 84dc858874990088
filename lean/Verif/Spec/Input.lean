import Verif.Model.Input

/-
Specification vocabulary for the input file and the command line: which keyword names which parameter, what a line that sets a parameter looks like,
and what a whole file means.
-/
namespace Picsar.Spec.Input
open Picsar Picsar.Input

/-- How the value of a parameter is written: an integer within ten columns, or a Fortran constant of the type. -/
inductive How
  | columns | int | real | logic | text
  deriving DecidableEq, Repr

/-- Unit in which a parameter is given. -/
inductive Unit
  | one | emass | echarge | clight
  deriving DecidableEq, Repr

/-- Other variables that follow a parameter: one with the same value, one with the number of cells, one less than the number of nodes, or `ny = 1` for a
two-dimensional simulation. -/
inductive More
  | nothing | same (n : Name) | cells (n : Name) | flat
  deriving DecidableEq, Repr

/-- A keyword and the parameter it sets. -/
structure Doc where
  key : List Char
  how : How
  param : Name
  unit : Unit
  more : More
  deriving DecidableEq, Repr

def doc (key : List Char) (how : How) (param : Name) : Doc := ⟨key, how, param, .one, .nothing⟩

/-- Options of the command line. -/
def clDocs (F : Flags) : List Doc :=
  [doc c!"ntilex" .columns c!"ntilex", doc c!"ntiley" .columns c!"ntiley", doc c!"ntilez" .columns c!"ntilez", doc c!"distr" .columns c!"pdistr",
   doc c!"nprocx" .columns c!"nprocx", doc c!"nprocy" .columns c!"nprocy", doc c!"nprocz" .columns c!"nprocz", doc c!"nox" .columns c!"nox",
   doc c!"noy" .columns c!"noy", doc c!"noz" .columns c!"noz", doc c!"tmax" .real c!"tmax", doc c!"nsteps" .int c!"nsteps",
   doc c!"dtcoef" .real c!"dtcoef", doc c!"nx" .int c!"nx_global_grid", doc c!"ny" .int c!"ny_global_grid", doc c!"nz" .int c!"nz_global_grid",
   doc c!"fieldgathe" .int c!"fieldgathe", doc c!"currdepo" .int c!"currdepo", doc c!"rhodepo" .int c!"rhodepo", doc c!"partcom" .int c!"partcom",
   doc c!"particle_pusher" .int c!"particle_pusher", doc c!"sorting" .int c!"sorting_activated", doc c!"lvec_curr_depo" .int c!"lvec_curr_depo",
   doc c!"l_plasma" .logic c!"l_plasma", doc c!"l_spectral" .logic c!"l_spectral", doc c!"absorbing_bcs_x" .logic c!"absorbing_bcs_x",
   doc c!"absorbing_bcs_y" .logic c!"absorbing_bcs_y", doc c!"absorbing_bcs_z" .logic c!"absorbing_bcs_z", doc c!"nxpml" .columns c!"nx_pml",
   doc c!"nypml" .columns c!"ny_pml", doc c!"nzpml" .columns c!"nz_pml", doc c!"g_spectral" .logic c!"g_spectral",
   doc c!"fftw_with_mpi" .logic c!"fftw_with_mpi", doc c!"fftw_hybrid" .logic c!"fftw_hybrid", doc c!"p3dfft_flag" .logic c!"p3dfft_flag",
   doc c!"p3dfft_stride" .logic c!"p3dfft_stride", doc c!"fftw_mpi_tr" .logic c!"fftw_mpi_transpose",
   doc c!"lvec_charge_depo" .int c!"lvec_charge_depo", doc c!"lvec_fieldgathe" .int c!"lvec_fieldgathe", doc c!"mpicom_curr" .int c!"mpicom_curr",
   doc c!"mpi_buf_size" .int c!"mpi_buf_size", ⟨c!"nguardsx", .int, c!"nxguards", .one, (.same c!"nxjguards")⟩,
   ⟨c!"nguardsy", .int, c!"nyguards", .one, (.same c!"nyjguards")⟩, ⟨c!"nguardsz", .int, c!"nzguards", .one, (.same c!"nzjguards")⟩] ++
  (if F.fftw then
  [doc c!"ngguards_x" .int c!"nxg_group", doc c!"ngguards_y" .int c!"nyg_group", doc c!"ngguards_z" .int c!"nzg_group",
   doc c!"nb_group_z" .int c!"nb_group_z"] else []) ++
  (if (F.fftw && F.p3dfft) then
  [doc c!"nb_group_y" .int c!"nb_group_y"] else []) ++
  [⟨c!"c_dim", .int, c!"c_dim", .one, .flat⟩]

/-- Section `cpusplit`. -/
def cpusplitDocs : List Doc :=
  [doc c!"nprocx" .columns c!"nprocx", doc c!"nprocy" .columns c!"nprocy", doc c!"nprocz" .columns c!"nprocz",
   doc c!"topology" .columns c!"topology", doc c!"mpicom_curr" .columns c!"mpicom_curr", doc c!"partcom" .columns c!"partcom",
   doc c!"fg_p_pp_separated" .columns c!"fg_p_pp_separated", doc c!"particle_pusher" .columns c!"particle_pusher",
   doc c!"lvec_curr_depo" .columns c!"lvec_curr_depo", doc c!"lvec_charge_depo" .columns c!"lvec_charge_depo",
   doc c!"lvec_fieldgathe" .columns c!"lvec_fieldgathe", doc c!"mpi_buf_size" .columns c!"mpi_buf_size",
   ⟨c!"c_dim", .columns, c!"c_dim", .one, .flat⟩]

/-- Section `plasma`. -/
def plasmaDocs : List Doc :=
  [doc c!"nlab" .real c!"nlab", doc c!"gamma0" .real c!"g0", doc c!"pdistr" .int c!"pdistr", doc c!"particle_pusher" .columns c!"particle_pusher"]

/-- Section `solver`. -/
def solverDocs (F : Flags) : List Doc :=
  [doc c!"norderx" .columns c!"norderx", doc c!"nordery" .columns c!"nordery", doc c!"norderz" .columns c!"norderz", doc c!"nox" .columns c!"nox",
   doc c!"nx_pml" .columns c!"nx_pml", doc c!"ny_pml" .columns c!"ny_pml", doc c!"nz_pml" .columns c!"nz_pml", doc c!"noy" .columns c!"noy",
   doc c!"noz" .columns c!"noz", doc c!"currdepo" .columns c!"currdepo", doc c!"fieldgathe" .columns c!"fieldgathe",
   doc c!"rhodepo" .columns c!"rhodepo", doc c!"partcom" .columns c!"partcom", doc c!"mpi_buf_size" .columns c!"mpi_buf_size",
   doc c!"l_spectral" .logic c!"l_spectral", doc c!"absorbing_bcs_x" .logic c!"absorbing_bcs_x", doc c!"absorbing_bcs_y" .logic c!"absorbing_bcs_y",
   doc c!"absorbing_bcs_z" .logic c!"absorbing_bcs_z", doc c!"g_spectral" .logic c!"g_spectral", doc c!"l_staggered" .logic c!"l_staggered",
   doc c!"fftw_with_mpi" .logic c!"fftw_with_mpi", doc c!"fftw_mpi_tr" .logic c!"fftw_mpi_transpose", doc c!"fftw_hybrid" .logic c!"fftw_hybrid",
   doc c!"p3dfft_flag" .logic c!"p3dfft_flag", doc c!"p3dfft_stride" .logic c!"p3dfft_stride"] ++
  (if F.fftw then
  [doc c!"nb_group_z" .columns c!"nb_group_z"] else []) ++
  (if (F.fftw && F.p3dfft) then
  [doc c!"nb_group_y" .columns c!"nb_group_y"] else []) ++
  [doc c!"fg_p_pp_separated" .columns c!"fg_p_pp_separated"]

/-- Section `sorting`. -/
def sortingDocs : List Doc :=
  [doc c!"activation" .columns c!"sorting_activated", doc c!"dx" .real c!"sorting_dx", doc c!"dy" .real c!"sorting_dy",
   doc c!"dz" .real c!"sorting_dz", doc c!"shiftx" .real c!"sorting_shiftx", doc c!"shifty" .real c!"sorting_shifty",
   doc c!"shiftz" .real c!"sorting_shiftz", doc c!"verbose" .logic c!"sorting_verbose"]

/-- Section `timestat`. -/
def timestatDocs : List Doc :=
  [doc c!"activation" .columns c!"timestat_activated", doc c!"period" .columns c!"timestat_period", doc c!"it_start" .columns c!"timestat_itstart",
   doc c!"per_it" .columns c!"timestat_perit", doc c!"buffersize" .columns c!"nbuffertimestat"]

/-- Section `main`. -/
def mainDocs (F : Flags) : List Doc :=
  [doc c!"c_dim" .columns c!"c_dim", ⟨c!"nx", .columns, c!"nx_global_grid", .one, (.cells c!"nx_global")⟩,
   ⟨c!"ny", .columns, c!"ny_global_grid", .one, (.cells c!"ny_global")⟩, ⟨c!"nz", .columns, c!"nz_global_grid", .one, (.cells c!"nz_global")⟩,
   doc c!"ntilex" .columns c!"ntilex", doc c!"ntiley" .columns c!"ntiley", doc c!"ntilez" .columns c!"ntilez", doc c!"dx" .real c!"dx",
   doc c!"dy" .real c!"dy", doc c!"dz" .real c!"dz", doc c!"xmin" .real c!"xmin", doc c!"ymin" .real c!"ymin", doc c!"zmin" .real c!"zmin",
   doc c!"xmax" .real c!"xmax", doc c!"ymax" .real c!"ymax", doc c!"zmax" .real c!"zmax", doc c!"t_max" .real c!"tmax",
   doc c!"nsteps" .int c!"nsteps", doc c!"dtcoef" .real c!"dtcoef",
   ⟨c!"nguardsx", .columns, c!"nxguards", .one, (if F.fftw then .same c!"nxg_group" else .nothing)⟩,
   ⟨c!"nguardsy", .columns, c!"nyguards", .one, (if F.fftw then .same c!"nyg_group" else .nothing)⟩,
   ⟨c!"nguardsz", .columns, c!"nzguards", .one, (if F.fftw then .same c!"nzg_group" else .nothing)⟩, doc c!"njguardsx" .columns c!"nxjguards",
   doc c!"njguardsy" .columns c!"nyjguards", doc c!"njguardsz" .columns c!"nzjguards"] ++
  (if F.fftw then
  [doc c!"ngguards_z" .columns c!"nzg_group", doc c!"ngguards_y" .columns c!"nyg_group", doc c!"ngguards_x" .columns c!"nxg_group"] else []) ++
  [doc c!"l_plasma" .logic c!"l_plasma"]

/-- Section `species`. -/
def speciesDocs : List Doc :=
  [doc c!"name" .text c!"name", ⟨c!"mass", .real, c!"mass", .emass, .nothing⟩, ⟨c!"charge", .real, c!"charge", .echarge, .nothing⟩,
   doc c!"nppcell" .columns c!"nppcell", doc c!"x_min" .real c!"x_min", doc c!"x_max" .real c!"x_max", doc c!"y_min" .real c!"y_min",
   doc c!"y_max" .real c!"y_max", doc c!"z_min" .real c!"z_min", doc c!"z_max" .real c!"z_max",
   ⟨c!"vdrift_x", .real, c!"vdrift_x", .clight, .nothing⟩, ⟨c!"vdrift_y", .real, c!"vdrift_y", .clight, .nothing⟩,
   ⟨c!"vdrift_z", .real, c!"vdrift_z", .clight, .nothing⟩, ⟨c!"vth_x", .real, c!"vth_x", .clight, .nothing⟩,
   ⟨c!"vth_y", .real, c!"vth_y", .clight, .nothing⟩, ⟨c!"vth_z", .real, c!"vth_z", .clight, .nothing⟩,
   doc c!"sorting_period" .int c!"sorting_period", doc c!"sorting_start" .int c!"sorting_start"]

/-- Section `particle_dump`. -/
def dumpDocs : List Doc :=
  [doc c!"dump_x_min" .real c!"dump_x_min", doc c!"dump_x_max" .real c!"dump_x_max", doc c!"species_name" .text c!"dump_name",
   doc c!"dump_y_min" .real c!"dump_y_min", doc c!"dump_y_max" .real c!"dump_y_max", doc c!"dump_z_min" .real c!"dump_z_min",
   doc c!"dump_z_max" .real c!"dump_z_max", doc c!"dump_ux_min" .real c!"dump_ux_min", doc c!"dump_ux_max" .real c!"dump_ux_max",
   doc c!"dump_uy_min" .real c!"dump_uy_min", doc c!"dump_uy_max" .real c!"dump_uy_max", doc c!"dump_uz_min" .real c!"dump_uz_min",
   doc c!"dump_uz_max" .real c!"dump_uz_max", doc c!"diag_period" .columns c!"diag_period"]

/-- Section `output`. -/
def outputDocs : List Doc :=
  [doc c!"output_frequency" .columns c!"output_frequency", doc c!"output_step_min" .columns c!"output_step_min",
   doc c!"output_step_max" .columns c!"output_step_max", doc c!"ex" .columns c!"c_output_ex", doc c!"ey" .columns c!"c_output_ey",
   doc c!"ez" .columns c!"c_output_ez", doc c!"bx" .columns c!"c_output_bx", doc c!"by" .columns c!"c_output_by",
   doc c!"bz" .columns c!"c_output_bz", doc c!"jx" .columns c!"c_output_jx", doc c!"jy" .columns c!"c_output_jy",
   doc c!"jz" .columns c!"c_output_jz", doc c!"rho" .columns c!"c_output_rho", doc c!"dive" .columns c!"c_output_dive",
   doc c!"divj" .columns c!"c_output_divj", doc c!"divb" .columns c!"c_output_divb"]

/-- Section `temporal`. -/
def temporalDocs : List Doc :=
  [doc c!"frequency" .columns c!"temdiag_frequency", doc c!"format" .columns c!"temdiag_format", doc c!"kinE" .columns c!"temdiag_act_list(1)",
   doc c!"exE" .columns c!"temdiag_act_list(2)", doc c!"eyE" .columns c!"temdiag_act_list(3)", doc c!"ezE" .columns c!"temdiag_act_list(4)",
   doc c!"bxE" .columns c!"temdiag_act_list(5)", doc c!"byE" .columns c!"temdiag_act_list(6)", doc c!"bzE" .columns c!"temdiag_act_list(7)",
   doc c!"divE-rho" .columns c!"temdiag_act_list(8)", doc c!"rho" .columns c!"temdiag_act_list(9)", doc c!"divE" .columns c!"temdiag_act_list(10)"]

/-- Section `antenna`. -/
def antennaDocs : List Doc :=
  [doc c!"vector_x" .real c!"vector(1)", doc c!"vector_y" .real c!"vector(2)", doc c!"vector_z" .real c!"vector(3)", doc c!"spot_x" .real c!"spot_x",
   doc c!"spot_y" .real c!"spot_y", doc c!"spot_z" .real c!"spot_z", doc c!"lambda_laser" .real c!"lambda_laser",
   doc c!"pvec_x" .real c!"polvector1(1)", doc c!"pvec_y" .real c!"polvector1(2)", doc c!"pvec_z" .real c!"polvector1(3)",
   doc c!"laser_ctau" .real c!"laser_ctau", doc c!"t_peak" .real c!"t_peak", doc c!"laser_a_1" .real c!"laser_a_1",
   doc c!"laser_a_2" .real c!"laser_a_2", doc c!"laser_w0" .real c!"laser_w0", doc c!"polangle" .real c!"polangle",
   doc c!"temporal_order" .columns c!"temporal_order", doc c!"window" .columns c!"time_window"]

/-- The keywords of a section. -/
def docs (F : Flags) : Sec → List Doc
  | .cpusplit => cpusplitDocs
  | .plasma => plasmaDocs
  | .solver => solverDocs F
  | .sorting => sortingDocs
  | .timestat => timestatDocs
  | .main => mainDocs F
  | .species => speciesDocs
  | .dump => dumpDocs
  | .output => outputDocs
  | .temporal => temporalDocs
  | .antenna => antennaDocs

/-- Name of a section. -/
def secName : Sec → List Char
  | .cpusplit => c!"cpusplit"
  | .plasma => c!"plasma"
  | .solver => c!"solver"
  | .sorting => c!"sorting"
  | .timestat => c!"timestat"
  | .main => c!"main"
  | .species => c!"species"
  | .dump => c!"particle_dump"
  | .output => c!"output"
  | .temporal => c!"temporal"
  | .antenna => c!"antenna"

/-- Sections that can be repeated: each one describes one more object. -/
def Sec.many : Sec → Bool
  | .species | .dump | .antenna => true
  | _ => false

/-- The value of a text. -/
def Doc.value (rd : Reader) (d : Doc) (t : List Char) : Option Val :=
  match d.how with
  | .columns => readI10 t
  | .int => rd .int t
  | .real => rd .real t
  | .logic => rd .logic t
  | .text => rd .text t

/-- The value stored, in the units of the code. -/
def Unit.inCode (K : Consts) : Unit → Val → Val
  | .emass, .real x => .real (x * K.emass)
  | .echarge, .real x => .real (x * K.echarge)
  | .clight, .real x => .real (x * K.clight)
  | _, v => v

/-- Values of the other variables that follow. -/
def More.value : More → Name → Val → Option Val
  | .same m, n, v => if n = m then some v else none
  | .cells m, n, .int k => if n = m then some (.int (k - 1)) else none
  | .cells m, n, v => if n = m then some v else none
  | .flat, n, v => if n = c!"ny" ∧ v = .int 2 then some (.int 1) else none
  | .nothing, _, _ => none

/-- The parameters after a setting: the one that is named and its followers have the value, all others keep theirs. -/
def Doc.apply (K : Consts) (d : Doc) (v : Val) (e : Env) : Env := fun n =>
  match d.more.value n v with
  | some w => some w
  | none => if n = d.param then some (d.unit.inCode K v) else e n

/-- The setting changes that variable. -/
def Touches (d : Doc) (v : Val) (n : Name) : Prop := n = d.param ∨ d.more.value n v ≠ none

instance (d : Doc) (v : Val) (n : Name) : Decidable (Touches d v n) := inferInstanceAs (Decidable (_ ∨ _))

/-- Only blanks. -/
def Blanks (s : List Char) : Prop := ∀ c ∈ s, c = ' '

/-- The line sets the keyword `k` to the text `v`: `k = v`, with any number of blanks before and after the keyword, within the length of a line. -/
def Sets (k v l : List Char) : Prop :=
  ∃ a b, Blanks a ∧ Blanks b ∧ l = a ++ k ++ b ++ '=' :: v ∧ l.length ≤ stringLength

/-- A text with no comment mark and without any keyword of the list. -/
def Plain (ds : List Doc) (v : List Char) : Prop := '#' ∉ v ∧ ∀ d ∈ ds, ¬ d.key <:+: v

/-- The list-directed reads do not depend on trailing blanks. -/
def Trailing (rd : Reader) : Prop := ∀ k t n, rd k (t ++ List.replicate n ' ') = rd k t

/-- A line inside a section: a comment, a line without keyword, a setting. -/
inductive Item
  | comment (l : List Char)
  | idle (l : List Char)
  | set (l : List Char) (d : Doc) (v : Val)

def Item.line : Item → List Char
  | .comment l => l
  | .idle l => l
  | .set l _ _ => l

/-- What an item means for the parameters. -/
def Item.apply (K : Consts) : Item → Env → Env
  | .set _ d v, e => d.apply K v e
  | _, e => e

/-- The end mark of a section. -/
def endMark (s : Sec) : List Char := c!"end::" ++ secName s

/-- The item is what it says in a section. The keyword `mpi_buf_size` of the section `solver`, which the code ignores, and the name of a species in a
particle dump, which depends on the species, are left out. -/
def Item.Ok (F : Flags) (rd : Reader) (s : Sec) : Item → Prop
  | .comment l => '#' ∈ l ∧ l.length ≤ stringLength
  | .idle l => Plain (docs F s) l ∧ ¬ endMark s <:+: l ∧ l.length ≤ stringLength
  | .set l d v => d ∈ docs F s ∧ ¬ (s = .solver ∧ d.key = c!"mpi_buf_size") ∧ ¬ (s = .dump ∧ d.key = c!"species_name") ∧
      ∃ t, Sets d.key t l ∧ Plain (docs F s) t ∧ d.value rd t = some v

/-- A section of a file: its header, its lines, its end mark, and the lines that follow before the next section. -/
structure Block where
  sec : Sec
  header : List Char
  items : List Item
  close : List Char
  after : List (List Char)

/-- A line outside the sections. -/
def Outside (l : List Char) : Prop := ¬ c!"section::" <:+: l

/-- Header of a section: `section::name`, with blanks before and after. -/
def Header (s : Sec) (l : List Char) : Prop :=
  ∃ a b, Blanks a ∧ Blanks b ∧ l = a ++ (c!"section::" ++ secName s) ++ b ∧ l.length ≤ stringLength

/-- End of a section: `end::name`, with blanks before and after. -/
def Closes (s : Sec) (l : List Char) : Prop :=
  ∃ a b, Blanks a ∧ Blanks b ∧ l = a ++ endMark s ++ b ∧ l.length ≤ stringLength

structure Block.Ok (F : Flags) (rd : Reader) (b : Block) : Prop where
  notTemporal : b.sec ≠ .temporal
  header : Header b.sec b.header
  items : ∀ i ∈ b.items, i.Ok F rd b.sec
  close : Closes b.sec b.close
  after : ∀ l ∈ b.after, Outside l

def Block.lines (b : Block) : List (List Char) := b.header :: b.items.map Item.line ++ b.close :: b.after

/-- The item sets a parameter. -/
def Item.isSetting : Item → Bool
  | .set _ _ _ => true
  | _ => false

/-- A section without its comments, its idle lines and the lines that follow it. -/
def bare (b : Block) : Block := ⟨b.sec, b.header, b.items.filter Item.isSetting, b.close, []⟩

/-- The parameters, the species and the particle dumps. -/
structure Deck where
  env : Env
  species : List Env
  dumps : List Env

/-- The settings of a section, in order. -/
def settings (K : Consts) (l : List Item) (e : Env) : Env := l.foldl (fun e i => i.apply K e) e

/-- `absorbing_bcs` is set as soon as one of the three directions is absorbing. -/
def absorb (e : Env) : Env := fun n =>
  if n = c!"absorbing_bcs" ∧ (e c!"absorbing_bcs_x" = some (.logic true) ∨ e c!"absorbing_bcs_y" = some (.logic true) ∨
    e c!"absorbing_bcs_z" = some (.logic true)) then some (.logic true) else e n

/-- What a section means: its settings, or one more species, one more antenna (two species of opposite charges), one more particle dump. -/
def Block.meaning (K : Consts) (b : Block) (d : Deck) : Deck :=
  match b.sec with
  | .species => { d with species := d.species ++ [settings K b.items (speciesInit K)] }
  | .antenna =>
    let a := settings K b.items (antennaInit K)
    { d with species := d.species ++ [a, fun n => if n = c!"charge" then some (.real (-1)) else a n] }
  | .dump => { d with dumps := d.dumps ++ [settings K b.items (dumpInit d.env)] }
  | .solver => { d with env := absorb (settings K b.items d.env) }
  | _ => { d with env := settings K b.items d.env }

/-- What a file means: its sections, in order. -/
def meaning (K : Consts) (bs : List Block) (d : Deck) : Deck := bs.foldl (fun d b => b.meaning K d) d

/-- Number of species of a file. -/
def nSpecies (bs : List Block) : ℕ := (bs.map fun b => match b.sec with
  | .species => 1
  | .antenna => 2
  | _ => 0).sum

/-- Number of particle dumps of a file. -/
def nDumps (bs : List Block) : ℕ := (bs.filter fun b => b.sec = .dump).length

/-- No section is repeated, except those that describe one more object. -/
def NoRepeat (bs : List Block) : Prop := ((bs.map Block.sec).filter fun s => !Sec.many s).Nodup

/-- An option of the command line: keyword with any number of dashes, and its value. -/
structure Opt where
  dashes : ℕ
  doc : Doc
  text : List Char
  val : Val

def Opt.name (o : Opt) : List Char := List.replicate o.dashes '-' ++ o.doc.key

/-- Options that are taken for another one (control_file.F90:351-357, 381). -/
def shadowed : List (List Char) := [c!"nxpml", c!"nypml", c!"nzpml", c!"lvec_fieldgathe"]

structure Opt.Ok (F : Flags) (rd : Reader) (o : Opt) : Prop where
  doc : o.doc ∈ clDocs F
  name : o.name.length ≤ stringLength
  text : o.text.length ≤ stringLength
  val : o.doc.value rd o.text = some o.val

/-- The arguments of a list of options. -/
def args (os : List Opt) : List (List Char) := os.flatMap fun o => [o.name, o.text]

/-- What a list of options means. -/
def optMeaning (K : Consts) (os : List Opt) (e : Env) : Env := os.foldl (fun e o => o.doc.apply K o.val e) e

/-- The same name, as strings of the length of a line filled with blanks. -/
def sameName (w x : List Char) : Bool := decide (toBuffer x = toBuffer w)

/-- An integer written in decimal. -/
def decimal (n : ℕ) : List Char :=
  if n < 10 then [Char.ofNat (48 + n)] else decimal (n / 10) ++ [Char.ofNat (48 + n % 10)]
termination_by n
decreasing_by omega

def decimalInt : ℤ → List Char
  | .ofNat n => decimal n
  | .negSucc n => '-' :: decimal (n + 1)

end Picsar.Spec.Input
