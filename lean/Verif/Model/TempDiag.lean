import Verif.Base
import Mathlib.Analysis.Real.Sqrt
import Mathlib.Data.Nat.Notation

/-
The temporal diagnostics: `init_temp_diags` (src/diags/diags.F90) and `output_temporal_diagnostics` (src/ios/simple_io.F90). The ten
diagnostics are numbered as in `temdiag_act_list`: kinetic energy (one value per species), energies of ex, ey, ez, bx, by, bz, norms of
`eps0 div E - rho`, `rho`, `div E`. Their local values are given (C73, C101). A record is the list of values of one `WRITE`; text or
binary format is not distinguished.
-/
namespace Picsar.TempDiag
open Picsar

/-- `temdiag_nb_values` (diags.F90:275, 286, ...). -/
def nbValues (nspecies d : ℕ) : ℕ := if d = 1 then nspecies else 1

/-- The module variables `temdiag_i_list`, `temdiag_nb_values`, `temdiag_nb` and the local `i`; `none` is an element that has never been
set (modules.F90:1029-1038 give no initial values). -/
structure Layout where
  ilist : ℕ → Option ℕ
  nvals : ℕ → Option ℕ
  nb : ℕ
  next : ℕ

/-- One of the ten `if (temdiag_act_list(d).gt.0)` (diags.F90:273-367). `act` holds `temdiag_act_list`; elements that the input file does
not set have no value (control_file.F90:228-229 sets only the frequency and the format). -/
def layoutStep (act : ℕ → Option ℤ) (nspecies : ℕ) (L : Layout) (d : ℕ) : Res Layout :=
  match act d with
  | none => .error .uninitialised
  | some a =>
    if a > 0 then
      .ok ⟨Function.update L.ilist d (some L.next), Function.update L.nvals d (some (nbValues nspecies d)), L.nb + 1,
        L.next + nbValues nspecies d⟩
    else .ok L

/-- First part of `init_temp_diags` (diags.F90:264-368). -/
def initLayout (act : ℕ → Option ℤ) (nspecies : ℕ) : Res Layout :=
  (List.range' 1 10).foldlM (layoutStep act nspecies) ⟨fun _ => none, fun _ => none, 0, 1⟩

/-- `temdiag_totvalues` (diags.F90:368). -/
def Layout.tot (L : Layout) : ℕ := L.next - 1

/-- A Fortran array `(1:n)`; `none` is an element without a value. -/
abbrev Vals := ℕ → Option ℝ

/-- Store to `local_values(k)`, allocated with `temdiag_totvalues` elements (simple_io.F90:263). -/
def store (tot : ℕ) (a : Vals) (k : ℕ) (v : ℝ) : Res Vals :=
  if 1 ≤ k ∧ k ≤ tot then .ok (Function.update a k (some v)) else .error .outOfBounds

/-- The local values of diagnostic `d` (simple_io.F90:266-391): `nspecies` values for the first one, one for the others. -/
def fillStep (act : ℕ → Option ℤ) (nspecies : ℕ) (L : Layout) (q : ℕ → ℕ → ℝ) (a : Vals) (d : ℕ) : Res Vals :=
  match act d with
  | none => .error .uninitialised
  | some s =>
    if s > 0 then
      match L.ilist d with
      | none => .error .uninitialised
      | some i => (List.range (nbValues nspecies d)).foldlM (fun a k => store L.tot a (i + k) (q d k)) a
    else .ok a

def fill (act : ℕ → Option ℤ) (nspecies : ℕ) (L : Layout) (q : ℕ → ℕ → ℝ) : Res Vals :=
  (List.range' 1 10).foldlM (fillStep act nspecies L q) fun _ => none

/-- `MPI_ALLREDUCE` of all elements (simple_io.F90:394-395); an element without a value on one process has none afterwards. -/
def reduce (ls : List Vals) : Vals := fun k => (ls.mapM fun a : Vals => a k).map List.sum

/-- The square roots (simple_io.F90:398-409). -/
noncomputable def rootStep (act : ℕ → Option ℤ) (L : Layout) (a : Vals) (d : ℕ) : Res Vals :=
  match act d with
  | none => .error .uninitialised
  | some s =>
    if s > 0 then
      match L.ilist d with
      | none => .error .uninitialised
      | some i => .ok (Function.update a i ((a i).map Real.sqrt))
    else .ok a

noncomputable def roots (act : ℕ → Option ℤ) (L : Layout) (a : Vals) : Res Vals := [8, 9, 10].foldlM (rootStep act L) a

/-- `global_values` (simple_io.F90:263-409) from the local values `q r d k` of all processes. -/
noncomputable def globalValues (act : ℕ → Option ℤ) (nspecies : ℕ) (L : Layout) (qs : List (ℕ → ℕ → ℝ)) : Res Vals := do
  let ls ← qs.mapM (fill act nspecies L)
  roots act L (reduce ls)

/-- `global_values(temdiag_i_list(d):temdiag_i_list(d)+temdiag_nb_values(d)-1)` (simple_io.F90:421, 441). -/
def slice (L : Layout) (g : Vals) (d : ℕ) : Res (List (Option ℝ)) :=
  match L.ilist d, L.nvals d with
  | some i, some n => if n = 0 ∨ (1 ≤ i ∧ i + n - 1 ≤ L.tot) then .ok ((List.range n).map fun k => g (i + k)) else .error .outOfBounds
  | _, _ => .error .uninitialised

/-- A record: the head of the file (number of values, time between records) or values. -/
inductive Rec
  | head (n : Option ℕ) (period : ℝ)
  | vals (l : List (Option ℝ))

/-- The file of each diagnostic (`none` if it does not exist), the diagnostic to which a unit of a process is connected, and what
went to units that were not connected (`fort.42`). -/
structure World where
  file : ℕ → Option (List Rec)
  unit : ℕ → ℕ → Option ℕ
  fort : List Rec

/-- `OPEN(unit, STATUS='new')` by a process for diagnostic `d`, and the head (diags.F90:385-395, 405-414). The directory is emptied
before. -/
def openFile (L : Layout) (period : ℝ) (w : World) (r u d : ℕ) : Res World :=
  match w.file d with
  | some _ => .error .exception
  | none => .ok ⟨Function.update w.file d (some [.head (L.nvals d) period]),
      Function.update w.unit r (Function.update (w.unit r) u (some d)), w.fort⟩

/-- A `WRITE` of process `r` to unit `u`. -/
def write (w : World) (r u : ℕ) (x : Rec) : World :=
  match w.unit r u with
  | some d => { w with file := Function.update w.file d ((w.file d).map (· ++ [x])) }
  | none => { w with fort := w.fort ++ [x] }

/-- `if (temdiag_act_list(i).gt.0)` around an open (diags.F90:381, 402). -/
def openIf (act : ℕ → Option ℤ) (L : Layout) (period : ℝ) (w : World) (r u d : ℕ) : Res World :=
  match act d with
  | none => .error .uninitialised
  | some s => if s > 0 then openFile L period w r u d else .ok w

/-- Second part of `init_temp_diags` (diags.F90:376-418): with enough processes, process `r` has unit 42 and diagnostic `r+1`; else
process 0 has units `42+i`. -/
def openFiles (act : ℕ → Option ℤ) (L : Layout) (period : ℝ) (nproc : ℕ) : Res World :=
  if nproc ≥ L.nb then
    (List.range nproc).foldlM (fun w r => if r < L.nb then openIf act L period w r 42 (r + 1) else .ok w)
      ⟨fun _ => none, fun _ _ => none, []⟩
  else
    (List.range' 1 L.nb).foldlM (fun w i => openIf act L period w 0 (42 + i) i) ⟨fun _ => none, fun _ _ => none, []⟩

/-- The output of one step (simple_io.F90:412-446). Note `rank.le.temdiag_nb`. -/
def output (L : Layout) (nproc : ℕ) (g : Vals) (w : World) : Res World :=
  if nproc ≥ L.nb then
    (List.range nproc).foldlM (fun w r =>
      if r ≤ L.nb then do
        let l ← slice L g (r + 1)
        .ok (write w r 42 (.vals l))
      else .ok w) w
  else
    (List.range' 1 L.nb).foldlM (fun w i => do
      let l ← slice L g i
      .ok (write w 0 (42 + i) (.vals l))) w

/-- What happens during a run: a dump of a field, whose head process 0 writes through unit 42, which it then closes
(simple_io.F90:503-516), or an output of the temporal diagnostics with the local values of all processes. -/
inductive Event
  | field
  | out (qs : List (ℕ → ℕ → ℝ))

noncomputable def event (act : ℕ → Option ℤ) (nspecies : ℕ) (L : Layout) (nproc : ℕ) (w : World) : Event → Res World
  | .field => .ok { w with unit := Function.update w.unit 0 (Function.update (w.unit 0) 42 none) }
  | .out qs => do
    let g ← globalValues act nspecies L qs
    output L nproc g w

/-- A run: `init_temp_diags`, then the events. -/
noncomputable def run (act : ℕ → Option ℤ) (nspecies : ℕ) (period : ℝ) (nproc : ℕ) (es : List Event) : Res World := do
  let L ← initLayout act nspecies
  let w ← openFiles act L period nproc
  es.foldlM (event act nspecies L nproc) w

/-- `(temdiag_frequency.gt.0).and.(MOD(it, temdiag_frequency).EQ.0)` (simple_io.F90:259). -/
def due (freq : ℤ) (it : ℕ) : Bool := decide (freq > 0) && decide ((it : ℤ).tmod freq = 0)

end Picsar.TempDiag
