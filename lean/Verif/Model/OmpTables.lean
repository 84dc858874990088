import Verif.Model.QuantumSync
import Mathlib.Logic.Function.Basic

/-
Model of the OpenMP loops that fill the cumulative tables
(breit_wheeler_engine.hpp:738-747, quantum_sync_engine.hpp:690-726). Each row of the table is one iteration of
the `omp parallel for`; an iteration is a sequence of steps, each of which writes one shared element; the steps of
different iterations may be interleaved in any order. (How iterations are distributed over threads only
restricts which interleavings occur.)
-/
namespace Picsar

/-- An iteration of the parallel loop as a little machine: private variables `σ`, and in each step at most one write to the
shared array. `none`: the iteration is finished. -/
structure RowProg (σ α : Type) where
  init : ℕ → σ
  step : ℕ → σ → Option (σ × ℕ × α)

/-- Private variables of all iterations and the shared array. -/
structure OmpState (σ α : Type) where
  loc : ℕ → σ
  mem : List α

/-- Execute one step of iteration `i`. -/
def RowProg.exec {σ α : Type} (p : RowProg σ α) (i : ℕ) (s : OmpState σ α) : Res (OmpState σ α) :=
  match p.step i (s.loc i) with
  | none => .ok s
  | some (s', a, v) => do
    let mem ← wr s.mem a v
    pure ⟨Function.update s.loc i s', mem⟩

/-- Execute a schedule: a list saying which iteration makes the next step. -/
def RowProg.run {σ α : Type} (p : RowProg σ α) : List ℕ → OmpState σ α → Res (OmpState σ α)
  | [], s => .ok s
  | i :: sched, s => do
    let s' ← p.exec i s
    p.run sched s'

/-- Where an iteration of the pair-table loop is: about to write the first element, inside the inner loop with index `jj`,
or finished. -/
inductive BWPc
  | first
  | inner (jj : ℕ)
  | done

/-- breit_wheeler_engine.hpp:739-746. Private variables: the write cursor `cc` and the program counter. The shared array
holds optional numbers (`none`: not yet written). `frac_coords.size() - 1` is computed on `size_t`. -/
noncomputable def bwRow (cum : ℝ → ℝ → ℝ) (chis fracs : List ℝ) : RowProg (ℕ × BWPc) (Option ℝ) where
  init i := (i * fracs.length, .first)
  step i s :=
    let chi := (chis[i]?).getD 0
    match s.2 with
    | .first => some ((s.1 + 1, .inner 1), s.1, some 0)
    | .inner jj =>
      if jj < (fracs.length + (2 ^ 64 - 1)) % 2 ^ 64 then
        some ((s.1 + 1, .inner (jj + 1)), s.1, some (cum chi (chi * (fracs[jj]?).getD 0)))
      else some ((s.1 + 1, .done), s.1, some (1 / 2))
    | .done => none

/-- breit_wheeler_engine.hpp:721-761 with the parallel loop executed under the schedule `sched`: the shared array
starts with indeterminate elements, and afterwards the logarithms are taken. -/
noncomputable def bwTableOmp (ctrl : BWCtrl) (cum : ℝ → ℝ → ℝ) (sched : List ℕ) : Res (List ℝ × List ℝ × List (Option XR)) := do
  let chis := (generateLogSpacedVec ctrl.tpairMin ctrl.tpairMax ctrl.tpairHowMany).filterMap id
  let fracs := generateLinSpacedVec 0 (1 / 2) ctrl.fracHowMany
  let p := bwRow cum chis fracs
  let s ← p.run sched ⟨p.init, List.replicate (chis.length * fracs.length) none⟩
  pure (chis.map Real.log, fracs, s.mem.map fun x => x.map XR.log)

/-- Private variables of an iteration of the photon-table loop: cursor, `jj`, `guess`, `previous` (`none` while
`first_one`). -/
structure QSLoc where
  cc : ℕ
  jj : ℕ
  guess : ℝ
  prev : Option ℝ

/-- quantum_sync_engine.hpp:691-725. -/
noncomputable def qsRow (solve : ℝ → ℝ → ℝ → Option ℝ → ℝ) (chis probs : List ℝ) : RowProg QSLoc (Option ℝ) where
  init i := ⟨i * probs.length, 0, -10, none⟩
  step i s :=
    if s.jj < probs.length then
      let chi := (chis[i]?).getD 0
      let prob0 := (probs[s.jj]?).getD 0
      let prob1 := if s.jj = 0 then (probs[1]?).getD 0 / 10 else prob0
      let prob := if s.jj = probs.length - 1 then 1 - (1 - (probs[probs.length - 2]?).getD 0) / 10 else prob1
      let r := solve chi prob s.guess s.prev
      some (⟨s.cc + 1, s.jj + 1, r, some r⟩, s.cc, some (Real.exp r))
    else none

/-- quantum_sync_engine.hpp:674-737 under the schedule `sched`. -/
noncomputable def qsTableOmp (ctrl : QSCtrl) (solve : ℝ → ℝ → ℝ → Option ℝ → ℝ) (sched : List ℕ) :
    Res (List ℝ × List ℝ × List (Option XR)) := do
  let chis := (generateLogSpacedVec ctrl.temMin ctrl.temMax ctrl.temHowMany).filterMap id
  let probs := generateLinSpacedVec 0 1 ctrl.probHowMany
  let p := qsRow solve chis probs
  let s ← p.run sched ⟨p.init, List.replicate (chis.length * probs.length) none⟩
  pure (chis.map Real.log, probs, s.mem.map fun x => x.map XR.log)

end Picsar
