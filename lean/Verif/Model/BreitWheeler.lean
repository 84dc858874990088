import Verif.Model.Chi
import Verif.Model.LookupTables
import Mathlib.Analysis.SpecialFunctions.Gamma.Basic

/-
Model of src/multi_physics/QED/src/breit_wheeler_engine.hpp (static "GPU" functions and the CPU wrappers around
them). The integrals computed with boost (`compute_TT_function`, `compute_cumulative_pair`) are parameters.
-/
namespace Picsar

/-- breit_wheeler_engine_ctrl.h:14-43. -/
structure BWCtrl where
  chiPhotMin : ℝ
  tdndtMin : ℝ
  tdndtMax : ℝ
  tdndtHowMany : ℕ
  tpairMin : ℝ
  tpairMax : ℝ
  tpairHowMany : ℕ
  fracHowMany : ℕ

/-- breit_wheeler_engine.hpp:299-306 and quantum_sync_engine.hpp:300-307 `internal_get_optical_depth`. -/
noncomputable def getOpticalDepth (u : ℝ) : ℝ := -Real.log (1 - u)

namespace BW

/-- qed_commons.h:188-189. -/
noncomputable def erberA : ℝ := 0.16
noncomputable def erberB : ℝ := 4 / 3

/-- breit_wheeler_engine.hpp:311-360 `internal_interp_dN_dt`. -/
noncomputable def interpDnDt (U : Units) (ctrl : BWCtrl) (t : Lookup1d) (lambda energy chi : ℝ) :
    Res ℝ :=
  let lam := U.lam lambda
  if energy = 0 ∨ chi = 0 then .ok 0
  else
    let coeff := U.pairCoeff * lam * (1 / (chi * energy))
    if chi ≤ ctrl.tdndtMin then
      .ok (coeff * ((Real.pi * erberA / (2 * erberB)) * chi * chi * Real.exp (-2 * erberB / chi)))
    else if chi ≥ ctrl.tdndtMax then
      .ok (coeff * (erberA * chi * (Real.Gamma (1 / 3) / 2) *
        (chi * 2 / erberB) ^ ((2 : ℝ) / 3)))
    else do
      let v ← t.interpLinearEquispaced (Real.log chi)
      pure (coeff * Real.exp v)

end BW

/-- Result of evolving an optical depth: the new depth, whether an event happened and the elapsed time. -/
structure Evolved where
  depth : ℝ
  event : Bool
  eventDt : ℝ

open Classical in
/-- breit_wheeler_engine.hpp:409-417, 695-700 and quantum_sync_engine.hpp:395-402, 640-645: the update of the
optical depth with a known rate (`opt_depth/dndt` is guarded by the caller's positive rate; a zero rate with a
negative depth is a division by zero). -/
noncomputable def stepDepth (rate dt depth : ℝ) : Res Evolved :=
  let d := depth - rate * dt
  if d < 0 then do
    let q ← fdiv d rate
    pure ⟨d, true, q + dt⟩
  else .ok ⟨d, false, 0⟩

namespace BW

open Classical in
/-- breit_wheeler_engine.hpp:367-420 `internal_evolve_opt_depth_and_determine_event`.
The first component is the returned `bool` (false: table not initialised). -/
noncomputable def evolveInternal (U : Units) (ctrl : BWCtrl) (t : Lookup1d) (lambda : ℝ)
    (p e b : V3) (dt depth : ℝ) : Res (Bool × Evolved) :=
  let lam := U.lam lambda
  let energy := p.norm * U.c
  let chi := chiPhoton U p e b lam
  if chi ≤ ctrl.chiPhotMin ∨ energy < 2 * (U.emass * U.c * U.c) then
    .ok (true, ⟨depth, false, 0⟩)
  else if t.init then do
    let dndt ← interpDnDt U ctrl t lam energy chi
    let r ← stepDepth dndt dt depth
    pure (true, r)
  else .ok (false, ⟨depth, false, 0⟩)

open Classical in
/-- breit_wheeler_engine.hpp:618-629 `compute_dN_dt`; `TT` stands for `compute_TT_function`. -/
noncomputable def computeDnDt (U : Units) (TT : ℝ → ℝ) (lambda energy chi : ℝ) : ℝ :=
  if energy = 0 ∨ chi = 0 then 0 else U.pairCoeff * lambda * (1 / (chi * energy)) * TT chi

/-- breit_wheeler_engine.hpp:673-704 `evolve_opt_depth_and_determine_event` (CPU): falls back to the
integral when the table is not initialised. -/
noncomputable def evolve (U : Units) (ctrl : BWCtrl) (t : Lookup1d) (TT : ℝ → ℝ) (lambda : ℝ)
    (p e b : V3) (dt depth : ℝ) : Res Evolved := do
  let (ok, r) ← evolveInternal U ctrl t lambda p e b dt depth
  if ok then pure r
  else
    let energy := p.norm * U.c
    let chi := chiPhoton U p e b lambda
    stepDepth (computeDnDt U TT lambda energy chi) dt r.depth

/-- breit_wheeler_engine.hpp:632-656 `compute_dN_dt_lookup_table`. The code takes logarithms of the coordinates
returned by `generate_log_spaced_vec` and of the values. (`min > 0`: all entries are finite; non-finite
coordinates are dropped by the model, see C03 for that case.) -/
noncomputable def dnDtTable (ctrl : BWCtrl) (TT : ℝ → ℝ) : Lookup1d :=
  let coords := (generateLogSpacedVec ctrl.tdndtMin ctrl.tdndtMax ctrl.tdndtHowMany).filterMap id
  Lookup1d.mk' (coords.map Real.log) (coords.map fun c => Real.log (TT c))

end BW

/-! ### Tables that may hold the logarithm of zero -/

/-- A floating point number: finite, infinite or not-a-number (no rounding). -/
inductive XR
  | fin (x : ℝ)
  | pinf
  | ninf
  | nan

namespace XR
open Classical

/-- `log(x)` in floating point. -/
noncomputable def log (x : ℝ) : XR := if 0 < x then fin (Real.log x) else if x = 0 then ninf else nan

/-- `exp`. -/
noncomputable def exp : XR → XR
  | fin x => fin (Real.exp x)
  | pinf => pinf
  | ninf => fin 0
  | nan => nan

/-- Product of a finite number and a floating point number. -/
noncomputable def smul (w : ℝ) : XR → XR
  | fin x => fin (w * x)
  | pinf => if w = 0 then nan else if 0 < w then pinf else ninf
  | ninf => if w = 0 then nan else if 0 < w then ninf else pinf
  | nan => nan

/-- Sum. -/
noncomputable def add : XR → XR → XR
  | fin x, fin y => fin (x + y)
  | fin _, pinf => pinf
  | fin _, ninf => ninf
  | pinf, fin _ => pinf
  | ninf, fin _ => ninf
  | pinf, pinf => pinf
  | ninf, ninf => ninf
  | _, _ => nan

/-- Comparison `r < x` (false for NaN). -/
def rlt (r : ℝ) : XR → Prop
  | fin x => r < x
  | pinf => True
  | ninf => False
  | nan => False

/-- Finite part. -/
noncomputable def toFl : XR → Fl
  | fin x => some x
  | _ => none

end XR

/-- lookup_tables.hpp:120-204 `lookup_2d`, with data that may hold `log(0)`. -/
structure Tab2X where
  coords0 : List ℝ
  coords1 : List ℝ
  data : List XR

open Classical in
/-- lookup_tables.hpp:653-689 `lookup_2d::interp_linear_first_equispaced` on such a table. -/
noncomputable def Tab2X.interpFirst (t : Tab2X) (wx : ℝ) (j : ℕ) : Res XR := do
  let sx := t.coords0.length
  let sy := t.coords1.length
  let front ← rd t.coords0 0
  if wx ≤ front then rd t.data (rowMajor 0 j sx sy)
  else
    let back ← rd t.coords0 (sx - 1)
    if wx ≥ back then rd t.data (rowMajor (sx - 1) j sx sy)
    else
      let xl ← equispacedIndex t.coords0 wx
      let xleft ← rd t.coords0 xl
      let xright ← rd t.coords0 (xl + 1)
      let zlc ← rd t.data (rowMajor xl j sx sy)
      let zrc ← rd t.data (rowMajor (xl + 1) j sx sy)
      let inv ← fdiv 1 (xright - xleft)
      pure (XR.smul inv (XR.add (XR.smul (xright - wx) zlc) (XR.smul (wx - xleft) zrc)))

namespace BW

/-- breit_wheeler_engine.hpp:473-475: `exp(table.interp_linear_first_equispaced(log(tab_chi_phot), it))`. -/
noncomputable def colVal (t : Tab2X) (logChi : ℝ) (j : ℕ) : Res XR := do
  let v ← t.interpFirst logChi j
  pure v.exp

open Classical in
/-- breit_wheeler_engine.hpp:465-483: the binary search over the columns. -/
noncomputable def search (t : Tab2X) (logChi prob : ℝ) (first count : ℕ) : Res ℕ :=
  if 0 < count then
    let step := count / 2
    let it := first + step
    match colVal t logChi it with
    | .error e => .error e
    | .ok v =>
      if ¬ (v.rlt prob) then search t logChi prob (it + 1) (count - (step + 1))
      else search t logChi prob first step
  else .ok first
termination_by count
decreasing_by all_goals omega

/-- breit_wheeler_engine.hpp:450-454: clamping of chi to the table range. -/
noncomputable def clampChi (lo hi chi : ℝ) : ℝ := if chi < lo then lo else if chi > hi then hi else chi

/-- breit_wheeler_engine.hpp:485-497: bracketing columns and the fraction taken by the first particle.
Reads of `coords[1]` outside the array are faults; a division by zero or an operation on non-finite
numbers gives a non-finite fraction (`none`). -/
noncomputable def fracOf (t : Tab2X) (logChi prob : ℝ) : Res Fl := do
  let upper ← search t logChi prob 0 t.coords1.length
  let lower ← predIdx upper
  let upperFrac ← rd t.coords1 upper
  let lowerFrac ← rd t.coords1 lower
  let up ← colVal t logChi upper
  let lp ← colVal t logChi lower
  match up.toFl, lp.toFl with
  | some u, some l =>
    if u - l = 0 then pure none
    else pure (some (lowerFrac + (prob - l) * (upperFrac - lowerFrac) / (u - l)))
  | _, _ => pure none

/-- One generated particle pair: momenta and weights. -/
structure Pair where
  ele : V3
  pos : V3
  eleWeight : ℝ
  posWeight : ℝ

/-- breit_wheeler_engine.hpp:509-512: `sqrt((one+chi*coeff)*(one+chi*coeff)-one)*me_c`; the root of a negative
number is not a number. -/
noncomputable def absMom (mec chi coeff : ℝ) : Fl :=
  let a := (1 + chi * coeff) * (1 + chi * coeff) - 1
  if a < 0 then none else some (Real.sqrt a * mec)

open Classical in
/-- breit_wheeler_engine.hpp:457-532, one pass of the sampling loop. `none`: some component of the generated momenta
is not finite. -/
noncomputable def genOne (U : Units) (t : Tab2X) (logChi chi : ℝ) (p : V3) (newWeight u : ℝ) :
    Res (Option Pair) := do
  let invert := u ≥ 1 / 2
  let prob := if invert then u - 1 / 2 else u
  let f ← fracOf t logChi prob
  let mec := U.emass * U.c
  let gammaPhot := p.norm / mec
  match f with
  | none => pure none
  | some f =>
    if p.norm = 0 ∨ chi = 0 then pure none
    else
      let n := p.sdiv p.norm
      let chi1 := f * chi
      let chi2 := chi - chi1
      let chiEle := if invert then chi2 else chi1
      let chiPos := if invert then chi1 else chi2
      let coeff := (gammaPhot - 2) / chi
      match absMom mec chiEle coeff, absMom mec chiPos coeff with
      | some ce, some cp => pure (some ⟨V3.smul ce n, V3.smul cp n, newWeight, newWeight⟩)
      | _, _ => pure none

/-- Loop over the samples. -/
noncomputable def genAll (U : Units) (t : Tab2X) (logChi chi : ℝ) (p : V3) (newWeight : ℝ) :
    List ℝ → Res (List (Option Pair))
  | [] => .ok []
  | u :: us => do
    let r ← genOne U t logChi chi p newWeight u
    let rs ← genAll U t logChi chi p newWeight us
    pure (r :: rs)

/-- breit_wheeler_engine.hpp:427-537 `internal_generate_breit_wheeler_pairs` (and the CPU wrapper 775-820, which only
copies the arrays): `us` are the uniform draws, `sampling = us.length`. The logarithm of the clamped chi is
finite because the table minimum is positive. -/
noncomputable def generatePairs (U : Units) (ctrl : BWCtrl) (t : Tab2X) (lambda : ℝ) (p e b : V3)
    (weight : ℝ) (us : List ℝ) : Res (List (Option Pair)) :=
  let chi := chiPhoton U p e b lambda
  let newWeight := weight / (us.length : ℝ)
  let tabChi := clampChi ctrl.tpairMin ctrl.tpairMax chi
  genAll U t (Real.log tabChi) chi p newWeight us

/-- breit_wheeler_engine.hpp:733-754: contents of the cumulative table before taking logarithms: first column zero,
last column one half, `cum chi_phot chi_part` in between. -/
noncomputable def pairVal (cum : ℝ → ℝ → ℝ) (chi : ℝ) (fracs : List ℝ) (j : ℕ) : ℝ :=
  if j = 0 then 0 else if j = fracs.length - 1 then 1 / 2
  else match fracs[j]? with
    | some f => cum chi (chi * f)
    | none => 0

/-- breit_wheeler_engine.hpp:721-761 `compute_cumulative_pair_table` (sequential semantics; the parallel row loop is in
Model/OmpTables.lean). -/
noncomputable def pairTable (ctrl : BWCtrl) (cum : ℝ → ℝ → ℝ) : Tab2X :=
  let chis := (generateLogSpacedVec ctrl.tpairMin ctrl.tpairMax ctrl.tpairHowMany).filterMap id
  let fracs := generateLinSpacedVec 0 (1 / 2) ctrl.fracHowMany
  ⟨chis.map Real.log, fracs,
    chis.flatMap fun chi => (List.range fracs.length).map fun (j : ℕ) => XR.log (pairVal cum chi fracs j)⟩

end BW
end Picsar
