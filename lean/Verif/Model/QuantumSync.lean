import Verif.Model.BreitWheeler

/-
Model of src/multi_physics/QED/src/quantum_sync_engine.hpp. The integrals computed with boost
(`compute_KK_function`, `compute_cumulative_phot_em`) and the root finder are parameters.
-/
namespace Picsar

/-- quantum_sync_engine_ctrl.h:14-40. -/
structure QSCtrl where
  chiPartMin : ℝ
  tdndtMin : ℝ
  tdndtMax : ℝ
  tdndtHowMany : ℕ
  temMin : ℝ
  temMax : ℝ
  temHowMany : ℕ
  probHowMany : ℕ

namespace QS

/-- quantum_sync_engine.hpp:331-336: chi is clamped to the range of the table. -/
noncomputable def clampRate (lo hi chi : ℝ) : ℝ := if chi ≤ lo then lo else if chi ≥ hi then hi else chi

/-- quantum_sync_engine.hpp:313-346 `internal_interp_dN_dt` (no enforcement of lambda=1 here). -/
noncomputable def interpDnDt (U : Units) (ctrl : QSCtrl) (t : Lookup1d) (lambda energy chi : ℝ) :
    Res ℝ :=
  if energy = 0 ∨ chi = 0 then .ok 0
  else do
    let coeff := U.qsCoeff * lambda * 1 / energy
    let v ← t.interpLinearEquispaced (Real.log (clampRate ctrl.tdndtMin ctrl.tdndtMax chi))
    pure (coeff * Real.exp v)

open Classical in
/-- quantum_sync_engine.hpp:354-407 `internal_evolve_opt_depth_and_determine_event`. -/
noncomputable def evolveInternal (U : Units) (ctrl : QSCtrl) (t : Lookup1d) (lambda : ℝ)
    (p e b : V3) (dt depth : ℝ) : Res (Bool × Evolved) :=
  let lam := U.lam lambda
  let energy := p.norm * U.c
  let chi := chiLepton U p e b lam
  if chi ≤ ctrl.chiPartMin then .ok (true, ⟨depth, false, 0⟩)
  else if t.init then do
    let dndt ← interpDnDt U ctrl t lam energy chi
    let r ← stepDepth dndt dt depth
    pure (true, r)
  else .ok (false, ⟨depth, false, 0⟩)

open Classical in
/-- quantum_sync_engine.hpp:562-574 `compute_dN_dt`; `KK` stands for `compute_KK_function`. -/
noncomputable def computeDnDt (U : Units) (KK : ℝ → ℝ) (lambda energy chi : ℝ) : ℝ :=
  if energy = 0 ∨ chi = 0 then 0 else U.qsCoeff * lambda * (1 / energy) * KK chi

/-- quantum_sync_engine.hpp:619-650 `evolve_opt_depth_and_determine_event` (CPU). -/
noncomputable def evolve (U : Units) (ctrl : QSCtrl) (t : Lookup1d) (KK : ℝ → ℝ) (lambda : ℝ)
    (p e b : V3) (dt depth : ℝ) : Res Evolved := do
  let (ok, r) ← evolveInternal U ctrl t lambda p e b dt depth
  if ok then pure r
  else
    let energy := p.norm * U.c
    let chi := chiLepton U p e b lambda
    stepDepth (computeDnDt U KK lambda energy chi) dt r.depth

/-- quantum_sync_engine.hpp:576-601 `compute_dN_dt_lookup_table` (see `BW.dnDtTable`). -/
noncomputable def dnDtTable (ctrl : QSCtrl) (KK : ℝ → ℝ) : Lookup1d :=
  let coords := (generateLogSpacedVec ctrl.tdndtMin ctrl.tdndtMax ctrl.tdndtHowMany).filterMap id
  Lookup1d.mk' (coords.map Real.log) (coords.map fun c => Real.log (KK c))

/-- quantum_sync_engine.hpp:458-472: the fraction of chi taken by the photon. Reads outside the arrays are
faults; a non-finite table entry or a zero cell width gives a non-finite number (`none`). -/
noncomputable def fracOf (t : Tab2X) (logChi prob : ℝ) : Res Fl := do
  let left := ⌊((t.coords1.length - 1 : ℕ) : ℝ) * prob⌋₊
  let right := left + 1
  let probLeft ← rd t.coords1 left
  let probRight ← rd t.coords1 right
  let l ← BW.colVal t logChi left
  let r ← BW.colVal t logChi right
  match l.toFl, r.toFl with
  | some l, some r =>
    if probRight - probLeft = 0 then pure none
    else pure (some (l + (prob - probLeft) * (r - l) / (probRight - probLeft)))
  | _, _ => pure none

open Classical in
/-- quantum_sync_engine.hpp:456-492: the sampling loop. The lepton momentum `cur` is updated in place, `n`, `gamma`
and `chi` were computed from the momentum before the loop. A non-finite photon momentum (`none`) makes the
remaining lepton momentum non-finite as well. -/
noncomputable def emitAll (mec : ℝ) (t : Tab2X) (logChi chi gamma : ℝ) (n : V3) (overSampling newWeight : ℝ) :
    V3 → List ℝ → Res (Option (V3 × List (V3 × ℝ)))
  | cur, [] => .ok (some (cur, []))
  | cur, u :: us => do
    let f ← fracOf t logChi u
    match f with
    | none => pure none
    | some f =>
      if chi = 0 then pure none
      else
        let chiPhot := f * chi
        let gammaPhot := chiPhot / chi * (gamma - 1)
        let pPhot := V3.smul mec (V3.smul gammaPhot n)
        let cur' : V3 := cur.sub (V3.smul overSampling pPhot)
        let r ← emitAll mec t logChi chi gamma n overSampling newWeight cur' us
        match r with
        | none => pure none
        | some (fin, phs) => pure (some (fin, (pPhot, newWeight) :: phs))

open Classical in
/-- quantum_sync_engine.hpp:415-495 `internal_generate_photons_and_update_momentum` (the CPU wrapper 748-787 copies the
arrays): final lepton momentum and the photons with their weights; `none` if some number is not finite (a lepton
at rest has no direction). -/
noncomputable def generatePhotons (U : Units) (ctrl : QSCtrl) (t : Tab2X) (lambda : ℝ) (p e b : V3)
    (weight : ℝ) (us : List ℝ) : Res (Option (V3 × List (V3 × ℝ))) :=
  let lam := U.lam lambda
  let chi := chiLepton U p e b lam
  let newWeight := weight / (us.length : ℝ)
  let mec := U.emass * U.c
  let p2 := p.norm2
  let norm := Real.sqrt p2
  if norm = 0 then .ok none
  else
    let n := p.sdiv norm
    let gamma := Real.sqrt (1 + p2 / mec / mec)
    let tabChi := BW.clampChi ctrl.temMin ctrl.temMax chi
    emitAll mec t (Real.log tabChi) chi gamma n (1 / (us.length : ℝ)) newWeight p us

/-- quantum_sync_engine.hpp:693-724: one row of the cumulative table. `solve chiPart prob guess prev` stands for
`bracket_and_solve_root` applied to the closure (`prev = none` for the first column); the root is the logarithm of the
fraction. -/
noncomputable def rowFrom (solve : ℝ → ℝ → ℝ → Option ℝ → ℝ) (chi : ℝ) :
    ℝ → Option ℝ → List ℝ → List ℝ
  | _, _, [] => []
  | guess, prev, prob :: probs =>
    let r := solve chi prob guess prev
    Real.exp r :: rowFrom solve chi r (some r) probs

/-- quantum_sync_engine.hpp:701-706: the probabilities actually inverted: the end points are moved inside. -/
noncomputable def rowProbs (probs : List ℝ) : List ℝ :=
  (List.range probs.length).map fun (j : ℕ) =>
    let a := if j = 0 then (probs[1]?.getD 0) / 10 else probs[j]?.getD 0
    if j = probs.length - 1 then 1 - (1 - (probs[probs.length - 2]?.getD 0)) / 10 else a

/-- quantum_sync_engine.hpp:674-737 `compute_cumulative_phot_em_table` (sequential semantics). -/
noncomputable def photTable (ctrl : QSCtrl) (solve : ℝ → ℝ → ℝ → Option ℝ → ℝ) : Tab2X :=
  let chis := (generateLogSpacedVec ctrl.temMin ctrl.temMax ctrl.temHowMany).filterMap id
  let probs := generateLinSpacedVec 0 1 ctrl.probHowMany
  ⟨chis.map Real.log, probs,
    chis.flatMap fun chi => (rowFrom solve chi (-10) none (rowProbs probs)).map XR.log⟩

end QS
end Picsar
