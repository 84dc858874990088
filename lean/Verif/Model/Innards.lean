import Verif.Model.QuantumSync

/-
Model of the engine objects themselves (members, export_innards, constructor from innards) and of the calls a user
makes on them. A pointer exported in the innards is modelled by the contents of the array it points to: the
original is alive and unchanged.
-/
namespace Picsar

/-- The random number generator held by an engine (rng_wrapper.hpp:82-95: `unf(0,1)`, `exp(1)`): every draw gives a number
and the next state. Copying the generator copies its state. -/
structure Rng (R : Type) where
  unf : R → ℝ × R
  exp : R → ℝ × R

/-- `n` successive draws (breit_wheeler_engine.hpp:795-797, quantum_sync_engine.hpp:763-765). -/
def draws {R : Type} (g : Rng R) : ℕ → R → List ℝ × R
  | 0, r => ([], r)
  | n + 1, r =>
    let (x, r1) := g.unf r
    let (xs, r2) := draws g n r1
    (x :: xs, r2)

/-- Members of breit_wheeler_engine (breit_wheeler_engine.hpp:267-280) and of quantum_synchrotron_engine
(quantum_sync_engine.hpp:267-281): control parameters, reference length, generator, rate table, cumulative table with its
initialisation flag. -/
structure Engine (C R : Type) where
  ctrl : C
  lambda : ℝ
  rng : R
  rate : Lookup1d
  cum : Tab2X
  cumInit : Bool

/-- breit_wheeler_engine.hpp:53-69 and quantum_sync_engine.hpp:53-68 (the innards structures). -/
structure Innards (C R : Type) where
  ctrl : C
  lambda : ℝ
  rng : R
  rateCoordsHowMany : ℕ
  rateCoordsPtr : List ℝ
  rateDataHowMany : ℕ
  rateDataPtr : List ℝ
  coords1HowMany : ℕ
  coords1Ptr : List ℝ
  coords2HowMany : ℕ
  coords2Ptr : List ℝ
  dataHowMany : ℕ
  dataPtr : List XR

namespace Engine
variable {C R : Type}

/-- breit_wheeler_engine.hpp:541-549 and quantum_sync_engine.hpp:497-505: a freshly constructed engine has empty tables. -/
def fresh (ctrl : C) (lambda : ℝ) (rng : R) : Engine C R := ⟨ctrl, lambda, rng, Lookup1d.empty, ⟨[], [], []⟩, false⟩

/-- breit_wheeler_engine.hpp:874-901 and quantum_sync_engine.hpp:840-867 `export_innards`. -/
def exportInnards (e : Engine C R) : Innards C R where
  ctrl := e.ctrl
  lambda := e.lambda
  rng := e.rng
  rateCoordsHowMany := e.rate.coords.length
  rateCoordsPtr := e.rate.coords
  rateDataHowMany := e.rate.data.length
  rateDataPtr := e.rate.data
  coords1HowMany := e.cum.coords0.length
  coords1Ptr := e.cum.coords0
  coords2HowMany := e.cum.coords1.length
  coords2Ptr := e.cum.coords1
  dataHowMany := e.cum.data.length
  dataPtr := e.cum.data

/-- breit_wheeler_engine.hpp:903-918 and quantum_sync_engine.hpp:869-884, with the raw-pointer constructors of the tables
(lookup_tables.hpp:245-253, 436-450): a view of `how_many` elements of the exported array (`take`: elements past
its end cannot be read). Both constructors set the flag. -/
def ofInnards (i : Innards C R) : Engine C R where
  ctrl := i.ctrl
  lambda := i.lambda
  rng := i.rng
  rate := ⟨i.rateCoordsPtr.take i.rateCoordsHowMany, i.rateDataPtr.take i.rateCoordsHowMany, true⟩
  cum := ⟨i.coords1Ptr.take i.coords1HowMany, i.coords2Ptr.take i.coords2HowMany,
    i.dataPtr.take (i.coords1HowMany * i.coords2HowMany)⟩
  cumInit := true

end Engine

/-- A call on an engine. -/
inductive EngineCall
  /-- `get_optical_depth()`. -/
  | opticalDepth
  /-- `evolve_opt_depth_and_determine_event(p, e, b, dt, opt_depth)`. -/
  | evolve (p e b : V3) (dt depth : ℝ)
  /-- `generate_breit_wheeler_pairs` / `generate_photons_and_update_momentum` (p, e, b, weight, sampling). -/
  | generate (p e b : V3) (weight : ℝ) (sampling : ℕ)
  /-- The initialisation flags of the two tables. -/
  | tablesReady

/-- What a call returns. -/
inductive EngineAns (G : Type)
  | depth (x : ℝ)
  | evolved (r : Evolved)
  | generated (g : G)
  | ready (rate cum : Bool)

/-- Calls on a Breit-Wheeler engine: breit_wheeler_engine.hpp:606-612, 673-704, 775-820. -/
noncomputable def BW.call {R : Type} (U : Units) (TT : ℝ → ℝ) (g : Rng R) (c : EngineCall) (e : Engine BWCtrl R) :
    Res (EngineAns (List (Option BW.Pair)) × Engine BWCtrl R) :=
  match c with
  | .opticalDepth =>
    let (x, r) := g.exp e.rng
    .ok (.depth x, { e with rng := r })
  | .evolve p ef b dt depth => do
    let r ← BW.evolve U e.ctrl e.rate TT e.lambda p ef b dt depth
    pure (.evolved r, e)
  | .generate p ef b w n =>
    let (us, r) := draws g n e.rng
    do
      let ps ← BW.generatePairs U e.ctrl e.cum e.lambda p ef b w us
      pure (.generated ps, { e with rng := r })
  | .tablesReady => .ok (.ready e.rate.init e.cumInit, e)

/-- Calls on a quantum synchrotron engine: quantum_sync_engine.hpp:550-556, 619-650, 748-787. -/
noncomputable def QS.call {R : Type} (U : Units) (KK : ℝ → ℝ) (g : Rng R) (c : EngineCall) (e : Engine QSCtrl R) :
    Res (EngineAns (Option (V3 × List (V3 × ℝ))) × Engine QSCtrl R) :=
  match c with
  | .opticalDepth =>
    let (x, r) := g.exp e.rng
    .ok (.depth x, { e with rng := r })
  | .evolve p ef b dt depth => do
    let r ← QS.evolve U e.ctrl e.rate KK e.lambda p ef b dt depth
    pure (.evolved r, e)
  | .generate p ef b w n =>
    let (us, r) := draws g n e.rng
    do
      let ps ← QS.generatePhotons U e.ctrl e.cum e.lambda p ef b w us
      pure (.generated ps, { e with rng := r })
  | .tablesReady => .ok (.ready e.rate.init e.cumInit, e)

/-- A history of calls: the answers, until the first fault. -/
def history {E A : Type} (call : EngineCall → E → Res (A × E)) : List EngineCall → E → List (Res A)
  | [], _ => []
  | c :: cs, e =>
    match call c e with
    | .error f => [.error f]
    | .ok (a, e') => .ok a :: history call cs e'

end Picsar
