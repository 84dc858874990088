import Verif.Model.QuantumSync
import Verif.Spec.BreitWheeler

/-
Vocabulary for the optical-depth properties C20-C23.
-/
namespace Picsar.Spec

/-- The evolution `ev` of an optical depth `depth` over a time `dt` at rate `r` is the right one: an event iff the
depth is used up within the step. -/
def IsEvolution (r dt depth : ℝ) (ev : Evolved) : Prop :=
  ev.depth = depth - r * dt ∧ (ev.event = true ↔ depth < r * dt) ∧
  (ev.event = true → ev.eventDt = depth / r ∧ 0 ≤ ev.eventDt ∧ ev.eventDt < dt) ∧
  (ev.event = false → ev.eventDt = 0 ∧ 0 ≤ ev.depth)

/-- How a caller uses an evolution routine `step dt depth`: call it for each sub-step, carrying the depth, until it
reports an event. Result: index of that sub-step and absolute time of the event. -/
noncomputable def firstEvent (step : ℝ → ℝ → Res Evolved) : ℕ → ℝ → ℝ → List ℝ → Res (Option (ℕ × ℝ))
  | _, _, _, [] => .ok none
  | k, start, depth, dt :: dts => do
    let ev ← step dt depth
    if ev.event then pure (some (k, start + ev.eventDt))
    else firstEvent step (k + 1) (start + dt) ev.depth dts

/-- The photon can produce pairs: quantum parameter above the configured minimum and energy at least `2 m c^2`. -/
def PhotonAboveThreshold (U : Units) (ctrl : BWCtrl) (p e b : V3) (lambda : ℝ) : Prop :=
  ctrl.chiPhotMin < chiPhoton U p e b lambda ∧ 2 * (U.emass * U.c ^ 2) ≤ photonEnergy U p

/-- The lepton can emit. -/
def LeptonAboveThreshold (U : Units) (ctrl : QSCtrl) (p e b : V3) (lambda : ℝ) : Prop :=
  ctrl.chiPartMin < chiLepton U p e b lambda

/-- The pair-production rate a photon is evolved with: the table if there is one, the integral otherwise. -/
noncomputable def photonRate (U : Units) (ctrl : BWCtrl) (t : Lookup1d) (TT : ℝ → ℝ) (lambda : ℝ)
    (p e b : V3) : Res ℝ :=
  if t.init then BW.interpDnDt U ctrl t lambda (photonEnergy U p) (chiPhoton U p e b lambda)
  else .ok (BW.computeDnDt U TT lambda (photonEnergy U p) (chiPhoton U p e b lambda))

/-- The emission rate a lepton is evolved with (`|p| c` is what the engine uses for the energy). -/
noncomputable def leptonRate (U : Units) (ctrl : QSCtrl) (t : Lookup1d) (KK : ℝ → ℝ) (lambda : ℝ)
    (p e b : V3) : Res ℝ :=
  if t.init then QS.interpDnDt U ctrl t (U.lam lambda) (p.norm * U.c) (chiLepton U p e b lambda)
  else .ok (QS.computeDnDt U KK lambda (p.norm * U.c) (chiLepton U p e b lambda))

end Picsar.Spec
