import Verif.Model.TestProgram
import Verif.Spec.Species
import Verif.Spec.BreitWheeler
import Verif.Spec.OpticalDepth

/-
Specification vocabulary for the photon-to-pair test program.
-/
namespace Picsar.Spec
open Picsar.Species Picsar.TestProgram

/-- The momentum of a particle, and the fields at a time and a place, as vectors. -/
def mom (p : Particle) : V3 := ⟨p.px, p.py, p.pz⟩
def eAt (f : ℝ × ℝ × ℝ × ℝ × ℝ × ℝ) : V3 := ⟨f.1, f.2.1, f.2.2.1⟩
def bAt (f : ℝ × ℝ × ℝ × ℝ × ℝ × ℝ) : V3 := ⟨f.2.2.2.1, f.2.2.2.2.1, f.2.2.2.2.2⟩

/-- `q` is photon `p` one step (starting at time `t`) later: it sees the field at the place where the step started, keeps its
momentum, its optical depth and flag are what the engine says, and it has moved along its momentum by the time step, and, if it
decays, by the time to the decay on top of that. -/
structure PhotonStep (P : Setup) (t : ℝ) (p q : Particle) : Prop where
  fields : (q.ex, q.ey, q.ez, q.bx, q.by', q.bz) = P.em t p.x p.y p.z
  momentum : mom q = mom p
  moved : ∃ ev, BW.evolve P.U P.ctrl P.rate P.TT P.lambda (mom p) (eAt (P.em t p.x p.y p.z)) (bAt (P.em t p.x p.y p.z)) P.dt p.depth
      = .ok ev ∧ q.depth = ev.depth ∧ q.flag = ev.event ∧ 0 < (mom p).norm ∧
      q.x = p.x + (P.dt + if ev.event then ev.eventDt else 0) / (mom p).norm * p.px ∧
      q.y = p.y + (P.dt + if ev.event then ev.eventDt else 0) / (mom p).norm * p.py ∧
      q.z = p.z + (P.dt + if ev.event then ev.eventDt else 0) / (mom p).norm * p.pz

/-- `e` is a fresh particle at the place of `q`, with momentum `m`. -/
def IsBorn (q : Particle) (m : V3) (e : Particle) : Prop := e = ⟨q.x, q.y, q.z, m.x, m.y, m.z, 0, 0, 0, 0, 0, 0, 0, false⟩

/-- `e` and `p` are the electron and the positron the engine generates, with draw `u`, for photon `q`. -/
def IsPairOf (P : Setup) (u : ℝ) (q e p : Particle) : Prop :=
  ∃ r : BW.Pair, BW.generatePairs P.U P.ctrl P.pairs P.lambda (mom q) ⟨q.ex, q.ey, q.ez⟩ ⟨q.bx, q.by', q.bz⟩ 1 [u] = .ok [some r] ∧
    IsBorn q r.ele e ∧ IsBorn q r.pos p

/-- The decaying photons `qs`, in order, gave the electrons `es` and the positrons `ps` with draws number `n`, `n+1`, … -/
inductive PairsOf (P : Setup) : ℕ → List Particle → List Particle → List Particle → Prop
  | nil (n : ℕ) : PairsOf P n [] [] []
  | cons {n : ℕ} {q e p : Particle} {qs es ps : List Particle} : IsPairOf P (P.rng n) q e p → PairsOf P (n + 1) qs es ps →
      PairsOf P n (q :: qs) (e :: es) (p :: ps)

/-- A lepton of charge `charge` one step later: field, momentum, position. -/
noncomputable def leptonStep (P : Setup) (t charge : ℝ) (p : Particle) : Particle :=
  let p1 := setFields p (P.em t p.x p.y p.z)
  let p2 := setMom p1 (leptonBoris (charge * P.dt / 2) p1)
  setPos p2 (leptonDrift P.dt p2)

/-- Total energy of photons, electrons and positrons (rest energy included). -/
noncomputable def totalEnergy (U : Units) (phot ele pos : List Particle) : ℝ :=
  (phot.map fun p => photonEnergy U (mom p)).sum + (ele.map fun p => leptonEnergy U (mom p)).sum +
    (pos.map fun p => leptonEnergy U (mom p)).sum

/-- The program is set up as it should be: positive constants, tables for the ranges of the control structure, draws in `[0,1)`. -/
structure WellSetUp (P : Setup) (cum : ℕ → ℕ → ℝ) : Prop where
  units : P.U.Pos
  lambda : 0 < P.lambda
  chiMin : 0 ≤ P.ctrl.chiPhotMin
  rateMin : 0 < P.ctrl.tdndtMin
  rates : IsRateTable P.ctrl.tdndtMin P.ctrl.tdndtMax P.rate
  pairs : IsPairTable P.ctrl.tpairMin P.ctrl.tpairMax cum P.pairs
  draws : ∀ n, 0 ≤ P.rng n ∧ P.rng n < 1

/-- A photon the program can follow: it moves, its optical depth is not negative, and its quantum parameter, clamped to the table, is
nowhere exactly on an inner grid point of the pair table (C24). -/
structure Followed (P : Setup) (p : Particle) : Prop where
  moves : 0 < (mom p).norm
  depth : 0 ≤ p.depth
  offGrid : ∀ t x y z : ℝ, ¬ IsInteriorNode P.pairs.coords0 (Real.log (BW.clampChi P.ctrl.tpairMin P.ctrl.tpairMax
    (chiPhoton P.U (mom p) (eAt (P.em t x y z)) (bAt (P.em t x y z)) P.lambda)))

/-- `r` is the decay rate of a photon of momentum `m` in the fields `e`, `b`: the rate of the engine above the threshold, none below. -/
def HasRate (P : Setup) (e b m : V3) (r : ℝ) : Prop :=
  (PhotonAboveThreshold P.U P.ctrl m e b P.lambda ∧ photonRate P.U P.ctrl P.rate P.TT P.lambda m e b = .ok r) ∨
    (¬ PhotonAboveThreshold P.U P.ctrl m e b P.lambda ∧ r = 0)

/-- The distance between two particles, squared. -/
def dist2 (p q : Particle) : ℝ := (q.x - p.x) ^ 2 + (q.y - p.y) ^ 2 + (q.z - p.z) ^ 2

/-- The fourteen quantities of a particle, in the order of a line of the output. -/
def dumpCells (p : Particle) : List Cell :=
  [.num p.x, .num p.y, .num p.z, .num p.px, .num p.py, .num p.pz, .num p.ex, .num p.ey, .num p.ez, .num p.bx, .num p.by',
    .num p.bz, .num p.depth, .bool p.flag]

end Picsar.Spec
