import Verif.Model.Species
import Verif.Model.BreitWheeler

/-
Model of the test program of the QED library: src/multi_physics/test_program/src/main.cpp, `test_BW`, the main loop of photons
turning into electron-positron pairs, and of species.cpp:158-178 `print_on_disk`.
The engine is the one of Model/BreitWheeler.lean, the species those of Model/Species.lean.
`main` calls `feenableexcept(FE_INVALID | FE_OVERFLOW)` (line 34): an operation that gives a not-a-number stops the program;
the model reports it as `Fault.exception`.
-/
namespace Picsar
namespace TestProgram
open Species

/-- What main.cpp:47-97 and 197 fix once and for all: time step, fields (at a time and a place), and the engine `bw_clone` with its
control parameters, its two tables and the wavelength. `TT` is only used by an engine without a table. `rng n` is the `n`-th number
drawn from the generator of the engine. -/
structure Setup where
  U : Units
  ctrl : BWCtrl
  rate : Lookup1d
  TT : ℝ → ℝ
  pairs : Tab2X
  lambda : ℝ
  dt : ℝ
  em : ℝ → ℝ → ℝ → ℝ → ℝ × ℝ × ℝ × ℝ × ℝ × ℝ
  rng : ℕ → ℝ

/-- The three species and the number of draws made so far. -/
structure State where
  phot : Arrays
  ele : Arrays
  pos : Arrays
  draws : ℕ

/-- photons.cpp:13-24 `photons::push_positions`. A photon without momentum gives `inf*0`. -/
noncomputable def photonPushPos (dt : ℝ) (s : Arrays) : Res Arrays :=
  forParts (fun i s => do
    let p ← readParticle s i
    match photonDrift dt p with
    | none => .error .exception
    | some q => writePos s i q.1 q.2.1 q.2.2) (List.range s.num) s

/-- The momentum of a particle as an argument of the engine. -/
def momOf (p : Particle) : V3 := ⟨p.px, p.py, p.pz⟩

/-- The electric field seen by a particle as an argument of the engine. -/
def eOf (p : Particle) : V3 := ⟨p.ex, p.ey, p.ez⟩

/-- The magnetic field seen by a particle as an argument of the engine. -/
def bOf (p : Particle) : V3 := ⟨p.bx, p.by', p.bz⟩

/-- main.cpp:130-135: write the optical depth (an in-out argument) and the flag of photon `i`. -/
def writeDepth (s : Arrays) (i : ℕ) (d : ℝ) (f : Bool) : Res Arrays := do
  let depth ← wr s.depth i d
  let flag ← wr s.flag i f
  pure { s with depth := depth, flag := flag }

/-- main.cpp:136-144: a photon that decays is moved on by `dt_prod`. -/
noncomputable def advance (p : Particle) (ev : Evolved) (i : ℕ) (s : Arrays) : Res Arrays :=
  if ev.event then
    match photonDrift ev.eventDt p with
    | none => .error .exception
    | some q => writePos s i q.1 q.2.1 q.2.2
  else .ok s

/-- main.cpp:124-147 `BW_opticaldepth`. -/
noncomputable def opticalDepth (P : Setup) (s : Arrays) : Res Arrays :=
  forParts (fun i s => do
    let p ← readParticle s i
    let ev ← BW.evolve P.U P.ctrl P.rate P.TT P.lambda (momOf p) (eOf p) (bOf p) P.dt p.depth
    let s1 ← writeDepth s i ev.depth ev.event
    advance p ev i s1) (List.range s.num) s

/-- main.cpp:165-186 `BW_pair_prod`: verdict on photon `p`, with the electrons and positrons it adds and the draw it makes. -/
noncomputable def pairProd (P : Setup) (p : Particle) (ele pos : Arrays) (n : ℕ) : Res (Bool × Arrays × Arrays × ℕ) :=
  if p.flag = false then .ok (false, ele, pos, n)
  else do
    let all ← BW.generatePairs P.U P.ctrl P.pairs P.lambda (momOf p) (eOf p) (bOf p) 1 [P.rng n]
    match all[0]? with
    | none => .error .outOfBounds
    | some none => .error .exception
    | some (some q) =>
      pure (true, addParticle ele p.x p.y p.z q.ele.x q.ele.y q.ele.z,
        addParticle pos p.x p.y p.z q.pos.x q.pos.y q.pos.z, n + 1)

/-- species.cpp:50-58, the loop of `do_process_with_destruction`: indices of the photons to destroy, with the effects of the process
on the other species. -/
noncomputable def collectPairs (P : Setup) (s : Arrays) : List ℕ → Arrays → Arrays → ℕ → Res (List ℕ × Arrays × Arrays × ℕ)
  | [], ele, pos, n => .ok ([], ele, pos, n)
  | i :: is, ele, pos, n => do
    let p ← readParticle s i
    let r ← pairProd P p ele pos n
    let rest ← collectPairs P s is r.2.1 r.2.2.1 r.2.2.2
    pure (if r.1 then i :: rest.1 else rest.1, rest.2)

/-- main.cpp:208, species.cpp:48-62: `do_process_with_destruction(42, dt)` on the photons. -/
noncomputable def destroy (P : Setup) (st : State) : Res State := do
  let r ← collectPairs P st.phot (List.range st.phot.num) st.ele st.pos st.draws
  let phot ← removeSorted st.phot r.1
  pure ⟨phot, r.2.1, r.2.2.1, r.2.2.2⟩

/-- main.cpp:195-208: step number `i` (output aside). Photons have no `push_momenta` (photons.cpp:25-27); electrons have charge -1,
positrons +1, both mass 1 (electrons.cpp:13-14, positrons.cpp:13-14, leptons.cpp:31). Of the simple processes only number 0 of
the photons has an effect (777 prints the number of photons). -/
noncomputable def step (P : Setup) (i : ℕ) (st : State) : Res State := do
  let phot ← calcFields (P.em (i * P.dt)) st.phot
  let ele ← calcFields (P.em (i * P.dt)) st.ele
  let pos ← calcFields (P.em (i * P.dt)) st.pos
  let ele ← leptonPushMom (0.5 * (-1) * P.dt / 1) ele
  let pos ← leptonPushMom (0.5 * 1 * P.dt / 1) pos
  let phot ← photonPushPos P.dt phot
  let ele ← leptonPushPos P.dt ele
  let pos ← leptonPushPos P.dt pos
  let phot ← opticalDepth P phot
  destroy P ⟨phot, ele, pos, st.draws⟩

/-- main.cpp:195-214: steps `i, i+1, …, i+n-1`. -/
noncomputable def run (P : Setup) : ℕ → ℕ → State → Res State
  | _, 0, st => .ok st
  | i, n + 1, st => do
    let st' ← step P i st
    run P (i + 1) n st'

/-- main.cpp:106-121: the photons at the start, at the origin with momenta `ms`, and their optical depths drawn with the numbers
`us` (breit_wheeler_engine.hpp:299-306). -/
noncomputable def initPhotons (ms : List V3) (us : ℕ → ℝ) : Arrays :=
  let s := ms.foldl (fun (s : Arrays) (m : V3) => addParticle s 0 0 0 m.x m.y m.z) Arrays.empty
  { s with depth := (List.range s.depth.length).map fun (i : ℕ) => getOpticalDepth (us i) }

/-! ### Output -/

/-- species.cpp:159: the name of the file. `std::to_string(step_num)` is `toString`. -/
def fileName (prefix_ name : String) (stepNum : ℤ) : String := prefix_ ++ "_" ++ name ++ "_" ++ toString stepNum ++ ".dat"

/-- What is written in one place of a line. -/
inductive Cell
  | num (v : ℝ)
  | bool (b : Bool)

/-- A file of `print_on_disk`: the header of the species, the number of particles, the labels of the columns and one line per
particle. Number formatting is not modelled. -/
structure Dump where
  header : String
  n : ℕ
  labels : List String
  rows : List (List Cell)

/-- species.cpp:168-175: the line of particle `i`. -/
def dumpRow (s : Arrays) (i : ℕ) : Res (List Cell) := do
  let p ← readParticle s i
  pure [.num p.x, .num p.y, .num p.z, .num p.px, .num p.py, .num p.pz, .num p.ex, .num p.ey, .num p.ez, .num p.bx, .num p.by',
    .num p.bz, .num p.depth, .bool p.flag]

/-- species.cpp:168-175, the loop. -/
def dumpRows (s : Arrays) : List ℕ → Res (List (List Cell))
  | [] => .ok []
  | i :: is => do
    let r ← dumpRow s i
    let rest ← dumpRows s is
    pure (r :: rest)

/-- species.cpp:158-178 `print_on_disk`. -/
def printOnDisk (header : String) (s : Arrays) : Res Dump := do
  let rows ← dumpRows s (List.range s.num)
  pure ⟨header, s.num, ["x", "y", "z", "px", "py", "pz", "Ex", "Ey", "Ez", "Bx", "By", "Bz", "OptDepth"], rows⟩

end TestProgram
end Picsar
