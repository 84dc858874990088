import Verif.Model.Deposition
import Verif.Model.Maxwell

/-
One iteration of the electromagnetic part of the main loop (src/submain.F90:98-172, 3D, Yee solver of order 2) in the interior
of a subdomain: currents zeroed and deposited, B pushed by half a step, E by a full step, B by half a step.
Not modelled here: the gathering and the particle push (the particle states after the push are inputs), the exchange of guard
cells, the tiles (deposition of all particles of a species is one sequential loop).
-/
namespace Picsar.PicLoop
open Picsar Picsar.Grid Picsar.Maxwell Picsar.Deposition

/-- `jx = 0.0_num; jy = 0.0_num; jz = 0.0_num` (current_deposition_manager_3d.F90:375-377). -/
def zeroJ (σ : Mem) : Mem := fun c =>
  match c with
  | .jx => { σ .jx with val := fun _ => 0 }
  | .jy => { σ .jy with val := fun _ => 0 }
  | .jz => { σ .jz with val := fun _ => 0 }
  | c => σ c

/-- Loop over the species, each with its own charge (current_deposition_manager_3d.F90:1612-1631). -/
noncomputable def deposeAll (n : ℕ) (g : Geo) : List (ℝ × List Part) → Mem → Res Mem
  | [], σ => .ok σ
  | s :: ss, σ => do
    let τ ← deposeJ n { g with q := s.1 } s.2 σ
    deposeAll n g ss τ

/-- What varies from step to step: the particles of every species after their push, and the execution orders of the parallel
loops of the three field pushes. -/
structure StepData where
  species : List (ℝ × List Part)
  b1 : Orders
  e : Orders
  b2 : Orders

/-- One iteration (submain.F90:132-170 with the coefficients of maxwell_solver_manager.F90:72, 428). -/
noncomputable def picStep (n : ℕ) (g : Geo) (c mu0 : ℝ) (s : StepData) (σ : Mem) : Res Mem := do
  let σ ← deposeAll n g s.species (zeroJ σ)
  let σ ← bvec3 (0.5 * g.dt / g.dx) (0.5 * g.dt / g.dy) (0.5 * g.dt / g.dz) s.b1 σ
  let σ ← evec3 (c ^ 2 * mu0 * g.dt) (c ^ 2 * g.dt / g.dx) (c ^ 2 * g.dt / g.dy) (c ^ 2 * g.dt / g.dz) s.e σ
  bvec3 (0.5 * g.dt / g.dx) (0.5 * g.dt / g.dy) (0.5 * g.dt / g.dz) s.b2 σ

/-- `DO i=1, nst`. -/
noncomputable def picRun (n : ℕ) (g : Geo) (c mu0 : ℝ) : List StepData → Mem → Res Mem
  | [], σ => .ok σ
  | s :: ss, σ => do
    let τ ← picStep n g c mu0 s σ
    picRun n g c mu0 ss τ

end Picsar.PicLoop
