import Verif.Model.Lorentz
import Mathlib.LinearAlgebra.Matrix.Notation
import Mathlib.Analysis.SpecialFunctions.Sqrt

/-
Special relativity: the boost along z as a matrix on four-vectors `(ct, x, y, z)`, the tensor of the electromagnetic field, four-vectors of
current and momentum.
-/
namespace Picsar.Spec
open Picsar Picsar.Lorentz

/-- A boost with the velocity `beta c`, `gamma = 1/sqrt(1-beta^2)`. -/
def IsBoost (beta gam : ℝ) : Prop := 0 < gam ∧ gam ^ 2 * (1 - beta ^ 2) = 1

/-- From the boosted frame, which moves with `+beta c`, to the laboratory. -/
def boostM (beta gam : ℝ) : Matrix (Fin 4) (Fin 4) ℝ :=
  !![gam, 0, 0, gam * beta;
     0, 1, 0, 0;
     0, 0, 1, 0;
     gam * beta, 0, 0, gam]

/-- Contravariant tensor of the field. -/
noncomputable def fieldM (c ex ey ez bx bY bz : ℝ) : Matrix (Fin 4) (Fin 4) ℝ :=
  !![0, -(ex / c), -(ey / c), -(ez / c);
     ex / c, 0, -bz, bY;
     ey / c, bz, 0, -bx;
     ez / c, -bY, bx, 0]

/-- The field in the laboratory. -/
noncomputable def fieldLab (beta gam : ℝ) (F : Matrix (Fin 4) (Fin 4) ℝ) : Matrix (Fin 4) (Fin 4) ℝ := boostM beta gam * F * (boostM beta gam).transpose

/-- A four-vector in the laboratory. -/
def vectorLab (beta gam : ℝ) (v : Fin 4 → ℝ) : Fin 4 → ℝ := (boostM beta gam).mulVec v

/-- Tensor and four-current of a column of the grid array: 0 Ex, 1 Ey, 2 Ez, 3 Bx, 4 By, 5 Bz, 6 Jx, 7 Jy, 8 Jz, 9 rho. -/
noncomputable def gridField (c : ℝ) (f : ℕ → ℝ) : Matrix (Fin 4) (Fin 4) ℝ := fieldM c (f 0) (f 1) (f 2) (f 3) (f 4) (f 5)
def gridCurrent (c : ℝ) (f : ℕ → ℝ) : Fin 4 → ℝ := ![c * f 9, f 6, f 7, f 8]

/-- Tensor, event and four-momentum (per mass) of a particle; `s` is the time. -/
noncomputable def snapField (c : ℝ) (p : Snap) : Matrix (Fin 4) (Fin 4) ℝ := fieldM c p.ex p.ey p.ez p.bx p.bY p.bz
def snapEvent (c s : ℝ) (p : Snap) : Fin 4 → ℝ := ![c * s, p.x, p.y, p.z]
def snapMomentum (c : ℝ) (p : Snap) : Fin 4 → ℝ := ![c * p.g, p.ux, p.uy, p.uz]

/-- `gamma` belongs to the momentum. -/
def OnShell (c : ℝ) (p : Snap) : Prop := p.g = √(1 + (p.ux ^ 2 + p.uy ^ 2 + p.uz ^ 2) / c ^ 2)

/-- Position of a particle in uniform motion: at the time `s`, when it was at `p` at the time `t0`, with the velocity `v`. -/
def drift (p : Snap) (v : Fin 3 → ℝ) (t0 s : ℝ) : Snap := { p with x := p.x + v 0 * (s - t0), y := p.y + v 1 * (s - t0), z := p.z + v 2 * (s - t0) }

end Picsar.Spec
