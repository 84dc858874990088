import Verif.Model.Energy
import Mathlib.Data.Int.Interval
import Mathlib.Analysis.Real.Sqrt
/-
Energies of a whole domain, written with sums.
-/
namespace Picsar.Energy
open Picsar Picsar.Grid

/-- Sum over a box of indices. -/
noncomputable def boxSum (lo hi : I3) (f : I3 → ℝ) : ℝ := ∑ l ∈ Finset.Icc lo.l hi.l, ∑ k ∈ Finset.Icc lo.k hi.k, ∑ j ∈ Finset.Icc lo.j hi.j, f ⟨j, k, l⟩

/-- Electric and magnetic energy of fields on a box of cells. -/
noncomputable def electric (C : Const) (lo hi : I3) (F : Comp → I3 → ℝ) : ℝ :=
  C.eps0 / 2 * C.vol * boxSum lo hi fun i => F .ex i ^ 2 + F .ey i ^ 2 + F .ez i ^ 2
noncomputable def magnetic (C : Const) (lo hi : I3) (F : Comp → I3 → ℝ) : ℝ :=
  1 / (2 * C.mu0) * C.vol * boxSum lo hi fun i => F .bx i ^ 2 + F .by' i ^ 2 + F .bz i ^ 2

/-- The gamma factor of momentum `u` (per mass). -/
noncomputable def gamma (c ux uy uz : ℝ) : ℝ := √(1 + (ux ^ 2 + uy ^ 2 + uz ^ 2) / c ^ 2)

/-- `part_gaminv` of a particle with this momentum. -/
noncomputable def gaminv (c : ℝ) (u : ℝ × ℝ × ℝ) : ℝ := 1 / gamma c u.1 u.2.1 u.2.2

/-- Kinetic energy of one particle of mass `m` and weight `w`. -/
noncomputable def kinetic (m c w : ℝ) (u : ℝ × ℝ × ℝ) : ℝ := w * m * c ^ 2 * (gamma c u.1 u.2.1 u.2.2 - 1)

end Picsar.Energy
