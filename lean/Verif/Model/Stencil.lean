import Verif.Base
import Mathlib.Data.Nat.Notation
import Mathlib.Data.Rat.Defs
import Mathlib.Algebra.Order.Ring.Unbundled.Rat
import Mathlib.Analysis.SpecialFunctions.Log.Basic

/-
The coefficients of the finite-difference stencils: `FD_weights_hvincenti` (src/field_solvers/Maxwell/GPSTD_solver/init_kspace_3D.F90),
used by the pseudo-spectral solver, and `FD_weights` (src/submain.F90), used by the finite-difference solvers. Real numbers are exact;
the second routine uses only field operations and is modelled with rationals.
-/
namespace Picsar.Stencil

/-- `logfactorial` (init_kspace_3D.F90:66-82). -/
noncomputable def logFact (n : ℕ) : ℝ :=
  if n = 0 then 0 else (List.range' 2 (n - 2)).foldl (fun s (k : ℕ) => s + Real.log k) (Real.log n)

/-- `w(l)` of `FD_weights_hvincenti` (init_kspace_3D.F90:1515-1537), for `1 ≤ l ≤ p/2`. -/
noncomputable def weight (p : ℕ) (staggered : Bool) (l : ℕ) : ℝ :=
  let lognumer := if staggered then Real.log 16 * (1 - p / 2) + logFact (p - 1) * 2 else logFact (p / 2) * 2
  let logdenom :=
    if staggered then Real.log (2 * l - 1) * 2 + logFact (p / 2 + l - 1) + logFact (p / 2 - l) + 2 * logFact (p / 2 - 1)
    else logFact (p / 2 + l) + logFact (p / 2 - l) + Real.log (1 * l)
  (-1) ^ (l + 1) * Real.exp (lognumer - logdenom)

/-- The arrays and scalars of `FD_weights`: rows 0 and 1 of `c`, and `c1`, `c4`. -/
structure FdState where
  c0 : ℕ → ℚ
  c1row : ℕ → ℚ
  c1 : ℚ
  c4 : ℚ

/-- `x(i)` (submain.F90:959-961), `n = norder + 1`. -/
def fdNode (norder i : ℕ) : ℚ := (i : ℚ) - ((norder + 1) / 2 : ℕ) + 1

/-- The body for one `i` (submain.F90:964-986). `c2` is the product of all `c3`; the block under `IF (j .EQ. (i-1))` runs once. As `m = 1`
and `i ≥ 1`, `mn - 1 = 1` and the loops over `k` have the single index 1. The nodes differ, so no division by zero occurs. -/
def fdStep (norder : ℕ) (z : ℚ) (s : FdState) (i : ℕ) : FdState :=
  let x := fdNode norder
  let c5 := s.c4
  let c4 := x i - z
  let c2 := (List.range i).foldl (fun c2 j => c2 * (x i - x j)) 1
  let j := i - 1
  let c3 := x i - x j
  let r1 := Function.update s.c1row i (s.c1 * (1 * s.c0 (i - 1) - c5 * s.c1row (i - 1)) / c2)
  let r0 := Function.update s.c0 i (-s.c1 * c5 * s.c0 (i - 1) / c2)
  let r1 := Function.update r1 j ((c4 * r1 j - 1 * r0 j) / c3)
  let r0 := Function.update r0 j (c4 * r0 j / c3)
  ⟨r0, r1, c2, c4⟩

/-- `coeffs(l)` of `FD_weights` (submain.F90:933-992). -/
def fdWeight (norder : ℕ) (nodal : Bool) (l : ℕ) : ℚ :=
  let z : ℚ := if nodal then 0 else 1 / 2
  let s := (List.range' 1 norder).foldl (fdStep norder z) ⟨fun k => if k = 0 then 1 else 0, fun _ => 0, 1, fdNode norder 0 - z⟩
  s.c1row (norder / 2 + l - 1)

end Picsar.Stencil
