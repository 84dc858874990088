import Verif.Model.QuantumSync
import Mathlib.MeasureTheory.Integral.IntervalIntegral.Basic
import Mathlib.Analysis.SpecialFunctions.Pow.Real
import Mathlib.Analysis.SpecialFunctions.Trigonometric.Deriv

/-
The functions behind the tables of the two engines: rates, their integrands and the cumulative distributions
(breit_wheeler_engine.hpp:706-719, 922-978; quantum_sync_engine.hpp:652-672, 888-945). The quadratures of the Boost library and the Bessel
functions of the standard library are taken as exact: they are the integrals that they approximate.
-/
namespace Picsar.Rates
open Picsar MeasureTheory

/-- `k_v` (special_functions.hpp:52-68): the modified Bessel function of the second kind, by its integral for positive arguments. -/
noncomputable def kv (ν x : ℝ) : ℝ := ∫ t in Set.Ioi (0 : ℝ), Real.exp (-x * Real.cosh t) * Real.cosh (ν * t)

/-- `quad_a_b` (quadrature.hpp:45-51). -/
noncomputable def quadAB (f : ℝ → ℝ) (a b : ℝ) : ℝ := ∫ t in a..b, f t

/-- `quad_a_inf` (quadrature.hpp:67-74). -/
noncomputable def quadAInf (f : ℝ → ℝ) (a : ℝ) : ℝ := ∫ t in Set.Ioi a, f t

/-- `__breit_wheeler_special_func_big_arg` and `__quantum_synchrotron_special_func_big_arg` (qed_commons.h:199, 227). -/
def bigArg : ℝ := 100000000000000000000

end Picsar.Rates

namespace Picsar.BW
open Picsar.Rates

/-- `compute_x` (breit_wheeler_engine.hpp:922-930). -/
noncomputable def computeX (chiPhot chiEle : ℝ) : ℝ := (chiPhot / (chiEle * (chiPhot - chiEle))) ^ (2 / 3 : ℝ)

/-- `compute_inner_integral` (breit_wheeler_engine.hpp:932-944). -/
noncomputable def innerIntegral (x : ℝ) : ℝ :=
  quadAInf (fun s => if s ≥ bigArg then 0 else Real.sqrt s * kv (1 / 3) (2 * s ^ (3 / 2 : ℝ) / 3)) x

open Classical in
/-- `compute_TT_integrand` (breit_wheeler_engine.hpp:946-961). -/
noncomputable def ttIntegrand (chiPhot chiEle : ℝ) : ℝ :=
  if chiPhot = 0 ∨ chiEle ≥ chiPhot ∨ chiEle = 0 then 0
  else
    let xx := computeX chiPhot chiEle
    let xx32 := xx ^ (3 / 2 : ℝ)
    let div := Real.pi * Real.sqrt 3
    (innerIntegral xx - (2 - chiPhot * xx32) * kv (2 / 3) (2 / 3 * xx32)) / div

open Classical in
/-- `compute_TT_function` (breit_wheeler_engine.hpp:963-978). -/
noncomputable def ttFunction (chiPhot : ℝ) : ℝ :=
  quadAB (fun chiEle => if chiEle - chiPhot = 0 ∨ chiEle = 0 then 0 else ttIntegrand chiPhot chiEle) 0 chiPhot

open Classical in
/-- `compute_cumulative_pair` (breit_wheeler_engine.hpp:706-719). -/
noncomputable def cumulativePair (chiPhot chiPart : ℝ) : Res ℝ :=
  let num := quadAB (fun c => ttIntegrand chiPhot c) 0 chiPart
  if ttFunction chiPhot = 0 then .error .divByZero else .ok (num / ttFunction chiPhot)

end Picsar.BW

namespace Picsar.QS
open Picsar.Rates

/-- `compute_y` (quantum_sync_engine.hpp:888-896). -/
noncomputable def computeY (chiPhot chiEle : ℝ) : ℝ := 2 * chiPhot / (3 * chiEle * (chiEle - chiPhot))

/-- `compute_inner_integral` (quantum_sync_engine.hpp:898-911). -/
noncomputable def innerIntegral (y : ℝ) : ℝ :=
  let func := fun s => if s > bigArg then 0 else kv (5 / 3) s
  quadAB func y (2 * y) + quadAInf func (2 * y)

open Classical in
/-- `compute_KK_integrand` (quantum_sync_engine.hpp:913-930). -/
noncomputable def kkIntegrand (chiPart chiPhot : ℝ) : ℝ :=
  if chiPart = 0 ∨ chiPhot ≥ chiPart ∨ chiPhot = 0 then 0
  else
    let y := computeY chiPhot chiPart
    let inner := innerIntegral y
    let part2 := (3 * chiPhot * y / 2) * kv (2 / 3) y
    let coeff := (1 / chiPart) / (Real.pi * Real.sqrt 3)
    (inner + part2) * coeff

/-- `compute_KK_function` (quantum_sync_engine.hpp:932-944). -/
noncomputable def kkFunction (chiPart : ℝ) : ℝ :=
  let func := fun chiPhot => kkIntegrand chiPart chiPhot
  quadAB func 0 (chiPart / 2) + quadAB func (chiPart / 2) chiPart

open Classical in
/-- `compute_cumulative_phot_em` (quantum_sync_engine.hpp:652-672). -/
noncomputable def cumulativePhotEm (chiPhot chiPart : ℝ) : Res ℝ :=
  let func := fun c => if chiPart - c = 0 ∨ c = 0 then 0 else kkIntegrand chiPart c
  let num := quadAB func 0 (chiPhot / 2) + quadAB func (chiPhot / 2) chiPhot
  let kk := kkFunction chiPart
  if num ≥ kk then .ok 1
  else if kk = 0 then .error .divByZero
  else .ok (num / kk)

open Classical in
/-- The function whose root is sought for one element of the table (quantum_sync_engine.hpp:708-715); `prev` is `previous`, `none` for the first
element of a row. -/
noncomputable def closure (chiPart prob : ℝ) (prev : Option ℝ) (r : ℝ) : Res ℝ :=
  if r ≥ 0 then .ok 1
  else if ∃ q, prev = some q ∧ r < q then .ok 1
  else do
    let c ← cumulativePhotEm (Real.exp r * chiPart) chiPart
    .ok (c - prob)

/-- What is expected of `bracket_and_solve_root` (utilities.hpp:188-207; the Boost routine is not modelled): if the function that it is given
has a root, it returns one. -/
def SolvesRoots (solve : ℝ → ℝ → ℝ → Option ℝ → ℝ) : Prop :=
  ∀ chiPart prob guess prev, (∃ r, closure chiPart prob prev r = .ok 0) → closure chiPart prob prev (solve chiPart prob guess prev) = .ok 0

end Picsar.QS
