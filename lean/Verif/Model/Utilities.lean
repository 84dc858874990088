import Verif.Base
import Mathlib.Analysis.SpecialFunctions.Pow.Real
import Mathlib.Analysis.SpecialFunctions.Log.Basic

/-
Model of src/multi_physics/QED/src/utilities.hpp
-/
namespace Picsar

section UpperBound
variable {α : Type} [LinearOrder α]

/-- utilities.hpp:149-160, the `while(count>0)` loop of `picsar_upper_bound`.
Pointers into the array are modelled as indices; `*it` is a faulting read. -/
def upperBoundLoop (a : List α) (val : α) (first count : Nat) : Res Nat :=
  if 0 < count then
    let step := count / 2
    let it := first + step
    match rd a it with
    | .error e => .error e
    | .ok x =>
      if ¬ (val < x) then upperBoundLoop a val (it + 1) (count - (step + 1))
      else upperBoundLoop a val first step
  else .ok first
termination_by count
decreasing_by all_goals omega

/-- utilities.hpp:139-162 `picsar_upper_bound(first,last,val)`, called on a whole vector
(`begin()`, `end()`), as all callers do. Returns the distance from `begin()`. -/
def upperBound (a : List α) (val : α) : Res Nat := upperBoundLoop a val 0 a.length

end UpperBound

section Spacing

/-- utilities.hpp:90-107 `generate_lin_spaced_vec`. The loop writes elements `0..size-2`,
then the last element is set to `max`. `i*(max-min)/(size-1.0)` in real arithmetic. -/
noncomputable def generateLinSpacedVec (min max : ℝ) (size : ℕ) : List ℝ :=
  if min ≥ max ∨ size < 2 then []
  else
    (List.range (size - 1)).map (fun (i : ℕ) => (i : ℝ) * (max - min) / ((size : ℝ) - 1) + min)
      ++ [max]

/-- A floating point number as far as the spacing routines need it: `some x` is the finite
number `x`, `none` is a non-finite one (infinity or NaN). -/
abbrev Fl := Option ℝ

/-- Floating point division: dividing by zero gives a non-finite result. -/
noncomputable def Fl.div (a b : Fl) : Fl :=
  match a, b with
  | some x, some y => if y = 0 then none else some (x / y)
  | _, _ => none

/-- Floating point multiplication; anything times a non-finite number is non-finite. -/
noncomputable def Fl.mul (a b : Fl) : Fl :=
  match a, b with
  | some x, some y => some (x * y)
  | _, _ => none

/-- `pow(x, e)` for a base obtained by division. -/
noncomputable def Fl.pow (a : Fl) (e : ℝ) : Fl := a.map (fun x => x ^ e)

/-- `exp(x)`. -/
noncomputable def Fl.exp (a : Fl) : Fl := a.map Real.exp

/-- utilities.hpp:82-85, the loop `vec[i] = val; val *= mul;` run `n` times. -/
noncomputable def logLoop (mul : Fl) : ℕ → Fl → List Fl
  | 0, _ => []
  | n + 1, val => val :: logLoop mul n (Fl.mul val mul)

/-- utilities.hpp:66-88 `generate_log_spaced_vec`. -/
noncomputable def generateLogSpacedVec (min max : ℝ) (size : ℕ) : List Fl :=
  if min ≥ max ∨ min < 0 ∨ max < 0 ∨ size < 2 then []
  else
    let mul := Fl.pow (Fl.div (some max) (some min)) (1 / ((size : ℝ) - 1))
    logLoop mul (size - 1) (some min) ++ [some max]

/-- Subtraction of `size_t` values (wraps modulo `2^64`). -/
def subSizeT (a b : ℕ) : ℕ := (a + 2 ^ 64 - b % 2 ^ 64) % 2 ^ 64

/-- utilities.hpp:109-137 `generate_log_lin_log_spaced_vec`. Each lambda captures its own copy of
`n` (starting from 0). `min` is assumed positive by the caller (its logarithm is taken); divisions
by the segment length are floating point divisions. `vec.front()` on an empty vector is
undefined behaviour. -/
noncomputable def generateLogLinLogSpacedVec (min max : ℝ) (size : ℕ) : Res (List Fl) :=
  let sizeFirst := size / 3
  let sizeSecond := size / 3
  let sizeThird := size / 3
  let firstVal := max * (1 / 10)
  let secondVal := max * (9 / 10)
  let seg1 : List Fl := (List.range sizeFirst).map fun (n : ℕ) =>
    Fl.mul (some min)
      (Fl.exp (Fl.div (some ((n : ℝ) * Real.log (firstVal / min))) (some (sizeFirst : ℝ))))
  let seg2 : List Fl := (List.range sizeSecond).map fun (n : ℕ) =>
    (Fl.div (some ((secondVal - firstVal) * (n : ℝ))) (some (sizeSecond : ℝ))).map
      (fun t => firstVal + t)
  let seg3 : List Fl := (List.range (size - sizeFirst - sizeSecond)).map fun (n : ℕ) =>
    Fl.mul (some max)
      (Fl.exp (Fl.div
        (some ((subSizeT (subSizeT sizeThird 1) n : ℕ) * Real.log (secondVal / max)))
        (some ((subSizeT sizeThird 1 : ℕ) : ℝ))))
  let vec := seg1 ++ seg2 ++ seg3
  do
    let vec ← wr vec 0 (some min)                       -- vec.front() = min
    wr vec (vec.length - 1) (some max)                  -- vec.back() = max

end Spacing

section Poisson

/-- utilities.hpp:176-184, the `while` loop of `poisson_distrib`. `none` = does not terminate. -/
noncomputable def poissonLoop (lambda u : ℝ) (k : ℕ) (p s : ℝ) : Option ℕ :=
  if u > s then
    let oldS := s
    let k' := k + 1
    let p' := p * lambda / (k' : ℝ)
    let s' := s + p'
    if s' ≤ oldS then some k'
    else poissonLoop lambda u k' p' s'
  else some k
partial_fixpoint

/-- utilities.hpp:164-186 `poisson_distrib`. -/
noncomputable def poissonDistrib (lambda u : ℝ) : Option ℕ :=
  poissonLoop lambda u 0 (Real.exp (-lambda)) (Real.exp (-lambda))

end Poisson

end Picsar
