import Verif.Model.Chi
import Verif.Model.Utilities
import Verif.Model.LookupTables

/-
Model of src/multi_physics/QED/src/schwinger_pair_engine.hpp. The CPU wrappers `generate_pairs_single` and
`generate_pairs_multiple` (lines 208-225, 266-283) pass 11 arguments to functions of 14 parameters and cannot be
instantiated; the static functions they are meant to call are modelled.
-/
namespace Picsar

namespace Schwinger

/-- schwinger_pair_engine.hpp:367-371: the two invariants in units of the critical field. -/
noncomputable def ff (U : Units) (e b : V3) : ℝ :=
  (e.norm2 - U.c * U.c * b.norm2) * (1 / (2 * U.schwinger * U.schwinger))
noncomputable def gg (U : Units) (e b : V3) : ℝ := e.dot b * (U.c / U.schwinger / U.schwinger)

open Classical in
/-- schwinger_pair_engine.hpp:373-390, as a function of the invariants. Every division is checked: a zero divisor is a fault. -/
noncomputable def rateOf (ff gg : ℝ) : Res ℝ :=
  let inner := Real.sqrt (ff * ff + gg * gg)
  let epsi := Real.sqrt (inner + ff)
  let eta := Real.sqrt (inner - ff)
  if epsi ≠ 0 ∧ eta ≠ 0 then do
    let a ← fdiv (-Real.pi) epsi
    let b ← fdiv (Real.pi * eta) epsi
    fdiv (epsi * eta * Real.exp a) (Real.tanh b)
  else if epsi = 0 then .ok 0
  else do
    let a ← fdiv (-Real.pi) epsi
    fdiv (epsi * epsi * Real.exp a) Real.pi

/-- schwinger_pair_engine.hpp:349-391 `internal_compute_schwinger_pair_production_rate`. -/
noncomputable def rate (U : Units) (e b : V3) (lambda : ℝ) : Res ℝ := do
  let lam := U.lam lambda
  let res ← rateOf (ff U e b) (gg U e b)
  .ok (U.schwCoeff * lam * lam * lam * lam * res)

open Classical in
/-- schwinger_pair_engine.hpp:231-258 `internal_generate_pairs_single`: has an event happened, and its weight. -/
noncomputable def single (U : Units) (e b : V3) (dx dy dz dt lambda u : ℝ) : Res (Bool × ℝ) := do
  let lam := U.lam lambda
  let r ← rate U e b lam
  let volume := dx * dy * dz
  let probability := r * volume * dt
  let weight ← fdiv 1 volume
  .ok (decide (u < probability), weight)

/-- schwinger_pair_engine.hpp:288-315 `internal_generate_pairs_multiple`: number of pairs and their weight. -/
noncomputable def multiple (U : Units) (e b : V3) (dx dy dz dt lambda u : ℝ) : Res (Option ℕ × ℝ) := do
  let lam := U.lam lambda
  let r ← rate U e b lam
  let volume := dx * dy * dz
  let probability := r * volume * dt
  let weight ← fdiv 1 volume
  .ok (poissonDistrib probability u, weight)

end Schwinger
end Picsar
