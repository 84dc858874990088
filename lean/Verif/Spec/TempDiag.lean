import Verif.Model.TempDiag

/-
What the file of a temporal diagnostic should contain.
-/
namespace Picsar.TempDiag

/-- Diagnostic `d` (1 to 10) is switched on. -/
def On (act : ℕ → Option ℤ) (d : ℕ) : Prop := 1 ≤ d ∧ d ≤ 10 ∧ ∃ a, act d = some a ∧ 0 < a

/-- Every one of the ten settings has a value. -/
def Given (act : ℕ → Option ℤ) : Prop := ∀ d, 1 ≤ d → d ≤ 10 → act d ≠ none

/-- One value of a diagnostic: the sum over the processes, under a root for the three norms. -/
noncomputable def value (d : ℕ) (locals : List ℝ) : ℝ := if 8 ≤ d then √ locals.sum else locals.sum

/-- The record of diagnostic `d`: one value per species for the kinetic energy (`d = 1`), else one value. -/
noncomputable def record (nspecies d : ℕ) (qs : List (ℕ → ℕ → ℝ)) : List (Option ℝ) :=
  (List.range (if d = 1 then nspecies else 1)).map fun k => some (value d (qs.map fun q => q d k))

/-- The records that the events of a run give for diagnostic `d`, in order. -/
noncomputable def records (nspecies d : ℕ) : List Event → List Rec
  | [] => []
  | .field :: es => records nspecies d es
  | .out qs :: es => .vals (record nspecies d qs) :: records nspecies d es

end Picsar.TempDiag
