import Verif.Spec.Deposition
import Verif.Model.PicLoop
import Mathlib.Data.List.Forall2

/-
Specification vocabulary for C47.
-/
namespace Picsar.Spec
open Picsar Picsar.Grid Picsar.Deposition Picsar.PicLoop Picsar.Maxwell

/-- Charge density of all species. -/
noncomputable def totalDensity (n : ℕ) (g : Geo) (ss : List (ℝ × List Part)) (j k l : ℤ) : ℝ :=
  (ss.map fun s => densities n { g with q := s.1 } s.2 j k l).sum

/-- Position and weight. -/
def place (p : Part) : ℝ × ℝ × ℝ × ℝ := (p.x, p.y, p.z, p.w)

/-- The particles of `cur`, moved back by one step, are those of `prev` (in any order), species by species. -/
def Moved (g : Geo) (prev cur : List (ℝ × List Part)) : Prop :=
  List.Forall₂ (fun a b => a.1 = b.1 ∧ ((b.2.map (before g)).map place).Perm (a.2.map place)) prev cur

/-- Every step starts from the particles the previous one ended with. -/
def Linked (g : Geo) : List (ℝ × List Part) → List StepData → Prop
  | _, [] => True
  | prev, s :: ss => Moved g prev s.species ∧ Linked g s.species ss

/-- The particles after the last step. -/
def lastSpecies : List (ℝ × List Part) → List StepData → List (ℝ × List Part)
  | prev, [] => prev
  | _, s :: ss => lastSpecies s.species ss

/-- The step is executable: particles slow and inside the arrays, loops executed in orders that cover their ranges. -/
def StepOk (n : ℕ) (g : Geo) (rb re : Ranges) (σ : Mem) (s : StepData) : Prop :=
  s.b1.Of rb ∧ s.e.Of re ∧ s.b2.Of rb ∧
    ∀ sp ∈ s.species, ∀ p ∈ sp.2, Slow g p ∧ ∀ c, c = .jx ∨ c = .jy ∨ c = .jz → Inside (reach n) g (σ c) p

end Picsar.Spec
