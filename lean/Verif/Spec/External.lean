import Verif.Model.External
import Mathlib.Data.Nat.Factorial.Basic
import Mathlib.Algebra.BigOperators.Intervals

/-
Maxwell's equations on the arrays of a caller of the library: axes, components and array indices are numbered 1, 2, 3 as by the
caller. Field `1, 2, 3` is the electric field, `4, 5, 6` the magnetic field, `7, 8, 9` the current.
-/
namespace Picsar.External
open Picsar Picsar.Maxwell Finset

/-- Coefficient of the pair at distance `(l - 1/2) d` in the staggered difference of order `2 h`. -/
noncomputable def pairWeight (h l : ℕ) : ℝ :=
  (-1) ^ (l + 1) * ((2 * h - 1).factorial : ℝ) ^ 2 /
    (16 ^ (h - 1) * (2 * l - 1) ^ 2 * (h + l - 1).factorial * (h - l).factorial * ((h - 1).factorial : ℝ) ^ 2)

/-- Derivative at point `i` from the points half a cell away, the nearest two being `i` and `i + 1`. -/
noncomputable def ahead (h : ℕ) (d : ℝ) (u : ℤ → ℝ) (i : ℤ) : ℝ :=
  ∑ l ∈ Icc 1 h, pairWeight h l * (u (i + l) - u (i - l + 1)) / d

/-- Derivative at point `i` from the points half a cell away, the nearest two being `i - 1` and `i`. -/
noncomputable def behind (h : ℕ) (d : ℝ) (u : ℤ → ℝ) (i : ℤ) : ℝ :=
  ∑ l ∈ Icc 1 h, pairWeight h l * (u (i + l - 1) - u (i - l)) / d

/-- Orders of the scheme along the three axes, halved. -/
structure Halves where
  h1 : ℕ
  h2 : ℕ
  h3 : ℕ

/-- The request asks for these (positive, even) orders. -/
def Halves.For (h : Halves) (q : Request) : Prop :=
  q.o1 = 2 * h.h1 ∧ q.o2 = 2 * h.h2 ∧ q.o3 = 2 * h.h3 ∧ 1 ≤ h.h1 ∧ 1 ≤ h.h2 ∧ 1 ≤ h.h3

/-- A scalar field on the grid of the caller. -/
abbrev Field := ℤ → ℤ → ℤ → ℝ

/-- One-dimensional differences, one for each axis. -/
structure Diff where
  D1 : (ℤ → ℝ) → ℤ → ℝ
  D2 : (ℤ → ℝ) → ℤ → ℝ
  D3 : (ℤ → ℝ) → ℤ → ℝ

noncomputable def aheads (h : Halves) (q : Request) : Diff := ⟨ahead h.h1 q.d1, ahead h.h2 q.d2, ahead h.h3 q.d3⟩
noncomputable def behinds (h : Halves) (q : Request) : Diff := ⟨behind h.h1 q.d1, behind h.h2 q.d2, behind h.h3 q.d3⟩

/-- Partial derivatives of a field at a point. -/
def part1 (D : Diff) (u : Field) (i1 i2 i3 : ℤ) : ℝ := D.D1 (fun x => u x i2 i3) i1
def part2 (D : Diff) (u : Field) (i1 i2 i3 : ℤ) : ℝ := D.D2 (fun x => u i1 x i3) i2
def part3 (D : Diff) (u : Field) (i1 i2 i3 : ℤ) : ℝ := D.D3 (fun x => u i1 i2 x) i3

/-- The three components of the curl of `(u1, u2, u3)` for a right-handed numbering of the axes. -/
noncomputable def curl1 (D : Diff) (_u1 u2 u3 : Field) (i1 i2 i3 : ℤ) : ℝ := part2 D u3 i1 i2 i3 - part3 D u2 i1 i2 i3
noncomputable def curl2 (D : Diff) (u1 _u2 u3 : Field) (i1 i2 i3 : ℤ) : ℝ := part3 D u1 i1 i2 i3 - part1 D u3 i1 i2 i3
noncomputable def curl3 (D : Diff) (u1 u2 _u3 : Field) (i1 i2 i3 : ℤ) : ℝ := part1 D u2 i1 i2 i3 - part2 D u1 i1 i2 i3

/-- Divergence of `(u1, u2, u3)`. -/
noncomputable def div3 (D : Diff) (u1 u2 u3 : Field) (i1 i2 i3 : ℤ) : ℝ :=
  part1 D u1 i1 i2 i3 + part2 D u2 i1 i2 i3 + part3 D u3 i1 i2 i3

/-- One time step of Ampère's law at a point, `E' = E - dt J + s dt curl B`, in units with `c = ε₀ = 1`; `s = 1` when the axes 1, 2, 3
are right-handed, `s = -1` when they are left-handed. -/
def AmpereAt (s : ℝ) (h : Halves) (q : Request) (a b : Caller) (i1 i2 i3 : ℤ) : Prop :=
  b 1 i1 i2 i3 = a 1 i1 i2 i3 - q.dt * a 7 i1 i2 i3 + s * q.dt * curl1 (aheads h q) (a 4) (a 5) (a 6) i1 i2 i3 ∧
  b 2 i1 i2 i3 = a 2 i1 i2 i3 - q.dt * a 8 i1 i2 i3 + s * q.dt * curl2 (aheads h q) (a 4) (a 5) (a 6) i1 i2 i3 ∧
  b 3 i1 i2 i3 = a 3 i1 i2 i3 - q.dt * a 9 i1 i2 i3 + s * q.dt * curl3 (aheads h q) (a 4) (a 5) (a 6) i1 i2 i3

/-- One time step of Faraday's law at a point, `B' = B - s dt curl E'`. -/
def FaradayAt (s : ℝ) (h : Halves) (q : Request) (a b : Caller) (i1 i2 i3 : ℤ) : Prop :=
  b 4 i1 i2 i3 = a 4 i1 i2 i3 - s * q.dt * curl1 (behinds h q) (b 1) (b 2) (b 3) i1 i2 i3 ∧
  b 5 i1 i2 i3 = a 5 i1 i2 i3 - s * q.dt * curl2 (behinds h q) (b 1) (b 2) (b 3) i1 i2 i3 ∧
  b 6 i1 i2 i3 = a 6 i1 i2 i3 - s * q.dt * curl3 (behinds h q) (b 1) (b 2) (b 3) i1 i2 i3

/-- The point is at least half the order away from the ends of the arrays (guard points included). -/
def FullPoint (h : Halves) (q : Request) (i1 i2 i3 : ℤ) : Prop :=
  (-q.g1 + h.h1 ≤ i1 ∧ i1 ≤ q.n1 + q.g1 - h.h1) ∧ (-q.g2 + h.h2 ≤ i2 ∧ i2 ≤ q.n2 + q.g2 - h.h2) ∧
    (-q.g3 + h.h3 ≤ i3 ∧ i3 ≤ q.n3 + q.g3 - h.h3)

/-- A point that is not a guard point. -/
def Interior (q : Request) (i1 i2 i3 : ℤ) : Prop :=
  (0 ≤ i1 ∧ i1 ≤ q.n1) ∧ (0 ≤ i2 ∧ i2 ≤ q.n2) ∧ (0 ≤ i3 ∧ i3 ≤ q.n3)

/-- The points needed for a divergence at this point are interior points. -/
def InnerPoint (h : Halves) (q : Request) (i1 i2 i3 : ℤ) : Prop :=
  ((h.h1 : ℤ) ≤ i1 ∧ i1 ≤ q.n1 - h.h1) ∧ ((h.h2 : ℤ) ≤ i2 ∧ i2 ≤ q.n2 - h.h2) ∧ ((h.h3 : ℤ) ≤ i3 ∧ i3 ≤ q.n3 - h.h3)

/-- Enough guard points for the order. -/
def EnoughGuards (h : Halves) (q : Request) : Prop := (h.h1 : ℤ) ≤ q.g1 ∧ (h.h2 : ℤ) ≤ q.g2 ∧ (h.h3 : ℤ) ≤ q.g3

/-- Every thread schedule: each iteration of each loop nest of the two sweeps once, in any order. -/
def Schedules (q : Request) (oE oB : Orders) : Prop := oE.Of (eRanges (params q)) ∧ oB.Of (bRanges (params q))

/-- The arrays with the magnetic field reversed. -/
def reverseB (a : Caller) : Caller := fun n i1 i2 i3 => if n = 4 ∨ n = 5 ∨ n = 6 then -a n i1 i2 i3 else a n i1 i2 i3

/-- The problem of a caller that numbers the axes 2, 3, 1 instead of 1, 2, 3 (both numberings have the same handedness). -/
def rotateRequest (q : Request) : Request :=
  { q with n1 := q.n2, n2 := q.n3, n3 := q.n1, d1 := q.d2, d2 := q.d3, d3 := q.d1, g1 := q.g2, g2 := q.g3, g3 := q.g1,
           o1 := q.o2, o2 := q.o3, o3 := q.o1 }

/-- The new number of a component array belongs to this old number: 1, 2, 3 stands for 2, 3, 1, etc. -/
def oldNumber : ℕ → ℕ
  | 1 => 2
  | 2 => 3
  | 3 => 1
  | 4 => 5
  | 5 => 6
  | 6 => 4
  | 7 => 8
  | 8 => 9
  | 9 => 7
  | n => n

/-- The arrays of this caller. -/
def rotate (a : Caller) : Caller := fun n i1 i2 i3 => a (oldNumber n) i3 i1 i2

def Halves.rotate (h : Halves) : Halves := ⟨h.h2, h.h3, h.h1⟩

/-- Twice the margin of `FullPoint`. -/
def Halves.double (h : Halves) : Halves := ⟨2 * h.h1, 2 * h.h2, 2 * h.h3⟩

/-- One time step of the caller: it changes its arrays (currents, guard points, ...), then calls the solver. -/
structure Act where
  change : Caller → Caller
  oE : Orders
  oB : Orders

/-- Outside the guard points, the caller leaves the fields to the solver. -/
def Act.Legal (q : Request) (s : Act) : Prop :=
  Schedules q s.oE s.oB ∧ ∀ a n i1 i2 i3, 1 ≤ n → n ≤ 6 → Interior q i1 i2 i3 → s.change a n i1 i2 i3 = a n i1 i2 i3

/-- Any number of time steps, with the charge density at a point, which follows the continuity equation. -/
noncomputable def history (h : Halves) (q : Request) (i1 i2 i3 : ℤ) : List Act → ℝ → Caller → Res (ℝ × Caller)
  | [], rho, a => .ok (rho, a)
  | s :: ss, rho, a => do
    let a' := s.change a
    let b ← solve q s.oE s.oB a'
    history h q i1 i2 i3 ss (rho - q.dt * div3 (aheads h q) (a' 7) (a' 8) (a' 9) i1 i2 i3) b

end Picsar.External
