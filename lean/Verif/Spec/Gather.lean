import Verif.Spec.Deposition

/-
Specification vocabulary for field gathering: where the values of a component are located, weighted averages, arrays of a tile.
-/
namespace Picsar.Spec
open Picsar.Grid

/-- Yee grid: the component of E along a direction is shifted by half a cell in that direction, the component of B in the two other
directions. Directions are 0 (x), 1 (y), 2 (z). -/
def yeeStag : Comp → Fin 3 → Bool
  | .ex, 0 => true
  | .ey, 1 => true
  | .ez, 2 => true
  | .bx, 1 => true
  | .bx, 2 => true
  | .by', 0 => true
  | .by', 2 => true
  | .bz, 0 => true
  | .bz, 1 => true
  | _, _ => false

/-- Coordinate, in cells, of the value number `i` of a component along a direction. -/
noncomputable def samplePos (nodal : Bool) (q : Comp) (d : Fin 3) (i : ℤ) : ℝ :=
  if nodal then i else if yeeStag q d then i + 1 / 2 else i

/-- B-spline shape factor of order 0 (nearest point), 1, 2 or 3; those of order 1 to 3 are the ones of the charge deposition. -/
noncomputable def spline (m : ℕ) (u : ℝ) : ℝ := if m = 0 then (if -(1 / 2) ≤ u ∧ u < 1 / 2 then 1 else 0) else bspline m u

/-- Order used along a direction: with `l_lower_order_in_v`, one less where the component is staggered. -/
def orderAlong (n : ℕ) (lower : Bool) (q : Comp) (d : Fin 3) : ℕ := if lower = true ∧ yeeStag q d = true then n - 1 else n

/-- `v` is an average, with non-negative weights of sum one, of values of `a` at grid points that satisfy `near`. -/
def IsAverage (near : I3 → Prop) (a : I3 → ℝ) (v : ℝ) : Prop :=
  ∃ l : List (I3 × ℝ), (∀ e ∈ l, near e.1 ∧ 0 ≤ e.2) ∧ (l.map (·.2)).sum = 1 ∧ v = (l.map fun e => e.2 * a e.1).sum

/-- The six field components. -/
def IsField (q : Comp) : Prop := q = .ex ∨ q = .ey ∨ q = .ez ∨ q = .bx ∨ q = .by' ∨ q = .bz

/-- The arrays of the six components hold a tile of `N` cells and `g` guard cells on each side. -/
def TileArrays (σ : Mem) (N g : I3) : Prop :=
  ∀ q, IsField q → (σ q).lo = ⟨-g.j, -g.k, -g.l⟩ ∧ (σ q).hi = ⟨N.j + g.j, N.k + g.k, N.l + g.l⟩

/-- Guard cells that an interpolation order needs. -/
def guardsFor (n : ℕ) : ℤ := if n = 3 then 2 else 1

/-- Order 1, 2 or 3. -/
def Order (n : ℕ) : Prop := n = 1 ∨ n = 2 ∨ n = 3

end Picsar.Spec
