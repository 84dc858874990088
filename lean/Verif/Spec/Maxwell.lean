import Verif.Model.Maxwell

/-
Specification vocabulary for the field solvers: discrete divergences on the staggered grid, written on array values.
-/
namespace Picsar.Spec
open Picsar Picsar.Grid Picsar.Maxwell

/-- Value `c(j,k,l)` of an array in a state. -/
def at' (σ : Mem) (c : Comp) (j k l : ℤ) : ℝ := (σ c).val ⟨j, k, l⟩

/-- Divergence of B at the centre of cell `(j,k,l)`. -/
noncomputable def divB (dx dy dz : ℝ) (σ : Mem) (j k l : ℤ) : ℝ :=
  (at' σ .bx (j + 1) k l - at' σ .bx j k l) / dx + (at' σ .by' j (k + 1) l - at' σ .by' j k l) / dy +
    (at' σ .bz j k (l + 1) - at' σ .bz j k l) / dz

/-- Divergence of E at node `(j,k,l)`. -/
noncomputable def divE (dx dy dz : ℝ) (σ : Mem) (j k l : ℤ) : ℝ :=
  (at' σ .ex j k l - at' σ .ex (j - 1) k l) / dx + (at' σ .ey j k l - at' σ .ey j (k - 1) l) / dy +
    (at' σ .ez j k l - at' σ .ez j k (l - 1)) / dz

/-- Divergence of the current at node `(j,k,l)`. -/
noncomputable def divJ (dx dy dz : ℝ) (σ : Mem) (j k l : ℤ) : ℝ :=
  (at' σ .jx j k l - at' σ .jx (j - 1) k l) / dx + (at' σ .jy j k l - at' σ .jy j (k - 1) l) / dy +
    (at' σ .jz j k l - at' σ .jz j k (l - 1)) / dz

/-- The three loop nests of a routine all run over the box `[lo, hi]`. -/
def uniform (lo hi : I3) : Ranges := ⟨lo, hi, lo, hi, lo, hi⟩

/-- Every array extends at least one cell beyond the box, by `my` cells in the second direction (0 for 2D arrays). -/
def Margin (my : ℤ) (σ : Mem) (lo hi : I3) : Prop :=
  ∀ c, (σ c).lo.j ≤ lo.j - 1 ∧ hi.j + 1 ≤ (σ c).hi.j ∧ (σ c).lo.k ≤ lo.k - my ∧ hi.k + my ≤ (σ c).hi.k ∧
    (σ c).lo.l ≤ lo.l - 1 ∧ hi.l + 1 ≤ (σ c).hi.l

/-- The state with the arrays of the components in `new` replaced (the electric field between two magnetic pushes, or the
current), bounds kept. -/
def withVals (σ : Mem) (new : Comp → Option (I3 → ℝ)) : Mem := fun c =>
  match new c with
  | some v => { σ c with val := v }
  | none => σ c

end Picsar.Spec

namespace Picsar.Spec
open Picsar Picsar.Grid Picsar.Maxwell

/-- Margins for the three loop nests of a routine. -/
def Margins (my : ℤ) (σ : Mem) (r : Ranges) : Prop :=
  Margin my σ r.xlo r.xhi ∧ Margin my σ r.ylo r.yhi ∧ Margin my σ r.zlo r.zhi

/-- The six faces of cell `(j,k,l)` are updated by a magnetic push with these ranges. -/
def CellUpdated (r : Ranges) (j k l : ℤ) : Prop :=
  InBox r.xlo r.xhi ⟨j, k, l⟩ ∧ InBox r.xlo r.xhi ⟨j + 1, k, l⟩ ∧ InBox r.ylo r.yhi ⟨j, k, l⟩ ∧
    InBox r.ylo r.yhi ⟨j, k + 1, l⟩ ∧ InBox r.zlo r.zhi ⟨j, k, l⟩ ∧ InBox r.zlo r.zhi ⟨j, k, l + 1⟩

/-- The six edges at node `(j,k,l)` are updated by an electric push with these ranges. -/
def NodeUpdated (r : Ranges) (j k l : ℤ) : Prop :=
  InBox r.xlo r.xhi ⟨j, k, l⟩ ∧ InBox r.xlo r.xhi ⟨j - 1, k, l⟩ ∧ InBox r.ylo r.yhi ⟨j, k, l⟩ ∧
    InBox r.ylo r.yhi ⟨j, k - 1, l⟩ ∧ InBox r.zlo r.zhi ⟨j, k, l⟩ ∧ InBox r.zlo r.zhi ⟨j, k, l - 1⟩

/-- One action on the fields: a magnetic push, an electric push, or any other change of the electric field and the currents
(deposition, exchange of guard cells, laser antenna, ...). -/
inductive FieldStep
  | pushB (dt : ℝ) (o : Orders)
  | pushE (mudt c2 dt : ℝ) (o : Orders)
  | other (new : Comp → Option (I3 → ℝ))

/-- The actions leave B to the magnetic push, and loops are executed in orders that cover their ranges. -/
def FieldStep.Legal (r : Ranges) : FieldStep → Prop
  | .pushB _ o => o.Of r
  | .pushE _ _ _ o => o.Of r
  | .other new => new .bx = none ∧ new .by' = none ∧ new .bz = none

/-- Effect of an action (3D Yee solver). -/
noncomputable def FieldStep.run (dx dy dz : ℝ) : FieldStep → Mem → Res Mem
  | .pushB dt o, σ => bvec3 (dt / dx) (dt / dy) (dt / dz) o σ
  | .pushE mudt c2 dt o, σ => evec3 mudt (c2 * dt / dx) (c2 * dt / dy) (c2 * dt / dz) o σ
  | .other new, σ => .ok (withVals σ new)

/-- Any number of actions. -/
noncomputable def runSteps (dx dy dz : ℝ) : List FieldStep → Mem → Res Mem
  | [], σ => .ok σ
  | s :: ss, σ => do
    let τ ← s.run dx dy dz σ
    runSteps dx dy dz ss τ

end Picsar.Spec
