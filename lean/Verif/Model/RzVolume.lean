import Verif.Model.Deposition
import Mathlib.Analysis.Real.Pi.Bounds

/-
Division of the deposited charge and current by the volumes of the cells in r-z:
src/particle_deposition/charge_deposition/charge_deposition_2d.F90:394-441 (apply_rz_volume_scaling_rho) and
src/particle_deposition/current_deposition/current_deposition_manager_2d.F90:216-291 (apply_rz_volume_scaling_j).
The number of guard cells of an array is read off its lower bound (`-nguard(1)`), the last index is `nvalid(1)+nguard(1)-1`.
Reals for floating point; a division by zero (an infinity or a NaN in the program) is a fault.
-/
namespace Picsar.RzVolume
open Picsar Picsar.Grid Picsar.Deposition

/-- `a(1:ng,:) = a(1:ng,:) + a(-1:-ng:-1,:)` (charge_deposition_2d.F90:407; current_deposition_manager_2d.F90:240-241). -/
noncomputable def foldNodes (a : Arr) : Res Arr :=
  let ng := -a.lo.j
  if 1 ≤ ng → ng ≤ a.hi.j then
    .ok { a with val := fun i => if 1 ≤ i.j ∧ i.j ≤ ng then a.val i + a.val ⟨-i.j, i.k, i.l⟩ else a.val i }
  else .error .outOfBounds

/-- `jr(0:ng-1,:) = jr(0:ng-1,:) - jr(-1:-ng:-1,:)` (current_deposition_manager_2d.F90:243). -/
noncomputable def foldCentres (a : Arr) : Res Arr :=
  let ng := -a.lo.j
  if 1 ≤ ng → ng - 1 ≤ a.hi.j then
    .ok { a with val := fun i => if 0 ≤ i.j ∧ i.j ≤ ng - 1 then a.val i - a.val ⟨-1 - i.j, i.k, i.l⟩ else a.val i }
  else .error .outOfBounds

/-- `a(j,:) = a(j,:)/d`. -/
noncomputable def divRow (d : ℝ) (j : ℤ) (a : Arr) : Res Arr :=
  if a.lo.j ≤ j ∧ j ≤ a.hi.j then
    if d = 0 then .error .divByZero
    else .ok { a with val := fun i => if i.j = j then a.val i / d else a.val i }
  else .error .outOfBounds

/-- `jt(j,:) = 0.` (current_deposition_manager_2d.F90:273). -/
noncomputable def zeroRow (j : ℤ) (a : Arr) : Res Arr :=
  if a.lo.j ≤ j ∧ j ≤ a.hi.j then .ok { a with val := fun i => if i.j = j then 0 else a.val i }
  else .error .outOfBounds

/-- `do j=lo,hi; r = abs(rmin + j*dr); a(j,:) = a(j,:)/(2.*pi*r)` (charge_deposition_2d.F90:413-416, 434-437); `s` shifts the radius by half
a cell for the radial current (current_deposition_manager_2d.F90:250-253). -/
noncomputable def divRows (s rmin dr : ℝ) (lo hi : ℤ) (a : Arr) : Res Arr :=
  (irange lo hi).foldlM (fun (a : Arr) (j : ℤ) => divRow (2 * Real.pi * |rmin + (j + s) * dr|) j a) a

/-- Volume factor on the axis: `pi*dr/3.` if `type_rz_depose == 1`, else `pi*dr/4.` (charge_deposition_2d.F90:422-426,
current_deposition_manager_2d.F90:268-272). -/
noncomputable def axisFactor (ty : ℤ) (dr : ℝ) : ℝ := if ty = 1 then Real.pi * dr / 3 else Real.pi * dr / 4

/-- `apply_rz_volume_scaling_rho` (charge_deposition_2d.F90:394-441). -/
noncomputable def scaleRho (ty : ℤ) (rmin dr : ℝ) (a : Arr) : Res Arr := do
  let a ← if rmin = 0 then foldNodes a else .ok a
  let a ← divRows 0 rmin dr a.lo.j (-1) a
  let a ← if rmin = 0 then divRow (axisFactor ty dr) 0 a else divRow (2 * Real.pi * |rmin|) 0 a
  divRows 0 rmin dr 1 a.hi.j a

/-- The two arrays of nodes are divided row by row together over the rows of `jt` (current_deposition_manager_2d.F90:259-263, 283-287). -/
noncomputable def divRows2 (rmin dr : ℝ) (lo hi : ℤ) (a : Arr × Arr) : Res (Arr × Arr) :=
  (irange lo hi).foldlM (fun (a : Arr × Arr) (j : ℤ) => do
    let jt ← divRow (2 * Real.pi * |rmin + j * dr|) j a.1
    let jz ← divRow (2 * Real.pi * |rmin + j * dr|) j a.2
    pure (jt, jz)) a

/-- `apply_rz_volume_scaling_j`: arrays `jr`, `jt`, `jz` (current_deposition_manager_2d.F90:216-291). -/
noncomputable def scaleJ (ty : ℤ) (rmin dr : ℝ) (jr jt jz : Arr) : Res (Arr × Arr × Arr) := do
  let jt ← if rmin = 0 then foldNodes jt else .ok jt
  let jz ← if rmin = 0 then foldNodes jz else .ok jz
  let jr ← if rmin = 0 then foldCentres jr else .ok jr
  let jr ← divRows (1 / 2) rmin dr jr.lo.j jr.hi.j jr
  let tz ← divRows2 rmin dr jt.lo.j (-1) (jt, jz)
  let tz ← if rmin = 0 then do
      let jz ← divRow (axisFactor ty dr) 0 tz.2
      let jt ← zeroRow 0 tz.1
      pure (jt, jz)
    else do
      let jt ← divRow (2 * Real.pi * |rmin|) 0 tz.1
      let jz ← divRow (2 * Real.pi * |rmin|) 0 tz.2
      pure (jt, jz)
  let tz ← divRows2 rmin dr 1 tz.1.hi.j tz
  pure (jr, tz.1, tz.2)

end Picsar.RzVolume
