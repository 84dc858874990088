import Verif.Spec.ChargeVec
import Verif.Model.DirectJ

/-
Specification vocabulary for the direct current deposition.
-/
namespace Picsar.Spec
open Picsar Picsar.Grid Picsar.Deposition Picsar.ChargeVec Picsar.DirectJ

/-- Velocity of the particle along the component `c` of the current. -/
noncomputable def velocity (p : Part) (c : Comp) : ℝ := match c with
  | .jx => p.ux * p.gaminv
  | .jy => p.uy * p.gaminv
  | .jz => p.uz * p.gaminv
  | _ => 0

/-- Where the particle was half a time step earlier, in cells. -/
noncomputable def middle (g : Geo) (p : Part) : ℝ × ℝ × ℝ :=
  (cells (p.x - g.dt / 2 * (p.ux * p.gaminv)) g.xmin g.dx, cells (p.y - g.dt / 2 * (p.uy * p.gaminv)) g.ymin g.dy,
    cells (p.z - g.dt / 2 * (p.uz * p.gaminv)) g.zmin g.dz)

/-- Position in cells of node `i` of the component: on a staggered grid the current is half a cell further along its own direction. -/
noncomputable def placeOf (nodal : Bool) (c : Comp) (i : I3) : ℝ × ℝ × ℝ :=
  let h : ℝ := if nodal then 0 else 1 / 2
  (i.j + (if c = .jx then h else 0), i.k + (if c = .jy then h else 0), i.l + (if c = .jz then h else 0))

/-- Direct current of one macroparticle: charge density at the middle of the step times the velocity. -/
noncomputable def rhoV (n : ℕ) (nodal : Bool) (g : Geo) (p : Part) (c : Comp) (i : I3) : ℝ :=
  g.q * p.w * velocity p c / (g.dx * g.dy * g.dz) * bspline n ((middle g p).1 - (placeOf nodal c i).1) *
    bspline n ((middle g p).2.1 - (placeOf nodal c i).2.1) * bspline n ((middle g p).2.2 - (placeOf nodal c i).2.2)

/-- Guard cells needed by the reduction of the cells: two, and three where the columns go one cell beyond the cells (y and z at order 2, z at
order 3). -/
def GuardedJ (n : ℕ) (L : Lay) : Prop :=
  0 ≤ L.nx ∧ 0 ≤ L.ny ∧ 0 ≤ L.nz ∧ 2 ≤ L.gx ∧ (if n = 2 then 3 else 2) ≤ L.gy ∧ (if n = 1 then 2 else 3) ≤ L.gz

/-- Direct current of the species that deposit. -/
noncomputable def rhoVs (n : ℕ) (nodal : Bool) (g : Geo) (sps : List Sp) (c : Comp) (i : I3) : ℝ :=
  (sps.map fun s => if s.ldodepos then (s.parts.map fun p => rhoV n nodal { g with q := s.charge } p c i).sum else 0).sum

end Picsar.Spec
