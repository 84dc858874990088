import Verif.Model.Exchange2d
import Verif.Spec.FieldExchange
/-
Grid nodes in two dimensions.
-/
namespace Picsar.Exchange
open Picsar Picsar.Grid

/-- One process along y, and a plane has no copy of a node of another plane. -/
structure Planar (D : Dom) : Prop where
  one : D.P .y = 1
  apart : D.per .y = false

/-- Sum of all contributions to a node of plane `i.k`: over all copies along x and z. -/
noncomputable def planeSum {D : Dom} (m : Proc D → Loc) (c i : I3) : ℝ :=
  ∑ r ∈ copies D .z c.l i.l, ∑ p ∈ copies D .x c.j i.j, stored m ⟨p.1, c.k, r.1⟩ ⟨p.2, i.k, r.2⟩

end Picsar.Exchange
