import Verif.Model.PartDump

/-
What a dump of particles is asked for.
-/
namespace Picsar.PartDump

/-- The particle is inside the window: its three coordinates and three momenta are strictly between the limits. -/
def Asked (W : Window) (p : Part) : Prop :=
  ∀ k : Fin 6, W.min k < ![p.x, p.y, p.z, p.ux, p.uy, p.uz] k ∧ ![p.x, p.y, p.z, p.ux, p.uy, p.uz] k < W.max k

/-- The file consists of seven blocks, one per variable, with the values of these particles in this order. -/
def Contains (f : File) (ps : List Part) : Prop :=
  ∀ (v : Fin 7) (i : ℕ) (h : i < ps.length), f (v * ps.length + i) =
    some (some (![ps[i].x, ps[i].y, ps[i].z, ps[i].ux, ps[i].uy, ps[i].uz, ps[i].w] v))

end Picsar.PartDump
