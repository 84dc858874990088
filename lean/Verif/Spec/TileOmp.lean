import Verif.Model.TileOmp
import Verif.Spec.Tiling
/-
Particles that move at most to adjacent tiles.
-/
namespace Picsar.Tiling
open Picsar Picsar.Grid

variable {n : ℕ}

/-- Tiles at most one tile apart in every direction. -/
def Near (u v : I3) : Prop := |u.j - v.j| ≤ 1 ∧ |u.k - v.k| ≤ 1 ∧ |u.l - v.l| ≤ 1

/-- Every particle of the particle domain stored in a tile lies in this tile or in one adjacent to it. -/
def Adjacent (g : Geo) (nt : I3) (L : I3 → List (Part n)) : Prop :=
  ∀ u, InBox ⟨1, 1, 1⟩ nt u → ∀ p ∈ L u, InDom3 g p → ∀ T, InBox ⟨1, 1, 1⟩ nt T → InTile3 g T p → Near u T

end Picsar.Tiling
