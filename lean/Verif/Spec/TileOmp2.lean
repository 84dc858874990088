import Verif.Model.TileOmp2
import Verif.Spec.TileOmp
/-
Particles of a plane that move at most to adjacent tiles.
-/
namespace Picsar.Tiling
open Picsar Picsar.Grid

variable {n : ℕ}

/-- Every particle of the particle domain stored in a tile of the plane lies in this tile or in one adjacent to it. -/
def Adjacent2 (g : Geo) (nt : I3) (L : I3 → List (Part n)) : Prop :=
  ∀ u, InBox ⟨1, 1, 1⟩ nt u → ∀ p ∈ L u, InDom2 g p → ∀ T, InBox ⟨1, 1, 1⟩ nt T → InTile2 g T p → Near u T

end Picsar.Tiling
