import Verif.Model.Tile2d
import Verif.Spec.Tiling
/-
What is expected of the storage of particles in two dimensions.
-/
namespace Picsar.Tile2d
open Picsar Picsar.Grid Picsar.Tiling

variable {n : ℕ}

/-- The particle lies in the plane of the simulation. -/
def InPlane (p : Part n) : Prop := p.y = 0

/-- Running a history of additions and removals in two dimensions; the second component logs the removed particles. -/
def run2 : List (Op n) → Tile n → List (Part n) → Res (Tile n × List (Part n))
  | [], t, log => .ok (t, log)
  | .add p :: r, t, log => do
    let t ← addTile2 p t
    run2 r t log
  | .rm i :: r, t, log => do
    let p ← readPart t i
    let t ← rmTile2 i t
    run2 r t (p :: log)

/-- Species `S'` has the particles of `S` and those of `Y`. -/
structure Gained (S S' : Species n) (L L' : I3 → List (Part n)) (Y : Multiset (Part n)) : Prop where
  nt : S'.nt = S.nt
  holds : HoldsAll S' L'
  all : total S.nt L' = total S.nt L + Y
  npart : S'.npart = S.npart + Multiset.card Y

end Picsar.Tile2d
