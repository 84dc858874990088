import Verif.Model.Realloc
import Verif.Spec.Tiling
/-
Histories of a tile with its flag.
-/
namespace Picsar.Tiling
open Picsar Picsar.Grid

variable {n : ℕ}

/-- Running a history of additions and removals. -/
def PyTile.run : List (Op n) → PyTile n → Res (PyTile n)
  | [], s => .ok s
  | .add p :: r, s => do
    let s ← s.add p
    PyTile.run r s
  | .rm i :: r, s => do
    let s ← s.rm i
    PyTile.run r s

end Picsar.Tiling
