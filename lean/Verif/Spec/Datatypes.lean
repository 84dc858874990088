import Verif.Model.Datatypes

/-
The memory that an exchange is meant to transfer.
-/
namespace Picsar.Datatypes
open Picsar Picsar.Grid Picsar.Exchange

/-- The elements of the slab of `g+1` planes that starts at plane `s` along `a`, in memory order. -/
def Fld.slab (F : Fld) (a : Ax) (s : ℤ) : List I3 :=
  box (upd ⟨-F.g .x, -F.g .y, -F.g .z⟩ a s) (upd ⟨F.n .x + F.g .x, F.n .y + F.g .y, F.n .z + F.g .z⟩ a (s + F.g a))

end Picsar.Datatypes
