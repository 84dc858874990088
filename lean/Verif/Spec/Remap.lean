import Verif.Model.Remap
/-
Nodes of a process and the meaning of a consistent distributed field.
-/
namespace Picsar.Remap
open Picsar Picsar.Grid

/-- Node `p` of the global grid belongs to the subdomain with limits `L` (both end nodes included). -/
def Lim.Has (L : Lim) (p : I3) : Prop := InBox L.lo L.hi p

/-- The local index of node `p` on a process with limits `L`. -/
def Lim.loc (L : Lim) (p : I3) : I3 := sub3 p L.lo

end Picsar.Remap
