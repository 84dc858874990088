import Verif.Model.Remap
/-
Remapping of the fields of a plane to a new domain split: `get_2Dintersection` and `remap_em_2Dfields`, src/housekeeping/load_balancing.F90:394-539, 633-678.
-/
namespace Picsar.Remap
open Picsar Picsar.Grid Picsar.Mpi Picsar.Exchange

/-- Limits of a process in the plane: `ix1`, `ix2`, `iz1`, `iz2`. -/
structure Lim2 where
  x1 : ℤ
  x2 : ℤ
  z1 : ℤ
  z2 : ℤ

/-- `get_2Dintersection` (load_balancing.F90:641-676); each direction as in three dimensions. -/
def inter2 (A B : Lim2) : Bool × Lim2 :=
  let x := inter1 A.x1 A.x2 B.x1 B.x2
  let z := inter1 A.z1 A.z2 B.z1 B.z2
  (x.1 && z.1, ⟨x.2.1, x.2.2, z.2.1, z.2.2⟩)

/-- The elements of the subarray of the intersection `C` in an array whose element `(0,1,0)` is the node of the limits `T`
(`start`, `nsub` of load_balancing.F90:460-466 and 491-497). The only index along y, 1 in the code, is 0 here. -/
def sub2 (C T : Lim2) : List I3 := box ⟨C.x1 - T.x1, 0, C.z1 - T.z1⟩ ⟨C.x2 - T.x1, 0, C.z2 - T.z1⟩

/-- `remap_em_2Dfields` (load_balancing.F90:421-537), called for `nf` components one after the other by all `n` processes; communications are
numbered and the local copy is treated as in `remap`. -/
def remap2 (n nf : ℕ) (L1 L2 : Fin n → Lim2) : Prog (Fin n) Mem (List ℝ) where
  G := nf
  off g := g * (n * n)
  dst k r :=
    if h : rcv n k < n then
      if r.val = snd n k ∧ (inter2 (L1 r) (L2 ⟨rcv n k, h⟩)).1 = true then some ⟨rcv n k, h⟩ else none
    else none
  src k r :=
    if h : snd n k < n then
      if r.val = rcv n k ∧ (inter2 (L2 r) (L1 ⟨snd n k, h⟩)).1 = true then some ⟨snd n k, h⟩ else none
    else none
  pay k r m :=
    if h : rcv n k < n then pack (m.old (cmp n k)) (sub2 (inter2 (L1 r) (L2 ⟨rcv n k, h⟩)).2 (L1 r)) else []
  put k r m v :=
    if h : snd n k < n then
      ⟨m.old, Function.update m.new (cmp n k)
        (unpack (sub2 (inter2 (L2 r) (L1 ⟨snd n k, h⟩)).2 (L2 r)) v (m.new (cmp n k)))⟩
    else m
  fin _ _ m := m

end Picsar.Remap
