import Verif.Model.FieldExchange
import Verif.Model.LoadBalance
/-
Remapping of fields to a new domain split: src/housekeeping/load_balancing.F90.
-/
namespace Picsar.Remap
open Picsar Picsar.Grid Picsar.Mpi Picsar.Exchange

/-- Limits of a process, `(ix1, iy1, iz1)` and `(ix2, iy2, iz2)`. -/
structure Lim where
  lo : I3
  hi : I3

/-- One direction of `get_3Dintersection` (load_balancing.F90:572-584): flag, `i3min`, `i3max`. -/
def inter1 (a1 b1 a2 b2 : ℤ) : Bool × ℤ × ℤ :=
  if a2 ≥ a1 then if a2 ≤ b1 then (true, a2, min b2 b1) else (false, 0, 0)
  else if a1 ≤ b2 then (true, a1, min b1 b2) else (false, 0, 0)

/-- `get_3Dintersection` (load_balancing.F90:554-618). -/
def inter3 (A B : Lim) : Bool × Lim :=
  let x := inter1 A.lo.j A.hi.j B.lo.j B.hi.j
  let y := inter1 A.lo.k A.hi.k B.lo.k B.hi.k
  let z := inter1 A.lo.l A.hi.l B.lo.l B.hi.l
  (x.1 && y.1 && z.1, ⟨⟨x.2.1, y.2.1, z.2.1⟩, ⟨x.2.2, y.2.2, z.2.2⟩⟩)

/-- Difference of indices. -/
def sub3 (i t : I3) : I3 := ⟨i.j - t.j, i.k - t.k, i.l - t.l⟩

/-- The elements of the subarray of the intersection `C` in an array whose element `(0,0,0)` is the node `t`
(`start`, `nsub` of load_balancing.F90:303-311 and 341-349; the `nxg` added there is the offset of the array's lower bound). -/
def sub (C : Lim) (t : I3) : List I3 := box (sub3 C.lo t) (sub3 C.hi t)

/-- Old and new arrays of a process, for each field component. -/
structure Mem where
  old : ℕ → I3 → ℝ
  new : ℕ → I3 → ℝ

/-- Sender of communication `k` among `n` processes. -/
def snd (n k : ℕ) : ℕ := k % (n * n) / n
/-- Receiver of communication `k`. -/
def rcv (n k : ℕ) : ℕ := k % (n * n) % n
/-- Component of communication `k`. -/
def cmp (n k : ℕ) : ℕ := k / (n * n)

/-- `remap_em_3Dfields` (load_balancing.F90:225-379), called for `nf` components one after the other by all `n` processes.
`L1`, `L2` are the old and new limits. Communication `k` is the message of component `cmp n k` from `snd n k` to `rcv n k`; every
process posts its receives and its sends in the order of the other process' rank, as the code does, and waits for all of them.
Simplified: the local copy of the part that stays on a process (load_balancing.F90:281-293) is treated as a message to itself. -/
def remap (n nf : ℕ) (L1 L2 : Fin n → Lim) : Prog (Fin n) Mem (List ℝ) where
  G := nf
  off g := g * (n * n)
  dst k r :=
    if h : rcv n k < n then
      if r.val = snd n k ∧ (inter3 (L1 r) (L2 ⟨rcv n k, h⟩)).1 = true then some ⟨rcv n k, h⟩ else none
    else none
  src k r :=
    if h : snd n k < n then
      if r.val = rcv n k ∧ (inter3 (L2 r) (L1 ⟨snd n k, h⟩)).1 = true then some ⟨snd n k, h⟩ else none
    else none
  pay k r m :=
    if h : rcv n k < n then pack (m.old (cmp n k)) (sub (inter3 (L1 r) (L2 ⟨rcv n k, h⟩)).2 (L1 r).lo) else []
  put k r m v :=
    if h : snd n k < n then
      ⟨m.old, Function.update m.new (cmp n k)
        (unpack (sub (inter3 (L2 r) (L1 ⟨snd n k, h⟩)).2 (L2 r).lo) v (m.new (cmp n k)))⟩
    else m
  fin _ _ m := m

/-- Limits of the processes as set by `get_1Darray_proclimits` (load_balancing.F90:81-108), written in the order of its loops; `conv` is
`pxr_convertindtoproc`. An element that is never written stays undefined. -/
def procLimits (conv : ℤ → ℤ → ℤ → ℤ) (npx npy npz : ℤ) (cxmin cxmax cymin cymax czmin czmax : ℤ → ℤ) : ℤ → Option Lim :=
  (box ⟨0, 0, 0⟩ ⟨npx - 1, npy - 1, npz - 1⟩).foldl (fun A i =>
    Function.update A (conv i.j i.k i.l)
      (some ⟨⟨cxmin i.j, cymin i.k, czmin i.l⟩, ⟨cxmax i.j + 1, cymax i.k + 1, czmax i.l + 1⟩⟩)) fun _ => none

end Picsar.Remap
