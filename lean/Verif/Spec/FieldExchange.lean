import Verif.Model.FieldExchange
import Mathlib.Data.Int.Interval
import Mathlib.Data.Finset.Sigma
import Mathlib.Algebra.BigOperators.Group.Finset.Basic

/-
Grid nodes and their copies on the processes.
-/
namespace Picsar.Exchange
open Picsar Picsar.Grid

/-- A decomposition in which every subdomain is wider than the guard region. -/
structure Dom.Ok (D : Dom) : Prop where
  pos : ∀ a, 1 ≤ D.P a
  first : ∀ a, D.lo a 0 = 0
  guard : ∀ a, 0 ≤ D.g a
  wide : ∀ a c, 0 ≤ c → c < D.P a → D.g a < D.n a c

/-- Number of cells of the whole domain in direction `a`. -/
def Dom.total (D : Dom) (a : Ax) : ℤ := D.lo a (D.P a)

/-- Index `i` is inside the array of the process with coordinate `c` (guard cells included), in direction `a`. -/
def InArr1 (D : Dom) (a : Ax) (c i : ℤ) : Prop := -D.g a ≤ i ∧ i ≤ D.n a c + D.g a

/-- In all directions. -/
def InArr (D : Dom) (c i : I3) : Prop := ∀ a, InArr1 D a (at_ c a) (at_ i a)

/-- Local index `i` on coordinate `c` and `i'` on `c'` are the same node of the global grid in direction `a`. -/
def SameNode1 (D : Dom) (a : Ax) (c i c' i' : ℤ) : Prop :=
  if D.per a then D.total a ∣ (D.lo a c' + i') - (D.lo a c + i) else D.lo a c' + i' = D.lo a c + i

instance (D : Dom) (a : Ax) (c i c' i' : ℤ) : Decidable (SameNode1 D a c i c' i') := by unfold SameNode1; infer_instance

/-- In all directions. -/
def SameNode (D : Dom) (c i c' i' : I3) : Prop := ∀ a, SameNode1 D a (at_ c a) (at_ i a) (at_ c' a) (at_ i' a)

/-- The process with coordinate `c` owns the node with local index `i` in direction `a`: the nodes of its cells, without the last one,
which is the first one of the next process. Beyond an absorbing end of the domain there is no other process. -/
def Owns1 (D : Dom) (a : Ax) (c i : ℤ) : Prop :=
  (0 ≤ i ∨ (D.per a = false ∧ c = 0)) ∧ (i < D.n a c ∨ (D.per a = false ∧ c = D.P a - 1))

/-- In all directions. -/
def Owns (D : Dom) (c i : I3) : Prop := ∀ a, Owns1 D a (at_ c a) (at_ i a)

/-- All copies of a node in direction `a`: coordinates of the process and local indices. -/
def copies (D : Dom) (a : Ax) (c i : ℤ) : Finset (ℤ × ℤ) :=
  ((Finset.Ico 0 (D.P a)).sigma fun c' => Finset.Icc (-D.g a) (D.n a c' + D.g a)).filter
    (fun p => SameNode1 D a c i p.1 p.2) |>.map ⟨fun p => (p.1, p.2), fun p q h => by
      cases p; cases q; simp only [Prod.mk.injEq] at h; obtain ⟨rfl, rfl⟩ := h; rfl⟩

/-- Value stored on the process with coordinates `c` (0 if there is no such process). -/
noncomputable def stored {D : Dom} (m : Proc D → Loc) (c i : I3) : ℝ := by
  classical exact if h : ∀ a, 0 ≤ at_ c a ∧ at_ c a < D.P a then (m ⟨c, h⟩).f i else 0

/-- Sum of all contributions to a node: over all copies in every direction. -/
noncomputable def nodeSum {D : Dom} (m : Proc D → Loc) (c i : I3) : ℝ :=
  ∑ r ∈ copies D .z c.l i.l, ∑ q ∈ copies D .y c.k i.k, ∑ p ∈ copies D .x c.j i.j,
    stored m ⟨p.1, q.1, r.1⟩ ⟨p.2, q.2, r.2⟩

end Picsar.Exchange
