import Verif.Model.Combined
import Verif.Spec.PartExchange
import Verif.Spec.Tiling
/-
What the exchange between tiles and processes in one routine should do.
-/
namespace Picsar.Combined
open Picsar Picsar.Grid Picsar.Tiling Picsar.ParticleBcs Picsar.PartExchange

variable {n : ℕ}

/-- The tiles are allocated (as `init_tile_arrays` leaves them, src/parallelization/tiling/tiling.F90:748-800). -/
def AllocAll (S : Species n) : Prop := ∀ u, InBox ⟨1, 1, 1⟩ S.nt u → (S.tiles u).alloc = true

open Classical in
/-- The tile to which a particle of tile `u` that stays on the process belongs: its own tile if it is inside it or is put back at a wall,
otherwise the tile of its position. -/
noncomputable def home (P : Proc n) (u : I3) (p : Part n) : I3 := if inTile (P.T u) p ∨ outDom P.A p then u else P.idx p

open Classical in
/-- What tile `T` should hold after the particles have been moved: everything that stays on the process and belongs to `T`. -/
noncomputable def here (P : Proc n) (nt : I3) (L : I3 → List (Part n)) (T : I3) : Multiset (Part n) :=
  ((box ⟨1, 1, 1⟩ nt).map fun u => (((L u).filterMap fun p => if home P u p = T then keeps (scan .combined P.A (P.T u) p) else none : List (Part n)) : Multiset (Part n))).sum

/-- What should be sent in direction `d`. -/
noncomputable def leaving (P : Proc n) (nt : I3) (L : I3 → List (Part n)) (d : I3) : Multiset (Part n) :=
  ((box ⟨1, 1, 1⟩ nt).map fun u => (((L u).filterMap fun p => sends d (scan .combined P.A (P.T u) p) : List (Part n)) : Multiset (Part n))).sum

/-- The particle if it is absorbed at a wall. -/
def gone (p : Part n) : Outcome n → Option (Part n)
  | .removed => some p
  | _ => none

/-- The particles that are absorbed. -/
noncomputable def lost (P : Proc n) (nt : I3) (L : I3 → List (Part n)) : Multiset (Part n) :=
  ((box ⟨1, 1, 1⟩ nt).map fun u => (((L u).filterMap fun p => gone p (scan .combined P.A (P.T u) p) : List (Part n)) : Multiset (Part n))).sum

/-- What the process has to be like: particles of the subdomain have a tile, whose limits contain them; and particles leave the subdomain only from
tiles at its border. -/
structure Sorted (P : Proc n) (nt : I3) (L : I3 → List (Part n)) : Prop where
  box : ∀ p, ¬ outDom P.A p → InBox ⟨1, 1, 1⟩ nt (P.idx p)
  home : ∀ p, ¬ outDom P.A p → inTile (P.T (P.idx p)) p
  border : ∀ u, InBox ⟨1, 1, 1⟩ nt u → ∀ p ∈ L u, ∀ d q, scan .combined P.A (P.T u) p = .sent d q → P.border u = true

/-- Particles that are handed over belong to a border tile of the process that gets them. -/
def LandBorder {R : Type} (nb : R → I3 → R) (P : R → Proc n) (nt : R → I3) (L : R → I3 → List (Part n)) : Prop :=
  ∀ r d, d ∈ dirs → ∀ q ∈ leaving (P r) (nt r) (L r) d,
    InBox ⟨1, 1, 1⟩ (nt (nb r d)) ((P (nb r d)).idx q) ∧ (P (nb r d)).border ((P (nb r d)).idx q) = true

/-- What process `r` should get: from every direction, what the neighbour there sends in this direction. -/
noncomputable def arriving {R : Type} (nb : R → I3 → R) (P : R → Proc n) (S : R → Species n) (L : R → I3 → List (Part n)) (r : R) : Multiset (Part n) :=
  (dirs.map fun d => leaving (P (nb r (neg d))) (S (nb r (neg d))).nt (L (nb r (neg d))) d).sum

open Classical in
/-- Species `S'` on process `r` after the exchange: every tile holds what stays on the process and belongs to it and what arrives and belongs to it,
each particle once and with all attributes. -/
def Received {R : Type} (nb : R → I3 → R) (P : R → Proc n) (S : R → Species n) (L : R → I3 → List (Part n)) (r : R) (S' : Species n) : Prop :=
  ∃ L', HoldsAll S' L' ∧ AllocAll S' ∧ S'.nt = (S r).nt ∧
    (∀ T, InBox ⟨1, 1, 1⟩ (S r).nt T → (L' T : Multiset (Part n)) = here (P r) (S r).nt (L r) T + (arriving nb P S L r).filter fun q => (P r).idx q = T) ∧
    S'.npart = (S r).npart + Multiset.card (arriving nb P S L r)

open Classical in
/-- The same except that tiles that are not at the border of the subdomain take nothing. -/
def Stored {R : Type} (nb : R → I3 → R) (P : R → Proc n) (S : R → Species n) (L : R → I3 → List (Part n)) (r : R) (S' : Species n) : Prop :=
  ∃ L', HoldsAll S' L' ∧ AllocAll S' ∧ S'.nt = (S r).nt ∧
    (∀ T, InBox ⟨1, 1, 1⟩ (S r).nt T → (L' T : Multiset (Part n)) =
      here (P r) (S r).nt (L r) T + if (P r).border T = true then (arriving nb P S L r).filter fun q => (P r).idx q = T else 0) ∧
    S'.npart = (S r).npart + Multiset.card (arriving nb P S L r)

/-- A run in which no count is posted while an earlier one has not been read. -/
inductive Prompt (c : ℕ → ℤ) : Race → Race → Prop
  | refl (s : Race) : Prompt c s s
  | post {a b : Race} : Prompt c a b → b.pending = [] → b.next < 26 → Prompt c a ⟨c b.next, b.next + 1, b.next :: b.pending, b.got⟩
  | read {a b : Race} {q : ℕ} : Prompt c a b → q ∈ b.pending → Prompt c a ⟨b.k, b.next, b.pending.erase q, Function.update b.got q (some b.k)⟩

end Picsar.Combined
