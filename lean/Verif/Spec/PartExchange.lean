import Verif.Model.PartExchange
import Verif.Spec.Tiling
/-
What the exchange of particles between processes should do.
-/
namespace Picsar.PartExchange
open Picsar Picsar.Grid Picsar.Tiling Picsar.ParticleBcs

variable {n : ℕ}

/-- The particle that stays, if it stays. -/
def keeps : Outcome n → Option (Part n)
  | .kept q => some q
  | _ => none

/-- The particle that is handed over in direction `d`, if it is. -/
def sends (d : I3) : Outcome n → Option (Part n)
  | .sent e q => if e = d then some q else none
  | _ => none

/-- The particles that stay: all particles of inner tiles, and those of border tiles that are kept. -/
noncomputable def stays (m : Mode) (P : Proc n) (nt : I3) (L : I3 → List (Part n)) : Multiset (Part n) :=
  ((box ⟨1, 1, 1⟩ nt).map fun u => if P.border u = true then (((L u).filterMap fun p => keeps (scan m P.A (P.T u) p) : List (Part n)) : Multiset (Part n))
    else (L u : Multiset (Part n))).sum

/-- The particles that are handed over to the neighbour in direction `d`. -/
noncomputable def handed (m : Mode) (P : Proc n) (nt : I3) (L : I3 → List (Part n)) (d : I3) : Multiset (Part n) :=
  ((box ⟨1, 1, 1⟩ nt).map fun u => if P.border u = true then (((L u).filterMap fun p => sends d (scan m P.A (P.T u) p) : List (Part n)) : Multiset (Part n))
    else 0).sum

/-- The neighbours of all processes: `r` is the neighbour of its neighbour in the opposite direction. -/
def Mutual {R : Type} (nb : R → I3 → R) : Prop := ∀ r d, d ∈ dirs → nb (nb r d) (neg d) = r

/-- Particles that are handed over belong to a tile of the process that gets them. -/
def Land {R : Type} (m : Mode) (nb : R → I3 → R) (P : R → Proc n) (nt : R → I3) (L : R → I3 → List (Part n)) : Prop :=
  ∀ r d, d ∈ dirs → ∀ q ∈ handed m (P r) (nt r) (L r) d, InBox ⟨1, 1, 1⟩ (nt (nb r d)) ((P (nb r d)).idx q)

/-- Species `S'` on process `r` after the exchange: the particles it kept, and from every direction the particles the neighbour there handed
over, each once and with all attributes; the stored number of particles is as consistent with the content as before. -/
def Delivered {R : Type} (m : Mode) (nb : R → I3 → R) (P : R → Proc n) (S : R → Species n) (L : R → I3 → List (Part n)) (r : R) (S' : Species n) : Prop :=
  ∃ L', HoldsAll S' L' ∧ S'.nt = (S r).nt ∧
    total (S r).nt L' = stays m (P r) (S r).nt (L r) + (dirs.map fun d => handed m (P (nb r (neg d))) (S (nb r (neg d))).nt (L (nb r (neg d))) d).sum ∧
    S'.npart - Multiset.card (total (S r).nt L') = (S r).npart - Multiset.card (total (S r).nt (L r))

end Picsar.PartExchange
