import Verif.Model.ParticleBcs
/-
Boundary conditions of particles, as intended.
-/
namespace Picsar.ParticleBcs
open Picsar Picsar.Grid Picsar.Tiling

variable {n : ℕ}

/-- The 2-D version does not look at y. -/
def Looks (m : Mode) (a : Ax) : Prop := ¬ (a = .y ∧ m = .nonBlocking2d)

/-- The particle is beyond the lower (`s = -1`) or upper (`s = 1`) limit of the subdomain in direction `a`. -/
def Crosses (A : Ax → Axis) (p : Part n) (a : Ax) (s : ℤ) : Prop :=
  (s = -1 ∧ pos p a < (A a).lo) ∨ (s = 1 ∧ (A a).hi ≤ pos p a)

/-- That face of the subdomain is a boundary of the whole domain, of type `k` (0 periodic, 1 absorbing, 2 reflecting, 3 re-injecting). -/
def Wall (A : Ax → Axis) (a : Ax) (s k : ℤ) : Prop :=
  (s = -1 ∧ (A a).bmin = true ∧ (A a).kmin = k) ∨ (s = 1 ∧ (A a).bmax = true ∧ (A a).kmax = k)

/-- The particle crosses a boundary of type `k`. -/
def Hits (m : Mode) (A : Ax → Axis) (p : Part n) (k : ℤ) : Prop := ∃ a s, Looks m a ∧ Crosses A p a s ∧ Wall A a s k

/-- The particle is within the limits in direction `a`. -/
def Within (A : Ax → Axis) (p : Part n) (a : Ax) : Prop := (A a).lo ≤ pos p a ∧ pos p a < (A a).hi

/-- What should happen in direction `a` to a particle `p` that is neither absorbed nor re-injected; `p'` and `d` are the new particle and the
direction it is sent to. -/
def Treated (A : Ax → Axis) (p p' : Part n) (d : I3) (a : Ax) : Prop :=
  (Within A p a → pos p' a = pos p a ∧ mom p' a = mom p a ∧ dirOf d a = 0) ∧
  ∀ s, Crosses A p a s →
    ((∀ k, ¬ Wall A a s k) → pos p' a = pos p a ∧ mom p' a = mom p a ∧ dirOf d a = s) ∧
    (Wall A a s 2 → pos p' a = pos p a - s * (A a).dx ∧ mom p' a = - mom p a ∧ dirOf d a = 0) ∧
    (Wall A a s 0 → pos p' a = pos p a - s * (A a).len ∧ mom p' a = mom p a ∧ dirOf d a = s)

/-- All boundary types are among the four that exist. -/
def Types (A : Ax → Axis) : Prop := ∀ a, (0 ≤ (A a).kmin ∧ (A a).kmin ≤ 3) ∧ (0 ≤ (A a).kmax ∧ (A a).kmax ≤ 3)

/-- Non-empty subdomain. -/
def Wide (A : Ax → Axis) : Prop := ∀ a, (A a).lo < (A a).hi

end Picsar.ParticleBcs
