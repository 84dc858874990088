import Verif.Model.Pushers

/-
Specification vocabulary for the momentum pushers: textbook relativistic kinematics, written independently of the pushers.
-/
namespace Picsar.Spec
open Picsar

/-- Squared magnitude of a vector. -/
def magSq (v : V3) : ℝ := v.x ^ 2 + v.y ^ 2 + v.z ^ 2

/-- Lorentz factor of a particle with momentum per mass `u`. -/
noncomputable def lorentz (c : ℝ) (u : V3) : ℝ := Real.sqrt (1 + magSq u / c ^ 2)

/-- Vector product. -/
def vprod (a b : V3) : V3 := ⟨a.y * b.z - a.z * b.y, a.z * b.x - a.x * b.z, a.x * b.y - a.y * b.x⟩

/-- `a + k b`. -/
def axpy (a : V3) (k : ℝ) (b : V3) : V3 := ⟨a.x + k * b.x, a.y + k * b.y, a.z + k * b.z⟩

/-- One time step in magnetic fields only: the fields seen by the particles are gathered (no electric field, particle `i` sees
the magnetic field `B i`), momenta are advanced by the Boris push, positions by the position push. -/
noncomputable def magneticStep (c q m dt : ℝ) (B : ℕ → V3) (l : List Push.Part) : Res (List Push.Part) := do
  let l1 := l.mapIdx fun (i : ℕ) p => { p with e := V3.zero, b := B i }
  let l2 ← Push.borisPush c q m dt l.length l1
  Push.doLoop (Push.pushXyzOne dt) (Push.plainIdx l.length) l2

/-- Any number of steps, each with its own time step and fields. -/
noncomputable def magneticHistory (c q m : ℝ) : List (ℝ × (ℕ → V3)) → List Push.Part → Res (List Push.Part)
  | [], l => .ok l
  | (dt, B) :: r, l => do
    let l' ← magneticStep c q m dt B l
    magneticHistory c q m r l'

end Picsar.Spec
