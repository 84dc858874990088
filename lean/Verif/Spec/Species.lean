import Verif.Model.Species

/-
Specification vocabulary for the test-bed species: a population is a list of particles.
-/
namespace Picsar.Spec
open Picsar Picsar.Species

/-- The arrays that store the population `l`, particle `i` in element `i` of every array. -/
def soa (l : List Particle) : Arrays :=
  ⟨l.map (·.x), l.map (·.y), l.map (·.z), l.map (·.px), l.map (·.py), l.map (·.pz),
   l.map (·.ex), l.map (·.ey), l.map (·.ez), l.map (·.bx), l.map (·.by'), l.map (·.bz),
   l.map (·.depth), l.map (·.flag)⟩

/-- The lengths of the fourteen arrays. -/
def lens (s : Arrays) : List ℕ :=
  [s.x.length, s.y.length, s.z.length, s.px.length, s.py.length, s.pz.length,
   s.ex.length, s.ey.length, s.ez.length, s.bx.length, s.by'.length, s.bz.length,
   s.depth.length, s.flag.length]

/-- Every array has as many elements as the reported number of particles. -/
def Consistent (s : Arrays) : Prop := ∀ n ∈ lens s, n = s.num

/-- The operations of the public interface (processes supplied by the user do not resize the arrays). -/
inductive Op
  | add (x y z px py pz : ℝ)
  | remove (i : ℕ)
  | removeToEnd (i : ℕ)
  | removeSorted (kills : List ℕ)
  | destroy (sel : Particle → Bool)
  | swap (i j : ℕ)
  | calcFields (em : ℝ → ℝ → ℝ → ℝ × ℝ × ℝ × ℝ × ℝ × ℝ)
  | pushPositions (dt : ℝ)
  | pushMomenta (beta : ℝ)
  | process (f : Arrays → Arrays) (keeps : ∀ s, lens (f s) = lens s)

/-- Effect of an operation. -/
noncomputable def Op.run : Op → Arrays → Res Arrays
  | .add x y z px py pz, s => .ok (addParticle s x y z px py pz)
  | .remove i, s => removeParticle s i
  | .removeToEnd i, s => Species.removeToEnd s i
  | .removeSorted ks, s => Species.removeSorted s ks
  | .destroy sel, s => doDestruction s sel
  | .swap i j, s => swapParticles s i j
  | .calcFields em, s => Species.calcFields em s
  | .pushPositions dt, s => leptonPushPos dt s
  | .pushMomenta b, s => leptonPushMom b s
  | .process f _, s => .ok (f s)

/-- A history of operations. -/
noncomputable def runOps : List Op → Arrays → Res Arrays
  | [], s => .ok s
  | o :: os, s => do
    let s' ← o.run s
    runOps os s'

/-- Particle with other fields / position / momentum. -/
def setFields (p : Particle) (f : ℝ × ℝ × ℝ × ℝ × ℝ × ℝ) : Particle :=
  { p with ex := f.1, ey := f.2.1, ez := f.2.2.1, bx := f.2.2.2.1, by' := f.2.2.2.2.1, bz := f.2.2.2.2.2 }
def setPos (p : Particle) (q : ℝ × ℝ × ℝ) : Particle := { p with x := q.1, y := q.2.1, z := q.2.2 }
def setMom (p : Particle) (q : ℝ × ℝ × ℝ) : Particle := { p with px := q.1, py := q.2.1, pz := q.2.2 }

end Picsar.Spec
