import Verif.Model.QuantumSync
import Verif.Spec.BreitWheeler

/-
Specification vocabulary for photon emission (C27, C75).
-/
namespace Picsar.Spec

/-- A photon table: equispaced in `log chi` and in probability from 0 to 1, with a finite entry (the logarithm of a
photon fraction `F i j > 0`) for every row and column. -/
def IsPhotonTable (lo hi : ℝ) (F : ℕ → ℕ → ℝ) (t : Tab2X) : Prop :=
  IsEquispaced t.coords0 ∧ t.coords0.head? = some (Real.log lo) ∧
    t.coords0.getLast? = some (Real.log hi) ∧
  IsEquispaced t.coords1 ∧ t.coords1.head? = some 0 ∧ t.coords1.getLast? = some 1 ∧
  (∀ i j, i < t.coords0.length → j < t.coords1.length → 0 < F i j ∧
    t.data[i * t.coords1.length + j]? = some (XR.log (F i j)))

/-- Sum of `(photon weight / lepton weight) * photon momentum`. -/
noncomputable def carriedMomentum (leptonWeight : ℝ) : List (V3 × ℝ) → V3
  | [] => V3.zero
  | (q, w) :: phs => (V3.smul (w / leptonWeight) q).add (carriedMomentum leptonWeight phs)

end Picsar.Spec
