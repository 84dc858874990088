import Verif.Model.BreitWheeler
import Verif.Spec.LookupTables

/-
Specification vocabulary for the Breit-Wheeler and quantum-synchrotron engines.
-/
namespace Picsar.Spec

/-- A usable 1-D rate table for quantum parameters in `[lo,hi]`: equispaced in `log chi`, one value per
coordinate. -/
def IsRateTable (lo hi : ℝ) (t : Lookup1d) : Prop :=
  t.init = true ∧ IsEquispaced t.coords ∧ t.data.length = t.coords.length ∧
    t.coords.head? = some (Real.log lo) ∧ t.coords.getLast? = some (Real.log hi)

/-- `P i j` are the cumulative probabilities of a pair table: for every row zero in the first column, one half
in the last and strictly increasing in between. -/
def IsCumulative (n1 n2 : ℕ) (P : ℕ → ℕ → ℝ) : Prop :=
  ∀ i, i < n1 → P i 0 = 0 ∧ P i (n2 - 1) = 1 / 2 ∧ ∀ j k, j < k → k < n2 → P i j < P i k

/-- The table stores the logarithms of the cumulative probabilities `P` on a grid that is equispaced in
`log chi` from `log lo` to `log hi` and in the energy fraction from `0` to `1/2`. -/
def IsPairTable (lo hi : ℝ) (P : ℕ → ℕ → ℝ) (t : Tab2X) : Prop :=
  IsEquispaced t.coords0 ∧ t.coords0.head? = some (Real.log lo) ∧
    t.coords0.getLast? = some (Real.log hi) ∧
  IsEquispaced t.coords1 ∧ t.coords1.head? = some 0 ∧ t.coords1.getLast? = some (1 / 2) ∧
  (∀ i j, i < t.coords0.length → j < t.coords1.length →
    t.data[i * t.coords1.length + j]? = some (XR.log (P i j))) ∧
  IsCumulative t.coords0.length t.coords1.length P

/-- `x` is a grid point that is neither the first nor the last. -/
def IsInteriorNode (xs : List ℝ) (x : ℝ) : Prop := ∃ i, 0 < i ∧ i + 1 < xs.length ∧ xs[i]? = some x

/-- Energy of a lepton (rest mass included) with momentum `p`. -/
noncomputable def leptonEnergy (U : Units) (p : V3) : ℝ :=
  Real.sqrt ((U.emass * U.c ^ 2) ^ 2 + (p.norm * U.c) ^ 2)

/-- Energy of a photon with momentum `p`. -/
noncomputable def photonEnergy (U : Units) (p : V3) : ℝ := p.norm * U.c

/-- `v` points along `p`. -/
def Along (v p : V3) : Prop := ∃ a : ℝ, 0 ≤ a ∧ v = V3.smul a p

/-- The generated pair `q` of a photon of momentum `p` and quantum parameter `chi` has weight `wt`, its momenta are
along `p`, and it conserves energy and quantum parameter: the excess of the photon energy over `2 m c^2` is shared in
proportion to the quantum parameters. -/
def IsConservingPair (U : Units) (p : V3) (chi wt : ℝ) (q : BW.Pair) : Prop :=
  q.eleWeight = wt ∧ q.posWeight = wt ∧ Along q.ele p ∧ Along q.pos p ∧
  leptonEnergy U q.ele + leptonEnergy U q.pos = photonEnergy U p ∧
  ∃ chiEle chiPos, 0 ≤ chiEle ∧ 0 ≤ chiPos ∧ chiEle + chiPos = chi ∧
    leptonEnergy U q.ele
      = U.emass * U.c ^ 2 + chiEle / chi * (photonEnergy U p - 2 * (U.emass * U.c ^ 2)) ∧
    leptonEnergy U q.pos
      = U.emass * U.c ^ 2 + chiPos / chi * (photonEnergy U p - 2 * (U.emass * U.c ^ 2))

/-- The draw used for the inversion: draws in `[1/2,1)` are folded onto `[0,1/2)`. -/
noncomputable def folded (u : ℝ) : ℝ := if 1 / 2 ≤ u then u - 1 / 2 else u

end Picsar.Spec
