import Verif.Model.DivDiag
import Verif.Spec.Energy
import Verif.Spec.Maxwell
import Verif.Spec.Topology

/-
Arrays and subdomains for the divergence diagnostics. The divergences `divE`, `divJ`, `divB` are those of Spec/Maxwell.
-/
namespace Picsar.DivDiag
open Picsar Picsar.Grid Picsar.Energy

/-- All arrays are declared `(-g:n+g)` in each direction. -/
def Declared (σ : Mem) (n g : I3) : Prop :=
  ∀ c, (σ c).lo = ⟨-g.j, -g.k, -g.l⟩ ∧ (σ c).hi = ⟨n.j + g.j, n.k + g.k, n.l + g.l⟩

/-- Divergence of a field of the global grid at a node. -/
noncomputable def divG (dx dy dz : ℝ) (F : Comp → I3 → ℝ) (i : I3) : ℝ :=
  (F .ex i - F .ex ⟨i.j - 1, i.k, i.l⟩) / dx + (F .ey i - F .ey ⟨i.j, i.k - 1, i.l⟩) / dy + (F .ez i - F .ez ⟨i.j, i.k, i.l - 1⟩) / dz

/-- The process whose cells start at the global cell `lo` holds the global fields `F` and the charge density `R` on its points
`0..n`. -/
def HoldsGlobal (p : Proc) (lo : I3) (F : Comp → I3 → ℝ) (R : I3 → ℝ) : Prop :=
  ∀ i, InBox ⟨0, 0, 0⟩ p.n i → (∀ c, (p.σ c).val i = F c ⟨lo.j + i.j, lo.k + i.k, lo.l + i.l⟩) ∧
    p.rho.val i = R ⟨lo.j + i.j, lo.k + i.k, lo.l + i.l⟩

end Picsar.DivDiag
