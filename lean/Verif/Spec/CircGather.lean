import Verif.Spec.Gather
import Verif.Model.CircGather
import Mathlib.Analysis.SpecialFunctions.Complex.Arg

/-
Specification vocabulary for gathering fields given by azimuthal modes: a field is `Re Σ_m a_m(r,z) exp(-i m θ)` in each of the cylindrical
components, `a_m` being interpolated between the grid points where the values live.
-/
namespace Picsar.Spec
open Picsar.Grid Picsar.CircGather

/-- Angle of the point `(x,y)` around the axis; zero within `1e-20` cells of the axis. -/
noncomputable def azimuth (dr x y : ℝ) : ℝ := if 1 / 10 ^ 20 < √(x ^ 2 + y ^ 2) / dr then Complex.arg ⟨x, y⟩ else 0

/-- Spline interpolation, at the distances `R` and `Z` (in cells) from the lower corner, of the mode `m` of an array whose values live where those
of the component `q` of a Yee grid live (`ex, ey, ez, bx, by', bz` stand for the components r, θ, z of E and B). -/
noncomputable def modeValue (nr nz : ℕ) (lower nodal : Bool) (q : Comp) (a : CArr) (R Z : ℝ) (m : ℕ) : ℂ :=
  ∑ l ∈ Finset.Icc a.llo a.lhi, ∑ j ∈ Finset.Icc a.jlo a.jhi,
    ((spline (orderAlong nz lower q 2) (Z - samplePos nodal q 2 l) * spline (orderAlong nr lower q 0) (R - samplePos nodal q 0 j) : ℝ) : ℂ) *
      a.val j l m

/-- Sum of the modes at the angle `θ`. -/
noncomputable def modeSum (nmodes : ℕ) (θ : ℝ) (c : ℕ → ℂ) : ℝ :=
  ∑ m ∈ Finset.range nmodes, (c m * Complex.exp (-(m * θ) * Complex.I)).re

/-- Cartesian components of the vector with the cylindrical components `r, t, z` at the angle `θ`. -/
noncomputable def cartesian (θ r t z : ℝ) : ℝ × ℝ × ℝ := (r * Real.cos θ - t * Real.sin θ, r * Real.sin θ + t * Real.cos θ, z)

/-- The field `F` at the point `p`, the three arrays being located like the components `qr`, `qt`, `qz` of a Yee grid. -/
noncomputable def cylField (nr nz : ℕ) (lower nodal : Bool) (qr qt qz : Comp) (nmodes : ℕ) (g : RzGeo) (F : Fld) (p : Pt) : ℝ × ℝ × ℝ :=
  let θ := azimuth g.dr p.1 p.2.1
  let R := (√(p.1 ^ 2 + p.2.1 ^ 2) - g.rmin) / g.dr
  let Z := (p.2.2 - g.zmin) / g.dz
  cartesian θ (modeSum nmodes θ (modeValue nr nz lower nodal qr F.r R Z)) (modeSum nmodes θ (modeValue nr nz lower nodal qt F.t R Z))
    (modeSum nmodes θ (modeValue nr nz lower nodal qz F.z R Z))

/-- The arrays of a field hold a tile of `nr` by `nz` cells with `gr` and `gz` guard cells on each side, and `nm` modes. -/
def HoldsTile (F : Fld) (nr nz gr gz : ℤ) (nm : ℕ) : Prop :=
  ∀ a, a = F.r ∨ a = F.t ∨ a = F.z → a.jlo = -gr ∧ a.jhi = nr + gr ∧ a.llo = -gz ∧ a.lhi = nz + gz ∧ a.nm = nm

/-- The point is inside the tile. -/
def InRz (g : RzGeo) (nr nz : ℤ) (p : Pt) : Prop :=
  g.rmin ≤ √(p.1 ^ 2 + p.2.1 ^ 2) ∧ √(p.1 ^ 2 + p.2.1 ^ 2) < g.rmin + nr * g.dr ∧ g.zmin ≤ p.2.2 ∧ p.2.2 < g.zmin + nz * g.dz

/-- Options for which the stencils of the modes above 0 are placed as those of mode 0. -/
def ModesPlaced (nr nz : ℕ) (lower nodal : Bool) : Prop :=
  (lower = true ∧ nodal = false ∧ nr ≠ 2 ∧ nz ≠ 2) ∨ (lower = false ∧ nodal = true)

/-- Sum of two triples is the componentwise sum. -/
def plus (a b : ℝ × ℝ × ℝ) : ℝ × ℝ × ℝ := (a.1 + b.1, a.2.1 + b.2.1, a.2.2 + b.2.2)

end Picsar.Spec
