import Verif.Model.Retile
import Verif.Spec.Tiling
/-
What a change of the tiles should do to the particles and species.
-/
namespace Picsar.Retile
open Picsar Picsar.Grid Picsar.Tiling

variable {n : ℕ}

/-- A direction with `m` grid points of the subdomain. -/
def Lim.Ok (a : Lim) (m : ℤ) : Prop := 1 ≤ m ∧ 0 < a.dx ∧ a.xmax = a.xmin + (m - 1 : ℤ) * a.dx

/-- The numbers describe a subdomain. -/
def Setup.Ok (c : Setup) : Prop := c.x.Ok c.grid.j ∧ c.y.Ok c.grid.k ∧ c.z.Ok c.grid.l

/-- Particle `p` is in the subdomain (2-D simulations do not look at y). -/
def Inside (c : Setup) (p : Part n) : Prop :=
  (c.x.xmin ≤ p.x ∧ p.x < c.x.xmax) ∧ (c.dim2 = false → c.y.xmin ≤ p.y ∧ p.y < c.y.xmax) ∧ (c.z.xmin ≤ p.z ∧ p.z < c.z.xmax)

/-- Particle `p` is within the limits of tile `T`. -/
def InTileOf (c : Setup) (g : Geo) (T : I3) (p : Part n) : Prop :=
  ((g.x.ext T.j).lo ≤ p.x ∧ p.x < (g.x.ext T.j).hi) ∧ (c.dim2 = false → (g.y.ext T.k).lo ≤ p.y ∧ p.y < (g.y.ext T.k).hi) ∧
    ((g.z.ext T.l).lo ≤ p.z ∧ p.z < (g.z.ext T.l).hi)

/-- The tiles of species number `i` hold the particles `L i`, for all species. -/
def Stores (st : St n) (L : ℕ → I3 → List (Part n)) : Prop :=
  ∀ (i : ℕ) (S : Spc n), st.sp[i]? = some S → S.core.nt = st.nt ∧ HoldsAll S.core (L i)

/-- The extents of the tiles are those of a split of the subdomain. -/
def Covers (c : Setup) (st : St n) : Prop :=
  Fits st.geo st.nt ∧ (st.geo.x.xmin = c.x.xmin ∧ st.geo.x.xmax = c.x.xmax ∧ st.geo.x.dx = c.x.dx) ∧
    (st.geo.y.xmin = c.y.xmin ∧ st.geo.y.xmax = c.y.xmax ∧ st.geo.y.dx = c.y.dx) ∧
    (st.geo.z.xmin = c.z.xmin ∧ st.geo.z.xmax = c.z.xmax ∧ st.geo.z.dx = c.z.dx)

end Picsar.Retile
