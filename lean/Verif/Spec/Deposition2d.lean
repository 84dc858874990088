import Verif.Spec.Current
import Verif.Model.Deposition2d

/-
Specification vocabulary for the plane deposition routines: shape factors of order 0 to 3, Esirkepov's current in a plane, room in an array.
-/
namespace Picsar.Spec
open Picsar Picsar.Grid Picsar.Deposition

/-- Nearest integer, halves away from zero. -/
noncomputable def nearest (x : ℝ) : ℤ := if 0 ≤ x then ⌊x + 1 / 2⌋ else -⌊-x + 1 / 2⌋

/-- Shape factor of order `n` at node `m` of a particle at `x` (cells): nearest node for order 0, B-splines beyond. -/
noncomputable def shape (n : ℕ) (x : ℝ) (m : ℤ) : ℝ := if n = 0 then (if m = nearest x then 1 else 0) else bspline n (x - m)

/-- The coordinate across the grid: `x`, or the distance to the axis in r-z. -/
noncomputable def across (rz : Bool) (p : Part) : ℝ := if rz then √(p.x ^ 2 + p.y ^ 2) else p.x

/-- Velocity out of the plane: along y, or along the azimuthal direction at the position of the particle in r-z (on the axis: along y). -/
noncomputable def sideways (rz : Bool) (g : Geo) (p : Part) : ℝ :=
  if rz ∧ 1 / 10 ^ 10 < √(p.x ^ 2 + p.y ^ 2) / g.dx then
    (p.x * (p.uy * p.gaminv) - p.y * (p.ux * p.gaminv)) / √(p.x ^ 2 + p.y ^ 2)
  else p.uy * p.gaminv

/-- Charge per cell at node `(j,l)`, orders `a` across and `b` along z. -/
noncomputable def density2 (a b : ℕ) (rz : Bool) (g : Geo) (p : Part) (j l : ℤ) : ℝ :=
  g.q * p.w / (g.dx * g.dz) * shape a (cells (across rz p) g.xmin g.dx) j * shape b (cells p.z g.zmin g.dz) l

noncomputable def densities2 (a b : ℕ) (rz : Bool) (g : Geo) (ps : List Part) (j l : ℤ) : ℝ :=
  (ps.map fun p => density2 a b rz g p j l).sum

/-- Part of the shape that crossed from the nodes up to `j` to the nodes beyond `j`. -/
noncomputable def flux2 (n : ℕ) (x xo : ℝ) (j : ℤ) : ℝ :=
  ∑ m ∈ Finset.Icc (⌊min x xo⌋ - 2) j, (shape n xo m - shape n x m)

/-- Mean of the shape factor over the move. -/
noncomputable def mean (n : ℕ) (x xo : ℝ) (j : ℤ) : ℝ := (shape n xo j + shape n x j) / 2

/-- Average of the product of two shape factors that both change linearly over the move. -/
noncomputable def average2 (a b : ℕ) (x xo z zo : ℝ) (j l : ℤ) : ℝ :=
  (shape a x j * shape b z l + shape a xo j * shape b zo l) / 3 + (shape a xo j * shape b z l + shape a x j * shape b zo l) / 6

/-- Current of one macroparticle in the plane. -/
noncomputable def current2 (a b : ℕ) (rz : Bool) (g : Geo) (p : Part) (c : Comp) (i : I3) : ℝ :=
  let x := cells (across rz p) g.xmin g.dx
  let xo := cells (across rz (before g p)) g.xmin g.dx
  let z := cells p.z g.zmin g.dz
  let zo := cells (before g p).z g.zmin g.dz
  if i.k = 0 then
    match c with
    | .jx => g.q * p.w / (g.dt * g.dz) * flux2 a x xo i.j * mean b z zo i.l
    | .jy => g.q * p.w * sideways rz g p / (g.dx * g.dz) * average2 a b x xo z zo i.j i.l
    | .jz => g.q * p.w / (g.dt * g.dx) * mean a x xo i.j * flux2 b z zo i.l
    | _ => 0
  else 0

noncomputable def currents2 (a b : ℕ) (rz : Bool) (g : Geo) (ps : List Part) (c : Comp) (i : I3) : ℝ :=
  (ps.map fun p => current2 a b rz g p c i).sum

/-- The nodes `lo..hi` contain those of the shape of order `n` around `x`. -/
def Fits (n : ℕ) (lo hi : ℤ) (x : ℝ) : Prop := lo + ((n : ℝ) - 1) / 2 < x ∧ x < hi - ((n : ℝ) - 1) / 2

/-- The array contains the shape of the particle. -/
def Fits2 (a b : ℕ) (rz : Bool) (g : Geo) (A : Arr) (p : Part) : Prop :=
  A.lo.k ≤ 0 ∧ 0 ≤ A.hi.k ∧ Fits a A.lo.j A.hi.j (cells (across rz p) g.xmin g.dx) ∧ Fits b A.lo.l A.hi.l (cells p.z g.zmin g.dz)

/-- Not faster than light. -/
def Subluminal (clight : ℝ) (p : Part) : Prop :=
  0 ≤ clight ∧ (p.ux * p.gaminv) ^ 2 + (p.uy * p.gaminv) ^ 2 + (p.uz * p.gaminv) ^ 2 ≤ clight ^ 2

/-- Less than one cell per step in the two directions of the plane. -/
def SlowPlane (g : Geo) (p : Part) : Prop := |g.dt * (p.ux * p.gaminv)| < g.dx ∧ |g.dt * (p.uz * p.gaminv)| < g.dz

/-- The three current arrays contain the shape of the particle after and before its move. -/
def Fit3 (a b : ℕ) (rz : Bool) (g : Geo) (σ : Mem) (p : Part) : Prop :=
  ∀ c, c = .jx ∨ c = .jy ∨ c = .jz → Fits2 a b rz g (σ c) p ∧ Fits2 a b rz g (σ c) (before g p)

end Picsar.Spec
