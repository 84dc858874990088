import Verif.Model.Energy
import Mathlib.Analysis.Real.Sqrt

/-
The divergence diagnostics of src/diags/diags.F90: `calc_field_div`, `calc_field_divB`, `get_loc_norm_divErho`, `get_loc_norm_2`,
`get_norm_divErho`, and the norms of `output_temporal_diagnostics` (src/ios/simple_io.F90). Real arithmetic.
-/
namespace Picsar.DivDiag
open Picsar Picsar.Grid Picsar.Energy

/-- Right-hand side of `calc_field_div` for the components `cx, cy, cz` (diags.F90:140-152). -/
noncomputable def divEx (cx cy cz : Comp) (invdx invdy invdz : ℝ) : Ex :=
  cst invdx * (.rd cx 0 0 0 - .rd cx (-1) 0 0) + cst invdy * (.rd cy 0 0 0 - .rd cy 0 (-1) 0) + cst invdz * (.rd cz 0 0 0 - .rd cz 0 0 (-1))

/-- `calc_field_div(divee, eex, eey, eez, nx, ny, nz, ...)` (diags.F90:129-156). The array `divee` is the component `f` of the memory;
`order` is the order of execution of the parallel loop over `0:nx, 0:ny, 0:nz`. The divisions `1/dx` are checked. -/
noncomputable def calcFieldDiv (cx cy cz : Comp) (dx dy dz : ℝ) (order : List I3) (σ : Mem) : Res Mem :=
  if dx = 0 ∨ dy = 0 ∨ dz = 0 then .error .divByZero else loop .f (divEx cx cy cz (1 / dx) (1 / dy) (1 / dz)) order σ

/-- Range of the loops of `calc_field_div` (diags.F90:145-147). -/
def divRange (n : I3) : List I3 := box ⟨0, 0, 0⟩ n

/-- Right-hand side of `calc_field_divB` (diags.F90:181-193). -/
noncomputable def divBEx (invdx invdy invdz : ℝ) : Ex :=
  cst invdx * (.rd .bx 1 0 0 - .rd .bx 0 0 0) + cst invdy * (.rd .by' 0 1 0 - .rd .by' 0 0 0) + cst invdz * (.rd .bz 0 0 1 - .rd .bz 0 0 0)

/-- `calc_field_divB` (diags.F90:170-197). -/
noncomputable def calcFieldDivB (dx dy dz : ℝ) (order : List I3) (σ : Mem) : Res Mem :=
  if dx = 0 ∨ dy = 0 ∨ dz = 0 then .error .divByZero else loop .f (divBEx (1 / dx) (1 / dy) (1 / dz)) order σ

/-- Range of the loops of `calc_field_divB` (diags.F90:187-189): it starts at 1, although the file takes the points from 0 on. -/
def divBRange (n : I3) : List I3 := box ⟨1, 1, 1⟩ n

/-- `get_loc_norm_divErho` and the local part of `get_norm_divErho` (diags.F90:1222-1252, 1325-1337). -/
noncomputable def locNormDivErho (eps0 : ℝ) (dive rho : Arr) (n : I3) : Res ℝ :=
  (box ⟨1, 1, 1⟩ n).foldlM (fun s i => do
    let d ← dive.get i
    let r ← rho.get i
    .ok (s + (d * eps0 - r) ^ 2)) 0

/-- `get_loc_norm_2` (diags.F90:1265-1293). -/
noncomputable def locNorm2 (a : Arr) (n : I3) : Res ℝ :=
  (box ⟨1, 1, 1⟩ n).foldlM (fun s i => do
    let v ← a.get i
    .ok (s + v ^ 2)) 0

/-- The value of the temporal diagnostic `divE-rho` (simple_io.F90:363-373, 394-401): every process computes the divergence and the
local sum, then the reduction and the square root follow. One process is given by its memory, the array `rho`, its cells and the order
of execution of its loop. -/
structure Proc where
  σ : Mem
  rho : Arr
  n : I3
  order : List I3

noncomputable def Proc.gauss (eps0 dx dy dz : ℝ) (p : Proc) : Res ℝ := do
  let τ ← calcFieldDiv .ex .ey .ez dx dy dz p.order p.σ
  locNormDivErho eps0 (τ .f) p.rho p.n

noncomputable def gaussNorm (eps0 dx dy dz : ℝ) (ps : List Proc) : Res ℝ := do
  let s ← allreduce (ps.map (Proc.gauss eps0 dx dy dz))
  .ok (√s)

/-- The temporal diagnostics `rho` and `divE` (simple_io.F90:376-391, 402-409) of arrays. -/
noncomputable def arrayNorm (ps : List (Arr × I3)) : Res ℝ := do
  let s ← allreduce (ps.map fun p => locNorm2 p.1 p.2)
  .ok (√s)

end Picsar.DivDiag
