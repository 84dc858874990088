import Verif.Model.Grid
import Mathlib.Analysis.SpecialFunctions.Exp
/-
Absorbing layers: `init_pml_arrays` (src/submain.F90), `field_damping_bcs` and `merge_fields`
(src/field_solvers/Maxwell/maxwell_solver_manager.F90). Real arithmetic.
-/
namespace Picsar.Pml
open Picsar Picsar.Grid

/-- `REAL(num) :: a(lo:hi)`. -/
structure RArr where
  lo : ℤ
  hi : ℤ
  val : ℤ → ℝ

/-- Read and write of an element. -/
noncomputable def RArr.get (a : RArr) (i : ℤ) : Res ℝ := if a.lo ≤ i ∧ i ≤ a.hi then .ok (a.val i) else .error .outOfBounds
noncomputable def RArr.set (a : RArr) (i : ℤ) (v : ℝ) : Res RArr :=
  if a.lo ≤ i ∧ i ≤ a.hi then .ok ⟨a.lo, a.hi, Function.update a.val i v⟩ else .error .outOfBounds

/-- Parameters of one direction: `nxguards`, `nx_pml`, `shift_x_pml`, `nx_global`, `fftw_hybrid`, `clight/dx`, `dt`. -/
structure Par where
  guards : ℤ
  pml : ℤ
  shift : ℤ
  n : ℤ
  hybrid : Bool
  cdx : ℝ
  dt : ℝ

/-- `cx` (submain.F90:388-395). -/
def Par.c (P : Par) : ℤ := if P.hybrid then 0 else P.guards - P.shift

/-- `coeff*clight/dx` (submain.F90:351, 397). -/
noncomputable def Par.k (P : Par) : ℝ := 4 / 25 * P.cdx

/-- Body of the loop over the lower layer, `s` is `(sigma_x_e, sigma_x_b)` (submain.F90:396-399). -/
noncomputable def lowStep (P : Par) (s : RArr × RArr) (ix : ℤ) : Res (RArr × RArr) := do
  let e ← s.1.set (ix - P.c) (P.k * ((P.pml - ix : ℤ) - 0) ^ 2)
  let b ← s.2.set (ix - P.c) (P.k * ((P.pml - ix : ℤ) - 1 / 2) ^ 2)
  .ok (e, b)

/-- Body of the loop over the upper layer (submain.F90:404-407). -/
noncomputable def upStep (P : Par) (s : RArr × RArr) (ix : ℤ) : Res (RArr × RArr) := do
  let e ← s.1.set (ix + P.c) (P.k * ((ix - (P.n - P.pml - 1) : ℤ) + 0) ^ 2)
  let b ← s.2.set (ix - 1 + P.c) (P.k * ((ix - (P.n - P.pml - 1) : ℤ) + 1 / 2 - 1) ^ 2)
  .ok (e, b)

/-- `sigma` in the whole domain (submain.F90:371-382, 396-407; y in 3-D: 423-434; z: 450-462). -/
noncomputable def sigma (P : Par) : Res (RArr × RArr) := do
  let z : RArr := ⟨-P.guards, P.n + P.guards - 1, fun _ => 0⟩
  let s ← (irange 0 (P.pml - 1)).foldlM (lowStep P) (z, z)
  (irange (P.n - P.pml) (P.n - 1)).foldlM (upStep P) s

/-- The part of a process with `nx` cells, `cell_x_min`, `cell_x_max`: `sigma_x_e = temp(cell_x_min-nxguards:cell_x_max+nxguards)` into an array
`(-nxguards:nx+nxguards-1)` (submain.F90:410-418; y in 3-D: 437-444; z: 465-473). `temp = sigma_x_e` gives `temp` the bounds of `sigma_x_e` (automatic reallocation of Fortran
2003). -/
noncomputable def extract (g nx cmin cmax : ℤ) (a : RArr) : Res RArr :=
  if a.lo ≤ cmin - g ∧ cmax + g ≤ a.hi ∧ cmax - cmin + 1 = nx then .ok ⟨-g, nx + g - 1, fun i => a.val (cmin + i)⟩ else .error .outOfBounds

/-- `sigma = EXP(-sigma*dt)`, or one without absorption (submain.F90:479-499). -/
noncomputable def factor (absorb : Bool) (dt : ℝ) (a : RArr) : RArr := if absorb then ⟨a.lo, a.hi, fun i => Real.exp (-a.val i * dt)⟩ else ⟨a.lo, a.hi, fun _ => 1⟩

/-- `init_pml_arrays` for one direction: `(sigma_x_e, sigma_x_b)` as used by the damping. -/
noncomputable def initPml (P : Par) (absorb : Bool) (nx cmin cmax : ℤ) : Res (RArr × RArr) := do
  let s ← sigma P
  let e ← extract P.guards nx cmin cmax s.1
  let b ← extract P.guards nx cmin cmax s.2
  .ok (factor absorb P.dt e, factor absorb P.dt b)

/-- The split components. -/
inductive Sc where
  | exy | exz | eyx | eyz | ezx | ezy | bxy | bxz | byx | byz | bzx | bzy
deriving DecidableEq

/-- Factors of the three directions. -/
structure Factors where
  xe : RArr
  xb : RArr
  ye : RArr
  yb : RArr
  ze : RArr
  zb : RArr

/-- The factor that multiplies a component at an index (maxwell_solver_manager.F90:173-184). -/
noncomputable def Factors.at (F : Factors) (c : Sc) (i : I3) : Res ℝ :=
  match c with
  | .exy => F.ye.get i.k
  | .exz => F.ze.get i.l
  | .eyx => F.xe.get i.j
  | .eyz => F.ze.get i.l
  | .ezx => F.xe.get i.j
  | .ezy => F.ye.get i.k
  | .bxy => F.yb.get i.k
  | .bxz => F.zb.get i.l
  | .byx => F.xb.get i.j
  | .byz => F.zb.get i.l
  | .bzx => F.xb.get i.j
  | .bzy => F.yb.get i.k

/-- The components in the order of the assignments, 3-D and 2-D (maxwell_solver_manager.F90:173-184, 194-201). -/
def comps3 : List Sc := [.exy, .exz, .eyx, .eyz, .ezx, .ezy, .bxy, .bxz, .byx, .byz, .bzx, .bzy]
def comps2 : List Sc := [.exz, .eyx, .eyz, .ezx, .bxz, .byx, .byz, .bzx]

/-- `exy(ix,iy,iz) = sigma_y_e(iy) * exy(ix,iy,iz)`. -/
noncomputable def dampOne (F : Factors) (i : I3) (m : Sc → Arr) (c : Sc) : Res (Sc → Arr) := do
  let s ← F.at c i
  let v ← (m c).get i
  let a ← (m c).set i (s * v)
  .ok (Function.update m c a)

/-- `field_damping_bcs` over the list of indices of its loop nest (maxwell_solver_manager.F90:168-205): 3-D from `(-nxguards,-nyguards,-nzguards)` to
`(nx+nxguards-1, ny+nyguards-1, nz+nzguards-1)`, 2-D with `iy = 0`. The iterations touch different elements, so the OpenMP schedule does not matter:
the theorems hold for every order of the list. -/
noncomputable def damp (cs : List Sc) (F : Factors) (o : List I3) (m : Sc → Arr) : Res (Sc → Arr) :=
  o.foldlM (fun m i => cs.foldlM (dampOne F i) m) m

/-- The components of the merged fields (maxwell_solver_manager.F90:256-261). -/
inductive Fc where
  | ex | ey | ez | bx | by' | bz
deriving DecidableEq

/-- Which two split components make up a component. -/
def parts : Fc → Sc × Sc
  | .ex => (.exy, .exz)
  | .ey => (.eyx, .eyz)
  | .ez => (.ezx, .ezy)
  | .bx => (.bxy, .bxz)
  | .by' => (.byx, .byz)
  | .bz => (.bzx, .bzy)

/-- `merge_fields` at one index of the merged field, with `off` the difference of the lower bounds (maxwell_solver_manager.F90:243-264). -/
noncomputable def merged (m : Sc → Arr) (off i : I3) (c : Fc) : Res ℝ := do
  let a ← (m (parts c).1).get ⟨i.j + off.j, i.k + off.k, i.l + off.l⟩
  let b ← (m (parts c).2).get ⟨i.j + off.j, i.k + off.k, i.l + off.l⟩
  .ok (a + b)

end Picsar.Pml
