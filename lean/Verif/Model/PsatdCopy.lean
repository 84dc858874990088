import Verif.Model.Grid

/-
Copies between the field arrays and the arrays of the Fourier transform (`copy_field_forward`, `copy_field_backward`,
src/field_solvers/Maxwell/GPSTD_solver/init_kspace_3D.F90:1559-1725). The loop over the components inside the loops over the points is one
loop per component here: all arrays are different.
-/
namespace Picsar.PsatdCopy
open Picsar Picsar.Grid

/-- Numbers of cells, guard cells of the fields and guard cells of the currents. -/
structure Dims where
  n : I3
  g : I3
  gj : I3
  twoD : Bool

/-- `ALLOCATE(ex(-nxguards:nx+nxguards, ...))` (mpi_routines.F90:1792-1806). -/
def fieldArr (D : Dims) (v : I3 → ℝ) : Arr := ⟨⟨-D.g.j, -D.g.k, -D.g.l⟩, ⟨D.n.j + D.g.j, D.n.k + D.g.k, D.n.l + D.g.l⟩, v⟩

/-- `ALLOCATE(jx(-nxjguards:nx+nxjguards, ...))`, and `rho`, `rhoold` (mpi_routines.F90:1807-1830). -/
def sourceArr (D : Dims) (v : I3 → ℝ) : Arr := ⟨⟨-D.gj.j, -D.gj.k, -D.gj.l⟩, ⟨D.n.j + D.gj.j, D.n.k + D.gj.k, D.n.l + D.gj.l⟩, v⟩

/-- `ALLOCATE(ex_r(imn:imx, jmn:jmx, kmn:kmx))` (mpi_routines.F90:2021-2062). -/
def fftArr (D : Dims) (v : I3 → ℝ) : Arr :=
  ⟨⟨-D.g.j, if D.twoD then 0 else -D.g.k, -D.g.l⟩, ⟨D.n.j + D.g.j - 1, if D.twoD then 0 else D.n.k + D.g.k - 1, D.n.l + D.g.l - 1⟩, v⟩

/-- `ixx = ix - lbound_r(1) + lbound_p(1)` and the two others (init_kspace_3D.F90:1594-1599). -/
def shift (lr lp i : I3) : I3 := ⟨i.j - lr.j + lp.j, i.k - lr.k + lp.k, i.l - lr.l + lp.l⟩

/-- `dst(fd(i)) = src(fs(i))` for the points of a list. -/
noncomputable def copyLoop (src : Arr) (fs fd : I3 → I3) (L : List I3) (dst : Arr) : Res Arr :=
  L.foldlM (fun (d : Arr) (i : I3) => do
    let v ← src.get (fs i)
    d.set (fd i) v) dst

/-- The local field arrays: E and B (or their parts), then the currents and the two charge densities. -/
structure Local where
  fields : ℕ → Arr
  sources : ℕ → Arr

/-- `copy_field_forward`: arrays `0 .. nf-1` of the fields (6, or 12 with absorbing layers) and the five sources. -/
noncomputable def forward (nf : ℕ) (M R : Local) : Res Local := do
  let f ← (List.range nf).foldlM (fun (f : ℕ → Arr) (c : ℕ) => do
    let a ← copyLoop (M.fields c) (shift (R.fields 0).lo (M.fields 0).lo) id (box (R.fields 0).lo (R.fields 0).hi) (f c)
    (.ok (Function.update f c a) : Res (ℕ → Arr))) R.fields
  let s ← (List.range 5).foldlM (fun (s : ℕ → Arr) (c : ℕ) => do
    let a ← copyLoop (M.sources c) (shift (R.fields 0).lo (M.sources 0).lo) id (box (R.fields 0).lo (R.fields 0).hi) (s c)
    (.ok (Function.update s c a) : Res (ℕ → Arr))) R.sources
  .ok ⟨f, s⟩

/-- `copy_field_backward`. -/
noncomputable def backward (nf : ℕ) (R M : Local) : Res Local := do
  let f ← (List.range nf).foldlM (fun (f : ℕ → Arr) (c : ℕ) => do
    let a ← copyLoop (R.fields c) id (shift (R.fields 0).lo (M.fields 0).lo) (box (R.fields 0).lo (R.fields 0).hi) (f c)
    (.ok (Function.update f c a) : Res (ℕ → Arr))) M.fields
  .ok ⟨f, M.sources⟩

/-- The arrays as they are allocated; in two dimensions there are no guard cells along the second axis (mpi_routines.F90:1534-1537). -/
structure Shaped (D : Dims) (M R : Local) : Prop where
  mf : ∀ c, ∃ v, M.fields c = fieldArr D v
  ms : ∀ c, ∃ v, M.sources c = sourceArr D v
  rf : ∀ c, ∃ v, R.fields c = fftArr D v
  rs : ∀ c, ∃ v, R.sources c = fftArr D v
  n : 1 ≤ D.n.j ∧ 1 ≤ D.n.k ∧ 1 ≤ D.n.l
  g : 0 ≤ D.g.j ∧ 0 ≤ D.g.k ∧ 0 ≤ D.g.l
  gj : 0 ≤ D.gj.j ∧ 0 ≤ D.gj.k ∧ 0 ≤ D.gj.l
  two : D.twoD = true → D.g.k = 0 ∧ D.gj.k = 0

end Picsar.PsatdCopy
