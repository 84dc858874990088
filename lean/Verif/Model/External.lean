import Verif.Model.Maxwell
import Verif.Model.Stencil

/-
Model of src/init_external.F90: the interface with C linkage through which another code hands its field arrays to the library
(`init_params_picsar`) and has them advanced (`solve_maxwell_fdtd_pxr`). Real numbers are exact; the logical flags of the parallel
transforms, `c_dim` and the messages are left out. Threads: every execution order of each loop nest, as in Model/Maxwell.
-/
namespace Picsar.External
open Picsar Picsar.Grid Picsar.Maxwell Picsar.Stencil
open Picsar.Grid.Comp (ex ey ez bx by' bz jx jy jz f)

/-- Scalar arguments of `init_params_picsar` (init_external.F90:22-42). -/
structure Request where
  n1 : ℤ
  n2 : ℤ
  n3 : ℤ
  d1 : ℝ
  d2 : ℝ
  d3 : ℝ
  dt : ℝ
  g1 : ℤ
  g2 : ℤ
  g3 : ℤ
  o1 : ℕ
  o2 : ℕ
  o3 : ℕ
  spectral : Bool

/-- The arrays of the caller, `field1`, ..., `field11`: `a n i1 i2 i3` is the element `[i1][i2][i3]` of `fieldn`, with the last index
running fastest in memory and index 0 on the first point that is not a guard point. -/
abbrev Caller := ℕ → ℤ → ℤ → ℤ → ℝ

/-- The pointer assignments `ex => field3`, ... (init_external.F90:75-84). Array `f` is not bound; it is never accessed. -/
def source : Comp → ℕ
  | ex => 3
  | ey => 2
  | ez => 1
  | bx => 6
  | by' => 5
  | bz => 4
  | jx => 9
  | jy => 8
  | jz => 7
  | f => 0

/-- The arrays as the library sees them: `DIMENSION(-ng3:n3+ng3,-ng2:n2+ng2,-ng1:n1+ng1)`, first index fastest (init_external.F90:38-39;
the bounds survive the pointer assignment). -/
def view (q : Request) (a : Caller) : Mem := fun c =>
  ⟨⟨-q.g3, -q.g2, -q.g1⟩, ⟨q.n3 + q.g3, q.n2 + q.g2, q.n1 + q.g1⟩, fun i => a (source c) i.l i.k i.j⟩

/-- What the caller sees afterwards: the library works on the caller's memory; `n` is the number of the array. -/
def release (τ : Mem) (a : Caller) : Caller := fun n i1 i2 i3 =>
  match n with
  | 1 => (τ ez).val ⟨i3, i2, i1⟩
  | 2 => (τ ey).val ⟨i3, i2, i1⟩
  | 3 => (τ ex).val ⟨i3, i2, i1⟩
  | 4 => (τ bz).val ⟨i3, i2, i1⟩
  | 5 => (τ by').val ⟨i3, i2, i1⟩
  | 6 => (τ bx).val ⟨i3, i2, i1⟩
  | 7 => (τ jz).val ⟨i3, i2, i1⟩
  | 8 => (τ jy).val ⟨i3, i2, i1⟩
  | 9 => (τ jx).val ⟨i3, i2, i1⟩
  | n => a n i1 i2 i3

/-- Sizes, orders and coefficients set by `init_params_picsar` for the finite-difference solver (init_external.F90:57-71, 116-127). -/
noncomputable def params (q : Request) : NOrder where
  nx := q.n3
  ny := q.n2
  nz := q.n1
  gx := q.g3
  gy := q.g2
  gz := q.g1
  ox := q.o3
  oy := q.o2
  oz := q.o1
  ist := 1
  cx := fun l => q.dt / q.d3 * weight q.o3 true l
  cy := fun l => q.dt / q.d2 * weight q.o2 true l
  cz := fun l => q.dt / q.d1 * weight q.o1 true l

/-- `IF((k+i .GT. n+nguard) .OR. (k-i+ist .LT. -nguard)) CYCLE` around the term `i` of a difference of the magnetic field
(init_external.F90:155, 159, ...); `pos` selects the index of the direction. -/
def keptE (n g : ℤ) (pos : I3 → ℤ) (m : ℕ) (t : Ex) : Ex :=
  .cond (fun i => !(decide (pos i + m > n + g) || decide (pos i - m + 1 < -g))) t (cst 0)

/-- `IF((k+i-ist .GT. n+nguard) .OR. (k-i .LT. -nguard)) CYCLE` around the term `i` of a difference of the electric field
(init_external.F90:228, 233, ...). -/
def keptB (n g : ℤ) (pos : I3 → ℤ) (m : ℕ) (t : Ex) : Ex :=
  .cond (fun i => !(decide (pos i + m - 1 > n + g) || decide (pos i - m < -g))) t (cst 0)

/-- Differences of the magnetic field along the three axes; `cnt` is the upper bound of the inner loop. -/
def dxB (p : NOrder) (cnt : I3 → ℕ) (c : Comp) : Ex :=
  .sum cnt fun (m : ℕ) => keptE p.nx p.gx I3.j m (cst (p.cx m) * (.rd c m 0 0 - .rd c (-m + p.ist) 0 0))
def dyB (p : NOrder) (cnt : I3 → ℕ) (c : Comp) : Ex :=
  .sum cnt fun (m : ℕ) => keptE p.ny p.gy I3.k m (cst (p.cy m) * (.rd c 0 m 0 - .rd c 0 (-m + p.ist) 0))
def dzB (p : NOrder) (cnt : I3 → ℕ) (c : Comp) : Ex :=
  .sum cnt fun (m : ℕ) => keptE p.nz p.gz I3.l m (cst (p.cz m) * (.rd c 0 0 m - .rd c 0 0 (-m + p.ist)))

/-- Differences of the electric field along the three axes. -/
def dxE (p : NOrder) (c : Comp) : Ex :=
  .sum (fun i => nterms p.ox p.nx p.gx i.j) fun (m : ℕ) =>
    keptB p.nx p.gx I3.j m (cst (p.cx m) * (.rd c (m - p.ist) 0 0 - .rd c (-m) 0 0))
def dyE (p : NOrder) (c : Comp) : Ex :=
  .sum (fun i => nterms p.oy p.ny p.gy i.k) fun (m : ℕ) =>
    keptB p.ny p.gy I3.k m (cst (p.cy m) * (.rd c 0 (m - p.ist) 0 - .rd c 0 (-m) 0))
def dzE (p : NOrder) (c : Comp) : Ex :=
  .sum (fun i => nterms p.oz p.nz p.gz i.l) fun (m : ℕ) =>
    keptB p.nz p.gz I3.l m (cst (p.cz m) * (.rd c 0 0 (m - p.ist) - .rd c 0 0 (-m)))

/-- Loop bounds of `evec3d_push_norder` (init_external.F90:150-152, 170-172, 186-188). -/
def eRanges (p : NOrder) : Ranges where
  xlo := ⟨-p.gx, -p.gy, -p.gz⟩
  xhi := ⟨p.nx + p.gx, p.ny + p.gy - 1, p.nz + p.gz - 1⟩
  ylo := ⟨-p.gx, -p.gy, -p.gz⟩
  yhi := ⟨p.nx + p.gx - 1, p.ny + p.gy, p.nz + p.gz - 1⟩
  zlo := ⟨-p.gx, -p.gy, -p.gz⟩
  zhi := ⟨p.nx + p.gx - 1, p.ny + p.gy - 1, p.nz + p.gz⟩

/-- Loop bounds of `bvec3d_push_norder` (init_external.F90:224-226, 241-243, 260-262). -/
def bRanges (p : NOrder) : Ranges where
  xlo := ⟨-p.gx, -p.gy + 1, -p.gz + 1⟩
  xhi := ⟨p.nx + p.gx - 1, p.ny + p.gy - 1, p.nz + p.gz - 1⟩
  ylo := ⟨-p.gx + 1, -p.gy, -p.gz + 1⟩
  yhi := ⟨p.nx + p.gx - 1, p.ny + p.gy - 1, p.nz + p.gz - 1⟩
  zlo := ⟨-p.gx + 1, -p.gy + 1, -p.gz⟩
  zhi := ⟨p.nx + p.gx - 1, p.ny + p.gy - 1, p.nz + p.gz - 1⟩

/-- `evec3d_push_norder` (init_external.F90:132-204). The inner loops of `Ex` run to `norder/2`; those of `Ey` and `Ez` to the minimum
of this and the distances from the array ends. Repeated assignments to the same element are written as one sum. -/
noncomputable def evecX (dt : ℝ) (p : NOrder) (o : Orders) (σ : Mem) : Res Mem :=
  three ex ey ez
    (.rd ex 0 0 0 - cst dt * .rd jx 0 0 0 + dyB p (fun _ => p.oy / 2) bz - dzB p (fun _ => p.oz / 2) by')
    (.rd ey 0 0 0 - cst dt * .rd jy 0 0 0 - dxB p (fun i => nterms p.ox p.nx p.gx i.j) bz
      + dzB p (fun i => nterms p.oz p.nz p.gz i.l) bx)
    (.rd ez 0 0 0 - cst dt * .rd jz 0 0 0 + dxB p (fun i => nterms p.ox p.nx p.gx i.j) by'
      - dyB p (fun i => nterms p.oy p.ny p.gy i.k) bx) o σ

/-- `bvec3d_push_norder` (init_external.F90:206-288). -/
noncomputable def bvecX (p : NOrder) (o : Orders) (σ : Mem) : Res Mem :=
  three bx by' bz
    (.rd bx 0 0 0 - dyE p ez + dzE p ey)
    (.rd by' 0 0 0 + dxE p ez - dzE p ex)
    (.rd bz 0 0 0 - dxE p ey + dyE p ex) o σ

/-- `solve_maxwell_fdtd_pxr` (init_external.F90:290-301) after `init_params_picsar` with the request `q` and the arrays `a`. -/
noncomputable def solve (q : Request) (oE oB : Orders) (a : Caller) : Res Caller := do
  let σ ← evecX q.dt (params q) oE (view q a)
  let τ ← bvecX (params q) oB σ
  pure (release τ a)

/-! ### Fourier arrays -/

/-- What successive calls of `init_params_picsar` with `is_spec` leave behind: the shape of the Fourier arrays (they are created or
kept together, so one shape stands for all eleven) and the sizes of the grid. -/
structure Lib where
  fourier : Option (ℤ × ℤ × ℤ)
  grid : ℤ × ℤ × ℤ

/-- Shape `(nkx, nky, nkz)` (init_external.F90:98-100). Integer division of positive numbers. -/
def fourierShape (q : Request) : ℤ × ℤ × ℤ := ((2 * q.g3 + q.n3 + 1) / 2 + 1, 2 * q.g2 + q.n2 + 1, 2 * q.g1 + q.n1 + 1)

/-- `init_params_picsar` (init_external.F90:57-65, 98-112): `IF(.NOT. ASSOCIATED(exf)) ALLOCATE(exf(nkx, nky, nkz))`. Without `is_spec`
the Fourier arrays are not touched. The pointers are taken to be null before the first call. -/
def initLib (q : Request) (s : Lib) : Lib where
  fourier := if q.spectral then (match s.fourier with | none => some (fourierShape q) | some d => some d) else s.fourier
  grid := (q.n3 + 2 * q.g3 + 1, q.n2 + 2 * q.g2 + 1, q.n1 + 2 * q.g1 + 1)

/-- The transforms to Fourier space (fourier_psaotd.F90:1072-1083, sizes :1668-1671 in the library build; fastfft.F90:442-456):
the plan writes `(nfftx/2+1) * nffty * nfftz` elements of each Fourier array. -/
def toFourier (s : Lib) : Res Unit :=
  match s.fourier with
  | none => .error .nullDeref
  | some (a, b, c) => if (s.grid.1 / 2 + 1) * s.grid.2.1 * s.grid.2.2 ≤ a * b * c then .ok () else .error .outOfBounds

end Picsar.External
