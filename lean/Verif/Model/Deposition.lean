import Verif.Model.Grid
import Mathlib.Algebra.Order.Floor.Ring
import Mathlib.Algebra.Order.Archimedean.Real.Basic

/-
Charge and Esirkepov current deposition, orders 1, 2 and 3:
src/particle_deposition/charge_deposition/charge_deposition_3d.F90 (depose_rho_scalar_1_1_1, _2_2_2, _3_3_3) and
src/particle_deposition/current_deposition/esirkepov/esirkepov_3d.F90 (depose_jxjyjz_esirkepov_1_1_1, _2_2_2, _3_3_3).
The three routines of each family are the same program with the order `n` substituted in: nearest node, stencil weights,
bounds of the local arrays and loop limits are written here as functions of `n`, each with the lines of the three instances.
Reals for floating point, `ℤ` for the integer indices; every array access (grid and local) is checked.
-/
namespace Picsar.Deposition
open Picsar Picsar.Grid

/-- Fortran `nint`: nearest integer, halves away from zero. -/
noncomputable def nint (x : ℝ) : ℤ := if 0 ≤ x then ⌊x + 1 / 2⌋ else ⌈x - 1 / 2⌉

/-- Node the stencil is attached to: `floor(x)` for orders 1 and 3 (charge_deposition_3d.F90:108-110, 354-356;
esirkepov_3d.F90 `iixp0=floor(x)` 167-169, 3350-3352), `nint(x)` for order 2 (charge 204-206, esirkepov 1821-1823). -/
noncomputable def node (n : ℕ) (x : ℝ) : ℤ := if n = 2 then nint x else ⌊x⌋

/-- Stencil weights (offset, weight) as functions of the distance `xint` to the node.
Order 1: charge 118-123, esirkepov 172-177, 184-189. Order 2: charge 214-225, esirkepov 1829-1840, 1855-1866.
Order 3: charge 364-381, esirkepov 3358-3378, 3392-3412 (`oxint=1-xint`). -/
noncomputable def wts (n : ℕ) (ξ : ℝ) : List (ℤ × ℝ) :=
  match n with
  | 1 => [(0, 1 - ξ), (1, ξ)]
  | 2 => [(-1, 1 / 2 * (1 / 2 - ξ) ^ 2), (0, 3 / 4 - ξ * ξ), (1, 1 / 2 * (1 / 2 + ξ) ^ 2)]
  | 3 => [(-1, 1 / 6 * ((1 - ξ) * (1 - ξ)) * (1 - ξ)), (0, 2 / 3 - ξ * ξ * (1 - ξ / 2)),
      (1, 2 / 3 - (1 - ξ) * (1 - ξ) * (1 - (1 - ξ) / 2)), (2, 1 / 6 * (ξ * ξ) * ξ)]
  | _ => []

/-- One macroparticle as the deposition routines see it: position, momentum, inverse Lorentz factor, weight. -/
structure Part where
  x : ℝ
  y : ℝ
  z : ℝ
  ux : ℝ
  uy : ℝ
  uz : ℝ
  gaminv : ℝ
  w : ℝ

/-- Scalar arguments: charge, origin of the grid, cell sizes and time step. -/
structure Geo where
  q : ℝ
  xmin : ℝ
  ymin : ℝ
  zmin : ℝ
  dx : ℝ
  dy : ℝ
  dz : ℝ
  dt : ℝ

/-- `a(i) = a(i) + v` on a grid array. -/
noncomputable def bump (a : Arr) (i : I3) (v : ℝ) : Res Arr := do
  let x ← a.get i
  a.set i (x + v)

/-! ### Charge deposition -/

/-- Statements `rho(j+dj,k+dk,l+dl) = rho(...) + sx(dj)*sy(dk)*sz(dl)*wq` of one particle: the 8 (charge 126-140), 27
(charge 226-290, with the products `sx1=sx(-1)*sy(-1)`, ... and `wq` folded into `sz`) or 64 (charge 389-515) unrolled assignments, x offset fastest, are the loops over the three stencils. -/
noncomputable def rhoStmts (n : ℕ) (wq x y z : ℝ) : List (I3 × ℝ) :=
  (wts n (z - node n z)).flatMap fun c => (wts n (y - node n y)).flatMap fun b => (wts n (x - node n x)).map fun a =>
    (⟨node n x + a.1, node n y + b.1, node n z + c.1⟩, a.2 * b.2 * c.2 * wq)

/-- `depose_rho_scalar_n_n_n`: loop over the particles (charge 97-141, 191-291, 340-516). -/
noncomputable def deposeRho (n : ℕ) (g : Geo) : List Part → Arr → Res Arr
  | [], rho => .ok rho
  | p :: ps, rho => do
    let dxi := 1 / g.dx
    let dyi := 1 / g.dy
    let dzi := 1 / g.dz
    let invvol := dxi * dyi * dzi
    let x := (p.x - g.xmin) * dxi
    let y := (p.y - g.ymin) * dyi
    let z := (p.z - g.zmin) * dzi
    let wq := g.q * p.w * invvol
    let rho' ← (rhoStmts n wq x y z).foldlM (fun (a : Arr) (s : I3 × ℝ) => bump a s.1 s.2) rho
    deposeRho n g ps rho'

/-! ### Esirkepov current deposition -/

/-- Declared bounds of the local arrays `sx, sx0, sdyj, sdzk...`: `-1:2` (esirkepov 113-123), `-2:2` (1761-1766),
`-2:3` (3291-3296). -/
def locLo (n : ℕ) : ℤ := if n = 1 then -1 else -2
def locHi (n : ℕ) : ℤ := if n = 3 then 3 else 2

/-- Assignments `sx(o+d) = v` into a local array that was zeroed first (`sx=0.0_num`, esirkepov 150-155, 1797-1802, 3326-3331). -/
noncomputable def fill (n : ℕ) (d : ℤ) (ws : List (ℤ × ℝ)) : Res (ℤ → ℝ) :=
  ws.foldlM (fun (s : ℤ → ℝ) (w : ℤ × ℝ) =>
    if locLo n ≤ w.1 + d ∧ w.1 + d ≤ locHi n then .ok (Function.update s (w.1 + d) w.2) else .error .outOfBounds) (fun _ => 0)

/-- The values held while one particle is deposited: new (`s0`) and old (`s`) shape factors per direction, the node indices,
the limits of the loops and the three current coefficients. -/
structure Loc where
  sx0 : ℤ → ℝ
  sx : ℤ → ℝ
  sy0 : ℤ → ℝ
  sy : ℤ → ℝ
  sz0 : ℤ → ℝ
  sz : ℤ → ℝ
  i0 : ℤ
  j0 : ℤ
  k0 : ℤ
  xl : ℤ
  xh : ℤ
  yl : ℤ
  yh : ℤ
  zl : ℤ
  zh : ℤ
  wqx : ℝ
  wqy : ℝ
  wqz : ℝ

/-- Running values of the loops: `sdxi`, `sdxim1`, `sdyj(:)`, `sdyjm1(:)`, `sdzk(:,:)`, `sdzkm1(:,:)`, and the grid arrays. -/
structure Acc where
  sdxi : ℝ
  sdxim1 : ℝ
  sdyj : ℤ → ℝ
  sdyjm1 : ℤ → ℝ
  sdzk : ℤ → ℤ → ℝ
  sdzkm1 : ℤ → ℤ → ℝ
  mem : Mem

/-- `c(i) = c(i) + v` for one of the grid arrays. -/
noncomputable def bumpMem (σ : Mem) (c : Comp) (i : I3) (v : ℝ) : Res Mem := do
  let a ← bump (σ c) i v
  pure (Function.update σ c a)

/-- The block `IF(i<ixmax) ... jx(ic, jc, kc) = jx(ic, jc, kc) + sdxi` (esirkepov 204-210, 1887-1893, 3433-3439). -/
noncomputable def doX (L : Loc) (i j k : ℤ) (s : Acc) : Res Acc := do
  if i < L.xh then
    let v := L.wqx * (L.sx i - L.sx0 i) * ((L.sy0 j + 1 / 2 * (L.sy j - L.sy0 j)) * L.sz0 k +
      (1 / 2 * L.sy0 j + 1 / 3 * (L.sy j - L.sy0 j)) * (L.sz k - L.sz0 k))
    let v := if i > L.xl then v + s.sdxim1 else v
    let m ← bumpMem s.mem .jx ⟨L.i0 + i, L.j0 + j, L.k0 + k⟩ v
    pure { s with sdxi := v, mem := m }
  else pure s

/-- The block `IF(j<iymax)` (esirkepov 211-217, 1894-1900, 3440-3446). -/
noncomputable def doY (L : Loc) (i j k : ℤ) (s : Acc) : Res Acc := do
  if j < L.yh then
    let v := L.wqy * (L.sy j - L.sy0 j) * ((L.sz0 k + 1 / 2 * (L.sz k - L.sz0 k)) * L.sx0 i +
      (1 / 2 * L.sz0 k + 1 / 3 * (L.sz k - L.sz0 k)) * (L.sx i - L.sx0 i))
    let v := if j > L.yl then v + s.sdyjm1 i else v
    let m ← bumpMem s.mem .jy ⟨L.i0 + i, L.j0 + j, L.k0 + k⟩ v
    pure { s with sdyj := Function.update s.sdyj i v, mem := m }
  else pure s

/-- The block `IF(k<izmax)` (esirkepov 218-224, 1901-1907, 3447-3453). -/
noncomputable def doZ (L : Loc) (i j k : ℤ) (s : Acc) : Res Acc := do
  if k < L.zh then
    let v := L.wqz * (L.sz k - L.sz0 k) * ((L.sx0 i + 1 / 2 * (L.sx i - L.sx0 i)) * L.sy0 j +
      (1 / 2 * L.sx0 i + 1 / 3 * (L.sx i - L.sx0 i)) * (L.sy j - L.sy0 j))
    let v := if k > L.zl then v + s.sdzkm1 i j else v
    let m ← bumpMem s.mem .jz ⟨L.i0 + i, L.j0 + j, L.k0 + k⟩ v
    pure { s with sdzk := Function.update s.sdzk i (Function.update (s.sdzk i) j v), mem := m }
  else pure s

/-- Body of the innermost loop: the local arrays are indexed by `i`, `j`, `k` (checked against the declared bounds), then the
three blocks, then `sdxim1=sdxi` (esirkepov 226, 1908, 3454). Simplification: the bounds check is made once per iteration for the three indices. -/
noncomputable def cell (n : ℕ) (L : Loc) (i j k : ℤ) (s : Acc) : Res Acc := do
  if locLo n ≤ i ∧ i ≤ locHi n ∧ locLo n ≤ j ∧ j ≤ locHi n ∧ locLo n ≤ k ∧ k ≤ locHi n then
    let s ← doX L i j k s
    let s ← doY L i j k s
    let s ← doZ L i j k s
    pure { s with sdxim1 := s.sdxi }
  else .error .outOfBounds

/-- `DO i=ixmin, ixmax ... END DO; sdyjm1=sdyj` (esirkepov 200-229, 1883-1910, 3429-3456). -/
noncomputable def row (n : ℕ) (L : Loc) (j k : ℤ) (s : Acc) : Res Acc := do
  let s ← (irange L.xl L.xh).foldlM (fun (s : Acc) (i : ℤ) => cell n L i j k s) s
  pure { s with sdyjm1 := s.sdyj }

/-- `DO j=iymin, iymax ... END DO; sdzkm1=sdzk` (esirkepov 199-232, 1882-1912, 3428-3458). -/
noncomputable def plane (n : ℕ) (L : Loc) (k : ℤ) (s : Acc) : Res Acc := do
  let s ← (irange L.yl L.yh).foldlM (fun (s : Acc) (j : ℤ) => row n L j k s) s
  pure { s with sdzkm1 := s.sdzk }

/-- `DO k=izmin, izmax` (esirkepov 198-233, 1881-1913, 3427-3459). -/
noncomputable def volume (n : ℕ) (L : Loc) (s : Acc) : Res Acc :=
  (irange L.zl L.zh).foldlM (fun (s : Acc) (k : ℤ) => plane n L k s) s

/-- One particle up to the loops (esirkepov 150-196, 1797-1878, 3326-3424): positions after (`x`) and before (`xold`) the step in
grid units, shape factors, displacement in cells, loop limits `ixmin=min(0,dix)-n/2`, `ixmax=max(0,dix)+(n+1)/2`. -/
noncomputable def prep (n : ℕ) (g : Geo) (p : Part) : Res Loc := do
  let dxi := 1 / g.dx
  let dyi := 1 / g.dy
  let dzi := 1 / g.dz
  let x := (p.x - g.xmin) * dxi
  let y := (p.y - g.ymin) * dyi
  let z := (p.z - g.zmin) * dzi
  let xold := x - g.dt * dxi * (p.ux * p.gaminv)
  let yold := y - g.dt * dyi * (p.uy * p.gaminv)
  let zold := z - g.dt * dzi * (p.uz * p.gaminv)
  let wq := g.q * p.w
  let sx0 ← fill n 0 (wts n (x - node n x))
  let sy0 ← fill n 0 (wts n (y - node n y))
  let sz0 ← fill n 0 (wts n (z - node n z))
  let dix := node n xold - node n x
  let diy := node n yold - node n y
  let diz := node n zold - node n z
  let sx ← fill n dix (wts n (xold - node n xold))
  let sy ← fill n diy (wts n (yold - node n yold))
  let sz ← fill n diz (wts n (zold - node n zold))
  let a : ℤ := (n / 2 : ℕ)
  let b : ℤ := ((n + 1) / 2 : ℕ)
  pure ⟨sx0, sx, sy0, sy, sz0, sz, node n x, node n y, node n z, min 0 dix - a, max 0 dix + b, min 0 diy - a, max 0 diy + b,
    min 0 diz - a, max 0 diz + b, wq * (1 / (g.dt * g.dy * g.dz)), wq * (1 / (g.dt * g.dx * g.dz)),
    wq * (1 / (g.dt * g.dx * g.dy))⟩

/-- The particle loop `DO ip=1, np` (esirkepov 149-235, 1796-1914, 3325-3460). -/
noncomputable def deposeLoop (n : ℕ) (g : Geo) : List Part → Acc → Res Acc
  | [], s => .ok s
  | p :: ps, s => do
    let L ← prep n g p
    let s ← volume n L s
    deposeLoop n g ps s

/-- `depose_jxjyjz_esirkepov_n_n_n`: the running values are zeroed before the particle loop (esirkepov 138-143, 1784-1789, 3313-3318). -/
noncomputable def deposeJ (n : ℕ) (g : Geo) (ps : List Part) (σ : Mem) : Res Mem := do
  let s ← deposeLoop n g ps ⟨0, 0, fun _ => 0, fun _ => 0, fun _ _ => 0, fun _ _ => 0, σ⟩
  pure s.mem

end Picsar.Deposition
