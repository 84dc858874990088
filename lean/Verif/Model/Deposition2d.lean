import Verif.Model.Deposition
import Mathlib.Analysis.Real.Sqrt

/-
Charge and Esirkepov current deposition on a plane grid (x-z, or r-z without the cell volumes):
src/particle_deposition/current_deposition/esirkepov/esirkepov_2d.F90 (pxr_depose_jxjyjz_esirkepov2d_n, _1_1, _2_2, _3_3),
src/particle_deposition/charge_deposition/charge_deposition_2d.F90 (pxr_depose_rho_n_2dxz, pxr_depose_rhoold_n_2dxz) and the choice between them
in src/particle_deposition/current_deposition/current_deposition_manager_2d.F90 (depose_jxjyjz_generic_2d).
A plane array `A(i,k)` is indexed by `⟨i, 0, k⟩`. Reals for floating point, `ℤ` for indices, every array access checked.
Simplification: the flags every caller passes as constants have these values: `l_particles_weight=.TRUE.`, `l4symtry=.FALSE.`,
`type_rz_depose=0` (current_deposition_manager_2d.F90:111,119,123,127,130,183,202,315; charge_deposition_manager.F90:838,844-845).
-/
namespace Picsar.Deposition2d
open Picsar Picsar.Grid Picsar.Deposition

/-- Node of the stencil, order `n` from 0 to 3: `nint` for even orders, `floor` for odd ones (esirkepov_2d.F90:226-235, 291-300, 533-534, 743-744,
968-969; charge_deposition_2d.F90:98-107, 254-274). -/
noncomputable def node2 (n : ℕ) (x : ℝ) : ℤ := if n % 2 = 0 then nint x else ⌊x⌋

/-- Stencil weights, `select case(nox)`: order 0 puts everything on the node, orders 1 to 3 are those of the 3D routines
(esirkepov_2d.F90:246-285, 319-360, 541-546, 571-576, 752-759, 788-795, 976-990, 1020-1034; charge_deposition_2d.F90:125-166, 287-328). -/
noncomputable def wts2 (n : ℕ) (ξ : ℝ) : List (ℤ × ℝ) := if n = 0 then [(0, 1)] else wts n ξ

/-! ### Charge -/

/-- The coordinate across: `x`, or the distance to the axis when `l_2drz` (charge_deposition_2d.F90:82-89, esirkepov_2d.F90:149-161). -/
noncomputable def radius (rz : Bool) (x y : ℝ) : ℝ := if rz then √(x * x + y * y) else x

/-- The double loop `do ll; do jj; rho(j+jj, 0, l+ll) = ... + sx(jj)*sz(ll)*wq` (charge_deposition_2d.F90:169-173, 371-378). -/
noncomputable def rhoStmts2 (a b : ℕ) (wq x z : ℝ) : List (I3 × ℝ) :=
  (wts2 b (z - node2 b z)).flatMap fun c => (wts2 a (x - node2 a x)).map fun d =>
    (⟨node2 a x + d.1, 0, node2 b z + c.1⟩, d.2 * c.2 * wq)

/-- `pxr_depose_rho_n_2dxz` with orders `a` across and `b` along z (charge_deposition_2d.F90:65-175). -/
noncomputable def deposeRho2 (a b : ℕ) (rz : Bool) (g : Geo) : List Part → Arr → Res Arr
  | [], rho => .ok rho
  | p :: ps, rho => do
    let dxi := 1 / g.dx
    let dzi := 1 / g.dz
    let x := (radius rz p.x p.y - g.xmin) * dxi
    let z := (p.z - g.zmin) * dzi
    let wq := g.q * p.w * (dxi * dzi)
    let rho' ← (rhoStmts2 a b wq x z).foldlM (fun (r : Arr) (s : I3 × ℝ) => bump r s.1 s.2) rho
    deposeRho2 a b rz g ps rho'

/-- `pxr_depose_rhoold_n_2dxz`: the density of the positions one step earlier, `ndt = 1` (charge_deposition_2d.F90:210-380). -/
noncomputable def deposeRhoOld2 (a b : ℕ) (g : Geo) : List Part → Arr → Res Arr
  | [], rho => .ok rho
  | p :: ps, rho => do
    let dxi := 1 / g.dx
    let dzi := 1 / g.dz
    let vx := p.ux * p.gaminv
    let vz := p.uz * p.gaminv
    let x1 := (p.x - g.xmin) * dxi
    let z1 := (p.z - g.zmin) * dzi
    let xold := x1 - vx * g.dt * dxi
    let zold := z1 - vz * g.dt * dzi
    let wq := g.q * p.w * (dxi * dzi)
    let rho' ← (rhoStmts2 a b wq xold zold).foldlM (fun (r : Arr) (s : I3 × ℝ) => bump r s.1 s.2) rho
    deposeRhoOld2 a b g ps rho'

/-! ### Current: what both versions share -/

/-- Bounds of the local arrays in the two directions. -/
structure Dims where
  xl : ℤ
  xu : ℤ
  zl : ℤ
  zu : ℤ

/-- Assignments `s(o+d) = v` into a local array (esirkepov_2d.F90:246-285 for `sx0`, `sz0`, 319-360 for `sx`, `sz`). -/
noncomputable def fillOn (lo hi d : ℤ) (s : ℤ → ℝ) (ws : List (ℤ × ℝ)) : Res (ℤ → ℝ) :=
  ws.foldlM (fun (s : ℤ → ℝ) (w : ℤ × ℝ) =>
    if lo ≤ w.1 + d ∧ w.1 + d ≤ hi then .ok (Function.update s (w.1 + d) w.2) else .error .outOfBounds) s

/-- Shape factors after (`s0`) and before (`s`) the move, nodes, limits of the loops, coefficients of the three currents. -/
structure Loc2 where
  sx0 : ℤ → ℝ
  sx : ℤ → ℝ
  sz0 : ℤ → ℝ
  sz : ℤ → ℝ
  i0 : ℤ
  k0 : ℤ
  xl : ℤ
  xh : ℤ
  zl : ℤ
  zh : ℤ
  wqx : ℝ
  wqz : ℝ
  wqy : ℝ

/-- Position of a particle in grid units after and before its move, and its velocity across the plane. -/
structure Move where
  x : ℝ
  xold : ℝ
  z : ℝ
  zold : ℝ
  vy : ℝ

/-- Shape factors, node displacement `dix`, limits `ixmin=min(0,dix)-nox/2`, `ixmax=max(0,dix)+(nox+1)/2`, weights
(esirkepov_2d.F90:215-370; 526-585, 736-805, 962-1044). `sx0`, `sz0` are the arrays on entry: zeroed before the particle loop in the version of any
order (128) and for every particle in the unrolled ones (509-512, 723-726, 944-947); `sx`, `sz` are always zeroed first (311, 561-568). -/
noncomputable def prep2 (a b : ℕ) (D : Dims) (g : Geo) (w : ℝ) (m : Move) (sx0 sz0 : ℤ → ℝ) : Res Loc2 := do
  let wq := g.q * w
  let sx0 ← fillOn D.xl D.xu 0 sx0 (wts2 a (m.x - node2 a m.x))
  let sz0 ← fillOn D.zl D.zu 0 sz0 (wts2 b (m.z - node2 b m.z))
  let dix := node2 a m.xold - node2 a m.x
  let diz := node2 b m.zold - node2 b m.z
  let sx ← fillOn D.xl D.xu dix (fun _ => 0) (wts2 a (m.xold - node2 a m.xold))
  let sz ← fillOn D.zl D.zu diz (fun _ => 0) (wts2 b (m.zold - node2 b m.zold))
  pure ⟨sx0, sx, sz0, sz, node2 a m.x, node2 b m.z, min 0 dix - (a / 2 : ℕ), max 0 dix + ((a + 1) / 2 : ℕ),
    min 0 diz - (b / 2 : ℕ), max 0 diz + ((b + 1) / 2 : ℕ), wq * (1 / (g.dt * g.dz)), wq * (1 / (g.dt * g.dx)),
    wq * m.vy * (1 / (g.dx * g.dz))⟩

/-- `jy(ic, kc) = jy(ic, kc) + wq*vy*invvol*(...)` (esirkepov_2d.F90:387-388, 603-604, 823-824, 1062-1063). -/
noncomputable def addY (L : Loc2) (i k : ℤ) (σ : Mem) : Res Mem :=
  bumpMem σ .jy ⟨L.i0 + i, 0, L.k0 + k⟩ (L.wqy * ((L.sz0 k + 1 / 2 * (L.sz k - L.sz0 k)) * L.sx0 i +
    (1 / 2 * L.sz0 k + 1 / 3 * (L.sz k - L.sz0 k)) * (L.sx i - L.sx0 i)))

/-- The local arrays are indexed by `i` and `k`. Simplification: one check per iteration for the two indices; `i-1` and `k-1` are only used when
greater than or equal to the lower limit of the loop, so an earlier iteration has checked them. -/
def Dims.has (D : Dims) (i k : ℤ) : Prop := D.xl ≤ i ∧ i ≤ D.xu ∧ D.zl ≤ k ∧ k ≤ D.zu

instance (D : Dims) (i k : ℤ) : Decidable (D.has i k) := by unfold Dims.has; infer_instance

/-! ### Version of any order -/

/-- Arrays of `pxr_depose_jxjyjz_esirkepov2d_n` that live across particles: running sums, new shape factors, grid arrays. -/
structure AccN where
  sdx : ℤ → ℤ → ℝ
  sdz : ℤ → ℤ → ℝ
  sx0 : ℤ → ℝ
  sz0 : ℤ → ℝ
  mem : Mem

/-- `if(i<ixmax)` block (esirkepov_2d.F90:380-384). -/
noncomputable def doXN (L : Loc2) (i k : ℤ) (s : AccN) : Res AccN := do
  if i < L.xh then
    let v := L.wqx * (L.sx i - L.sx0 i) * (L.sz0 k + 1 / 2 * (L.sz k - L.sz0 k))
    let v := if i > L.xl then v + s.sdx (i - 1) k else v
    let m ← bumpMem s.mem .jx ⟨L.i0 + i, 0, L.k0 + k⟩ v
    pure { s with sdx := Function.update s.sdx i (Function.update (s.sdx i) k v), mem := m }
  else pure s

/-- `if(k<izmax)` block (esirkepov_2d.F90:391-395). -/
noncomputable def doZN (L : Loc2) (i k : ℤ) (s : AccN) : Res AccN := do
  if k < L.zh then
    let v := L.wqz * (L.sz k - L.sz0 k) * (L.sx0 i + 1 / 2 * (L.sx i - L.sx0 i))
    let v := if k > L.zl then v + s.sdz i (k - 1) else v
    let m ← bumpMem s.mem .jz ⟨L.i0 + i, 0, L.k0 + k⟩ v
    pure { s with sdz := Function.update s.sdz i (Function.update (s.sdz i) k v), mem := m }
  else pure s

/-- Body of the two loops (esirkepov_2d.F90:376-395). -/
noncomputable def cellN (D : Dims) (L : Loc2) (i k : ℤ) (s : AccN) : Res AccN := do
  if D.has i k then
    let s ← doXN L i k s
    let m ← addY L i k s.mem
    doZN L i k { s with mem := m }
  else .error .outOfBounds

/-- `do k=izmin, izmax; do i=ixmin, ixmax` (esirkepov_2d.F90:374-397). -/
noncomputable def planeN (D : Dims) (L : Loc2) (s : AccN) : Res AccN :=
  (irange L.zl L.zh).foldlM (fun (s : AccN) (k : ℤ) => (irange L.xl L.xh).foldlM (fun (s : AccN) (i : ℤ) => cellN D L i k s) s) s

/-- Fortran `int`: truncation. -/
noncomputable def truncZ (x : ℝ) : ℤ := if 0 ≤ x then ⌊x⌋ else ⌈x⌉

/-- `xl = -int(nox/2)-1-ndtodx`, `xu = int((nox+1)/2)+1+ndtodx`, `ndtodx = int(clight*dt/dx)` (esirkepov_2d.F90:118-126). -/
noncomputable def dimsN (clight : ℝ) (a b : ℕ) (g : Geo) : Dims :=
  ⟨-((a / 2 : ℕ) : ℤ) - 1 - truncZ (clight * g.dt / g.dx), (((a + 1) / 2 : ℕ) : ℤ) + 1 + truncZ (clight * g.dt / g.dx),
    -((b / 2 : ℕ) : ℤ) - 1 - truncZ (clight * g.dt / g.dz), (((b + 1) / 2 : ℕ) : ℤ) + 1 + truncZ (clight * g.dt / g.dz)⟩

/-- Positions of one particle (esirkepov_2d.F90:148-213 with `ncells = 1`): in r-z the distance to the axis replaces `x`, the angle gives the
azimuthal velocity, and the radial velocity is the change of radius; the new position is recomputed as old position plus velocity. -/
noncomputable def moveN (rz : Bool) (g : Geo) (p : Part) : Move :=
  let dxi := 1 / g.dx
  let dzi := 1 / g.dz
  let dtsdx0 := g.dt * dxi
  let dtsdz0 := g.dt * dzi
  let r := √(p.x * p.x + p.y * p.y)
  let c := if r * dxi > 1 / 10 ^ 10 then p.x / r else 1
  let s := if r * dxi > 1 / 10 ^ 10 then p.y / r else 0
  let x := (if rz then r else p.x) * dxi
  let z := p.z * dzi
  let vx := p.ux * p.gaminv
  let vy := p.uy * p.gaminv
  let vz := p.uz * p.gaminv
  let xo := p.x - g.dt * vx
  let yo := p.y - g.dt * vy
  let xold := if rz then √(xo * xo + yo * yo) * dxi else x - dtsdx0 * vx
  let vy' := if rz then -vx * s + vy * c else vy
  let vx' := if rz then (x - xold) / dtsdx0 else vx
  let zold := z - dtsdz0 * vz
  let xold := xold - g.xmin * dxi
  let zold := zold - g.zmin * dzi
  ⟨xold + dtsdx0 * vx', xold, zold + dtsdz0 * vz, zold, vy'⟩

/-- The particle loop (esirkepov_2d.F90:146-399). -/
noncomputable def loopN (clight : ℝ) (a b : ℕ) (rz : Bool) (g : Geo) : List Part → AccN → Res AccN
  | [], s => .ok s
  | p :: ps, s => do
    let L ← prep2 a b (dimsN clight a b g) g p.w (moveN rz g p) s.sx0 s.sz0
    let s ← planeN (dimsN clight a b g) L { s with sx0 := L.sx0, sz0 := L.sz0 }
    loopN clight a b rz g ps s

/-- `pxr_depose_jxjyjz_esirkepov2d_n` (esirkepov_2d.F90:84-404). -/
noncomputable def deposeN (clight : ℝ) (a b : ℕ) (rz : Bool) (g : Geo) (ps : List Part) (σ : Mem) : Res Mem := do
  let s ← loopN clight a b rz g ps ⟨fun _ _ => 0, fun _ _ => 0, fun _ => 0, fun _ => 0, σ⟩
  pure s.mem

/-! ### Unrolled versions of order 1, 2, 3 -/

/-- `sdxi`, `sdxim1`, `sdzk(:)`, `sdzkm1(:)` and the grid arrays. -/
structure AccU where
  sdxi : ℝ
  sdxim1 : ℝ
  sdzk : ℤ → ℝ
  sdzkm1 : ℤ → ℝ
  mem : Mem

/-- `IF(i<ixmax)` block (esirkepov_2d.F90:594-599, 814-819, 1053-1058). -/
noncomputable def doXU (L : Loc2) (i k : ℤ) (s : AccU) : Res AccU := do
  if i < L.xh then
    let v := L.wqx * (L.sx i - L.sx0 i) * (L.sz0 k + 1 / 2 * (L.sz k - L.sz0 k))
    let v := if i > L.xl then v + s.sdxim1 else v
    let m ← bumpMem s.mem .jx ⟨L.i0 + i, 0, L.k0 + k⟩ v
    pure { s with sdxi := v, mem := m }
  else pure s

/-- `IF(k<izmax)` block (esirkepov_2d.F90:607-612, 827-832, 1066-1071). -/
noncomputable def doZU (L : Loc2) (i k : ℤ) (s : AccU) : Res AccU := do
  if k < L.zh then
    let v := L.wqz * (L.sz k - L.sz0 k) * (L.sx0 i + 1 / 2 * (L.sx i - L.sx0 i))
    let v := if k > L.zl then v + s.sdzkm1 i else v
    let m ← bumpMem s.mem .jz ⟨L.i0 + i, 0, L.k0 + k⟩ v
    pure { s with sdzk := Function.update s.sdzk i v, mem := m }
  else pure s

/-- Body of the inner loop, then `sdxim1 = sdxi` (esirkepov_2d.F90:590-613, 810-833, 1049-1072). -/
noncomputable def cellU (D : Dims) (L : Loc2) (i k : ℤ) (s : AccU) : Res AccU := do
  if D.has i k then
    let s ← doXU L i k s
    let m ← addY L i k s.mem
    let s ← doZU L i k { s with mem := m }
    pure { s with sdxim1 := s.sdxi }
  else .error .outOfBounds

/-- `DO i=ixmin, ixmax ... END DO; sdzkm1 = sdzk` (esirkepov_2d.F90:589-615, 809-835, 1048-1074). -/
noncomputable def rowU (D : Dims) (L : Loc2) (k : ℤ) (s : AccU) : Res AccU := do
  let s ← (irange L.xl L.xh).foldlM (fun (s : AccU) (i : ℤ) => cellU D L i k s) s
  pure { s with sdzkm1 := s.sdzk }

/-- `DO k=izmin, izmax` (esirkepov_2d.F90:588-616, 808-836, 1047-1075). -/
noncomputable def planeU (D : Dims) (L : Loc2) (s : AccU) : Res AccU :=
  (irange L.zl L.zh).foldlM (fun (s : AccU) (k : ℤ) => rowU D L k s) s

/-- Declared bounds of the local arrays: `-1:2` (esirkepov_2d.F90:483-486), `-2:2` (698-701), `-2:3` (918-921). -/
def dimsU (n : ℕ) : Dims := ⟨locLo n, locHi n, locLo n, locHi n⟩

/-- Positions of one particle (esirkepov_2d.F90:515-525, 729-739, 950-960). -/
noncomputable def moveU (g : Geo) (p : Part) : Move :=
  let dxi := 1 / g.dx
  let dzi := 1 / g.dz
  let x := (p.x - g.xmin) * dxi
  let z := (p.z - g.zmin) * dzi
  ⟨x, x - g.dt * dxi * (p.ux * p.gaminv), z, z - g.dt * dzi * (p.uz * p.gaminv), p.uy * p.gaminv⟩

/-- The particle loop (esirkepov_2d.F90:508-618, 722-837, 943-1077). -/
noncomputable def loopU (n : ℕ) (g : Geo) : List Part → AccU → Res AccU
  | [], s => .ok s
  | p :: ps, s => do
    let L ← prep2 n n (dimsU n) g p.w (moveU g p) (fun _ => 0) (fun _ => 0)
    let s ← planeU (dimsU n) L s
    loopU n g ps s

/-- `pxr_depose_jxjyjz_esirkepov2d_n_n` for `n` = 1, 2, 3 (esirkepov_2d.F90:452-623, 666-842, 887-1082). -/
noncomputable def deposeU (n : ℕ) (g : Geo) (ps : List Part) (σ : Mem) : Res Mem := do
  let s ← loopU n g ps ⟨0, 0, fun _ => 0, fun _ => 0, σ⟩
  pure s.mem

/-- `depose_jxjyjz_generic_2d` with the Esirkepov algorithm (current_deposition_manager_2d.F90:114-132). -/
noncomputable def depose2d (clight : ℝ) (nox noz : ℕ) (g : Geo) (ps : List Part) (σ : Mem) : Res Mem :=
  if nox = 1 ∧ noz = 1 then deposeU 1 g ps σ
  else if nox = 2 ∧ noz = 2 then deposeU 2 g ps σ
  else if nox = 3 ∧ noz = 3 then deposeU 3 g ps σ
  else deposeN clight nox noz false g ps σ

end Picsar.Deposition2d
