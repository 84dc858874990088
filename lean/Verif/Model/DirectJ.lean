import Verif.Model.ChargeVec

/-
Direct ("classical") current deposition, `J = ρ v` at the middle of the time step:
src/particle_deposition/current_deposition/direct/direct_current_deposition_3d.F90. Scalar routines depose_jxjyjz_scalar_1_1_1 (99-263), _2_2_2
(879-1166), _3_3_3 (1992-2522), used with `currdepo=5` and `currdepo=4`; routines without reduction depose_jxjyjz_vecHV_vnr_1_1_1 (684-864),
_2_2_2 (1677-1976), _3_3_3 (3448-3802) followed by current_reduction_1_1_1 (3827-3911), _2_2_2 (3936-4026), _3_3_3 (4051-4145), used with
`currdepo=3` (current_deposition_manager_3d.F90:382-442, 924-971).
The statements for `jx`, `jy`, `jz` are the same with the coordinate of the component shifted by `stagger_shift`; they are written once here as
functions of the component. Reals for floating point, `ℤ` for indices, every access to a grid array, to the columns of `jxcells` and to the
arrays of the block checked.
-/
namespace Picsar.DirectJ
open Picsar Picsar.Grid Picsar.Deposition Picsar.ChargeVec

/-- `stagger_shift` (129-133, 710-714, 905-909, ...). -/
noncomputable def stagger (nodal : Bool) : ℝ := if nodal then 0 else 1 / 2

/-- Values computed for one particle: velocity and position in cells at the middle of the step (152-173, 775-798, 930-950, 1776-1800). -/
structure Mid where
  x : ℝ
  y : ℝ
  z : ℝ
  vx : ℝ
  vy : ℝ
  vz : ℝ

/-- `x=(xp-xmin)*dxi`, `vx=uxp*gaminv`, `xmid=x-dts2dx*vx` with `dts2dx=0.5*dt*dxi`. -/
noncomputable def mid (g : Geo) (p : Part) : Mid :=
  let dxi := 1 / g.dx
  let dyi := 1 / g.dy
  let dzi := 1 / g.dz
  let x := (p.x - g.xmin) * dxi
  let y := (p.y - g.ymin) * dyi
  let z := (p.z - g.zmin) * dzi
  let vx := p.ux * p.gaminv
  let vy := p.uy * p.gaminv
  let vz := p.uz * p.gaminv
  ⟨x - 1 / 2 * g.dt * dxi * vx, y - 1 / 2 * g.dt * dyi * vy, z - 1 / 2 * g.dt * dzi * vz, vx, vy, vz⟩

/-- Coordinates the shape factors of a component are computed from: `j0=floor(xmid-stagger_shift)`, `xint=xmid-stagger_shift-j0` in the direction of
the component, `j=floor(xmid)`, `xint=xmid-j` in the two others (175-208, 800-822, 952-985, 1802-1850). -/
noncomputable def coords (nodal : Bool) (c : Comp) (m : Mid) : ℝ × ℝ × ℝ := match c with
  | .jx => (m.x - stagger nodal, m.y, m.z)
  | .jy => (m.x, m.y - stagger nodal, m.z)
  | .jz => (m.x, m.y, m.z - stagger nodal)
  | _ => (m.x, m.y, m.z)

/-- Velocity along the component. -/
noncomputable def vel (c : Comp) (m : Mid) : ℝ := match c with
  | .jx => m.vx
  | .jy => m.vy
  | .jz => m.vz
  | _ => 0

/-! ### Scalar routines -/

/-- The 8, 27 or 64 statements `jx(j0+a, k+b, l+c) = jx(...) + sx0(a)*sy(b)*sz(c)*wqx` for one component of one particle, x offset fastest
(210-258, 1010-1160, 2130-2516), `wqx=wq*invvol*vx` with `wq=q*w` (161-164, 939-942). -/
noncomputable def dirStmts (n : ℕ) (nodal : Bool) (g : Geo) (p : Part) (c : Comp) : List (I3 × ℝ) :=
  let m := mid g p
  let X := coords nodal c m
  rhoStmts n (g.q * p.w * (1 / g.dx * (1 / g.dy) * (1 / g.dz)) * vel c m) X.1 X.2.1 X.2.2

/-- One component of one particle. -/
noncomputable def deposeComp (n : ℕ) (nodal : Bool) (g : Geo) (p : Part) (σ : Mem) (c : Comp) : Res Mem :=
  (dirStmts n nodal g p c).foldlM (fun (σ : Mem) (s : I3 × ℝ) => bumpMem σ c s.1 s.2) σ

/-- `depose_jxjyjz_scalar_n_n_n`: loop over the particles, `jx`, then `jy`, then `jz`. -/
noncomputable def deposeDirect (n : ℕ) (nodal : Bool) (g : Geo) (ps : List Part) (σ : Mem) : Res Mem :=
  ps.foldlM (fun (σ : Mem) (p : Part) => [Comp.jx, Comp.jy, Comp.jz].foldlM (deposeComp n nodal g p) σ) σ

/-! ### Routines that deposit on `jxcells(8, ncells)` -/

/-- Numbers of cells of `jxcells` in the three directions; the first cell is `jorig=korig=lorig=-2` (740-742, 1750-1752, 3515-3517, 3858-3860). -/
structure Frame where
  ncx : ℤ
  ncy : ℤ
  ncz : ℤ

def org : ℤ := -2

def Frame.ncxy (F : Frame) : ℤ := F.ncx * F.ncy
def Frame.ncells (F : Frame) : ℤ := F.ncx * F.ncy * F.ncz

/-- `ICELL(n, 1)=1+(j0-jorig)+(k-korig)*ncx+(l-lorig)*ncxy` (805-807, 1808-1810, 3561-3563). -/
def Frame.icell (F : Frame) (j k l : ℤ) : ℤ := 1 + (j - org) + (k - org) * F.ncx + (l - org) * F.ncxy

/-- Numbers of cells chosen by the caller (current_deposition_manager_3d.F90:926-935). -/
def frame (n : ℕ) (L : Lay) : Frame := match n with
  | 1 => ⟨L.nx + 3, L.ny + 3, L.nz + 3⟩
  | 2 => ⟨L.nx + 5, L.ny + 5, L.nz + 5⟩
  | _ => ⟨L.nx + 5, L.ny + 4, L.nz + 3⟩

/-- Order 1 (819-853): the eight vertices of the cell, `mx`, `my`, `mz`, `sgn` (733-738). -/
noncomputable def col1 (F : Frame) (wq v x y z : ℝ) : List (ℕ × ℤ × ℝ) :=
  let j := ⌊x⌋
  let k := ⌊y⌋
  let l := ⌊z⌋
  let sx := x - j
  let sy := y - k
  let sz := z - l
  let wqx := wq * v
  corners.map fun c => (c.1, F.icell j k l, (-c.2.1 + sx) * (-c.2.2.1 + sy) * (-c.2.2.2.1 + sz) * wqx * c.2.2.2.2)

/-- Order 2 (1802-1970): eight columns around the central one; the central column goes to column 1 of the cells one row and one plane further,
`IG = ICELL + ncx + ncxy`, at `IG+nv-2` for `nv=1..4`, `ww0x(n, 4)` being zero (set once before the loops). -/
noncomputable def col2 (F : Frame) (wq v x y z : ℝ) : List (ℕ × ℤ × ℝ) :=
  let j := nint x
  let k := nint y
  let l := nint z
  let ic := F.icell j k l
  let ig := ic + F.ncx + F.ncxy
  let xint := x - j
  let yint := y - k
  let zint := z - l
  let sx0 := 1 / 2 * (1 / 2 - xint) ^ 2
  let sx1 := 3 / 4 - xint ^ 2
  let sx2 := 1 / 2 * (1 / 2 + xint) ^ 2
  let sy0 := 1 / 2 * (1 / 2 - yint) ^ 2
  let sy1 := 3 / 4 - yint ^ 2
  let sy2 := 1 / 2 * (1 / 2 + yint) ^ 2
  let sz0 := 1 / 2 * (1 / 2 - zint) ^ 2
  let sz1 := 3 / 4 - zint ^ 2
  let sz2 := 1 / 2 * (1 / 2 + zint) ^ 2
  let wqx := wq * v
  let www : List (ℕ × ℝ) := [(1, sy0 * sz0 * wqx), (2, sy1 * sz0 * wqx), (3, sy2 * sz0 * wqx), (4, sy0 * sz1 * wqx), (5, sy2 * sz1 * wqx),
    (6, sy0 * sz2 * wqx), (7, sy1 * sz2 * wqx), (8, sy2 * sz2 * wqx)]
  let syz := sz1 * sy1 * wqx
  (www.flatMap fun w => [(w.1, ic - 1, w.2 * sx0), (w.1, ic, w.2 * sx1), (w.1, ic + 1, w.2 * sx2)]) ++
    [(1, ig + 1 - 2, syz * sx0), (1, ig + 2 - 2, syz * sx1), (1, ig + 3 - 2, syz * sx2), (1, ig + 4 - 2, 0)]

/-- Order 3 (3555-3790): two rows of cells, eight columns. -/
noncomputable def col3 (F : Frame) (wq v x y z : ℝ) : List (ℕ × ℤ × ℝ) :=
  let j := ⌊x⌋
  let k := ⌊y⌋
  let l := ⌊z⌋
  let ic := F.icell j k l
  let xint := x - j
  let yint := y - k
  let zint := z - l
  let oxint := 1 - xint
  let xintsq := xint * xint
  let oxintsq := oxint * oxint
  let sx1 := 1 / 6 * oxintsq * oxint
  let sx2 := 2 / 3 - xintsq * (1 - xint * (1 / 2))
  let sx3 := 2 / 3 - oxintsq * (1 - oxint * (1 / 2))
  let sx4 := 1 / 6 * xintsq * xint
  let oyint := 1 - yint
  let yintsq := yint * yint
  let oyintsq := oyint * oyint
  let sy1 := 1 / 6 * oyintsq * oyint
  let sy2 := 2 / 3 - yintsq * (1 - yint * (1 / 2))
  let sy3 := 2 / 3 - oyintsq * (1 - oyint * (1 / 2))
  let sy4 := 1 / 6 * yintsq * yint
  let ozint := 1 - zint
  let zintsq := zint * zint
  let ozintsq := ozint * ozint
  let sz1 := 1 / 6 * ozintsq * ozint * wq
  let sz2 := (2 / 3 - zintsq * (1 - zint * (1 / 2))) * wq
  let sz3 := (2 / 3 - ozintsq * (1 - ozint * (1 / 2))) * wq
  let sz4 := 1 / 6 * zintsq * zint * wq
  let www : List (ℕ × ℝ × ℝ) := [(1, sz1 * sy1, sz1 * sy3), (2, sz2 * sy1, sz2 * sy3), (3, sz3 * sy1, sz3 * sy3), (4, sz4 * sy1, sz4 * sy3),
    (5, sz1 * sy2, sz1 * sy4), (6, sz2 * sy2, sz2 * sy4), (7, sz3 * sy2, sz3 * sy4), (8, sz4 * sy2, sz4 * sy4)]
  www.flatMap fun w => [(w.1, ic - F.ncx - 1, w.2.1 * sx1 * v), (w.1, ic - F.ncx, w.2.1 * sx2 * v), (w.1, ic - F.ncx + 1, w.2.1 * sx3 * v),
    (w.1, ic - F.ncx + 2, w.2.1 * sx4 * v), (w.1, ic + F.ncx - 1, w.2.2 * sx1 * v), (w.1, ic + F.ncx, w.2.2 * sx2 * v),
    (w.1, ic + F.ncx + 1, w.2.2 * sx3 * v), (w.1, ic + F.ncx + 2, w.2.2 * sx4 * v)]

/-- What the first loop of a block keeps of a particle for one component: statements `jxcells(nv, ic) += v`. -/
noncomputable def column (n : ℕ) (F : Frame) (nodal : Bool) (g : Geo) (c : Comp) (p : Part) : List (ℕ × ℤ × ℝ) :=
  let m := mid g p
  let X := coords nodal c m
  let wq := g.q * p.w * (1 / g.dx * (1 / g.dy) * (1 / g.dz))
  match n with
  | 1 => col1 F wq (vel c m) X.1 X.2.1 X.2.2
  | 2 => col2 F wq (vel c m) X.1 X.2.1 X.2.2
  | 3 => col3 F wq (vel c m) X.1 X.2.1 X.2.2
  | _ => []

/-- `LVEC` (modules.F90:97). -/
def LVEC : ℕ := 8

/-- A block of particles (747-858, 1768-1972, 3525-3798), for one component: the first loop writes elements `1..MIN(LVEC, np-ip+1)` of `ICELL`,
`sx`, `wqx`..., declared with `LVECT` elements, the second adds to `jxcells`. -/
noncomputable def blockCells (n : ℕ) (F : Frame) (nodal : Bool) (lvect : ℕ) (g : Geo) (c : Comp) (a : Cells) (ps : List Part) : Res Cells :=
  if ps.length ≤ lvect then
    (ps.map (column n F nodal g c)).foldlM (fun (a : Cells) (ts : List (ℕ × ℤ × ℝ)) =>
      ts.foldlM (fun (a : Cells) (t : ℕ × ℤ × ℝ) => a.bump t.1 t.2.1 t.2.2) a) a
  else .error .outOfBounds

/-- `depose_jxjyjz_vecHV_vnr_n_n_n` for one component: `DO ip=1, np, LVEC`. -/
noncomputable def vnr (n : ℕ) (F : Frame) (nodal : Bool) (lvect : ℕ) (g : Geo) (c : Comp) (ps : List Part) (a : Cells) : Res Cells :=
  (List.range (nblocks LVEC ps.length)).foldlM (fun (a : Cells) (b : ℕ) => blockCells n F nodal lvect g c a (block LVEC ps b)) a

/-- `orig=jorig+nxguard+nnx*(korig+nyguard)+(lorig+nzguard)*nnxy`, `ngx=ngridx-ncx`, `ngxy=ngridx*ngridy-ncx*ncy` (3861-3863, 3967-3970, 4085-4088). -/
def origin (L : Lay) : ℤ := org + L.gx + L.ngridx * (org + L.gy) + (org + L.gz) * L.nnxy
def Frame.ngx (F : Frame) (L : Lay) : ℤ := L.ngridx - F.ncx
def Frame.ngxy (F : Frame) (L : Lay) : ℤ := L.ngridx * L.ngridy - F.ncx * F.ncy

/-- Lanes `xs` of row `(iy, iz)` of `current_reduction_n_n_n`: `ic=ix+(iy-1)*ncx+(iz-1)*ncxy`, `igrid=ic+(iy-1)*ngx+(iz-1)*ngxy+orig`,
`jx(igrid+moff(nv))=jx(igrid+moff(nv))+jxcells(nv, ic)`, with the same `moff` as the charge deposition (3880-3894, 3990-4003, 4109-4122). -/
noncomputable def redLanes (n : ℕ) (F : Frame) (L : Lay) (c : Cells) (iy iz : ℤ) (r : Flat) (xs : List ℤ) : Res Flat :=
  (moff n L).zipIdx.foldlM (fun (r : Flat) (m : ℤ × ℕ) => r.lanes (xs.map fun ix =>
    let ic := ix + (iy - 1) * F.ncx + (iz - 1) * F.ncxy
    (ic + (iy - 1) * F.ngx L + (iz - 1) * F.ngxy L + origin L + m.1, c.val (m.2 + 1) ic))) r

/-- `current_reduction_n_n_n` for one component, `V` iterations of the innermost loop at a time (`!$OMP SIMD`). Simplification: the reads
`jxcells(nv, ic)` are not checked, `ic` runs from 1 to `ncells`. -/
noncomputable def reduction (n : ℕ) (F : Frame) (L : Lay) (V : ℕ) (c : Cells) (r : Flat) : Res Flat :=
  (irange 1 F.ncz).foldlM (fun (r : Flat) (iz : ℤ) => (irange 1 F.ncy).foldlM (fun (r : Flat) (iy : ℤ) =>
    (List.range (nblocks V (irange 1 F.ncx).length)).foldlM (fun (r : Flat) (b : ℕ) =>
      redLanes n F L c iy iz r (block V (irange 1 F.ncx) b)) r) r) r

/-- A species of the tile: whether it deposits, its charge, its particles. -/
structure Sp where
  ldodepos : Bool
  charge : ℝ
  parts : List Part

/-- One tile with `currdepo=3` (current_deposition_manager_3d.F90:924-971), for one component: `jxcells` is zeroed, every species that deposits and
has particles adds to it, then the reduction adds it to the array of the tile, which was zeroed (917-919). The geometry `g` is that of the
tile, its charge is replaced by that of the species. -/
noncomputable def tileDirect (n : ℕ) (nodal : Bool) (L : Lay) (V lvect : ℕ) (g : Geo) (sps : List Sp) (c : Comp) : Res Flat := do
  let F := frame n L
  let a ← sps.foldlM (fun (a : Cells) (s : Sp) =>
    if s.ldodepos = false then pure a else if s.parts = [] then pure a
    else vnr n F nodal lvect { g with q := s.charge } c s.parts a) ⟨F.ncells, fun _ _ => 0⟩
  reduction n F L V a ⟨L.size, fun _ => 0⟩

end Picsar.DirectJ
