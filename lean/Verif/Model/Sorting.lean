import Verif.Model.FArr
import Verif.Model.Grid
import Mathlib.Algebra.Order.Archimedean.Real.Basic
import Mathlib.Algebra.Order.Floor.Ring
import Mathlib.Data.Real.Basic
/-
Particle sorting: src/housekeeping/sorting.F90.
Floating point is replaced by real arithmetic.
-/
namespace Picsar.Sorting

open Picsar Picsar.Grid

/-- Bin-sorting loops shared by `pxr_particle_bin_sorting` (sorting.F90:289-357) and
`pxr_particle_bin_sorting_2d` (sorting.F90:399-455). `np` particles, `nb` bins (`nbhc`), `bin p`
the bin number computed for a particle. The attribute arrays that the routine permutes are
modelled as one array of records, because every assignment of the third loop uses the same source
and target index. Simplified: the DEBUG-only checks (compiled out by default) are left out. -/
def binSort {α : Type} (np nb : ℤ) (bin : α → ℤ) (P : FArr α) : Res (FArr α) := do
  -- hcnb = 0; piihc = 0; nbppc = 0; counting loop
  let (hcnb, nbppc) ← (irange 1 np).foldlM
    (fun (st : FArr ℤ × FArr ℤ) ip => do
      let p ← P.get ip
      let hcnb ← st.1.set ip (bin p)
      let h ← hcnb.get ip
      let c ← st.2.get h
      let nbppc ← st.2.set h (c + 1)
      .ok (hcnb, nbppc)) (FArr.fill np 0, FArr.fill nb 0)
  -- particle indexes in the bin grid
  let (piihc, _) ← (irange 1 nb).foldlM
    (fun (st : FArr ℤ × ℤ) ic => do
      let piihc ← st.1.set ic st.2
      let c ← nbppc.get ic
      .ok (piihc, st.2 + c)) (FArr.fill nb 0, 0)
  -- sorting of the particles including their properties
  let (_, out) ← (irange 1 np).foldlM
    (fun (st : FArr ℤ × FArr α) ip => do
      let k ← hcnb.get ip
      let q ← st.1.get k
      let piihc ← st.1.set k (q + 1)
      let q' ← piihc.get k
      let p ← P.get ip
      let out ← st.2.set q' p
      .ok (piihc, out)) (piihc, FArr.undef np)
  -- copy back to the original arrays
  (irange 1 np).foldlM (fun (P : FArr α) ip => do P.set ip (← out.get ip)) P

/-- Attributes of a particle that the 3-D routine permutes (sorting.F90:247-270): position,
momentum, inverse gamma factor and the first column of `pid`, the weight (`wpid = 1`,
src/modules/modules.F90:611). -/
structure Part where
  x : ℝ
  y : ℝ
  z : ℝ
  ux : ℝ
  uy : ℝ
  uz : ℝ
  gam : ℝ
  w : ℝ

/-- Sorting box and bin sizes (arguments `xmin2 … zmax2`, `dxf, dyf, dzf`). -/
structure Bins where
  xmin : ℝ
  ymin : ℝ
  zmin : ℝ
  xmax : ℝ
  ymax : ℝ
  zmax : ℝ
  dx : ℝ
  dy : ℝ
  dz : ℝ

/-- `nx3, ny3, nz3` (sorting.F90:281-287). -/
noncomputable def Bins.nx (B : Bins) : ℤ := ⌈(B.xmax - B.xmin) * (1 / B.dx)⌉
noncomputable def Bins.ny (B : Bins) : ℤ := ⌈(B.ymax - B.ymin) * (1 / B.dy)⌉
noncomputable def Bins.nz (B : Bins) : ℤ := ⌈(B.zmax - B.zmin) * (1 / B.dz)⌉

/-- `hcnb(ip)` (sorting.F90:303-312). -/
noncomputable def Bins.id3 (B : Bins) (p : Part) : ℤ :=
  ⌊(p.z - B.zmin) * (1 / B.dz)⌋ * B.nx * B.ny + ⌊(p.y - B.ymin) * (1 / B.dy)⌋ * B.nx
    + ⌊(p.x - B.xmin) * (1 / B.dx)⌋ + 1

/-- `hcnb(ip)` of the 2-D routine (sorting.F90:414-421). -/
noncomputable def Bins.id2 (B : Bins) (p : Part) : ℤ :=
  ⌊(p.z - B.zmin) * (1 / B.dz)⌋ * B.nx + ⌊(p.x - B.xmin) * (1 / B.dx)⌋ + 1

/-- Particle arrays of one tile (`particle_tile`, src/modules/modules.F90): the attributes above,
and the columns `2..npid` of `pid`. By default `npid = 3` (src/modules/modules.F90:608); laser
antenna particles keep their transverse coordinates in columns 2 and 3
(src/parallelization/tiling/tiling.F90:1712-1720). -/
structure Tile where
  np : ℤ
  part : FArr Part
  pidRest : FArr (List ℝ)
  xmin : ℝ
  ymin : ℝ
  zmin : ℝ
  xmax : ℝ
  ymax : ℝ
  zmax : ℝ

/-- Sorting parameters `sorting_dx …`, `sorting_shiftx …`. -/
structure Params where
  dx : ℝ
  dy : ℝ
  dz : ℝ
  shiftx : ℝ
  shifty : ℝ
  shiftz : ℝ

/-- Box passed by `particle_sorting_sub` (sorting.F90:183-207). -/
noncomputable def boxOf (S : Params) (T : Tile) : Bins :=
  ⟨T.xmin + S.shiftx, T.ymin + S.shifty, T.zmin + S.shiftz, T.xmax + S.dx, T.ymax + S.dy,
    T.zmax + S.dz, S.dx, S.dy, S.dz⟩

/-- One tile of `particle_sorting_sub` with `c_dim == 3` (sorting.F90:176-194) and
`pxr_particle_bin_sorting`. The dummy argument `pid` has one column only (sorting.F90:266), so the
other columns of the tile's `pid` array are left as they are. -/
noncomputable def sortTile3 (S : Params) (T : Tile) : Res Tile := do
  if T.np = 0 then .ok T else
  let B := boxOf S T
  let out ← binSort T.np (B.nx * B.ny * B.nz) B.id3 T.part
  .ok { T with part := out }

/-- The 2-D routine does not receive `part_y` (sorting.F90:198-204), so the `y` attribute is not
moved; the record below is a particle without `y`, and `y` goes with the attributes left alone. -/
noncomputable def sortTile2 (S : Params) (T : Tile) : Res Tile := do
  if T.np = 0 then .ok T else
  let B := boxOf S T
  let out ← binSort T.np (B.nx * B.nz) B.id2 T.part
  -- `part_y` stays
  .ok { T with part := ⟨out.n, fun i => do
          let o ← out.val i
          let p ← T.part.val i
          some { o with y := p.y }⟩ }

end Picsar.Sorting
