import Verif.Model.FArr
import Verif.Model.Grid
import Mathlib.Algebra.Order.Archimedean.Real.Basic
import Mathlib.Algebra.Order.Floor.Ring
import Mathlib.Data.Real.Basic
import Mathlib.Data.List.FinRange
/-
Particle tiles: src/parallelization/tiling/tiling.F90, and the exchange of particles between tiles,
src/boundary_conditions/particle_boundaries.F90.
Floating point is replaced by real arithmetic.
-/
namespace Picsar.Tiling

open Picsar Picsar.Grid

/-! ### Tile split -/

/-- Extents of a tile along one direction (`particle_tile`, src/modules/modules.F90): `nx_grid_tile`, `nx_tile_min`,
`nx_tile_max`, `x_grid_tile_min`, `x_grid_tile_max`, `x_tile_min`, `x_tile_max`. -/
structure Ext where
  nGrid : ℤ
  nMin : ℤ
  nMax : ℤ
  gridMin : ℝ
  gridMax : ℝ
  lo : ℝ
  hi : ℝ

/-- Numbers of a split along one direction: number of tiles `ntx` (possibly reset to one), grid points of a tile `nx0_grid_tile`, of the last
tile `nx0_last_tile`. -/
structure Split1 where
  nt : ℤ
  n0 : ℤ
  nLast : ℤ

/-- `set_tile_split_for_species`, one direction (tiling.F90:109-139). Division by a number of tiles equal to zero is a fault. -/
def split1 (nt nGrid : ℤ) : Res Split1 :=
  if nt = 0 then .error .divByZero else
  let n0 := nGrid.tdiv nt
  let nt' := if n0 < 4 then 1 else nt
  .ok ⟨nt', n0, n0 + (nGrid - n0 * nt')⟩

/-- Extents of tile `i` (tiling.F90:152-187, the same for y in 188-222 and z in 223-257). The three `IF`s are not exclusive: for a single
tile the assignments of the last-tile branch come after those of the first-tile branch and replace them. -/
noncomputable def tileExt (s : Split1) (xmin xmax dx : ℝ) (i : ℤ) : Ext :=
  if i = s.nt then
    let gmin := xmin + ((i - 1) * s.n0 : ℤ) * dx
    ⟨s.nLast, (i - 1) * s.n0, (i - 1) * s.n0 + (s.nLast - 1), gmin, gmin + (s.nLast - 1 : ℤ) * dx, gmin - dx / 2, xmax⟩
  else if i = 1 then
    let gmax := xmin + (s.n0 - 1 : ℤ) * dx
    ⟨s.n0, (i - 1) * s.n0, (i - 1) * s.n0 + (s.n0 - 1), xmin, gmax, xmin, gmax + dx / 2⟩
  else
    let gmin := xmin + ((i - 1) * s.n0 : ℤ) * dx
    let gmax := gmin + (s.n0 - 1 : ℤ) * dx
    ⟨s.n0, (i - 1) * s.n0, (i - 1) * s.n0 + (s.n0 - 1), gmin, gmax, gmin - dx / 2, gmax + dx / 2⟩

/-- Tile index of a coordinate, `MIN(FLOOR((x-xmin+dx/2)/(nx0*dx))+1, ntilex)` with `nx0` the number of grid points of the first tile
(tiling.F90:333-341). -/
noncomputable def tileIdx (n1 nt : ℤ) (xmin dx x : ℝ) : ℤ := min (⌊(x - xmin + dx / 2) / (n1 * dx)⌋ + 1) nt

/-! ### Tile storage -/

/-- The particle arrays of a tile; `pid k` is column `k + 1` of `pid`. -/
inductive Attr (n : ℕ) where
  | x | y | z | ux | uy | uz | gam
  | pid (k : Fin n)
  | ex | ey | ez | bx | by | bz
  deriving DecidableEq

/-- A particle: position, momentum, inverse gamma factor, `npid` further properties. -/
@[ext] structure Part (n : ℕ) where
  x : ℝ
  y : ℝ
  z : ℝ
  ux : ℝ
  uy : ℝ
  uz : ℝ
  gam : ℝ
  pid : Fin n → ℝ

/-- Value stored in each array when a particle is added; the fields at the particle start at zero (tiling.F90:439-454). -/
def Part.val {n : ℕ} (p : Part n) : Attr n → ℝ
  | .x => p.x | .y => p.y | .z => p.z | .ux => p.ux | .uy => p.uy | .uz => p.uz | .gam => p.gam
  | .pid k => p.pid k
  | .ex => 0 | .ey => 0 | .ez => 0 | .bx => 0 | .by => 0 | .bz => 0

/-- The arrays that make up a particle, in the order of the assignments. -/
def kept (n : ℕ) : List (Attr n) := [.x, .y, .z, .ux, .uy, .uz, .gam] ++ (List.finRange n).map .pid

/-- The arrays of the fields at the particle. -/
def fieldAttrs (n : ℕ) : List (Attr n) := [.ex, .ey, .ez, .bx, .by, .bz]

/-- `particle_tile`: `np_tile(1)`, `npmax_tile`, `l_arrays_allocated` and the arrays. -/
structure Tile (n : ℕ) where
  np : ℤ
  npmax : ℤ
  alloc : Bool
  arr : Attr n → FArr ℝ

variable {n : ℕ}

/-- The same operation on a list of arrays, one after the other. -/
def onArrays (l : List (Attr n)) (f : Attr n → FArr ℝ → Res (FArr ℝ)) (t : Tile n) : Res (Tile n) :=
  l.foldlM (fun t a => do
    let b ← f a (t.arr a)
    .ok ⟨t.np, t.npmax, t.alloc, Function.update t.arr a b⟩) t

/-- `allocate_tile_arrays` (tiling.F90:682-696). -/
def allocArrays (t : Tile n) : Tile n := ⟨t.np, t.npmax, true, fun _ => FArr.undef t.npmax⟩

/-- `resize_1D_array_real` (tiling.F90:1118-1139); `resize_2D_array_real` (1150-1177) does the same for the columns of `pid`. Elements beyond
the copied section are undefined afterwards. -/
def resize1 (old new : ℤ) (b : FArr ℝ) : Res (FArr ℝ) :=
  let m := if new > old then old else new
  if m ≤ b.n then .ok ⟨new, fun i => if i ≤ m then b.val i else none⟩ else .error .outOfBounds

/-- `resize_particle_arrays` (tiling.F90:1082-1105). -/
def resize (old new : ℤ) (t : Tile n) : Res (Tile n) :=
  onArrays (kept n ++ fieldAttrs n) (fun _ => resize1 old new) ⟨t.np, new, t.alloc, t.arr⟩

/-- Allocation of the arrays before the first addition (tiling.F90:419-421). -/
def ensure (t : Tile n) : Tile n := if t.alloc then t else allocArrays t

/-- Enlarging full arrays (tiling.F90:424-430 and 488-494; `resize_factor = 2`, src/modules/modules.F90:728). -/
def grow (need : ℤ) (t : Tile n) : Res (Tile n) := if need > t.npmax then resize t.npmax (2 * t.npmax + 1) t else .ok t

/-- `add_particle_at_tile` on its tile (tiling.F90:417-454). -/
def addTile (p : Part n) (t : Tile n) : Res (Tile n) := do
  let t1 := ensure t
  let t2 ← grow (t1.np + 1) t1
  onArrays (kept n ++ fieldAttrs n) (fun a b => b.set (t1.np + 1) (p.val a)) ⟨t1.np + 1, t2.npmax, t2.alloc, t2.arr⟩

/-- `arr(k:k+m-1) = values`. -/
def setFrom : ℤ → List ℝ → FArr ℝ → Res (FArr ℝ)
  | _, [], b => .ok b
  | k, v :: r, b => do
    let b ← b.set k v
    setFrom (k + 1) r b

/-- `add_group_of_particles_at_tile` on its tile (tiling.F90:478-507). Array section assignment is modelled element by element. -/
def addGroup (ps : List (Part n)) (t : Tile n) : Res (Tile n) := do
  let t1 := ensure t
  let t2 ← grow (t1.np + ps.length) t1
  onArrays (kept n ++ fieldAttrs n) (fun a b => setFrom (t1.np + 1) (ps.map (·.val a)) b)
    ⟨t1.np + ps.length, t2.npmax, t2.alloc, t2.arr⟩

/-- The particle at `index` is replaced by the last one (tiling.F90:634-650). -/
def rmMove (index : ℤ) (t : Tile n) : Res (Tile n) :=
  if index = t.np then .ok ⟨t.np - 1, t.npmax, t.alloc, t.arr⟩ else do
  let t' ← onArrays (kept n) (fun _ b => do
    let v ← b.get t.np
    b.set index v) t
  .ok ⟨t'.np - 1, t'.npmax, t'.alloc, t'.arr⟩

/-- Shrinking sparsely filled arrays (tiling.F90:655-661). `downsize_threshold*npmax` and `downsize_factor*npmax` (0.4 and 0.5,
src/modules/modules.F90:730-732) are exact here; the conversion of the first to a 32-bit integer is left out. -/
def shrink (t : Tile n) : Res (Tile n) :=
  if t.np < 2 * t.npmax / 5 then
    if t.npmax / 2 > 0 then resize t.npmax (t.npmax / 2) t else .ok t
  else .ok t

/-- `rm_particle_at_tile` on its tile (tiling.F90:628-662). -/
def rmTile (index : ℤ) (t : Tile n) : Res (Tile n) := do
  let t ← rmMove index t
  shrink t

/-- Reading all properties of particle `i` (particle_boundaries.F90:373-380). -/
def readPart (t : Tile n) (i : ℤ) : Res (Part n) := do
  let x ← (t.arr .x).get i
  let y ← (t.arr .y).get i
  let z ← (t.arr .z).get i
  let ux ← (t.arr .ux).get i
  let uy ← (t.arr .uy).get i
  let uz ← (t.arr .uz).get i
  let gam ← (t.arr .gam).get i
  let pid ← (List.finRange n).foldlM (fun (f : Fin n → ℝ) k => do
    let v ← (t.arr (.pid k)).get i
    .ok (Function.update f k v)) fun _ => 0
  .ok ⟨x, y, z, ux, uy, uz, gam, pid⟩

/-- `rm_particles_from_species_with_mask` on its tile (tiling.F90:522-537). -/
def rmMask (mask : FArr Bool) (t : Tile n) : Res (Tile n) :=
  (irange 1 t.np).reverse.foldlM (fun t i => do
    let m ← mask.get i
    if m = false then rmTile i t else .ok t) t

/-! ### Species -/

/-- `array_of_tiles(1:ntilex,1:ntiley,1:ntilez)` of a species and `species_npart`. -/
structure Species (n : ℕ) where
  nt : I3
  tiles : I3 → Tile n
  npart : ℤ

/-- Operation on one tile of the array. -/
def atTile (u : I3) (f : Tile n → Res (Tile n)) (S : Species n) : Res (Species n) :=
  if InBox ⟨1, 1, 1⟩ S.nt u then do
    let t ← f (S.tiles u)
    .ok ⟨S.nt, Function.update S.tiles u t, S.npart⟩
  else .error .outOfBounds

/-- `add_particle_at_tile`, `rm_particle_at_tile`. -/
def addAt (u : I3) (p : Part n) (S : Species n) : Res (Species n) := atTile u (addTile p) S
def rmAt (u : I3) (i : ℤ) (S : Species n) : Res (Species n) := atTile u (rmTile i) S

/-- `add_particle_to_species` (tiling.F90:317-344), with `idx` the tile index computed from the position. -/
def addSpecies (idx : Part n → I3) (p : Part n) (S : Species n) : Res (Species n) := do
  let S ← addAt (idx p) p S
  .ok ⟨S.nt, S.tiles, S.npart + 1⟩

/-- `rm_particles_from_species` (tiling.F90:569-575). -/
def rmSpecies (u : I3) (i : ℤ) (S : Species n) : Res (Species n) := do
  let S ← rmAt u i S
  .ok ⟨S.nt, S.tiles, S.npart - 1⟩

/-- `rm_particles_from_species_with_mask` with the update of `species_npart` (tiling.F90:522-537). -/
def rmMaskSpecies (u : I3) (mask : FArr Bool) (S : Species n) : Res (Species n) := do
  if InBox ⟨1, 1, 1⟩ S.nt u then
    (irange 1 (S.tiles u).np).reverse.foldlM (fun S i => do
      let m ← mask.get i
      if m = false then rmSpecies u i S else .ok S) S
  else .error .outOfBounds

/-! ### Exchange between tiles -/

/-- One particle of the exchange (particle_boundaries.F90:373-404): `inTile` is the test of case 1, `inDom` the negation of case 2, `idx` the
tile index of case 3. -/
def moveOne (inTile : I3 → Part n → Prop) (inDom : Part n → Prop) (idx : Part n → I3)
    [∀ u p, Decidable (inTile u p)] [∀ p, Decidable (inDom p)] (u : I3) (i : ℤ) (S : Species n) : Res (Species n) := do
  let p ← readPart (S.tiles u) i
  if inTile u p then .ok S else
  if ¬ inDom p then .ok S else do
  let S ← rmAt u i S
  addAt (idx p) p S

/-- All particles of one tile, from the last to the first (particle_boundaries.F90:370-405). -/
def moveTile (inTile : I3 → Part n → Prop) (inDom : Part n → Prop) (idx : Part n → I3)
    [∀ u p, Decidable (inTile u p)] [∀ p, Decidable (inDom p)] (u : I3) (S : Species n) : Res (Species n) :=
  (irange 1 (S.tiles u).np).reverse.foldlM (fun S i => moveOne inTile inDom idx u i S) S

/-- `particle_bcs_tiles` and `particle_bcs_tiles_2d` for one species (particle_boundaries.F90:366-409, 556-602). -/
def moveTiles (inTile : I3 → Part n → Prop) (inDom : Part n → Prop) (idx : Part n → I3)
    [∀ u p, Decidable (inTile u p)] [∀ p, Decidable (inDom p)] (S : Species n) : Res (Species n) :=
  (box ⟨1, 1, 1⟩ S.nt).foldlM (fun S u => moveTile inTile inDom idx u S) S

/-- Geometry of a subdomain along one direction: split, `x_min_local`, `x_max_local`, `dx`, and the particle limits `x_min_local_part`,
`x_max_local_part`. -/
structure Geo1 where
  s : Split1
  xmin : ℝ
  xmax : ℝ
  dx : ℝ
  pmin : ℝ
  pmax : ℝ

/-- Tests and index along one direction. -/
noncomputable def Geo1.ext (g : Geo1) (i : ℤ) : Ext := tileExt g.s g.xmin g.xmax g.dx i
def Geo1.inTile (g : Geo1) (i : ℤ) (x : ℝ) : Prop := x ≥ (g.ext i).lo ∧ x < (g.ext i).hi
def Geo1.inDom (g : Geo1) (x : ℝ) : Prop := ¬ (x < g.pmin ∨ x ≥ g.pmax)
noncomputable def Geo1.idx (g : Geo1) (x : ℝ) : ℤ := tileIdx (g.ext 1).nGrid g.s.nt g.xmin g.dx x

/-- Geometry of a subdomain. -/
structure Geo where
  x : Geo1
  y : Geo1
  z : Geo1

/-- Tests of `particle_bcs_tiles` (particle_boundaries.F90:382-401). -/
def Geo.inTile (g : Geo) (u : I3) (p : Part n) : Prop := (g.x.inTile u.j p.x ∧ g.y.inTile u.k p.y) ∧ g.z.inTile u.l p.z
def Geo.inDom (g : Geo) (p : Part n) : Prop := g.x.inDom p.x ∧ g.y.inDom p.y ∧ g.z.inDom p.z
noncomputable def Geo.idx (g : Geo) (p : Part n) : I3 := ⟨g.x.idx p.x, g.y.idx p.y, g.z.idx p.z⟩

/-- Tests of `particle_bcs_tiles_2d` (particle_boundaries.F90:578-595); the tile index in y is `iy = 1`. -/
def Geo.inTile2 (g : Geo) (u : I3) (p : Part n) : Prop := g.x.inTile u.j p.x ∧ g.z.inTile u.l p.z
def Geo.inDom2 (g : Geo) (p : Part n) : Prop := g.x.inDom p.x ∧ g.z.inDom p.z
noncomputable def Geo.idx2 (g : Geo) (p : Part n) : I3 := ⟨g.x.idx p.x, 1, g.z.idx p.z⟩

open Classical in
/-- `particle_bcs_tiles` for one species (particle_boundaries.F90:350-412). -/
noncomputable def bcsTiles (g : Geo) (S : Species n) : Res (Species n) := moveTiles g.inTile g.inDom g.idx S

open Classical in
/-- `particle_bcs_tiles_2d` for one species (particle_boundaries.F90:547-606). In 2-D there is one tile in y. -/
noncomputable def bcsTiles2 (g : Geo) (S : Species n) : Res (Species n) := moveTiles g.inTile2 g.inDom2 g.idx2 S

end Picsar.Tiling
