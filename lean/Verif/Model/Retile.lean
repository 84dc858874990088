import Verif.Model.Tiling
/-
New tiles for the particles after the subdomain of a process changed: `create_new_tile_split`
(src/housekeeping/load_balancing.F90:2219-2455) with `set_tile_split_for_species` and `init_tile_arrays_for_species`
(src/parallelization/tiling/tiling.F90:94-261, 732-847). Real arithmetic. A variable that the code leaves undefined has an arbitrary
value, given by `Junk`.
-/
namespace Picsar.Retile
open Picsar Picsar.Grid Picsar.Tiling

variable {n : ℕ}

/-- `x_min_local`, `x_max_local`, `dx` of one direction. -/
structure Lim where
  xmin : ℝ
  xmax : ℝ
  dx : ℝ

/-- The variables of modules that the routine reads: number of threads, `c_dim .EQ. 2`, `nx, ny, nz`, `nx_grid, ny_grid, nz_grid`, limits. -/
structure Setup where
  threads : ℕ
  dim2 : Bool
  cells : I3
  grid : I3
  x : Lim
  y : Lim
  z : Lim

/-- Properties of a species that the routine copies (load_balancing.F90:2266-2280, 2395-2409). -/
@[ext] structure Info where
  charge : ℝ
  mass : ℝ
  xmin : ℝ
  xmax : ℝ
  ymin : ℝ
  ymax : ℝ
  zmin : ℝ
  zmax : ℝ
  vthx : ℝ
  vthy : ℝ
  vthz : ℝ
  vdriftx : ℝ
  vdrifty : ℝ
  vdriftz : ℝ
  nppcell : ℤ

/-- Further properties of a species (src/modules/modules.F90:515-579): `is_antenna`, `ldodepos`, `lfreeze`, `sorting_period`, `sorting_start`,
`name`. `antenna_params`, `kin_energy_sp` and `nppspecies_max`, which are not copied either, are left out. -/
@[ext] structure Flags where
  antenna : Bool
  depos : Bool
  freeze : Bool
  period : ℤ
  start : ℤ
  name : String

/-- Values of the undefined components of a new `particle_species`. -/
structure Junk where
  npart : ℤ
  period : ℤ
  start : ℤ
  name : String

/-- `particle_species`. -/
structure Spc (n : ℕ) where
  info : Info
  flags : Flags
  core : Species n

/-- What the routine changes: `species_parray`, `ntilex, ntiley, ntilez`, the extents stored in the tiles, for every element of `aofgrid_tiles`
whether its three arrays are allocated, and `l_aofgrid_tiles_array_allocated`. -/
structure St (n : ℕ) where
  sp : List (Spc n)
  nt : I3
  geo : Geo
  grid : I3 → Bool
  inited : Bool

/-- Numbers of tiles wanted (load_balancing.F90:2242-2259). -/
def newCounts (c : Setup) : I3 :=
  if c.threads > 1 then
    if c.dim2 then ⟨max 1 (c.cells.j.tdiv 35), 1, max 1 (c.cells.l.tdiv 35)⟩
    else ⟨max 1 (c.cells.j.tdiv 10), max 1 (c.cells.k.tdiv 10), max 1 (c.cells.l.tdiv 10)⟩
  else ⟨1, 1, 1⟩

/-- `set_tile_split_for_species` (tiling.F90:109-257): the extents of the tiles; the numbers of tiles may be reset. The limits for particles,
which this routine does not use, are those of the subdomain. -/
def split3 (c : Setup) (nt : I3) : Res Geo := do
  let sx ← split1 nt.j c.grid.j
  let sy ← split1 nt.k c.grid.k
  let sz ← split1 nt.l c.grid.l
  .ok ⟨⟨sx, c.x.xmin, c.x.xmax, c.x.dx, c.x.xmin, c.x.xmax⟩, ⟨sy, c.y.xmin, c.y.xmax, c.y.dx, c.y.xmin, c.y.xmax⟩,
    ⟨sz, c.z.xmin, c.z.xmax, c.z.dx, c.z.xmin, c.z.xmax⟩⟩

/-- Numbers of tiles after `set_tile_split_for_species`. -/
def counts (g : Geo) : I3 := ⟨g.x.s.nt, g.y.s.nt, g.z.s.nt⟩

/-- A new `particle_tile`: no particles, capacity zero, arrays not allocated (modules.F90:343-347). -/
def blankTile : Tile n := ⟨0, 0, false, fun _ => FArr.undef 0⟩

/-- A new element of the species array: default flags (modules.F90:520, 567, 570), undefined numbers and name, and, after the tile split, an
array of new tiles (tiling.F90:141-146). -/
def blank (nt : I3) (j : Junk) (i : Info) : Spc n :=
  ⟨i, ⟨false, true, false, j.period, j.start, j.name⟩, ⟨nt, fun _ => blankTile, j.npart⟩⟩

/-- `init_tile_arrays_for_species` for a tile (tiling.F90:760-767, 787, 803-816): capacity for the particles of its cells, arrays allocated if
they were not, all elements zero. -/
noncomputable def initTile (g : Geo) (nppcell : ℤ) (u : I3) (t : Tile n) : Tile n :=
  let m := max (((g.x.ext u.j).nGrid - 1) * ((g.y.ext u.k).nGrid - 1) * ((g.z.ext u.l).nGrid - 1) * nppcell) 1
  ⟨0, m, true, fun a => FArr.fill (if t.alloc then (t.arr a).n else m) 0⟩

/-- `init_tile_arrays_for_species` for a species (tiling.F90:752-822). `skip` is the effect of `IF (l_aofgrid_tiles_array_allocated) RETURN`
(tiling.F90:748). -/
noncomputable def initSpc (g : Geo) (skip : Bool) (S : Spc n) : Spc n :=
  if skip then S else { S with core := ⟨S.core.nt, fun u => initTile g S.info.nppcell u (S.core.tiles u), 0⟩ }

/-- `init_tile_arrays_for_species` for the new elements of `aofgrid_tiles` (tiling.F90:747-748, 824-845): whether their arrays are allocated, and
the new value of `l_aofgrid_tiles_array_allocated`. -/
def initGrid (nspec : ℕ) (inited : Bool) : Bool × Bool :=
  if nspec = 0 then (false, inited) else if inited then (false, true) else (true, true)

/-- One particle goes from an old species to a new one (load_balancing.F90:2311-2342 in 2-D, 2346-2375; 2435-2445 with the update of the
counter after the removal). -/
def shift (dst : Part n → I3) (u : I3) (i : ℤ) (x : Species n × Species n) : Res (Species n × Species n) := do
  let p ← readPart (x.1.tiles u) i
  let b ← addAt (dst p) p x.2
  let a ← rmSpecies u i x.1
  .ok (a, ⟨b.nt, b.tiles, b.npart + 1⟩)

/-- All particles of a tile (load_balancing.F90:2306-2310, 2432-2434). -/
def shiftTile (dst : Part n → I3) (u : I3) (x : Species n × Species n) : Res (Species n × Species n) :=
  (irange 1 (x.1.tiles u).np).reverse.foldlM (fun x i => shift dst u i x) x

/-- All tiles (load_balancing.F90:2303-2305, 2429-2431); `dst u p` is the new tile of particle `p` of tile `u`. -/
def shiftAll (nt : I3) (dst : I3 → Part n → I3) (x : Species n × Species n) : Res (Species n × Species n) :=
  (box ⟨1, 1, 1⟩ nt).foldlM (fun x u => shiftTile (dst u) u x) x

open Classical in
/-- Tile of a particle (load_balancing.F90:2322-2337, 2357-2374): the first tile if the particle is outside of the subdomain. -/
noncomputable def place (c : Setup) (g : Geo) (p : Part n) : I3 :=
  if c.dim2 then (if g.inDom2 p then g.idx2 p else ⟨1, 1, 1⟩) else (if g.inDom p then g.idx p else ⟨1, 1, 1⟩)

/-- A new species with the properties and the particles of `S`. The loops over species of the code (allocation and copy of properties,
`init_tile_arrays_for_species`, move of the particles) are fused here: they treat each species on its own. -/
noncomputable def stage (g : Geo) (skip : Bool) (nt : I3) (dst : I3 → Part n → I3) (j : ℕ → Junk) (e : Spc n × ℕ) : Res (Spc n) := do
  let B := initSpc g skip (blank (counts g) (j e.2) e.1.info)
  let x ← shiftAll nt dst (e.1.core, B.core)
  .ok { B with core := x.2 }

/-- `create_new_tile_split` (load_balancing.F90:2219-2455). `j1` and `j2` are the undefined values in the temporary species array and in the
reallocated `species_parray`. -/
noncomputable def newTileSplit (c : Setup) (j1 j2 : ℕ → Junk) (st : St n) : Res (St n) := do
  let g1 ← split3 c (newCounts c)
  let i1 := initGrid st.sp.length st.inited
  let sp1 ← st.sp.zipIdx.mapM (stage g1 st.inited st.nt (fun _ p => place c g1 p) j1)
  let g2 ← split3 c (counts g1)
  let i2 := initGrid sp1.length i1.2
  let sp2 ← sp1.zipIdx.mapM (stage g2 i1.2 (counts g1) (fun u _ => u) j2)
  .ok ⟨sp2, counts g2, g2, fun _ => i2.1, i2.2⟩

end Picsar.Retile
