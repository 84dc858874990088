import Verif.Model.PushKernels
import Verif.Model.Pushers

/-
The particle step over the tiles of a 3D run: src/particle_pushers/particle_pusher_manager_3d.F90 (`field_gathering_plus_particle_pusher` and
the routines it chooses from) and `field_gathering_sub` of src/field_gathering/field_gathering_manager_3d.F90.

The OpenMP loop over the tiles is a list of (thread, tile) events in any order; the private variables of a thread (the tile arrays and the
sizes they were last given) are kept from one tile to the next. An iteration writes only the particles of its own tile and the private
variables of its thread and reads only the field arrays besides, so that iterations are taken one at a time. Timers and profiling are left
out. Reals for floating point.
-/
namespace Picsar.PushMgr
open Picsar Picsar.Grid Picsar.Gather Picsar.Push

/-- One species on one tile: `is_antenna`, `lfreeze`, `charge`, `mass` and the particles `1..np_tile(1)` of the tile. -/
structure PSpc where
  antenna : Bool
  freeze : Bool
  q : ℝ
  m : ℝ
  ps : List Part

/-- A tile: `nx_tile_min` ... (`lo`), `nx_tile_max` ... (`hi`), `nxg_tile` ... (`g`), `x_grid_tile_min` ..., and its species. -/
structure PTile where
  lo : I3
  hi : I3
  g : I3
  xmin : ℝ
  ymin : ℝ
  zmin : ℝ
  species : List PSpc

/-- Parameters: `nox, noy, noz`, `l_lower_order_in_v`, `l_nodalgrid`, `fieldgathe`, `particle_pusher`, `lvec_fieldgathe`,
`fg_p_pp_separated`, the constants, the time step and the cell sizes. `a0`: value of the uninitialised local `a`. -/
structure PCfg where
  nx : ℕ
  ny : ℕ
  nz : ℕ
  lower : Bool
  nodal : Bool
  algo : ℤ
  pusher : ℤ
  lvect : ℕ
  sep : ℤ
  c : ℝ
  mu0 : ℝ
  eps0 : ℝ
  dt : ℝ
  dx : ℝ
  dy : ℝ
  dz : ℝ
  a0 : ℝ

/-- `jmin, kmin, lmin` (particle_pusher_manager_3d.F90:213-218, 504-509). -/
def PTile.elo (t : PTile) : I3 := ⟨t.lo.j - t.g.j, t.lo.k - t.g.k, t.lo.l - t.g.l⟩

/-- `jmax, kmax, lmax` (particle_pusher_manager_3d.F90:213-218, 504-509). -/
def PTile.ehi (t : PTile) : I3 := ⟨t.hi.j + t.g.j, t.hi.k + t.g.k, t.hi.l + t.g.l⟩

/-- `nxt=jmax-jmin+1`, ... (particle_pusher_manager_3d.F90:232-234, 530-532). -/
def PTile.shape (t : PTile) : I3 := ⟨t.ehi.j - t.elo.j + 1, t.ehi.k - t.elo.k + 1, t.ehi.l - t.elo.l + 1⟩

/-- `nx_cells_tile` ... = `nx_tile_max-nx_tile_min` (src/parallelization/tiling/tiling.F90:157-183). -/
def PTile.cells (t : PTile) : I3 := ⟨t.hi.j - t.lo.j, t.hi.k - t.lo.k, t.hi.l - t.lo.l⟩

/-- Private variables of a thread: shape of the six tile arrays (`none`: not allocated) and `nxt_o, nyt_o, nzt_o`. -/
structure Priv where
  alloc : Option I3
  old : I3

/-- At the start of the parallel region (particle_pusher_manager_3d.F90:199-201). -/
def Priv.init : Priv := ⟨none, ⟨0, 0, 0⟩⟩

/-- Allocation of the tile arrays, or reallocation if the sizes differ from those of the last tile of the thread
(particle_pusher_manager_3d.F90:239-261, 537-559, 775-796). -/
def Priv.resize (v : Priv) (s : I3) : Priv :=
  match v.alloc with
  | none => ⟨some s, s⟩
  | some a => ⟨some (if s.j ≠ v.old.j ∨ s.k ≠ v.old.k ∨ s.l ≠ v.old.l then s else a), s⟩

/-- `extile=exg(jmin:jmax, kmin:kmax, lmin:lmax)` and the five others (particle_pusher_manager_3d.F90:263-268, 561-566), seen by the callee, whose
dummy arguments have the bounds `-nxguard:nx+nxguard, ...` with `nxguard = nxg_tile` and `nx = nx_cells_tile`
(src/field_gathering/field_gathering_manager_3d.F90 `geteb3d_energy_conserving`, particle_pusher_manager_3d.F90:1295-1320). Element `i` of the dummy is element
`i+g+1` of the tile array, when the two have the same shape; a tile array of another shape, or a section that leaves the field array, is a fault. -/
noncomputable def copyTile (σ : Mem) (t : PTile) (v : Priv) : Res Mem :=
  if v.alloc = some t.shape then
    if ∀ q ∈ comps, ∀ i ∈ box t.elo t.ehi, InBox (σ q).lo (σ q).hi i then
      .ok fun q => ⟨⟨-t.g.j, -t.g.k, -t.g.l⟩, ⟨t.cells.j + t.g.j, t.cells.k + t.g.k, t.cells.l + t.g.l⟩, fun i =>
        (σ q).val ⟨t.elo.j + ((i.j + t.g.j + 1) - 1), t.elo.k + ((i.k + t.g.k + 1) - 1), t.elo.l + ((i.l + t.g.l + 1) - 1)⟩⟩
    else .error .outOfBounds
  else .error .outOfBounds

/-! ### Loops over the particles of a tile -/

/-- The body of a particle loop, which may fail, applied to particle number `ip` (1-based). -/
def atPartM (f : Part → Res Part) (ip : ℕ) (l : List Part) : Res (List Part) :=
  match ip with
  | 0 => .error .outOfBounds
  | i + 1 => do
    let p ← rd l i
    let p' ← f p
    wr l i p'

/-- A loop over particle numbers. -/
def loopM (f : Part → Res Part) : List ℕ → List Part → Res (List Part)
  | [], l => .ok l
  | ip :: is, l => do
    let l' ← atPartM f ip l
    loopM f is l'

/-- `ex(nn), ..., bz(nn)`. -/
def fieldsOf (p : Part) : Comp → ℝ
  | .ex => p.e.x
  | .ey => p.e.y
  | .ez => p.e.z
  | .bx => p.b.x
  | .by' => p.b.y
  | .bz => p.b.z
  | _ => 0

/-- Assignment of the six fields of a particle. -/
def withFields (p : Part) (r : Comp → ℝ) : Part := { p with e := ⟨r .ex, r .ey, r .ez⟩, b := ⟨r .bx, r .by', r .bz⟩ }

/-- `part_ex(1:count) = 0.0_num`, ... (particle_pusher_manager_3d.F90:281-286, 577-582; field_gathering_manager_3d.F90:217-222). -/
def zeroFields (p : Part) : Part := { p with e := ⟨0, 0, 0⟩, b := ⟨0, 0, 0⟩ }

/-- `x = (xp(nn)-xmin)*dxi`, ... with the lower corner of the tile (particle_pusher_manager_3d.F90:1376-1378). -/
noncomputable def tilePos (cfg : PCfg) (t : PTile) (p : Part) : Pos :=
  cellPos ⟨0, t.xmin, t.ymin, t.zmin, cfg.dx, cfg.dy, cfg.dz, cfg.dt⟩ p.pos.x p.pos.y p.pos.z

/-- Options of the gathering routine: `geteb3d_energy_conserving(..., nox, noy, noz, ..., l_lower_order_in_v, ..., fieldgathe)`
(particle_pusher_manager_3d.F90:305-318, field_gathering_manager_3d.F90:226-236); `l_nodalgrid` is a module variable. -/
def PCfg.opts (cfg : PCfg) : Opts := ⟨cfg.nx, cfg.ny, cfg.nz, cfg.lower, cfg.nodal, false⟩

/-- Gathering for one particle. -/
noncomputable def gatherOne (cfg : PCfg) (t : PTile) (τ : Mem) (p : Part) : Res Part := do
  let r ← gather cfg.algo cfg.opts τ (tilePos cfg t p) cfg.a0 (fieldsOf p)
  pure (withFields p r)

/-- A push that divides by zero. -/
def orDiv (o : Option Part) : Res Part :=
  match o with
  | some p => .ok p
  | none => .error .divByZero

/-- `SELECT CASE (particle_pusher)` (particle_pusher_manager_3d.F90:321-375 and 812-866), one particle. Case 4 (Landau-Lifshitz) reads the fields of
the previous step from columns of `pid`: `exoldpid`, ... (never assigned) in the first routine, columns 4 to 9 of an array with `npid=3` columns
(src/modules/modules.F90:608) in the second; `ll` is the outcome. -/
noncomputable def pushOne (cfg : PCfg) (ll : Fault) (s : PSpc) (p : Part) : Res Part :=
  if cfg.pusher = 1 then .ok (vay0One cfg.c s.q s.m cfg.dt p)
  else if cfg.pusher = 2 then orDiv (s09One cfg.c cfg.mu0 s.q s.m cfg.dt p)
  else if cfg.pusher = 3 then orDiv (b08One cfg.c cfg.eps0 s.q s.m cfg.dt p)
  else if cfg.pusher = 4 then .error ll
  else .ok (borisOne cfg.c s.q s.m cfg.dt p)

/-- Body of the loop over the species in `field_gathering_plus_particle_pusher_sub` (particle_pusher_manager_3d.F90:281-381). -/
noncomputable def fullWork (cfg : PCfg) (t : PTile) (τ : Mem) (s : PSpc) : Res PSpc := do
  let n := s.ps.length
  let ps := s.ps.map zeroFields
  let ps ← loopM (gatherOne cfg t τ) (plainIdx n) ps
  let ps ← loopM (pushOne cfg .uninitialised s) (plainIdx n) ps
  let ps ← doLoop (pushXyzOne cfg.dt) (plainIdx n) ps
  pure { s with ps := ps }

/-- Body of the loop over the species in `field_gathering_sub` (field_gathering_manager_3d.F90:209-238). -/
noncomputable def gatherWork (cfg : PCfg) (t : PTile) (τ : Mem) (s : PSpc) : Res PSpc := do
  let ps := s.ps.map zeroFields
  let ps ← loopM (gatherOne cfg t τ) (plainIdx s.ps.length) ps
  pure { s with ps := ps }

/-- Body of the loop over the species in `particle_pusher_sub` (particle_pusher_manager_3d.F90:812-872). -/
noncomputable def pushWork (cfg : PCfg) (_t : PTile) (_τ : Mem) (s : PSpc) : Res PSpc := do
  let n := s.ps.length
  let ps ← loopM (pushOne cfg .outOfBounds s) (plainIdx n) s.ps
  let ps ← doLoop (pushXyzOne cfg.dt) (plainIdx n) ps
  pure { s with ps := ps }

/-! ### Gathering and push in one loop over blocks of particles -/

/-- `j0`: `floor(x)` at orders 1 and 3, `floor(x-0.5)` at order 2 (particle_pusher_manager_3d.F90:1381-1386, 1617-1622, 1920-1925). -/
noncomputable def kNode0 (n : ℕ) (x : ℝ) : ℤ := if n = 2 then ⌊x - 1 / 2⌋ else ⌊x⌋

/-- `sx0` as a function of `xint=x-0.5-j0` (particle_pusher_manager_3d.F90:1350-1352, 1647-1654, 1957-1970). -/
noncomputable def kWts0 (n : ℕ) (ξ : ℝ) : List (ℤ × ℝ) :=
  match n with
  | 1 => [(0, 1)]
  | 2 => [(0, 1 - ξ), (1, ξ)]
  | 3 => [(-1, 1 / 2 * (1 / 2 - ξ) ^ 2), (0, 3 / 4 - ξ * ξ), (1, 1 / 2 * (1 / 2 + ξ) ^ 2)]
  | _ => []

/-- `j`: `floor(x)`, or `nint(x)` at order 2 (particle_pusher_manager_3d.F90:1381-1386, 1617-1622, 1920-1925). -/
noncomputable def kNode (n : ℕ) (x : ℝ) : ℤ := if n = 2 then Deposition.nint x else ⌊x⌋

/-- `sx` as a function of `xint=x-j` (particle_pusher_manager_3d.F90:1393-1398, 1628-1642, 1931-1953). -/
noncomputable def kWts (n : ℕ) (ξ : ℝ) : List (ℤ × ℝ) :=
  match n with
  | 1 => [(0, 1 - ξ), (1, ξ)]
  | 2 => [(-1, 1 / 2 * (1 / 2 - ξ) ^ 2), (0, 3 / 4 - ξ * ξ), (1, 1 / 2 * (1 / 2 + ξ) ^ 2)]
  | 3 => [(-1, 1 / 6 * ((1 - ξ) * (1 - ξ)) * (1 - ξ)), (0, 2 / 3 - ξ * ξ * (1 - ξ / 2)),
      (1, 2 / 3 - (1 - ξ) * (1 - ξ) * (1 - (1 - ξ) / 2)), (2, 1 / 6 * (ξ * ξ) * ξ)]
  | _ => []

/-- One of the three coordinates. -/
def coord (p : Pos) : Ax → ℝ
  | .x => p.x
  | .y => p.y
  | .z => p.z

/-- Local variables of the kernel of order `n`. -/
noncomputable def kEnv (n : ℕ) (p : Pos) : GEnv where
  base ax st := if st then kNode0 n (coord p ax) else kNode n (coord p ax)
  wts ax st := if st then kWts0 n (coord p ax - 1 / 2 - kNode0 n (coord p ax)) else kWts n (coord p ax - kNode n (coord p ax))

/-- The accumulation statements of the kernel of order `n`. -/
def kernel (n : ℕ) : List GStmt :=
  match n with
  | 1 => kernel_o1
  | 2 => kernel_o2
  | 3 => kernel_o3
  | _ => []

/-- Gathering in the kernel of order `n`, one particle. -/
noncomputable def kGather (n : ℕ) (cfg : PCfg) (t : PTile) (τ : Mem) (p : Part) : Res Part := do
  let r ← GStmt.run τ (kEnv n (tilePos cfg t p)) (kernel n) cfg.a0 (fieldsOf p)
  pure (withFields p r)

/-- The blocks of the kernels: `DO ip=1, np, lvect; blocksize = MIN(lvect, np-ip+1)`, particles `ip .. ip+blocksize-1`
(particle_pusher_manager_3d.F90:1356-1374, 1576-1610, 1878-1912). -/
def kBlocks (np lvect : ℕ) : List (List ℕ) :=
  (List.range ((np + lvect - 1) / lvect)).map fun (k : ℕ) =>
    (List.range (min lvect (np - (1 + k * lvect) + 1))).map fun (n : ℕ) => 1 + k * lvect + n

/-- Momentum of the particles of a block: Vay pusher if `particle_pusher` is 1, otherwise Boris pusher followed by `pxr_set_gamma`
(particle_pusher_manager_3d.F90:1449-1472, 1747-1770, 2160-2183). -/
noncomputable def kMomentum (cfg : PCfg) (s : PSpc) (is : List ℕ) (ps : List Part) : Res (List Part) :=
  if cfg.pusher = 1 then doLoop (vay0One cfg.c s.q s.m cfg.dt) is ps
  else do
    let ps ← doLoop (borisOne cfg.c s.q s.m cfg.dt) is ps
    doLoop (setGammaOne cfg.c) is ps

/-- One block: gathering, momentum, position (particle_pusher_manager_3d.F90:1374-1477 and the same in the two other kernels). -/
noncomputable def kBlock (n : ℕ) (cfg : PCfg) (t : PTile) (τ : Mem) (s : PSpc) (is : List ℕ) (ps : List Part) : Res (List Part) := do
  let ps ← loopM (kGather n cfg t τ) is ps
  let ps ← kMomentum cfg s is ps
  doLoop (pushXyzOne cfg.dt) is ps

/-- The loop over the blocks. -/
noncomputable def kLoop (n : ℕ) (cfg : PCfg) (t : PTile) (τ : Mem) (s : PSpc) : List (List ℕ) → List Part → Res (List Part)
  | [], ps => .ok ps
  | is :: bs, ps => do
    let ps ← kBlock n cfg t τ s is ps
    kLoop n cfg t τ s bs ps

/-- Choice of the kernel (particle_pusher_manager_3d.F90:584-626): one is called only if the three orders are equal. -/
noncomputable def kernelCall (cfg : PCfg) (t : PTile) (τ : Mem) (s : PSpc) (n : ℕ) (ps : List Part) : Res (List Part) :=
  if cfg.nx = 1 ∧ cfg.ny = 1 ∧ cfg.nz = 1 then kLoop 1 cfg t τ s (kBlocks n cfg.lvect) ps
  else if cfg.nx = 2 ∧ cfg.ny = 2 ∧ cfg.nz = 2 then kLoop 2 cfg t τ s (kBlocks n cfg.lvect) ps
  else if cfg.nx = 3 ∧ cfg.ny = 3 ∧ cfg.nz = 3 then kLoop 3 cfg t τ s (kBlocks n cfg.lvect) ps
  else .ok ps

/-- Body of the loop over the species in `field_gathering_plus_particle_pusher_cacheblock_sub` (particle_pusher_manager_3d.F90:577-626). -/
noncomputable def kernelWork (cfg : PCfg) (t : PTile) (τ : Mem) (s : PSpc) : Res PSpc := do
  let ps ← kernelCall cfg t τ s s.ps.length (s.ps.map zeroFields)
  pure { s with ps := ps }

/-! ### Tiles -/

/-- One iteration of the loop over the species: antennas, frozen species and species without particle on the tile are skipped
(particle_pusher_manager_3d.F90:269-280, 567-576, 803-811). -/
noncomputable def oneSpecies (work : PSpc → Res PSpc) (s : PSpc) : Res PSpc :=
  if s.antenna then .ok s else if s.freeze then .ok s else if s.ps.length = 0 then .ok s else work s

/-- The loop over the species. -/
noncomputable def eachSpecies (work : PSpc → Res PSpc) : List PSpc → Res (List PSpc)
  | [] => .ok []
  | s :: ss => do
    let s' ← oneSpecies work s
    let ss' ← eachSpecies work ss
    pure (s' :: ss')

/-- `isgathered`: some species that is neither an antenna nor frozen has a particle on the tile
(particle_pusher_manager_3d.F90:222-230, 519-527). -/
def PTile.isgathered (t : PTile) : Bool := t.species.any fun s => !s.antenna && !s.freeze && decide (0 < s.ps.length)

/-- One iteration of the loop over the tiles (particle_pusher_manager_3d.F90:205-383, 496-629, 728-877, field_gathering_manager_3d.F90:140-245). -/
noncomputable def tileStep (work : PTile → Mem → PSpc → Res PSpc) (σ : Mem) (t : PTile) (v : Priv) : Res (PTile × Priv) :=
  if t.isgathered then do
    let v := v.resize t.shape
    let τ ← copyTile σ t v
    let ss ← eachSpecies (work t τ) t.species
    pure ({ t with species := ss }, v)
  else .ok (t, v)

/-- A parallel region: the iterations in the order in which they are executed, each with its thread. -/
noncomputable def region (work : PTile → Mem → PSpc → Res PSpc) (σ : Mem) : List (ℕ × I3) → (ℕ → Priv) → (I3 → PTile) → Res (I3 → PTile)
  | [], _, tiles => .ok tiles
  | (th, u) :: es, v, tiles => do
    let r ← tileStep work σ (tiles u) (v th)
    region work σ es (Function.update v th r.2) (Function.update tiles u r.1)

/-- `field_gathering_plus_particle_pusher` in 3D (particle_pusher_manager_3d.F90:75-104); `es`, `fs`: iterations of the (first and second) parallel
region. -/
noncomputable def step (cfg : PCfg) (σ : Mem) (es fs : List (ℕ × I3)) (tiles : I3 → PTile) : Res (I3 → PTile) :=
  if cfg.sep = 0 then region (kernelWork cfg) σ es (fun _ => Priv.init) tiles
  else if cfg.sep = 1 then region (fullWork cfg) σ es (fun _ => Priv.init) tiles
  else do
    let tiles ← region (gatherWork cfg) σ es (fun _ => Priv.init) tiles
    region (pushWork cfg) σ fs (fun _ => Priv.init) tiles

end Picsar.PushMgr
