import Verif.Spec.Gather
import Verif.Model.PushManager

/-
What the particle step is expected to do, said without tiles, threads or blocks: every particle feels the field interpolated at its
position from the whole grid, its momentum is changed by the chosen pusher, and it moves by its new velocity times the time step.
-/
namespace Picsar.Spec
open Picsar Picsar.Grid Picsar.Push Picsar.PushMgr

/-- Component `q` at the point `r`, interpolated from all the values of the array `a` of the grid whose lower corner is `O`. -/
noncomputable def interpAt (cfg : PCfg) (O : V3) (a : Arr) (q : Comp) (r : V3) : ℝ :=
  ∑ l ∈ Finset.Icc a.lo.l a.hi.l, ∑ k ∈ Finset.Icc a.lo.k a.hi.k, ∑ j ∈ Finset.Icc a.lo.j a.hi.j,
    spline (orderAlong cfg.nx cfg.lower q 0) ((r.x - O.x) / cfg.dx - samplePos cfg.nodal q 0 j) *
      spline (orderAlong cfg.ny cfg.lower q 1) ((r.y - O.y) / cfg.dy - samplePos cfg.nodal q 1 k) *
      spline (orderAlong cfg.nz cfg.lower q 2) ((r.z - O.z) / cfg.dz - samplePos cfg.nodal q 2 l) * a.val ⟨j, k, l⟩

/-- The particle with the fields at its position. -/
noncomputable def feels (cfg : PCfg) (O : V3) (σ : Mem) (p : Part) : Part :=
  { p with
    e := ⟨interpAt cfg O (σ .ex) .ex p.pos, interpAt cfg O (σ .ey) .ey p.pos, interpAt cfg O (σ .ez) .ez p.pos⟩
    b := ⟨interpAt cfg O (σ .bx) .bx p.pos, interpAt cfg O (σ .by') .by' p.pos, interpAt cfg O (σ .bz) .bz p.pos⟩ }

/-- The chosen pusher: 1 Vay, 2 and 3 Boris with radiation reaction, 4 none of them (see C119), any other number Boris. -/
noncomputable def kicked (cfg : PCfg) (q m : ℝ) (p : Part) : Option Part :=
  if cfg.pusher = 1 then some (vay0One cfg.c q m cfg.dt p)
  else if cfg.pusher = 2 then s09One cfg.c cfg.mu0 q m cfg.dt p
  else if cfg.pusher = 3 then b08One cfg.c cfg.eps0 q m cfg.dt p
  else if cfg.pusher = 4 then none
  else some (borisOne cfg.c q m cfg.dt p)

/-- Motion with the velocity `u/gamma` during `dt`. -/
def drifted (dt : ℝ) (p : Part) : Part :=
  { p with pos := ⟨p.pos.x + dt * (p.u.x * p.gi), p.pos.y + dt * (p.u.y * p.gi), p.pos.z + dt * (p.u.z * p.gi)⟩ }

/-- The whole step of one particle. -/
noncomputable def advanced (cfg : PCfg) (O : V3) (σ : Mem) (s : PSpc) (p : Part) : Option Part :=
  (kicked cfg s.q s.m (feels cfg O σ p)).map (drifted cfg.dt)

/-- A species that is pushed: neither antenna nor frozen. -/
def Active (s : PSpc) : Prop := s.antenna = false ∧ s.freeze = false

/-- What the step does to a species on a tile. -/
def SpeciesAfter (cfg : PCfg) (O : V3) (σ : Mem) (s s' : PSpc) : Prop :=
  (Active s → s'.antenna = s.antenna ∧ s'.freeze = s.freeze ∧ s'.q = s.q ∧ s'.m = s.m ∧ s'.ps.map some = s.ps.map (advanced cfg O σ s)) ∧
  (¬ Active s → s' = s)

/-- What the step does to a tile. -/
def TileAfter (cfg : PCfg) (O : V3) (σ : Mem) (t t' : PTile) : Prop :=
  t' = { t with species := t'.species } ∧ List.Forall₂ (SpeciesAfter cfg O σ) t.species t'.species

/-- Guard cells that the interpolation of order `n` needs for particles up to half a cell beyond the nodes of the tile. -/
def pushGuards (n : ℕ) : ℤ := if n = 1 then 1 else 2

/-- A coordinate that belongs to nodes `lo..hi` of a tile: up to half a cell beyond. -/
def NearNodes (O d : ℝ) (lo hi : ℤ) (x : ℝ) : Prop := O + (lo - 1 / 2) * d ≤ x ∧ x < O + (hi + 1 / 2) * d

/-- A tile of a grid with lower corner `O`: its nodes, its guard cells, its corner, and its particles near its nodes. -/
structure PTileOk (cfg : PCfg) (O : V3) (t : PTile) : Prop where
  wj : t.lo.j ≤ t.hi.j
  wk : t.lo.k ≤ t.hi.k
  wl : t.lo.l ≤ t.hi.l
  gj : pushGuards cfg.nx ≤ t.g.j
  gk : pushGuards cfg.ny ≤ t.g.k
  gl : pushGuards cfg.nz ≤ t.g.l
  ox : t.xmin = O.x + t.lo.j * cfg.dx
  oy : t.ymin = O.y + t.lo.k * cfg.dy
  oz : t.zmin = O.z + t.lo.l * cfg.dz
  near : ∀ s ∈ t.species, Active s → ∀ p ∈ s.ps, NearNodes O.x cfg.dx t.lo.j t.hi.j p.pos.x ∧ NearNodes O.y cfg.dy t.lo.k t.hi.k p.pos.y ∧
    NearNodes O.z cfg.dz t.lo.l t.hi.l p.pos.z

/-- The field arrays contain the tile with its guard cells. -/
def PHolds (σ : Mem) (t : PTile) : Prop :=
  ∀ q, IsField q → (σ q).lo.j ≤ t.lo.j - t.g.j ∧ t.hi.j + t.g.j ≤ (σ q).hi.j ∧ (σ q).lo.k ≤ t.lo.k - t.g.k ∧ t.hi.k + t.g.k ≤ (σ q).hi.k ∧
    (σ q).lo.l ≤ t.lo.l - t.g.l ∧ t.hi.l + t.g.l ≤ (σ q).hi.l

/-- Tile numbers. -/
def IsTile (nt u : I3) : Prop := 1 ≤ u.j ∧ u.j ≤ nt.j ∧ 1 ≤ u.k ∧ u.k ≤ nt.k ∧ 1 ≤ u.l ∧ u.l ≤ nt.l

/-- An execution of a loop over the tiles: every tile once, in any order, by any thread. -/
def Dealt (nt : I3) (es : List (ℕ × I3)) : Prop := (es.map (·.2)).Nodup ∧ ∀ u, u ∈ es.map (·.2) ↔ IsTile nt u

/-- Orders 1, 2 or 3 and positive cell sizes. -/
structure PCfgOk (cfg : PCfg) : Prop where
  nx : Order cfg.nx
  ny : Order cfg.ny
  nz : Order cfg.nz
  dx : 0 < cfg.dx
  dy : 0 < cfg.dy
  dz : 0 < cfg.dz

end Picsar.Spec
