import Verif.Model.TileReduce
import Verif.Spec.Current

/-
Specification vocabulary for the deposition tile by tile.
-/
namespace Picsar.Spec
open Picsar Picsar.Grid Picsar.Deposition Picsar.TileReduce

/-- Arguments of a direct deposition of a species on the grid. -/
def gridGeo (g : Geo) (s : Spc) : Geo := ⟨s.q, g.xmin, g.ymin, g.zmin, g.dx, g.dy, g.dz, g.dt⟩

/-- Current, on the grid, of all the particles of a tile that are to be deposited. -/
noncomputable def tileCurrent (n : ℕ) (g : Geo) (t : GTile) (c : Comp) (i : I3) : ℝ :=
  ((t.species.filter (·.depos)).map fun s => currents n (gridGeo g s) s.ps c i).sum

/-- Charge density, on the grid, of all the particles of a tile that are to be deposited. -/
noncomputable def tileDensity (n : ℕ) (g : Geo) (t : GTile) (i : I3) : ℝ :=
  ((t.species.filter (·.depos)).map fun s => densities n (gridGeo g s) s.ps i.j i.k i.l).sum

/-- Charges and particles to be deposited on the tiles `us`. -/
def toDeposit (tiles : I3 → GTile) (us : List I3) : List (ℝ × Part) :=
  us.flatMap fun u => ((tiles u).species.filter (·.depos)).flatMap fun s => s.ps.map fun p => (s.q, p)

/-- Current on the grid of a list of charges and particles. -/
noncomputable def totalCurrent (n : ℕ) (g : Geo) (l : List (ℝ × Part)) (c : Comp) (i : I3) : ℝ :=
  (l.map fun e => current n ⟨e.1, g.xmin, g.ymin, g.zmin, g.dx, g.dy, g.dz, g.dt⟩ e.2 c i).sum

/-- Charge density on the grid of a list of charges and particles. -/
noncomputable def totalCharge (n : ℕ) (g : Geo) (l : List (ℝ × Part)) (i : I3) : ℝ :=
  (l.map fun e => density n ⟨e.1, g.xmin, g.ymin, g.zmin, g.dx, g.dy, g.dz, g.dt⟩ e.2 i.j i.k i.l).sum

/-- The tiles follow each other along x, one in y and z, and each is at least twice as wide as the guard cells of any. -/
def Row (tiles : I3 → GTile) (nt : I3) : Prop :=
  nt.k = 1 ∧ nt.l = 1 ∧ (∀ j, 1 ≤ j → j < nt.j → (tiles ⟨j + 1, 1, 1⟩).lo.j = (tiles ⟨j, 1, 1⟩).hi.j + 1) ∧
  ∃ G : ℤ, ∀ j, 1 ≤ j → j ≤ nt.j → (tiles ⟨j, 1, 1⟩).g.j ≤ G ∧ 2 * G ≤ (tiles ⟨j, 1, 1⟩).hi.j - (tiles ⟨j, 1, 1⟩).lo.j + 1

/-- Node beyond a face in x of the tile, in its guard cells. -/
def BeyondX (t : GTile) (i : I3) : Prop :=
  (t.lo.j - t.g.j ≤ i.j ∧ i.j < t.lo.j ∨ t.hi.j < i.j ∧ i.j ≤ t.hi.j + t.g.j) ∧
  t.lo.k - t.g.k ≤ i.k ∧ i.k ≤ t.hi.k + t.g.k ∧ t.lo.l - t.g.l ≤ i.l ∧ i.l ≤ t.hi.l + t.g.l

/-- First and last node reached by the guard cells of a tile. -/
def GTile.elo (t : GTile) : I3 := ⟨t.lo.j - t.g.j, t.lo.k - t.g.k, t.lo.l - t.g.l⟩
def GTile.ehi (t : GTile) : I3 := ⟨t.hi.j + t.g.j, t.hi.k + t.g.k, t.hi.l + t.g.l⟩

/-- A tile of the grid: it has at least one node, its origin is the position of its first node, and the tile with its guard cells has room for the
particles to be deposited, which move by less than a cell. -/
structure TileOk (n : ℕ) (g : Geo) (t : GTile) : Prop where
  wj : t.lo.j ≤ t.hi.j
  wk : t.lo.k ≤ t.hi.k
  wl : t.lo.l ≤ t.hi.l
  gj : 0 ≤ t.g.j
  gk : 0 ≤ t.g.k
  gl : 0 ≤ t.g.l
  ox : t.xmin = g.xmin + t.lo.j * g.dx
  oy : t.ymin = g.ymin + t.lo.k * g.dy
  oz : t.zmin = g.zmin + t.lo.l * g.dz
  slow : ∀ s ∈ t.species, s.depos = true → ∀ p ∈ s.ps, Slow g p
  room : ∀ s ∈ t.species, s.depos = true → ∀ p ∈ s.ps, Room n g (GTile.elo t) (GTile.ehi t) p

/-- The grid arrays contain the tile with its guard cells. -/
def Holds (σ : Mem) (c : Comp) (t : GTile) : Prop :=
  (σ c).lo.j ≤ (GTile.elo t).j ∧ (GTile.ehi t).j ≤ (σ c).hi.j ∧ (σ c).lo.k ≤ (GTile.elo t).k ∧ (GTile.ehi t).k ≤ (σ c).hi.k ∧
  (σ c).lo.l ≤ (GTile.elo t).l ∧ (GTile.ehi t).l ≤ (σ c).hi.l

end Picsar.Spec
