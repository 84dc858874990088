import Verif.Model.Tiling
import Mathlib.Data.Multiset.Filter
/-
What a tile holds, and where particles belong.
-/
namespace Picsar.Tiling
open Picsar Picsar.Grid

variable {n : ℕ}

/-- Tile `t` holds exactly the particles of `l`, in this order, with all their properties: the count is the length of `l`, it does not
exceed the capacity, every array has the size of the capacity, and entry `i` of every property array is that property of `l[i]`. -/
structure Holds (t : Tile n) (l : List (Part n)) : Prop where
  count : t.np = l.length
  fits : (l.length : ℤ) ≤ t.npmax
  size : t.alloc = true → ∀ a, (t.arr a).n = t.npmax
  empty : t.alloc = false → l = []
  vals : ∀ a ∈ kept n, ∀ (i : ℕ) (h : i < l.length), (t.arr a).val (i + 1) = some (l[i].val a)

/-- An operation on a tile: add a particle, or remove the particle at a position. -/
inductive Op (n : ℕ) where
  | add (p : Part n)
  | rm (i : ℤ)

/-- The particles added by a history. -/
def added : List (Op n) → List (Part n)
  | [] => []
  | .add p :: r => p :: added r
  | .rm _ :: r => added r

/-- A history is valid for a tile that holds `c` particles if removals name existing positions. -/
def Valid : ℤ → List (Op n) → Prop
  | _, [] => True
  | c, .add _ :: r => Valid (c + 1) r
  | c, .rm i :: r => (1 ≤ i ∧ i ≤ c) ∧ Valid (c - 1) r

/-- Running a history; the second component logs the particles that were stored at the removed positions. -/
def run : List (Op n) → Tile n → List (Part n) → Res (Tile n × List (Part n))
  | [], t, log => .ok (t, log)
  | .add p :: r, t, log => do
    let t ← addTile p t
    run r t log
  | .rm i :: r, t, log => do
    let p ← readPart t i
    let t ← rmTile i t
    run r t (p :: log)

/-- The elements of `l` whose mask entry is true. -/
def masked (l : List (Part n)) (m : List Bool) : List (Part n) := ((l.zip m).filter (·.2)).map (·.1)

/-- A new tile as left by `init_tile_arrays` (tiling.F90:748-775): capacity at least one, arrays allocated, no particles. -/
def newTile (npmax : ℤ) : Tile n := allocArrays ⟨0, npmax, false, fun _ => FArr.undef 0⟩

/-- A subdomain direction with `nGrid` grid points (`nx_grid`, one more than the number of cells) that is split by the code into at most `nt0`
tiles, and whose particle limits lie inside the subdomain (as set by `mpi_initialise`, src/parallelization/mpi/mpi_routines.F90:1600-1688). -/
structure Geo1.Ok (g : Geo1) (nt0 nGrid : ℤ) : Prop where
  tiles : 1 ≤ nt0
  grid : 1 ≤ nGrid
  split : split1 nt0 nGrid = .ok g.s
  dx : 0 < g.dx
  xmax : g.xmax = g.xmin + (nGrid - 1 : ℤ) * g.dx
  pmin : g.xmin ≤ g.pmin
  pmax : g.pmax ≤ g.xmax

/-- All tiles of a species hold the lists `L`. -/
def HoldsAll (S : Species n) (L : I3 → List (Part n)) : Prop := ∀ u, InBox ⟨1, 1, 1⟩ S.nt u → Holds (S.tiles u) (L u)

/-- All particles of the species. -/
def total (nt : I3) (L : I3 → List (Part n)) : Multiset (Part n) := ((box ⟨1, 1, 1⟩ nt).map fun u => (L u : Multiset (Part n))).sum

/-- Particle `p` lies in tile `T` (the tile's limits as stored by the tile split). -/
def InTile3 (g : Geo) (T : I3) (p : Part n) : Prop :=
  ((g.x.ext T.j).lo ≤ p.x ∧ p.x < (g.x.ext T.j).hi) ∧ ((g.y.ext T.k).lo ≤ p.y ∧ p.y < (g.y.ext T.k).hi) ∧
    ((g.z.ext T.l).lo ≤ p.z ∧ p.z < (g.z.ext T.l).hi)

/-- The same for the two directions of a 2-D simulation. -/
def InTile2 (g : Geo) (T : I3) (p : Part n) : Prop :=
  ((g.x.ext T.j).lo ≤ p.x ∧ p.x < (g.x.ext T.j).hi) ∧ ((g.z.ext T.l).lo ≤ p.z ∧ p.z < (g.z.ext T.l).hi)

/-- Particle `p` lies in the particle domain of the process. -/
def InDom3 (g : Geo) (p : Part n) : Prop :=
  (g.x.pmin ≤ p.x ∧ p.x < g.x.pmax) ∧ (g.y.pmin ≤ p.y ∧ p.y < g.y.pmax) ∧ (g.z.pmin ≤ p.z ∧ p.z < g.z.pmax)

def InDom2 (g : Geo) (p : Part n) : Prop := (g.x.pmin ≤ p.x ∧ p.x < g.x.pmax) ∧ (g.z.pmin ≤ p.z ∧ p.z < g.z.pmax)

/-- Particle `p` lies in the subdomain of the process. -/
def InSub (g : Geo) (p : Part n) : Prop :=
  (g.x.xmin ≤ p.x ∧ p.x < g.x.xmax) ∧ (g.y.xmin ≤ p.y ∧ p.y < g.y.xmax) ∧ (g.z.xmin ≤ p.z ∧ p.z < g.z.xmax)

/-- A species whose tile array is the one of the geometry, for some numbers of tiles requested and grid points. -/
structure Fits (g : Geo) (nt : I3) : Prop where
  x : ∃ nt0 nGrid, g.x.Ok nt0 nGrid
  y : ∃ nt0 nGrid, g.y.Ok nt0 nGrid
  z : ∃ nt0 nGrid, g.z.Ok nt0 nGrid
  nt : nt = ⟨g.x.s.nt, g.y.s.nt, g.z.s.nt⟩

/-- The states of a species that the tiling routines can produce from a start state: additions of particles of the subdomain, removals of
existing particles, exchanges between tiles. -/
inductive Reach (g : Geo) (S0 : Species n) : Species n → Prop
  | start : Reach g S0 S0
  | add {S S' : Species n} {p : Part n} : Reach g S0 S → InSub g p → addSpecies g.idx p S = .ok S' → Reach g S0 S'
  | rm {S S' : Species n} {u : I3} {i : ℤ} : Reach g S0 S → InBox ⟨1, 1, 1⟩ S.nt u → 1 ≤ i ∧ i ≤ (S.tiles u).np →
      rmSpecies u i S = .ok S' → Reach g S0 S'
  | exchange {S S' : Species n} : Reach g S0 S → bcsTiles g S = .ok S' → Reach g S0 S'

end Picsar.Tiling
