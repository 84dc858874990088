import Verif.Model.Tiling
/-
OpenMP exchange of particles between tiles: `particle_bcs_tiles_openmp`, src/boundary_conditions/particle_boundaries.F90:428-535.

Each tile of the parallel loop is processed by its own thread of control; the threads of one parallel loop are interleaved in any order. A step
of a thread accesses one tile. (With fewer threads than tiles the possible interleavings are among those considered here.)
-/
namespace Picsar.Tiling
open Picsar Picsar.Grid

variable {n : ℕ}

/-- Where the thread of a tile is: at the read of `nptile` (line 487), at particle `i` (489-510), at the removal of particle `i` (522), at the
addition to its new tile (523-524), finished. `p` is the private copy of the particle. -/
inductive PC (n : ℕ) where
  | start
  | look (i : ℤ)
  | rm (i : ℤ) (p : Part n)
  | add (i : ℤ) (p : Part n)
  | done

/-- Head of `DO i=nptile, 1, -1` (particle_boundaries.F90:488). -/
def PC.loop (i : ℤ) : PC n := if 1 ≤ i then .look i else .done

/-- The tile accessed by the next step of the thread of tile `u`. -/
def PC.access (idx : Part n → I3) (u : I3) : PC n → I3
  | .add _ p => idx p
  | _ => u

/-- What the next step of the thread of tile `u` does to the accessed tile, and where the thread is afterwards
(particle_boundaries.F90:486-525). -/
def PC.act (inTile : I3 → Part n → Prop) (inDom : Part n → Prop) [∀ u p, Decidable (inTile u p)] [∀ p, Decidable (inDom p)]
    (u : I3) : PC n → Tile n → Res (Tile n × PC n)
  | .start, t => .ok (t, .loop t.np)
  | .look i, t => do
    let p ← readPart t i
    if inTile u p then .ok (t, .loop (i - 1)) else
    if ¬ inDom p then .ok (t, .loop (i - 1)) else .ok (t, .rm i p)
  | .rm i p, t => do
    let t ← rmTile i t
    .ok (t, .add i p)
  | .add i p, t => do
    let t ← addTile p t
    .ok (t, .loop (i - 1))
  | .done, t => .ok (t, .done)

/-- The species and the positions of the threads. -/
structure Cfg (n : ℕ) where
  S : Species n
  pc : I3 → PC n

/-- One step of the thread of tile `u`. -/
def Cfg.step (inTile : I3 → Part n → Prop) (inDom : Part n → Prop) (idx : Part n → I3) [∀ u p, Decidable (inTile u p)]
    [∀ p, Decidable (inDom p)] (u : I3) (c : Cfg n) : Res (Cfg n) :=
  let a := (c.pc u).access idx u
  if InBox ⟨1, 1, 1⟩ c.S.nt a then do
    let r ← (c.pc u).act inTile inDom u (c.S.tiles a)
    .ok ⟨⟨c.S.nt, Function.update c.S.tiles a r.1, c.S.npart⟩, Function.update c.pc u r.2⟩
  else .error .outOfBounds

/-- Interleavings of the threads of the tiles `ws`. -/
inductive Steps (inTile : I3 → Part n → Prop) (inDom : Part n → Prop) (idx : Part n → I3) [∀ u p, Decidable (inTile u p)]
    [∀ p, Decidable (inDom p)] (ws : List I3) : ℕ → Cfg n → Cfg n → Prop
  | refl {c : Cfg n} : Steps inTile inDom idx ws 0 c c
  | step {k : ℕ} {c c1 c2 : Cfg n} {u : I3} : Steps inTile inDom idx ws k c c1 → u ∈ ws → c1.pc u ≠ .done → c1.step inTile inDom idx u = .ok c2 →
      Steps inTile inDom idx ws (k + 1) c c2

/-- Tiles of one parallel loop: `DO iz=ipz, ntilez, 3` etc. (particle_boundaries.F90:483-485). -/
def colourTiles (nt c : I3) : List I3 := (box c nt).filter fun u => 3 ∣ u.j - c.j ∧ 3 ∣ u.k - c.k ∧ 3 ∣ u.l - c.l

/-- The 27 parallel loops (particle_boundaries.F90:471-473). -/
def colours : List I3 := box ⟨1, 1, 1⟩ ⟨3, 3, 3⟩

/-- Complete runs of a sequence of parallel loops; each loop ends with a barrier. -/
inductive OmpRun (inTile : I3 → Part n → Prop) (inDom : Part n → Prop) (idx : Part n → I3) [∀ u p, Decidable (inTile u p)]
    [∀ p, Decidable (inDom p)] : List I3 → Species n → Species n → Prop
  | nil {S : Species n} : OmpRun inTile inDom idx [] S S
  | cons {cs : List I3} {col : I3} {S S' : Species n} {k : ℕ} {c : Cfg n} : Steps inTile inDom idx (colourTiles S.nt col) k ⟨S, fun _ => .start⟩ c →
      (∀ u ∈ colourTiles S.nt col, c.pc u = .done) → OmpRun inTile inDom idx cs c.S S' → OmpRun inTile inDom idx (col :: cs) S S'

/-- Configurations met on the way, with the tiles of the running loop. -/
inductive OmpAt (inTile : I3 → Part n → Prop) (inDom : Part n → Prop) (idx : Part n → I3) [∀ u p, Decidable (inTile u p)]
    [∀ p, Decidable (inDom p)] : List I3 → Species n → List I3 → ℕ → Cfg n → Prop
  | here {cs : List I3} {col : I3} {S : Species n} {k : ℕ} {c : Cfg n} : Steps inTile inDom idx (colourTiles S.nt col) k ⟨S, fun _ => .start⟩ c →
      OmpAt inTile inDom idx (col :: cs) S (colourTiles S.nt col) k c
  | later {cs : List I3} {col : I3} {S : Species n} {k k' : ℕ} {c c' : Cfg n} {ws : List I3} : Steps inTile inDom idx (colourTiles S.nt col) k ⟨S, fun _ => .start⟩ c →
      (∀ u ∈ colourTiles S.nt col, c.pc u = .done) → OmpAt inTile inDom idx cs c.S ws k' c' → OmpAt inTile inDom idx (col :: cs) S ws k' c'

end Picsar.Tiling
