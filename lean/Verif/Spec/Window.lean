import Verif.Model.Window
import Verif.Spec.Tiling
/-
What "moved together" means.
-/
namespace Picsar.Window
open Picsar Picsar.Grid Picsar.Tiling Picsar.ParticleBcs

variable {n : ℕ}

/-- Total displacement of a sequence. -/
def disp (ds : List (Ax → ℝ)) (a : Ax) : ℝ := (ds.map fun d => d a).sum

/-- A sequence of calls. -/
def moves (ds : List (Ax → ℝ)) (w : World) : World := ds.foldl (fun w d => move d w) w

/-- A particle shifted along. -/
def shiftPart (D : Ax → ℝ) (p : Part n) : Part n := ⟨p.x + D .x, p.y + D .y, p.z + D .z, p.ux, p.uy, p.uz, p.gam, p.pid⟩

/-- Limits that moved by `D`. -/
structure MovedBnd (D : ℝ) (b b' : Bnd) : Prop where
  min : b'.min = b.min + D
  max : b'.max = b.max + D
  minPart : b'.minPart = b.minPart + D
  maxPart : b'.maxPart = b.maxPart + D
  gridMin : b'.gridMin = b.gridMin + D
  gridMax : b'.gridMax = b.gridMax + D
  minLoc : b'.minLoc = b.minLoc + D
  maxLoc : b'.maxLoc = b.maxLoc + D
  minLocPart : b'.minLocPart = b.minLocPart + D
  maxLocPart : b'.maxLocPart = b.maxLocPart + D
  gridMinLoc : b'.gridMinLoc = b.gridMinLoc + D
  gridMaxLoc : b'.gridMaxLoc = b.gridMaxLoc + D

/-- A tile whose limits moved by `D`; its grid points have the same numbers. -/
structure MovedExt (D : ℝ) (e e' : Ext) : Prop where
  nGrid : e'.nGrid = e.nGrid
  nMin : e'.nMin = e.nMin
  nMax : e'.nMax = e.nMax
  gridMin : e'.gridMin = e.gridMin + D
  gridMax : e'.gridMax = e.gridMax + D
  lo : e'.lo = e.lo + D
  hi : e'.hi = e.hi + D

/-- The stored limits of tile `u` of species `is` contain `p`. -/
def InStored (w : World) (is : ℕ) (u : I3) (p : Part n) : Prop := ∀ a, (w.tiles is u a).lo ≤ pos p a ∧ pos p a < (w.tiles is u a).hi

/-- The particle lies in the subdomain. -/
def InLocal (w : World) (p : Part n) : Prop := ∀ a, (w.b a).minLoc ≤ pos p a ∧ pos p a < (w.b a).maxLoc

/-- Index along a direction. -/
def ix (u : I3) : Ax → ℤ
  | .x => u.j
  | .y => u.k
  | .z => u.l

/-- Geometry along a direction. -/
def geo (g : Geo) : Ax → Geo1
  | .x => g.x
  | .y => g.y
  | .z => g.z

/-- The state after initialisation: local limits and tile extents are those of the tile split (`Fits`, C58) of geometry `g`. -/
structure Initial (w : World) (g : Geo) : Prop where
  fits : Fits g w.nt
  min : ∀ a, (w.b a).minLoc = (geo g a).xmin
  max : ∀ a, (w.b a).maxLoc = (geo g a).xmax
  pmin : ∀ a, (w.b a).minLocPart = (geo g a).pmin
  pmax : ∀ a, (w.b a).maxLocPart = (geo g a).pmax
  tiles : ∀ is, is < w.nspecies → ∀ u, InBox ⟨1, 1, 1⟩ w.nt u → ∀ a, w.tiles is u a = (geo g a).ext (ix u a)

/-- Limits used by the particle boundary conditions, as read from the state; `dx`, the flags and the boundary types of `A` and the length do not
change. -/
def axisOf (A : Ax → Axis) (w : World) (a : Ax) : Axis :=
  ⟨(w.b a).minLocPart, (w.b a).maxLocPart, (w.b a).minPart, (w.b a).maxPart, (A a).len, (A a).dx, (A a).bmin, (A a).bmax, (A a).kmin, (A a).kmax⟩

def limOf (w : World) (is : ℕ) (u : I3) : TileLim := ⟨fun a => (w.tiles is u a).lo, fun a => (w.tiles is u a).hi⟩

/-- The same outcome for the shifted particle. -/
def shiftOut (D : Ax → ℝ) : Outcome n → Outcome n
  | .removed => .removed
  | .kept p => .kept (shiftPart D p)
  | .sent d p => .sent d (shiftPart D p)

end Picsar.Window
