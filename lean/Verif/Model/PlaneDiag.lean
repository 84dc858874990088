import Verif.Model.PartExchange
/-
Particle diagnostics for scripts (src/diags/diags.F90:473-845): number of particles of a species, values of all particles of a species, particles
that cross a moving plane and their quantities on the plane.
-/
namespace Picsar.PlaneDiag
open Picsar Picsar.Grid Picsar.Tiling Picsar.PartExchange

variable {n : ℕ}

/-- `get_local_number_of_particles_from_species` (diags.F90:487-508); the sum does not depend on the order of the threads. -/
def localNumber (S : Species n) : ℤ := ((box ⟨1, 1, 1⟩ S.nt).map fun u => (S.tiles u).np).sum

/-- The loop body of `getquantity` and `getquantity_pid` for one tile (diags.F90:584-616, 659-663). The state is `quantityarray` and `compt`. -/
def copyTile (a : Attr n) (S : Species n) (s : FArr ℝ × ℤ) (u : I3) : Res (FArr ℝ × ℤ) :=
  if (S.tiles u).np = 0 then .ok s else do
  let vs ← slice ((S.tiles u).arr a) 1 (S.tiles u).np.toNat
  let b ← setFrom s.2 vs s.1
  .ok (b, s.2 + (S.tiles u).np)

/-- All tiles, into an array of `nptot` elements that are undefined before (`INTENT(OUT)`). -/
def copyAll (a : Attr n) (S : Species n) (nptot : ℤ) : Res (FArr ℝ) := do
  let s ← (box ⟨1, 1, 1⟩ S.nt).foldlM (copyTile a S) (FArr.undef nptot, 1)
  .ok s.1

/-- The cases of `SELECT CASE (quantity)` (diags.F90:587-612). -/
def quantity : ℤ → Option (Attr n)
  | 1 => some .x | 2 => some .y | 3 => some .z | 4 => some .ux | 5 => some .uy | 6 => some .uz
  | 7 => some .ex | 8 => some .ey | 9 => some .ez | 10 => some .bx | 11 => some .by | 12 => some .bz
  | _ => none

/-- `getquantity` (diags.F90:577-619). Without a case nothing is assigned. -/
def getquantity (S : Species n) (k nptot : ℤ) : Res (FArr ℝ) :=
  match quantity k with
  | some a => copyAll a S nptot
  | none => .ok (FArr.undef nptot)

/-- `getquantity_pid` (diags.F90:650-667) for an existing column. -/
def getquantityPid (S : Species n) (k : Fin n) (nptot : ℤ) : Res (FArr ℝ) := copyAll (.pid k) S nptot

/-- What `load_test_plane` returns: `index_particle`, `particle_relative_position`, `particle_relative_position_old`, `npnew`. -/
structure Test where
  mask : FArr ℤ
  rel : FArr ℝ
  relOld : FArr ℝ
  npnew : ℤ

/-- The position of `(x, y, z)` relative to a plane with normal `N` through `c` (diags.F90:707-710, 712-715). -/
def relPos (N c : Fin 3 → ℝ) (x y z : ℝ) : ℝ := N 0 * (x - c 0) + N 1 * (y - c 1) + N 2 * (z - c 2)

open Classical in
/-- The loop body of `load_test_plane` (diags.F90:706-722). -/
noncomputable def testStep (N c cOld : Fin 3 → ℝ) (X XOld : Fin 3 → FArr ℝ) (s : Test) (i : ℤ) : Res Test := do
  let xo ← (XOld 0).get i
  let yo ← (XOld 1).get i
  let zo ← (XOld 2).get i
  let relOld ← s.relOld.set i (relPos N cOld xo yo zo)
  let x ← (X 0).get i
  let y ← (X 1).get i
  let z ← (X 2).get i
  let rel ← s.rel.set i (relPos N c x y z)
  if relPos N cOld xo yo zo ≤ 0 ∧ relPos N c x y z > 0 then do
    let mask ← s.mask.set i 1
    .ok ⟨mask, rel, relOld, s.npnew + 1⟩
  else .ok ⟨s.mask, rel, relOld, s.npnew⟩

/-- `load_test_plane` (diags.F90:681-725). `mask` is what the caller's array `index_particle` contains: the routine assigns only elements of particles
that cross. -/
noncomputable def loadTestPlane (nptot : ℤ) (N c cOld : Fin 3 → ℝ) (X XOld : Fin 3 → FArr ℝ) (mask : FArr ℤ) : Res Test :=
  (irange 1 nptot).foldlM (testStep N c cOld X XOld) ⟨mask, FArr.undef nptot, FArr.undef nptot, 0⟩

/-- The loop body of `select_quantity` (diags.F90:748-753). The state is `quantity_array_new` and `compt`. -/
def selStep (mask : FArr ℤ) (q : FArr ℝ) (s : FArr ℝ × ℤ) (i : ℤ) : Res (FArr ℝ × ℤ) := do
  let m ← mask.get i
  if m = 1 then do
    let v ← q.get i
    let b ← s.1.set s.2 v
    .ok (b, s.2 + 1)
  else .ok s

/-- `select_quantity` (diags.F90:735-754). -/
def select (nptot npnew : ℤ) (mask : FArr ℤ) (q : FArr ℝ) : Res (FArr ℝ) := do
  let s ← (irange 1 nptot).foldlM (selStep mask q) (FArr.undef npnew, 1)
  .ok s.1

open Classical in
/-- The loop body of `interpolate_quantity` (diags.F90:815-823). -/
noncomputable def interpStep (r ro pv cv : FArr ℝ) (out : FArr ℝ) (i : ℤ) : Res (FArr ℝ) := do
  let o ← ro.get i
  let p ← r.get i
  if |o| + p = 0 then .error .divByZero else do
  let c ← cv.get i
  let v ← pv.get i
  out.set i (|o| * (1 / (|o| + p)) * c + p * (1 / (|o| + p)) * v)

/-- `interpolate_quantity` (diags.F90:767-834). The iterations of the parallel loop use different elements and are taken in order. -/
noncomputable def interpolate (nptot npnew : ℤ) (mask : FArr ℤ) (prev cur rel relOld : FArr ℝ) : Res (FArr ℝ) :=
  if npnew > 0 then do
    let pv ← select nptot npnew mask prev
    let cv ← select nptot npnew mask cur
    let r ← select nptot npnew mask rel
    let ro ← select nptot npnew mask relOld
    (irange 1 npnew).foldlM (interpStep r ro pv cv) (FArr.undef npnew)
  else .ok (FArr.undef npnew)

end Picsar.PlaneDiag
