import Verif.Model.Loading
import Verif.Model.ChargeVec
import Mathlib.Analysis.SpecialFunctions.Trigonometric.Basic
import Mathlib.Analysis.SpecialFunctions.Complex.Circle
import Mathlib.Analysis.Real.Sqrt

/-
Laser antennas: src/parallelization/tiling/tiling.F90, load_laser_species (1737-1919), and src/particle_pushers/laser_pusher_manager_3d.F90 (all).
Line numbers without file name are those of tiling.F90 in the first half and of laser_pusher_manager_3d.F90 in the second half.
Reals and complex numbers for floating point. A division by zero (0/0 or x/0, NaN or Inf in the code) is an outcome. The print-outs are left out.
The model gives the list of the calls of `add_particle_to_species`; what a call does is modelled in Model/Tiling.
-/
namespace Picsar.Antenna
open Picsar Picsar.Grid Picsar.Deposition Picsar.Loading

/-- `REAL(num), DIMENSION(3)`. -/
abbrev V3 := Fin 3 → ℝ

/-- `SUM(a*b)`. -/
def dot (a b : V3) : ℝ := a 0 * b 0 + a 1 * b 1 + a 2 * b 2

/-- `clight`, `emass`, `echarge`, `eps0` (non-zero constants of modules.F90: divisions by them are not checked). -/
structure Consts where
  c : ℝ
  me : ℝ
  e : ℝ
  eps0 : ℝ

/-- Settings of an antenna read from the input file (modules.F90:474-499). -/
structure Settings where
  vec : V3
  pol : V3
  spot : V3
  a1 : ℝ
  a2 : ℝ
  lam : ℝ
  w0 : ℝ
  ctau : ℝ
  tpeak : ℝ
  polangle : ℝ
  order : ℤ
  window : ℤ

/-- What the initialisation computes. -/
structure Laser where
  vec : V3
  spot : V3
  pol1 : V3
  pol2 : V3
  intercept : ℝ
  tau : ℝ
  k0 : ℝ
  e1 : ℝ
  e2 : ℝ
  emax : ℝ
  q : ℂ

/-- `v/SQRT(SUM(v**2))` (1759, 1761). -/
noncomputable def normalise (v : V3) : Res V3 := if √(dot v v) = 0 then .error .divByZero else .ok fun i => v i / √(dot v v)

/-- `polvector2 = vector x polvector1` (1767-1772). -/
def cross (v p : V3) : V3 := ![v 1 * p 2 - v 2 * p 1, v 2 * p 0 - v 0 * p 2, v 0 * p 1 - v 1 * p 0]

/-- In two dimensions `vector(2) = 0`, `spot_y = 0` (1753-1756). -/
def flat (dim : ℤ) (v : V3) : V3 := if dim = 2 then ![v 0, 0, v 2] else v

/-- First part of `load_laser_species` (1753-1806). `none`: `IF (laser%Emax .EQ. 0._num) RETURN` (1789). The message about polarisations that are not
orthogonal (1763) has no effect. -/
noncomputable def prepare (dim : ℤ) (K : Consts) (s : Settings) : Res (Option Laser) := do
  let vec ← normalise (flat dim s.vec)
  let spot := flat dim s.spot
  let pol1 ← normalise s.pol
  let pol2 := cross vec pol1
  let intercept := vec 0 * spot 0 + vec 1 * spot 1 + vec 2 * spot 2
  let tau := s.ctau / K.c
  if s.lam = 0 then .error .divByZero else do
  let k0 := 2 * Real.pi / s.lam
  let e1 := s.a1 * K.c ^ 2 * K.me * k0 / K.e
  let e2 := s.a2 * K.c ^ 2 * K.me * k0 / K.e
  let E : V3 := fun i => e1 * pol1 i + e2 * pol2 i
  let emax := √(dot E E)
  if emax = 0 then .ok none else do
  let zr := 1 / 2 * k0 * s.w0 ^ 2
  if zr = 0 then .error .divByZero else
  if s.w0 ^ 2 = 0 then .error .divByZero else
  if dot vec vec = 0 then .error .exception else
  .ok (some ⟨vec, spot, pol1, pol2, intercept, tau, k0, e1, e2, emax, Complex.I * (s.w0 ^ 2 : ℝ) * (Real.pi : ℝ) / (s.lam : ℝ)⟩)

/-- `i1`, `i2`, `inonz` (1808-1828). -/
noncomputable def dirs (v : V3) : Fin 3 × Fin 3 × Fin 3 := if v 2 ≠ 0 then (0, 1, 2) else if v 1 ≠ 0 then (0, 2, 1) else (1, 2, 0)

/-- `jmax`, `lmax` (1810-1827): the number of cells, 1 along y in two dimensions. -/
noncomputable def ncells (dim : ℤ) (m : Fin 3 → Axis) (i : Fin 3) : ℤ := if dim = 2 ∧ i = 1 then 1 else nint (((m i).hi - (m i).lo) / (m i).d)

/-- `pos(i1) = (mins(i1)+(j-1)*dst(i1))+(dst(i1))/2.0_num` (1863, 1865). -/
noncomputable def centre (a : Axis) (j : ℤ) : ℝ := (a.lo + (j - 1) * a.d) + a.d / 2

/-- Position of the point of the plane over cell `(j,l)` (1863-1870). -/
noncomputable def point (dim : ℤ) (L : Laser) (m : Fin 3 → Axis) (l j : ℤ) : V3 :=
  let (i1, i2, n) := dirs L.vec
  let p1 := centre (m i1) j
  let p2 := centre (m i2) l
  let p := (L.intercept - L.vec i1 * p1 - L.vec i2 * p2) / L.vec n
  let pos : V3 := fun i => if i = n then p else if i = i1 then p1 else p2
  if dim = 2 then Function.update pos 1 0 else pos

/-- `sx(i) = 1`, `IF(pol(i) .NE. 0._num) sx(i) = ABS(dx/pol(i))` (1836-1846). -/
noncomputable def spacing (m : Fin 3 → Axis) (p : V3) (i : Fin 3) : ℝ := if p i ≠ 0 then |(m i).d / p i| else 1

/-- `MINVAL(sx)`. -/
noncomputable def minval (s : V3) : ℝ := min (s 0) (min (s 1) (s 2))

/-- `weight_laser` (1836-1860). -/
noncomputable def weight (dim : ℤ) (K : Consts) (L : Laser) (m : Fin 3 → Axis) : ℝ :=
  if dim = 3 then K.eps0 * L.emax / (1 / 100) * minval (spacing m L.pol1) * minval (spacing m L.pol2)
  else K.eps0 * L.emax / (1 / 100) * minval (if L.pol2 1 = 0 then ![spacing m L.pol2 0, 1, spacing m L.pol2 2]
    else if L.pol1 1 = 0 then ![spacing m L.pol1 0, 1, spacing m L.pol1 2] else ![1, 1, 1])

/-- A particle of an antenna: position, momentum, inverse gamma, `pid(1)` (weight), `pid(2)`, `pid(3)` (coordinates in the plane). -/
structure APart where
  pos : V3
  u : V3
  gaminv : ℝ
  w : ℝ
  X : ℝ
  Y : ℝ

/-- The particle added for cell `(j,l)` (1876-1890). -/
noncomputable def born (dim : ℤ) (K : Consts) (L : Laser) (m : Fin 3 → Axis) (l j : ℤ) : APart :=
  let pos := point dim L m l j
  ⟨pos, fun _ => 0, 1, weight dim K L m, dot (fun i => pos i - L.spot i) L.pol1, dot (fun i => pos i - L.spot i) L.pol2⟩

open Classical in
/-- The loops over the cells (1862-1894): particles of the local domain. -/
noncomputable def emitters (dim : ℤ) (K : Consts) (L : Laser) (m : Fin 3 → Axis) : List APart :=
  let (i1, i2, n) := dirs L.vec
  (irange 1 (ncells dim m i2)).flatMap fun l => (irange 1 (ncells dim m i1)).flatMap fun j =>
    if point dim L m l j n ≥ (m n).lo ∧ point dim L m l j n < (m n).hi then [born dim K L m l j] else []

/-- `load_laser_species`. -/
noncomputable def loadAntenna (dim : ℤ) (K : Consts) (s : Settings) (m : Fin 3 → Axis) : Res (List APart) := do
  match ← prepare dim K s with
  | none => .ok []
  | some L => .ok (emitters dim K L m)

/-! ### laser_pusher_manager_3d.F90 -/

/-- `x**n` with an integer exponent (402, 404). -/
noncomputable def ipow (x : ℝ) (n : ℤ) : Res ℝ := if n < 0 ∧ x = 0 then .error .divByZero else .ok (x ^ n)

/-- `gaussian_profile` (368-415). -/
noncomputable def gaussian (K : Consts) (s : Settings) (L : Laser) (xx yy t : ℝ) : Res V3 := do
  let base : ℂ := Complex.I * L.k0 * K.c * (t - s.tpeak) - Complex.I * L.k0 * (xx ^ 2 + yy ^ 2) / (2 * L.q)
  let (u1, u2) ← if s.order = 0 then (.ok (base, base) : Res (ℂ × ℂ)) else if L.tau = 0 then .error .divByZero else do
    let d ← ipow ((t - s.tpeak) / L.tau) s.order
    .ok (base - d, base - d + s.polangle * 2 * Real.pi * Complex.I)
  let u1 := Complex.exp u1 * L.e1
  let u2 := Complex.exp u2 * L.e2
  .ok fun i => (u1 * L.pol1 i + u2 * L.pol2 i).im

/-- `hanning_profile` (426-478). -/
noncomputable def hanning (K : Consts) (s : Settings) (L : Laser) (xx yy t : ℝ) : Res V3 :=
  if t ≤ 2 * s.tpeak then
    if 2 * s.tpeak = 0 then .error .divByZero else
    let base : ℂ := -Complex.I * L.k0 * ((xx ^ 2 + yy ^ 2) / (2 * L.q) - K.c * (t - s.tpeak))
    let window : ℝ := 1 / 2 - 1 / 2 * Real.cos (t * 2 * Real.pi / (2 * s.tpeak))
    let u1 : ℂ := Complex.exp base * L.e1 * window
    let u2 : ℂ := Complex.exp (base + Complex.I * s.polangle * 2 * Real.pi) * L.e2 * window
    .ok fun i => (u1 * L.pol1 i + u2 * L.pol2 i).re
  else .ok fun _ => 0

/-- The profile of the antenna: `time_window == 0` or not (55, 65). -/
noncomputable def profile (K : Consts) (s : Settings) (L : Laser) (xx yy t : ℝ) : Res V3 :=
  if s.window = 0 then gaussian K s L xx yy t else hanning K s L xx yy t

/-- One particle of the pusher (245-263, 331-348); `dt` and `charge` are those of the step and of the species. -/
noncomputable def pushOne (dim : ℤ) (K : Consts) (s : Settings) (L : Laser) (charge dt t : ℝ) (p : APart) : Res APart := do
  let amp ← profile K s L p.X p.Y t
  let coeff := (1 / 100 * K.c) / L.emax
  let u : V3 := fun i => charge * amp i * coeff
  .ok ⟨fun i => if i = 1 ∧ dim ≠ 3 then p.pos i else p.pos i + dt * u i, u, 1, p.w, p.X, p.Y⟩

/-- `laserp_pusher_gaussian`, `laserp_pusher_hanning` on one tile: blocks of `lvect` particles (227-270, 313-355). -/
noncomputable def pushTile (dim : ℤ) (K : Consts) (s : Settings) (L : Laser) (charge dt t : ℝ) (lvect : ℕ) (ps : List APart) : Res (List APart) :=
  (List.range (ChargeVec.nblocks lvect ps.length)).foldlM (fun acc b => do
    let r ← (ChargeVec.block lvect ps b).mapM (pushOne dim K s L charge dt t)
    .ok (acc ++ r)) []

/-- `real_time=it*dt-dt/2.0_num` (37). -/
noncomputable def realTime (it : ℤ) (dt : ℝ) : ℝ := it * dt - dt / 2

/-- `push_laser_particles` for the tiles of one antenna species at step `it` (15-91). -/
noncomputable def pushSpecies (dim : ℤ) (K : Consts) (s : Settings) (L : Laser) (charge dt : ℝ) (it : ℤ) (tiles : List (List APart)) : Res (List (List APart)) :=
  tiles.mapM fun ps => if ps.length = 0 then .ok ps else pushTile dim K s L charge dt (realTime it dt) 8 ps

/-- `store_first_indexes` (131-143): number of particles in the tiles before, in the order of the loops. -/
def firstIndexes : List (List APart) → ℕ → List ℕ
  | [], _ => []
  | ps :: ts, counter => counter :: firstIndexes ts (counter + ps.length)

/-- Element `i` of the array `amp_x(1:n)`, `amp_y`, `amp_z`. -/
def ampAt (amp : List V3) (i : ℕ) : Res V3 := match amp[i]? with
  | some a => .ok a
  | none => .error .outOfBounds

/-- `laser_pusher_profile` (107-181): amplitudes from Python; `i+counter` counts from 1 in the code, from 0 here. -/
def pushGiven (charge dt : ℝ) (amp : List V3) (src : V3) (tiles : List (List APart)) : Res (List (List APart)) :=
  (tiles.zip (firstIndexes tiles 0)).mapM fun tc => tc.1.zipIdx.mapM fun pi => do
    let a ← ampAt amp (pi.2 + tc.2)
    .ok ⟨fun i => pi.1.pos i + dt * (charge * a i + src i), fun i => charge * a i + src i, pi.1.gaminv, pi.1.w, pi.1.X, pi.1.Y⟩

end Picsar.Antenna
