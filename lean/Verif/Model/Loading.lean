import Verif.Model.Deposition
import Mathlib.Analysis.SpecialFunctions.Log.Basic
import Mathlib.Analysis.SpecialFunctions.Trigonometric.Basic
import Mathlib.Analysis.Real.Sqrt

/-
Initial loading of the plasma: src/parallelization/tiling/tiling.F90, load_particles (861-1069).
The model gives the list of the calls of `add_particle_to_species`, in order, for every species; what a call does is modelled in Model/Tiling.
Reals for floating point. Random numbers are an arbitrary sequence of reals. The square root of a negative number and the division by zero
are outcomes.
-/
namespace Picsar.Loading
open Picsar Picsar.Grid Picsar.Deposition

/-- One direction of the subdomain: `x_min_local`, `x_max_local`, `dx`. -/
structure Axis where
  lo : ℝ
  hi : ℝ
  d : ℝ

/-- Subdomain and constants: `nc` (density), `clight`. -/
structure Dom where
  x : Axis
  y : Axis
  z : Axis
  nc : ℝ
  c : ℝ

/-- Species settings used by the loading. -/
structure Sp where
  antenna : Bool
  npp : ℤ
  xmin : ℝ
  xmax : ℝ
  ymin : ℝ
  ymax : ℝ
  zmin : ℝ
  zmax : ℝ
  vdx : ℝ
  vdy : ℝ
  vdz : ℝ
  vtx : ℝ
  vty : ℝ
  vtz : ℝ

/-- `jmin = NINT(MAX(curr%x_min-x_min_local, 0.0_num)/dx)` (881, 883, 885; 925, 927; 966, 968, 970; 1011, 1013, 1015). -/
noncomputable def first (a : Axis) (smin : ℝ) : ℤ := nint (max (smin - a.lo) 0 / a.d)

/-- `jmax = NINT(MIN(curr%x_max-x_min_local, x_max_local-x_min_local)/dx)` (882, 884, 886; 926, 928; 967, 969, 971; 1012, 1014, 1016). -/
noncomputable def last (a : Axis) (smax : ℝ) : ℤ := nint (min (smax - a.lo) (a.hi - a.lo) / a.d)

/-- `DO j=jmin, jmax-1`. -/
noncomputable def cellsOf (a : Axis) (smin smax : ℝ) : List ℤ := irange (first a smin) (last a smax - 1)

/-- Position and weight of a macroparticle. -/
structure Site where
  x : ℝ
  y : ℝ
  z : ℝ
  w : ℝ

/-- `partx = x_min_local+j*dx+dx/curr%nppcell*(ipart-0.5_num)` (893-895). -/
noncomputable def place (a : Axis) (npp : ℤ) (j ip : ℤ) : ℝ := a.lo + j * a.d + a.d / npp * (ip - 1 / 2)

/-- `partx = x_min_local+j*dx+dx/curr%nppcell*(ipart-1)` (933-934). -/
noncomputable def place2 (a : Axis) (npp : ℤ) (j ip : ℤ) : ℝ := a.lo + j * a.d + a.d / npp * (ip - 1)

/-- Uniform distribution in three dimensions: positions and weights in the order of the loops (888-896). -/
noncomputable def sites (m : Dom) (s : Sp) : List Site :=
  (cellsOf m.z s.zmin s.zmax).flatMap fun l => (cellsOf m.y s.ymin s.ymax).flatMap fun k => (cellsOf m.x s.xmin s.xmax).flatMap fun j =>
    (irange 1 s.npp).map fun ip => ⟨place m.x s.npp j ip, place m.y s.npp k ip, place m.z s.npp l ip, m.nc * m.x.d * m.y.d * m.z.d / s.npp⟩

/-- Uniform distribution in the plane (929-935); `y` is not used. -/
noncomputable def sites2 (m : Dom) (s : Sp) : List Site :=
  (cellsOf m.z s.zmin s.zmax).flatMap fun l => (cellsOf m.x s.xmin s.xmax).flatMap fun j =>
    (irange 1 s.npp).map fun ip => ⟨place2 m.x s.npp j ip, 0, place2 m.z s.npp l ip, m.nc * m.x.d * m.z.d / s.npp⟩

/-- Velocity: `partvx`, `partvy`, `partvz` (898-906; 937-944; 983-990). -/
noncomputable def thermal (s : Sp) (r1 r2 r3 : ℝ) : ℝ × ℝ × ℝ :=
  let v := max (1 / 10 ^ 10) r1
  let th := 2 * Real.pi * r2
  let phi := 2 * Real.pi * r3
  (s.vdx + s.vtx * √(-2 * Real.log v) * Real.cos th * Real.cos phi, s.vdy + s.vty * √(-2 * Real.log v) * Real.cos th * Real.sin phi,
    s.vdz + s.vtz * √(-2 * Real.log v) * Real.sin th)

/-- `gaminv = SQRT(1.0_num - (partvx**2 + partvy**2 + partvz**2)*clightsq)`, `partux = partvx/gaminv`, ... with `clightsq=1/clight**2`, and the
particle handed to `add_particle_to_species` (908-917; 946-953; 992-1000; 1037-1045). The square root of a negative number is an exception. -/
noncomputable def particle (c : ℝ) (p : Site) (v : ℝ × ℝ × ℝ) : Res Part :=
  let q := 1 - (v.1 ^ 2 + v.2.1 ^ 2 + v.2.2 ^ 2) * (1 / c ^ 2)
  if q < 0 then .error .exception
  else if √q = 0 then .error .divByZero
  else .ok ⟨p.x, p.y, p.z, v.1 / √q, v.2.1 / √q, v.2.2 / √q, √q, p.w⟩

/-- Uniform distribution of one species in three dimensions (`pdistr=1`, 880-922): three random numbers per particle, from number `n` on. -/
noncomputable def uniform (m : Dom) (s : Sp) (rng : ℕ → ℝ) (n : ℕ) : Res (List Part) :=
  (sites m s).zipIdx.mapM fun p => particle m.c p.1 (thermal s (rng (n + 3 * p.2)) (rng (n + 3 * p.2 + 1)) (rng (n + 3 * p.2 + 2)))

/-- Uniform distribution of one species in the plane (923-957). -/
noncomputable def uniform2 (m : Dom) (s : Sp) (rng : ℕ → ℝ) (n : ℕ) : Res (List Part) :=
  (sites2 m s).zipIdx.mapM fun p => particle m.c p.1 (thermal s (rng (n + 3 * p.2)) (rng (n + 3 * p.2 + 1)) (rng (n + 3 * p.2 + 2)))

/-- `partx = x_min_local+MIN(rng(1), 0.999_num)*(x_max_local-x_min_local)` (978-980, 1023-1025). -/
noncomputable def anywhere (a : Axis) (r : ℝ) : ℝ := a.lo + min r (999 / 1000) * (a.hi - a.lo)

/-- Number of particles of the random distribution: the loops of 972-975 and 1017-1020. -/
noncomputable def slots (m : Dom) (s : Sp) : List Unit :=
  (cellsOf m.z s.zmin s.zmax).flatMap fun _ => (cellsOf m.y s.ymin s.ymax).flatMap fun _ => (cellsOf m.x s.xmin s.xmax).flatMap fun _ =>
    (irange 1 s.npp).map fun _ => ()

/-- Random distribution of one species (`pdistr=2`, 966-1003): six random numbers per particle. -/
noncomputable def random (m : Dom) (s : Sp) (rng : ℕ → ℝ) (n : ℕ) : Res (List Part) :=
  (slots m s).zipIdx.mapM fun p =>
    let r := fun i => rng (n + 6 * p.2 + i)
    particle m.c ⟨anywhere m.x (r 0), anywhere m.y (r 1), anywhere m.z (r 2), m.nc * m.x.d * m.y.d * m.z.d / s.npp⟩ (thermal s (r 3) (r 4) (r 5))

/-- Velocity of the third distribution (1030-1035): `vth_x` in the three directions. -/
noncomputable def shell (s : Sp) (r2 r3 : ℝ) : ℝ × ℝ × ℝ :=
  (s.vdx + s.vtx * Real.cos (2 * Real.pi * r2) * Real.cos (2 * Real.pi * r3), s.vdy + s.vtx * Real.cos (2 * Real.pi * r2) * Real.sin (2 * Real.pi * r3),
    s.vdz + s.vtx * Real.sin (2 * Real.pi * r2))

/-- Third distribution of one species (1011-1049). -/
noncomputable def given (m : Dom) (s : Sp) (rng : ℕ → ℝ) (n : ℕ) : Res (List Part) :=
  (slots m s).zipIdx.mapM fun p =>
    let r := fun i => rng (n + 6 * p.2 + i)
    particle m.c ⟨anywhere m.x (r 0), anywhere m.y (r 1), anywhere m.z (r 2), m.nc * m.x.d * m.y.d * m.z.d / s.npp⟩ (shell s (r 4) (r 5))

/-- Loop over the species for the first two distributions (877-879, 963-965): `curr=>species_parray(ispecies)`, then
`IF (curr%is_antenna) CYCLE`. `draws` is the number of random numbers a species takes. -/
noncomputable def loadEach (one : Sp → ℕ → Res (List Part)) (draws : Sp → ℕ) : List Sp → ℕ → Res (List (List Part))
  | [], _ => .ok []
  | s :: ss, n => if s.antenna then do
      let rest ← loadEach one draws ss n
      .ok ([] :: rest)
    else do
      let ps ← one s n
      let rest ← loadEach one draws ss (n + draws s)
      .ok (ps :: rest)

/-- Loop over the species for the third distribution (1008-1010): the test `IF (curr%is_antenna) CYCLE` comes before
`curr=>species_parray(ispecies)`, so it looks at the species before, and at an undefined pointer for the first one. -/
noncomputable def loadThird (one : Sp → ℕ → Res (List Part)) (draws : Sp → ℕ) : Option Sp → List Sp → ℕ → Res (List (List Part))
  | _, [], _ => .ok []
  | none, _ :: _, _ => .error .uninitialised
  | some curr, s :: ss, n => if curr.antenna then do
      let rest ← loadThird one draws (some curr) ss n
      .ok ([] :: rest)
    else do
      let ps ← one s n
      let rest ← loadThird one draws (some s) ss (n + draws s)
      .ok (ps :: rest)

/-- `load_particles`, `c_dim = dim`. -/
noncomputable def loadParticles (pdistr : ℤ) (dim : ℤ) (m : Dom) (rng : ℕ → ℝ) (ss : List Sp) : Res (List (List Part)) :=
  if pdistr = 1 then
    if dim = 3 then loadEach (fun s n => uniform m s rng n) (fun s => 3 * (sites m s).length) ss 0
    else if dim = 2 then loadEach (fun s n => uniform2 m s rng n) (fun s => 3 * (sites2 m s).length) ss 0
    else .ok (ss.map fun _ => [])
  else if pdistr = 2 then loadEach (fun s n => random m s rng n) (fun s => 6 * (slots m s).length) ss 0
  else if pdistr = 3 then loadThird (fun s n => given m s rng n) (fun s => 6 * (slots m s).length) none ss 0
  else .ok (ss.map fun _ => [])

end Picsar.Loading
