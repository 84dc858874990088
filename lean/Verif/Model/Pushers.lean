import Verif.Base
import Verif.Model.Vec3
import Mathlib.Analysis.Real.Pi.Bounds

/-
Model of src/particle_pushers/boris_pusher/boris_3d.F90, boris_2d.F90 and vay_pusher/vay_3d.F90, over ℝ. The particle arrays
are modelled by one list of records (element `ip` of every array).
-/
namespace Picsar
namespace Push

/-- One particle: position, momentum per mass, inverse Lorentz factor, and the gathered fields. -/
structure Part where
  pos : V3
  u : V3
  gi : ℝ
  e : V3
  b : V3

/-- boris_3d.F90:101-102, 126-127, 1094-1096 (`pxr_set_gamma`): `usq = |u|^2/c^2`, `gaminv = 1/sqrt(1+usq)`. -/
noncomputable def invGamma (c : ℝ) (u : V3) : ℝ :=
  1 / Real.sqrt (1 + (u.x ^ 2 + u.y ^ 2 + u.z ^ 2) * (1 / c ^ 2))

/-- boris_3d.F90:96-98, 121-123, 944-946: electric push with `const = k`. -/
def ePush (k : ℝ) (u e : V3) : V3 := ⟨u.x + e.x * k, u.y + e.y * k, u.z + e.z * k⟩

/-- boris_3d.F90:105-117, 1013-1025: magnetic rotation with inverse Lorentz factor `g` and `const = k`. -/
noncomputable def bRot (k g : ℝ) (u b : V3) : V3 :=
  let tx := g * b.x * k
  let ty := g * b.y * k
  let tz := g * b.z * k
  let tsqi := 2 / (1 + tx ^ 2 + ty ^ 2 + tz ^ 2)
  let sx := tx * tsqi
  let sy := ty * tsqi
  let sz := tz * tsqi
  let uxppr := u.x + u.y * tz - u.z * ty
  let uyppr := u.y + u.z * tx - u.x * tz
  let uzppr := u.z + u.x * ty - u.y * tx
  ⟨u.x + uyppr * sz - uzppr * sy, u.y + uzppr * sx - uxppr * sz, u.z + uxppr * sy - uyppr * sx⟩

/-- boris_3d.F90:95-127, 787-817: body of the particle loop of `pxr_boris_push_u_3d` (and of the blocked variant), with
`const = q*dt*0.5/m`. -/
noncomputable def borisOne (c q m dt : ℝ) (p : Part) : Part :=
  let k := q * dt * 0.5 / m
  let u1 := ePush k p.u p.e
  let g := invGamma c u1
  let u2 := bRot k g u1 p.b
  let u3 := ePush k u2 p.e
  { p with u := u3, gi := invGamma c u3 }

/-- boris_3d.F90:917-957 `pxr_epush_v`, one particle (`const = q*dt/m`). -/
noncomputable def ePushOne (q m dt : ℝ) (p : Part) : Part := { p with u := ePush (q * dt / m) p.u p.e }

/-- boris_3d.F90:982-1037 `pxr_bpush_v`, one particle (`const = q*dt*0.5/m`; uses the stored inverse Lorentz factor). -/
noncomputable def bPushOne (q m dt : ℝ) (p : Part) : Part := { p with u := bRot (q * dt * 0.5 / m) p.gi p.u p.b }

/-- boris_3d.F90:1059-1107 `pxr_set_gamma`, one particle. -/
noncomputable def setGammaOne (c : ℝ) (p : Part) : Part := { p with gi := invGamma c p.u }

/-- boris_3d.F90:849-893 `pxr_pushxyz`, one particle. -/
def pushXyzOne (dt : ℝ) (p : Part) : Part :=
  { p with pos := ⟨p.pos.x + p.u.x * p.gi * dt, p.pos.y + p.u.y * p.gi * dt, p.pos.z + p.u.z * p.gi * dt⟩ }

/-- boris_2d.F90:42-60, 79-108 `pxr_pushxz`, `pxr_push2dxz`, one particle. -/
def pushXzOne (dt : ℝ) (p : Part) : Part :=
  { p with pos := ⟨p.pos.x + p.u.x * p.gi * dt, p.pos.y, p.pos.z + p.u.z * p.gi * dt⟩ }

/-- particle_pusher_manager_3d.F90:1121-1133 `pxrpush_particles_part1_sub` (Boris): half electric push, Lorentz factor,
half magnetic push. -/
noncomputable def part1Boris (c q m dt : ℝ) (p : Part) : Part :=
  bPushOne q m (dt * 0.5) (setGammaOne c (ePushOne q m (dt * 0.5) p))

/-- particle_pusher_manager_3d.F90:1209-1222 `pxrpush_particles_part2` (Boris): half magnetic push, half electric push,
Lorentz factor. -/
noncomputable def part2Boris (c q m dt : ℝ) (p : Part) : Part :=
  setGammaOne c (ePushOne q m (dt * 0.5) (bPushOne q m (dt * 0.5) p))

/-! ### Loops -/

/-- The body of a particle loop applied to particle number `ip` (1-based). -/
def atParticle (f : Part → Part) (ip : ℕ) (l : List Part) : Res (List Part) :=
  match ip with
  | 0 => .error .outOfBounds
  | i + 1 => do
    let p ← rd l i
    wr l i (f p)

/-- A loop over particle numbers. -/
def doLoop (f : Part → Part) : List ℕ → List Part → Res (List Part)
  | [], l => .ok l
  | ip :: is, l => do
    let l' ← atParticle f ip l
    doLoop f is l'

/-- `DO ip=1, np`. -/
def plainIdx (np : ℕ) : List ℕ := (List.range np).map fun (i : ℕ) => i + 1

/-- boris_3d.F90:762-786: `DO ip=1, np, lvect; blocksize = MIN(lvect, np-ip+1); DO n=1, blocksize; nn=ip+n-1`. A Fortran loop
with step `lvect` runs `(np-1+lvect)/lvect` times. -/
def blockIdx (np lvect : ℕ) : List ℕ :=
  (List.range ((np + lvect - 1) / lvect)).flatMap fun (k : ℕ) =>
    let ip := 1 + k * lvect
    (List.range (min lvect (np - ip + 1))).map fun (n : ℕ) => ip + (n + 1) - 1

/-- boris_3d.F90:51-141 `pxr_boris_push_u_3d`. -/
noncomputable def borisPush (c q m dt : ℝ) (np : ℕ) (l : List Part) : Res (List Part) :=
  doLoop (borisOne c q m dt) (plainIdx np) l

/-- boris_3d.F90:733-830 `pxr_boris_push_u_3d_block`. -/
noncomputable def borisPushBlock (c q m dt : ℝ) (np lvect : ℕ) (l : List Part) : Res (List Part) :=
  doLoop (borisOne c q m dt) (blockIdx np lvect) l

/-! ### Radiation reaction -/

/-- boris_3d.F90:221-311, body of `pxr_boris_push_rr_S09_u_3d`. `none`: a division by zero (`mu0*q**2 = 0` or a vanishing
denominator of `ddv`). -/
noncomputable def s09One (c mu0 q m dt : ℝ) (p : Part) : Option Part :=
  let old := p.u
  let k := q * dt * 0.5 / m
  let ul := (borisOne c q m dt p).u
  let dtinv := 1 / dt
  let cl := 1 / c ^ 2
  if mu0 * q ^ 2 = 0 ∨ dt = 0 then none
  else
    let tau0inv := 6 * Real.pi * m * c / (mu0 * q ^ 2)
    let al : V3 := ⟨(ul.x - old.x) * dtinv, (ul.y - old.y) * dtinv, (ul.z - old.z) * dtinv⟩
    let u : V3 := ⟨(ul.x + old.x) * 0.5, (ul.y + old.y) * 0.5, (ul.z + old.z) * 0.5⟩
    let usq := (u.x ^ 2 + u.y ^ 2 + u.z ^ 2) * cl
    let gam := Real.sqrt (1 + usq)
    let gi := 1 / gam
    let ual := u.x * al.x + u.y * al.y + u.z * al.z
    let den := tau0inv + cl * gi * ual
    if den = 0 then none
    else
      let ddv := 1 / den
      let dvx := ddv * (al.x - cl * gi ^ 2 * ual * u.x)
      let dvy := ddv * (al.y - cl * gi ^ 2 * ual * u.y)
      let dvz := ddv * (al.z - cl * gi ^ 2 * ual * u.z)
      let dval := dvx * al.x + dvy * al.y + dvz * al.z
      let urx := 2 * k * (dvy * p.b.z - dvz * p.b.y) - cl * gam * dval * u.x * dt
      let ury := 2 * k * (dvz * p.b.x - dvx * p.b.z) - cl * gam * dval * u.y * dt
      let urz := 2 * k * (dvx * p.b.y - dvy * p.b.x) - cl * gam * dval * u.z * dt
      let unew : V3 := ⟨old.x + urx + dt * al.x, old.y + ury + dt * al.y, old.z + urz + dt * al.z⟩
      some { p with u := unew, gi := invGamma c unew }

/-- boris_3d.F90:444-453: momentum halfway between the old one and the Lorentz-pushed one. -/
noncomputable def midU (old ul : V3) : V3 := ⟨(ul.x + old.x) * 0.5, (ul.y + old.y) * 0.5, (ul.z + old.z) * 0.5⟩

/-- boris_3d.F90:455: `crr=-(4*const*q**3*gamtmp)/(3*m**2*clight**5*4*pi*eps0)`. -/
noncomputable def b08Crr (c eps0 q m dt : ℝ) (u : V3) : ℝ :=
  let k := q * dt * 0.5 / m
  let gam := Real.sqrt (1 + (u.x ^ 2 + u.y ^ 2 + u.z ^ 2) * (1 / c ^ 2))
  let num := 4 * k * q ^ 3 * gam
  let crr := -num / (3 * m ^ 2 * c ^ 5 * 4 * Real.pi * eps0)
  crr

/-- boris_3d.F90:404-491, body of `pxr_boris_push_rr_B08_u_3d`. `none`: `upinvsq = 1/|u|^2` with `u = 0` (the momentum becomes
`infinity*0`, not a number). -/
noncomputable def b08One (c eps0 q m dt : ℝ) (p : Part) : Option Part :=
  let ul := (borisOne c q m dt p).u
  let u := midU p.u ul
  let gi := 1 / Real.sqrt (1 + (u.x ^ 2 + u.y ^ 2 + u.z ^ 2) * (1 / c ^ 2))
  let crr := b08Crr c eps0 q m dt u
  let u2 := u.x ^ 2 + u.y ^ 2 + u.z ^ 2
  if u2 = 0 then none
  else
    let upinvsq := 1 / u2
    let epar := upinvsq * (p.e.x * u.x + p.e.y * u.y + p.e.z * u.z)
    let etx := p.e.x - epar * u.x
    let ety := p.e.y - epar * u.y
    let etz := p.e.z - epar * u.z
    let fsq := crr * ((etx + gi * (u.y * p.b.z - u.z * p.b.y)) ^ 2 + (ety + gi * (u.z * p.b.x - u.x * p.b.z)) ^ 2 +
      (etz + gi * (u.x * p.b.y - u.y * p.b.x)) ^ 2)
    let unew : V3 := ⟨fsq * u.x + ul.x, fsq * u.y + ul.y, fsq * u.z + ul.z⟩
    some { p with u := unew, gi := invGamma c unew }

/-- boris_3d.F90:588-698, body of `pxr_boris_push_rr_LL_u_3d`; `eo`, `bo` are the fields of the previous step. `none`:
`1/dt` with `dt = 0`. -/
noncomputable def llOne (c eps0 q m dt : ℝ) (eo bo : V3) (p : Part) : Option Part :=
  if dt = 0 then none
  else
  let old := p.u
  let ulb := (borisOne c q m dt p).u
  let dtinv := 1 / dt
  let cl := 1 / c ^ 2
  let crr := q ^ 3 * dt / (6 * m ^ 2 * c ^ 3 * Real.pi * eps0)
  let qminv := q / m
  let ul : V3 := ⟨ulb.x - old.x, ulb.y - old.y, ulb.z - old.z⟩
  let de : V3 := ⟨dtinv * (p.e.x - eo.x), dtinv * (p.e.y - eo.y), dtinv * (p.e.z - eo.z)⟩
  let db : V3 := ⟨dtinv * (p.b.x - bo.x), dtinv * (p.b.y - bo.y), dtinv * (p.b.z - bo.z)⟩
  let u := midU old ulb
  let gam := Real.sqrt (1 + (u.x ^ 2 + u.y ^ 2 + u.z ^ 2) * cl)
  let gi := 1 / gam
  let ub : V3 := ⟨u.y * p.b.z - u.z * p.b.y, u.z * p.b.x - u.x * p.b.z, u.x * p.b.y - u.y * p.b.x⟩
  let eb : V3 := ⟨p.e.y * p.b.z - p.e.z * p.b.y, p.e.z * p.b.x - p.e.x * p.b.z, p.e.x * p.b.y - p.e.y * p.b.x⟩
  let eup := p.e.x * u.x + p.e.y * u.y + p.e.z * u.z
  let bub : V3 := ⟨p.b.y * ub.z - p.b.z * ub.y, p.b.z * ub.x - p.b.x * ub.z, p.b.x * ub.y - p.b.y * ub.x⟩
  let fsq := (p.e.x + gi * ub.x) ^ 2 + (p.e.y + gi * ub.y) ^ 2 + (p.e.z + gi * ub.z) ^ 2
  let w := gam * cl * (fsq - gi ^ 2 * cl * eup ^ 2)
  let urx := crr * (gam * (de.x + gi * (u.y * db.z - u.z * db.y)) +
    qminv * ((eb.x - gi * bub.x + cl * gi * eup * p.e.x) - w * u.x))
  let ury := crr * (gam * (de.y + gi * (u.z * db.x - u.x * db.z)) +
    qminv * ((eb.y - gi * bub.y + cl * gi * eup * p.e.y) - w * u.y))
  let urz := crr * (gam * (de.z + gi * (u.x * db.y - u.y * db.x)) +
    qminv * ((eb.z - gi * bub.z + cl * gi * eup * p.e.z) - w * u.z))
  let unew : V3 := ⟨old.x + ul.x + urx, old.y + ul.y + ury, old.z + ul.z + urz⟩
  some { p with u := unew, gi := invGamma c unew }

/-! ### Vay -/

/-- vay_3d.F90:103-124, 204-228: the implicit magnetic part: given the intermediate momentum `up` and
`tau = bconst*B`, the new inverse Lorentz factor and momentum. -/
noncomputable def vaySolve (c bconst : ℝ) (up b : V3) : V3 × ℝ :=
  let invc := 1 / c
  let invc2 := 1 / (c * c)
  let taux := bconst * b.x
  let tauy := bconst * b.y
  let tauz := bconst * b.z
  let tausq := taux * taux + tauy * tauy + tauz * tauz
  let gprsq := 1 + (up.x * up.x + up.y * up.y + up.z * up.z) * invc2
  let ust := (up.x * taux + up.y * tauy + up.z * tauz) * invc
  let sigma := gprsq - tausq
  let gisq := 2 / (sigma + Real.sqrt (sigma * sigma + 4 * (tausq + ust * ust)))
  let gi := Real.sqrt gisq
  let bg := bconst * gi
  let tx := bg * b.x
  let ty := bg * b.y
  let tz := bg * b.z
  let s := 1 / (1 + tausq * gisq)
  let tu := tx * up.x + ty * up.y + tz * up.z
  (⟨s * (up.x + tx * tu + up.y * tz - up.z * ty), s * (up.y + ty * tu + up.z * tx - up.x * tz),
    s * (up.z + tz * tu + up.x * ty - up.y * tx)⟩, gi)

/-- vay_3d.F90:76-125, `which = 0`: full push. -/
noncomputable def vay0One (c q m dt : ℝ) (p : Part) : Part :=
  let const := q * dt / m
  let bconst := 0.5 * const
  let tau : V3 := ⟨bconst * p.b.x, bconst * p.b.y, bconst * p.b.z⟩
  let up : V3 := ⟨p.u.x + const * p.e.x + (p.u.y * tau.z - p.u.z * tau.y) * p.gi,
    p.u.y + const * p.e.y + (p.u.z * tau.x - p.u.x * tau.z) * p.gi,
    p.u.z + const * p.e.z + (p.u.x * tau.y - p.u.y * tau.x) * p.gi⟩
  let r := vaySolve c bconst up p.b
  { p with u := r.1, gi := r.2 }

/-- vay_3d.F90:134-178, `which = 1`: first half. -/
noncomputable def vay1One (c q m dt : ℝ) (p : Part) : Part :=
  let const := 0.5 * q * dt / m
  let vx := p.u.x * p.gi
  let vy := p.u.y * p.gi
  let vz := p.u.z * p.gi
  let u : V3 := ⟨p.u.x + const * (p.e.x + vy * p.b.z - vz * p.b.y), p.u.y + const * (p.e.y + vz * p.b.x - vx * p.b.z),
    p.u.z + const * (p.e.z + vx * p.b.y - vy * p.b.x)⟩
  { p with u := u, gi := 1 / Real.sqrt (1 + (u.x * u.x + u.y * u.y + u.z * u.z) * (1 / (c * c))) }

/-- vay_3d.F90:187-230, `which = 2`: second half. -/
noncomputable def vay2One (c q m dt : ℝ) (p : Part) : Part :=
  let const := 0.5 * q * dt / m
  let up : V3 := ⟨p.u.x + const * p.e.x, p.u.y + const * p.e.y, p.u.z + const * p.e.z⟩
  let r := vaySolve c const up p.b
  { p with u := r.1, gi := r.2 }

end Push
end Picsar
