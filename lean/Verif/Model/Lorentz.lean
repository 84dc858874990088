import Verif.Base
import Verif.Model.Grid
import Mathlib.Data.Real.Basic
import Mathlib.Logic.Function.Basic

/-
Lorentz transformation of diagnostics from a boosted frame to the laboratory (src/diags/diags.F90:1348-1605): fields, current and charge on
a grid, and macroparticles known at two successive steps. Real arithmetic instead of floating point. The loops are `OMP PARALLEL DO` with private
scalars: the iterations are executed in an arbitrary order, which is an argument.
-/
namespace Picsar.Lorentz
open Picsar

/-- Iterations of a parallel loop in the order `order`; iteration `i` reads and writes its own column only. -/
def sweep {ι α : Type} [DecidableEq ι] (body : α → Res α) (order : List ι) (mem : ι → α) : Res (ι → α) :=
  order.foldlM (fun m i => do
    let v ← body (m i)
    .ok (Function.update m i v)) mem

/-- One column `fields(0:9, i)` (diags.F90:1381-1391, 1428-1438): 0 Ex, 1 Ey, 2 Ez, 3 Bx, 4 By, 5 Bz, 6 Jx, 7 Jy, 8 Jz, 9 rho. -/
def cell (gam cbeta beta_c : ℝ) (f : ℕ → ℝ) : Res (ℕ → ℝ) :=
  let temp := f 0
  let f := Function.update f 0 (gam * (f 0 + cbeta * f 4))
  let f := Function.update f 4 (gam * (f 4 + beta_c * temp))
  let temp := f 1
  let f := Function.update f 1 (gam * (f 1 - cbeta * f 3))
  let f := Function.update f 3 (gam * (f 3 - cbeta * temp))
  let temp := f 9
  let f := Function.update f 9 (gam * (f 9 + beta_c * f 8))
  let f := Function.update f 8 (gam * (f 8 + cbeta * temp))
  .ok f

/-- `transform_lorentz2d` (diags.F90:1360-1395): stops unless `n1 = 10`. `order` is the order of the iterations `1..n2`. -/
def transform2d (n1 : ℤ) (gam cbeta beta_c : ℝ) (order : List ℤ) (fields : ℤ → ℕ → ℝ) : Res (ℤ → ℕ → ℝ) :=
  if n1 ≠ 10 then .error .exception else sweep (cell gam cbeta beta_c) order fields

/-- `transform_lorentz3d` (diags.F90:1406-1442), `COLLAPSE(2)`: the iterations are the pairs `(i,j)`. -/
def transform3d (n1 : ℤ) (gam cbeta beta_c : ℝ) (order : List (ℤ × ℤ)) (fields : ℤ × ℤ → ℕ → ℝ) : Res (ℤ × ℤ → ℕ → ℝ) :=
  if n1 ≠ 10 then .error .exception else sweep (cell gam cbeta beta_c) order fields

/-- A macroparticle at one step, with the fields at its position. -/
structure Snap where
  x : ℝ
  y : ℝ
  z : ℝ
  ux : ℝ
  uy : ℝ
  uz : ℝ
  g : ℝ
  ex : ℝ
  ey : ℝ
  ez : ℝ
  bx : ℝ
  bY : ℝ
  bz : ℝ

/-- Arguments of the routines: `gamma_boost`, `beta_boost`, `clight`, `time`, `dt`, `t_output`. -/
structure Boost where
  gam : ℝ
  beta : ℝ
  c : ℝ
  time : ℝ
  dt : ℝ
  out : ℝ

/-- Division; by zero it is a fault. -/
noncomputable def over (a b : ℝ) : Res ℝ := open Classical in if b = 0 then .error .divByZero else .ok (a / b)

/-- `uzfrm` (diags.F90:1480, 1571). -/
def Boost.uzfrm (b : Boost) : ℝ := -b.beta * b.gam * b.c

/-- The transformations of the values of one step at the time `s` (diags.F90:1490-1513, 1581-1586): position, fields (in the routine with
fields) and momentum. -/
noncomputable def Boost.turn (b : Boost) (s : ℝ) (p : Snap) : Snap :=
  let cbeta := b.beta * b.c
  let beta_ov_c := b.beta * (1 / b.c)
  { p with
    z := b.gam * (p.z + b.beta * b.c * s)
    ey := b.gam * (p.ey - cbeta * p.bx)
    bx := b.gam * (p.bx - beta_ov_c * p.ey)
    ex := b.gam * (p.ex + cbeta * p.bY)
    bY := b.gam * (p.bY + beta_ov_c * p.ex)
    uz := b.gam * p.uz - p.g * b.uzfrm }

/-- One iteration of `lorentz_transform_parts_with_fields` (diags.F90:1488-1534): current values and previous values of a particle; both are
overwritten. -/
noncomputable def Boost.withFields (b : Boost) (pq : Snap × Snap) : Res (Snap × Snap) := do
  let iclight2 := 1 / b.c ^ 2
  let t := b.gam * b.time - b.uzfrm * pq.1.z * iclight2
  let t_prev := b.gam * (b.time - b.dt) - b.uzfrm * pq.2.z * iclight2
  let c := b.turn b.time pq.1
  let cp := b.turn (b.time - b.dt) pq.2
  let wp ← over (t - b.out) (t - t_prev)
  let wn ← over (b.out - t_prev) (t - t_prev)
  .ok (⟨cp.x * wp + c.x * wn, cp.y * wp + c.y * wn, cp.z * wp + c.z * wn, cp.ux * wp + c.ux * wn, cp.uy * wp + c.uy * wn, cp.uz * wp + c.uz * wn,
    cp.g * wp + c.g * wn, cp.ex * wp + c.ex * wn, cp.ey * wp + c.ey * wn, cp.ez * wp + c.ez * wn, cp.bx * wp + c.bx * wn, cp.bY * wp + c.bY * wn,
    cp.bz * wp + c.bz * wn⟩, cp)

/-- One iteration of `lorentz_transform_parts_without_fields` (diags.F90:1578-1601): the fields are not arguments and stay as they are. -/
noncomputable def Boost.withoutFields (b : Boost) (pq : Snap × Snap) : Res (Snap × Snap) := do
  let iclight2 := 1 / b.c ^ 2
  let t := b.gam * b.time - b.uzfrm * pq.1.z * iclight2
  let t_prev := b.gam * (b.time - b.dt) - b.uzfrm * pq.2.z * iclight2
  let zc := b.gam * (pq.1.z + b.beta * b.c * b.time)
  let zcp := b.gam * (pq.2.z + b.beta * b.c * (b.time - b.dt))
  let uzc := b.gam * pq.1.uz - pq.1.g * b.uzfrm
  let uzcp := b.gam * pq.2.uz - pq.2.g * b.uzfrm
  let wp ← over (t - b.out) (t - t_prev)
  let wn ← over (b.out - t_prev) (t - t_prev)
  let p := pq.1
  let q := pq.2
  .ok ({ p with x := q.x * wp + p.x * wn, y := q.y * wp + p.y * wn, z := zcp * wp + zc * wn, ux := q.ux * wp + p.ux * wn,
                uy := q.uy * wp + p.uy * wn, uz := uzcp * wp + uzc * wn, g := q.g * wp + p.g * wn }, { q with z := zcp, uz := uzcp })

/-- The loops over the particles `1..np` (diags.F90:1487-1536, 1577-1602). -/
noncomputable def parts (b : Boost) (fields : Bool) (order : List ℤ) (mem : ℤ → Snap × Snap) : Res (ℤ → Snap × Snap) :=
  sweep (fun pq => if fields then b.withFields pq else b.withoutFields pq) order mem

end Picsar.Lorentz
