import Verif.Model.Deposition2d
import Verif.Model.RzVolume
import Verif.Model.CircGather

/-
Esirkepov current deposition in cylindrical geometry with azimuthal modes, and the division by the cell volumes:
src/particle_deposition/current_deposition/esirkepov/esirkepov_circ.F90 (pxr_depose_jrjtjz_esirkepov_n_2d_circ, apply_2dcirc_volume_scaling_j).
Reals for floating point, `ℤ` for indices, every array access checked. Simplifications: `l_particles_weight=.TRUE.`; `type_rz_depose` is not 2 (the
modified shapes of Davoine are left out); `cmplx` without a kind is exact; `ncells = 1` as set at line 231.
-/
namespace Picsar.CircDeposit
open Picsar Picsar.Grid Picsar.Deposition Picsar.Deposition2d Picsar.CircGather Picsar.RzVolume

/-- `a(j,l,m) = a(j,l,m) + v`. -/
noncomputable def bumpC (a : CArr) (j l : ℤ) (m : ℕ) (v : ℂ) : Res CArr :=
  if a.Has j l m then .ok { a with val := fun j' l' m' => if j' = j ∧ l' = l ∧ m' = m then a.val j l m + v else a.val j' l' m' }
  else .error .outOfBounds

/-- The three current arrays and the local arrays that live across particles (esirkepov_circ.F90:127-149). -/
structure AccC where
  sdr : ℤ → ℤ → ℝ
  sdz : ℤ → ℤ → ℝ
  sr0 : ℤ → ℝ
  sz0 : ℤ → ℝ
  jr : CArr
  jt : CArr
  jz : CArr

/-- `c, s` of a position: `x/r, y/r`, or `1, 0` within `1e-10` cells of the axis (esirkepov_circ.F90:171-178, 191-199, 203-211), as
`cmplx(c, s)`. -/
noncomputable def phaseAt (dri x y : ℝ) : ℂ :=
  let r := √(x * x + y * y)
  if r * dri > 1 / 10 ^ 10 then ⟨x * (1 / r), y * (1 / r)⟩ else 1

/-- `xy0`, `xymid0`, `xyold0`: phases after, in the middle of and before the move (esirkepov_circ.F90:179, 200, 212). -/
structure Phases where
  new : ℂ
  mid : ℂ
  old : ℂ

/-- Positions of one particle (esirkepov_circ.F90:165-238). -/
noncomputable def phasesC (g : Geo) (p : Part) : Phases :=
  let dri := 1 / g.dx
  let xold := p.x - g.dt * (p.ux * p.gaminv)
  let yold := p.y - g.dt * (p.uy * p.gaminv)
  ⟨phaseAt dri p.x p.y, phaseAt dri (1 / 2 * p.x + 1 / 2 * xold) (1 / 2 * p.y + 1 / 2 * yold), phaseAt dri xold yold⟩

/-- Radii and longitudinal positions in cells after and before the move, velocity along the azimuthal direction in the middle of the move
(esirkepov_circ.F90:165-252). -/
noncomputable def moveC (g : Geo) (p : Part) : Move :=
  let dri := 1 / g.dx
  let dzi := 1 / g.dz
  let dti := 1 / g.dt
  let dtsdr0 := g.dt * dri
  let dtsdz0 := g.dt * dzi
  let x := √(p.x * p.x + p.y * p.y) * dri
  let z := p.z * dzi
  let vx := p.ux * p.gaminv
  let vy := p.uy * p.gaminv
  let vz := p.uz * p.gaminv
  let xo := p.x - g.dt * vx
  let yo := p.y - g.dt * vy
  let mid := (phasesC g p).mid
  let xold := √(xo * xo + yo * yo) * dri
  let vy' := -vx * mid.im + vy * mid.re
  let vx' := (x - xold) * g.dx * dti
  let zold := z - dtsdz0 * vz
  let xold := xold - g.xmin * dri
  let zold := zold - g.zmin * dzi
  ⟨xold + dtsdr0 * vx', xold, zold + dtsdz0 * vz, zold, vy'⟩

/-- `if(i < irmax)` block (esirkepov_circ.F90:407-417). -/
noncomputable def doR (L : Loc2) (n : ℕ) (P : Phases) (i k : ℤ) (s : AccC) : Res AccC := do
  if i < L.xh then
    let v := L.wqx * (L.sx i - L.sx0 i) * (L.sz0 k + 1 / 2 * (L.sz k - L.sz0 k))
    let v := if i > L.xl then v + s.sdr (i - 1) k else v
    let a ← bumpC s.jr (L.i0 + i) (L.k0 + k) 0 v
    let e ← (List.range' 1 (n - 1)).foldlM (fun (st : ℂ × CArr) m => do
      let a ← bumpC st.2 (L.i0 + i) (L.k0 + k) m (2 * v * st.1)
      pure (st.1 * P.mid, a)) (P.mid, a)
    pure { s with sdr := Function.update s.sdr i (Function.update (s.sdr i) k v), jr := e.2 }
  else pure s

/-- Jtheta (esirkepov_circ.F90:419-437); `wqt` is `wq*invdtdr`, divided by the mode number here. -/
noncomputable def doT (L : Loc2) (n : ℕ) (P : Phases) (g : Geo) (i k : ℤ) (s : AccC) : Res AccC := do
  let a ← bumpC s.jt (L.i0 + i) (L.k0 + k) 0 ((L.wqy * ((L.sz0 k + 1 / 2 * (L.sz k - L.sz0 k)) * L.sx0 i +
    (1 / 2 * L.sz0 k + 1 / 3 * (L.sz k - L.sz0 k)) * (L.sx i - L.sx0 i)) : ℝ) : ℂ)
  let e ← (List.range' 1 (n - 1)).foldlM (fun (st : (ℂ × ℂ × ℂ) × CArr) m => do
    let a ← bumpC st.2 (L.i0 + i) (L.k0 + k) m (-(2 * Complex.I * (((L.i0 + i : ℤ) + g.xmin * (1 / g.dx) : ℝ) : ℂ) * ((L.wqx / m : ℝ) : ℂ) *
      (L.sx0 i * L.sz0 k * (st.1.1 - st.1.2.1) + L.sx i * L.sz k * (st.1.2.1 - st.1.2.2))))
    pure ((st.1.1 * P.new, st.1.2.1 * P.mid, st.1.2.2 * P.old), a)) ((P.new, P.mid, P.old), a)
  pure { s with jt := e.2 }

/-- `if(k < izmax)` block (esirkepov_circ.F90:439-449). -/
noncomputable def doZ (L : Loc2) (n : ℕ) (P : Phases) (i k : ℤ) (s : AccC) : Res AccC := do
  if k < L.zh then
    let v := L.wqz * (L.sz k - L.sz0 k) * (L.sx0 i + 1 / 2 * (L.sx i - L.sx0 i))
    let v := if k > L.zl then v + s.sdz i (k - 1) else v
    let a ← bumpC s.jz (L.i0 + i) (L.k0 + k) 0 v
    let e ← (List.range' 1 (n - 1)).foldlM (fun (st : ℂ × CArr) m => do
      let a ← bumpC st.2 (L.i0 + i) (L.k0 + k) m (2 * v * st.1)
      pure (st.1 * P.mid, a)) (P.mid, a)
    pure { s with sdz := Function.update s.sdz i (Function.update (s.sdz i) k v), jz := e.2 }
  else pure s

/-- Body of the two loops (esirkepov_circ.F90:403-449). -/
noncomputable def cellC (D : Dims) (L : Loc2) (n : ℕ) (P : Phases) (g : Geo) (i k : ℤ) (s : AccC) : Res AccC := do
  if D.has i k then
    let s ← doR L n P i k s
    let s ← doT L n P g i k s
    doZ L n P i k s
  else .error .outOfBounds

/-- `do k=izmin, izmax; do i=irmin, irmax` (esirkepov_circ.F90:401-451). -/
noncomputable def planeC (D : Dims) (L : Loc2) (n : ℕ) (P : Phases) (g : Geo) (s : AccC) : Res AccC :=
  (irange L.zl L.zh).foldlM (fun (s : AccC) (k : ℤ) => (irange L.xl L.xh).foldlM (fun (s : AccC) (i : ℤ) => cellC D L n P g i k s) s) s

/-- The particle loop (esirkepov_circ.F90:163-455); the shape factors are those of the plane routine (`prep2`; esirkepov_circ.F90:258-399), the local
arrays have the same bounds (`dimsN`; 117-122). -/
noncomputable def loopC (clight : ℝ) (a b n : ℕ) (g : Geo) : List Part → AccC → Res AccC
  | [], s => .ok s
  | p :: ps, s => do
    let L ← prep2 a b (dimsN clight a b g) g p.w (moveC g p) s.sr0 s.sz0
    let s ← planeC (dimsN clight a b g) L n (phasesC g p) g { s with sr0 := L.sx0, sz0 := L.sz0 }
    loopC clight a b n g ps s

/-- `pxr_depose_jrjtjz_esirkepov_n_2d_circ` (esirkepov_circ.F90:82-460): orders `a` in r and `b` in z, `n` modes. -/
noncomputable def deposeC (clight : ℝ) (a b n : ℕ) (g : Geo) (ps : List Part) (jr jt jz : CArr) : Res (CArr × CArr × CArr) := do
  let s ← loopC clight a b n g ps ⟨fun _ _ => 0, fun _ _ => 0, fun _ => 0, fun _ => 0, jr, jt, jz⟩
  pure (s.jr, s.jt, s.jz)

/-! ### Division by the volumes -/

/-- `ifact` (esirkepov_circ.F90:503-507). -/
def ifact (m : ℕ) : ℂ := if m % 2 = 0 then 1 else -1

/-- `a(1:ng,:,m) = a(1:ng,:,m) + ifact*a(-1:-ng:-1,:,m)` for every mode (esirkepov_circ.F90:502-510). -/
noncomputable def foldN (a : CArr) : Res CArr :=
  if 1 ≤ -a.jlo → -a.jlo ≤ a.jhi then
    .ok { a with val := fun j l m => if 1 ≤ j ∧ j ≤ -a.jlo then a.val j l m + ifact m * a.val (-j) l m else a.val j l m }
  else .error .outOfBounds

/-- `jr(0:ng-1,:,m) = jr(0:ng-1,:,m) - ifact*jr(-1:-ng:-1,:,m)` (esirkepov_circ.F90:511-512). -/
noncomputable def foldC (a : CArr) : Res CArr :=
  if 1 ≤ -a.jlo → -a.jlo - 1 ≤ a.jhi then
    .ok { a with val := fun j l m => if 0 ≤ j ∧ j ≤ -a.jlo - 1 then a.val j l m - ifact m * a.val (-1 - j) l m else a.val j l m }
  else .error .outOfBounds

/-- `a(j,:,:) = a(j,:,:)/d`; a division by zero is a fault. -/
noncomputable def divRowC (d : ℝ) (j : ℤ) (a : CArr) : Res CArr :=
  if a.jlo ≤ j ∧ j ≤ a.jhi then
    if d = 0 then .error .divByZero
    else .ok { a with val := fun j' l m => if j' = j then a.val j' l m / (d : ℂ) else a.val j' l m }
  else .error .outOfBounds

/-- `do j=lo,hi; r = abs(rmin + (j+s)*dr); a(j,:,:) = a(j,:,:)/(2*pi*r)` (esirkepov_circ.F90:521-524, 529-536, 563-570). -/
noncomputable def divRowsC (s rmin dr : ℝ) (lo hi : ℤ) (a : CArr) : Res CArr :=
  (irange lo hi).foldlM (fun (a : CArr) (j : ℤ) => divRowC (2 * Real.pi * |rmin + (j + s) * dr|) j a) a

/-- `jz(0,:,0) = jz(0,:,0)/(...); jz(0,:,1:) = 0` (esirkepov_circ.F90:541-549). -/
noncomputable def axisZ (ty : ℤ) (dr : ℝ) (a : CArr) : Res CArr :=
  if a.jlo ≤ 0 ∧ 0 ≤ a.jhi then
    if axisFactor ty dr = 0 then .error .divByZero
    else .ok { a with val := fun j l m => if j = 0 then (if m = 0 then a.val j l m / (axisFactor ty dr : ℂ) else 0) else a.val j l m }
  else .error .outOfBounds

/-- `jt(0,:,0) = 0; jt(0,:,1) = -I*jr(0,:,1); jt(0,:,2:) = 0` (esirkepov_circ.F90:550-555). The two rows must have the same length. -/
noncomputable def axisT (jr a : CArr) : Res CArr :=
  if a.jlo ≤ 0 ∧ 0 ≤ a.jhi ∧ (1 < a.nm → jr.jlo ≤ 0 ∧ 0 ≤ jr.jhi ∧ jr.llo = a.llo ∧ jr.lhi = a.lhi ∧ 1 < jr.nm) then
    .ok { a with val := fun j l m => if j = 0 then (if m = 1 ∧ 1 < a.nm then -Complex.I * jr.val 0 l 1 else 0) else a.val j l m }
  else .error .outOfBounds

/-- The node on the lower boundary (esirkepov_circ.F90:539-561). -/
noncomputable def boundaryRow (ty : ℤ) (rmin dr : ℝ) (jr jt jz : CArr) : Res (CArr × CArr) := do
  if rmin = 0 then
    let jz ← axisZ ty dr jz
    let jt ← axisT jr jt
    pure (jt, jz)
  else
    let jt ← divRowC (2 * Real.pi * |rmin|) 0 jt
    let jz ← divRowC (2 * Real.pi * |rmin|) 0 jz
    pure (jt, jz)

/-- `if (rmin == 0)`: what was deposited below the axis is folded back (esirkepov_circ.F90:501-514). -/
noncomputable def foldAll (rmin : ℝ) (jr jt jz : CArr) : Res (CArr × CArr × CArr) := do
  if rmin = 0 then
    let jt ← foldN jt
    let jz ← foldN jz
    let jr ← foldC jr
    pure (jr, jt, jz)
  else pure (jr, jt, jz)

/-- `apply_2dcirc_volume_scaling_j` (esirkepov_circ.F90:470-572). -/
noncomputable def scaleC (ty : ℤ) (rmin dr : ℝ) (jr jt jz : CArr) : Res (CArr × CArr × CArr) := do
  let f ← foldAll rmin jr jt jz
  let jr ← divRowsC (1 / 2) rmin dr f.1.jlo f.1.jhi f.1
  let jt ← divRowsC 0 rmin dr f.2.1.jlo (-1) f.2.1
  let jz ← divRowsC 0 rmin dr f.2.2.jlo (-1) f.2.2
  let b ← boundaryRow ty rmin dr jr jt jz
  let jt ← divRowsC 0 rmin dr 1 b.1.jhi b.1
  let jz ← divRowsC 0 rmin dr 1 b.2.jhi b.2
  pure (jr, jt, jz)

end Picsar.CircDeposit
