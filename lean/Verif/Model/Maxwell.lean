import Verif.Model.Grid

/-
Model of the finite-difference Maxwell solvers src/field_solvers/Maxwell/yee_solver/yee.F90 and
src/field_solvers/Maxwell/karkkainen_solver/karkkainen.F90, over ℝ. Each `order*` argument is the order in which the (OpenMP)
threads execute the iterations of the corresponding loop nest.
-/
namespace Picsar.Maxwell
open Picsar Picsar.Grid
open Comp (ex ey ez bx by' bz jx jy jz f)

/-- Loop bounds of the three loop nests of a routine (`xlo, xhi, ylo, yhi, zlo, zhi`). -/
structure Ranges where
  xlo : I3
  xhi : I3
  ylo : I3
  yhi : I3
  zlo : I3
  zhi : I3

/-- Execution orders of the three loop nests. -/
structure Orders where
  x : List I3
  y : List I3
  z : List I3

/-- Every iteration of each loop nest is executed exactly once, in any order. -/
def Orders.Of (o : Orders) (r : Ranges) : Prop :=
  o.x.Perm (box r.xlo r.xhi) ∧ o.y.Perm (box r.ylo r.yhi) ∧ o.z.Perm (box r.zlo r.zhi)

/-- Three successive loop nests (the `!$OMP END DO` between them is a barrier). -/
noncomputable def three (cx cy cz : Comp) (rx ry rz : Ex) (o : Orders) (σ : Mem) : Res Mem := do
  let σ1 ← loop cx rx o.x σ
  let σ2 ← loop cy ry o.y σ1
  loop cz rz o.z σ2

/-! ### Yee, order 2, 3D -/

/-- yee.F90:693-695. -/
def ex3 (mudt dtsdy dtsdz : ℝ) : Ex :=
  .rd ex 0 0 0 + cst dtsdy * (.rd bz 0 0 0 - .rd bz 0 (-1) 0) - cst dtsdz * (.rd by' 0 0 0 - .rd by' 0 0 (-1))
    - cst mudt * .rd jx 0 0 0

/-- yee.F90:710-712. -/
def ey3 (mudt dtsdx dtsdz : ℝ) : Ex :=
  .rd ey 0 0 0 - cst dtsdx * (.rd bz 0 0 0 - .rd bz (-1) 0 0) + cst dtsdz * (.rd bx 0 0 0 - .rd bx 0 0 (-1))
    - cst mudt * .rd jy 0 0 0

/-- yee.F90:727-729. -/
def ez3 (mudt dtsdx dtsdy : ℝ) : Ex :=
  .rd ez 0 0 0 + cst dtsdx * (.rd by' 0 0 0 - .rd by' (-1) 0 0) - cst dtsdy * (.rd bx 0 0 0 - .rd bx 0 (-1) 0)
    - cst mudt * .rd jz 0 0 0

/-- yee.F90:637-740 `pxrpush_em3d_evec`. -/
noncomputable def evec3 (mudt dtsdx dtsdy dtsdz : ℝ) (o : Orders) (σ : Mem) : Res Mem :=
  three ex ey ez (ex3 mudt dtsdy dtsdz) (ey3 mudt dtsdx dtsdz) (ez3 mudt dtsdx dtsdy) o σ

/-- yee.F90:1303-1304. -/
def bx3 (dtsdy dtsdz : ℝ) : Ex :=
  .rd bx 0 0 0 - cst dtsdy * (.rd ez 0 1 0 - .rd ez 0 0 0) + cst dtsdz * (.rd ey 0 0 1 - .rd ey 0 0 0)

/-- yee.F90:1319-1320. -/
def by3 (dtsdx dtsdz : ℝ) : Ex :=
  .rd by' 0 0 0 + cst dtsdx * (.rd ez 1 0 0 - .rd ez 0 0 0) - cst dtsdz * (.rd ex 0 0 1 - .rd ex 0 0 0)

/-- yee.F90:1335-1336. -/
def bz3 (dtsdx dtsdy : ℝ) : Ex :=
  .rd bz 0 0 0 - cst dtsdx * (.rd ey 1 0 0 - .rd ey 0 0 0) + cst dtsdy * (.rd ex 0 1 0 - .rd ex 0 0 0)

/-- yee.F90:1258-1347 `pxrpush_em3d_bvec`. -/
noncomputable def bvec3 (dtsdx dtsdy dtsdz : ℝ) (o : Orders) (σ : Mem) : Res Mem :=
  three bx by' bz (bx3 dtsdy dtsdz) (by3 dtsdx dtsdz) (bz3 dtsdx dtsdy) o σ

/-- yee.F90:1452-1532 `pxrpush_em3d_evec_f`. -/
noncomputable def evecF3 (dtsdx dtsdy dtsdz : ℝ) (o : Orders) (σ : Mem) : Res Mem :=
  three ex ey ez (.rd ex 0 0 0 + cst dtsdx * (.rd f 1 0 0 - .rd f 0 0 0))
    (.rd ey 0 0 0 + cst dtsdy * (.rd f 0 1 0 - .rd f 0 0 0)) (.rd ez 0 0 0 + cst dtsdz * (.rd f 0 0 1 - .rd f 0 0 0)) o σ

/-! ### Yee, order 2, 2D -/

/-- yee.F90:216-310 `pxrpush_em2d_evec`. -/
noncomputable def evec2 (mudt dtsdx dtsdz : ℝ) (o : Orders) (σ : Mem) : Res Mem :=
  three ex ey ez
    (.rd ex 0 0 0 - cst dtsdz * (.rd by' 0 0 0 - .rd by' 0 0 (-1)) - cst mudt * .rd jx 0 0 0)
    (.rd ey 0 0 0 - cst dtsdx * (.rd bz 0 0 0 - .rd bz (-1) 0 0) + cst dtsdz * (.rd bx 0 0 0 - .rd bx 0 0 (-1))
      - cst mudt * .rd jy 0 0 0)
    (.rd ez 0 0 0 + cst dtsdx * (.rd by' 0 0 0 - .rd by' (-1) 0 0) - cst mudt * .rd jz 0 0 0) o σ

/-- yee.F90:912-994 `pxrpush_em2d_bvec`. -/
noncomputable def bvec2 (dtsdx dtsdz : ℝ) (o : Orders) (σ : Mem) : Res Mem :=
  three bx by' bz
    (.rd bx 0 0 0 + cst dtsdz * (.rd ey 0 0 1 - .rd ey 0 0 0))
    (.rd by' 0 0 0 + cst dtsdx * (.rd ez 1 0 0 - .rd ez 0 0 0) - cst dtsdz * (.rd ex 0 0 1 - .rd ex 0 0 0))
    (.rd bz 0 0 0 - cst dtsdx * (.rd ey 1 0 0 - .rd ey 0 0 0)) o σ

/-! ### Yee, order 2, r-z (components r, theta, z stored in the x, y, z arrays) -/

/-- yee.F90:399, 416: `j /= 0 .or. rmin /= 0.`. -/
noncomputable def offAxis (rmin : ℝ) (i : I3) : Bool := open Classical in decide (i.j ≠ 0 ∨ rmin ≠ 0)

/-- yee.F90:329-433 `pxrpush_emrz_evec`. -/
noncomputable def evecRz (mudt dtsdx dtsdz rmin dr : ℝ) (o : Orders) (σ : Mem) : Res Mem :=
  three ex ey ez
    (.rd ex 0 0 0 - cst dtsdz * (.rd by' 0 0 0 - .rd by' 0 0 (-1)) - cst mudt * .rd jx 0 0 0)
    (.cond (offAxis rmin)
      (.rd ey 0 0 0 - cst dtsdx * (.rd bz 0 0 0 - .rd bz (-1) 0 0) + cst dtsdz * (.rd bx 0 0 0 - .rd bx 0 0 (-1))
        - cst mudt * .rd jy 0 0 0)
      (.rd ey 0 0 0))
    (.cond (offAxis rmin)
      (.rd ez 0 0 0 + cst dtsdx * ((.k fun i => 1 + 0.5 / (rmin / dr + i.j)) * .rd by' 0 0 0
        - (.k fun i => 1 - 0.5 / (rmin / dr + i.j)) * .rd by' (-1) 0 0) - cst mudt * .rd jz 0 0 0)
      (.rd ez 0 0 0 + cst 4 * cst dtsdx * .rd by' 0 0 0 - cst mudt * .rd jz 0 0 0)) o σ

/-- yee.F90:1015-1101 `pxrpush_emrz_bvec`. -/
noncomputable def bvecRz (dtsdr dtsdz rmin dr : ℝ) (o : Orders) (σ : Mem) : Res Mem :=
  three bx by' bz
    (.rd bx 0 0 0 + cst dtsdz * (.rd ey 0 0 1 - .rd ey 0 0 0))
    (.rd by' 0 0 0 + cst dtsdr * (.rd ez 1 0 0 - .rd ez 0 0 0) - cst dtsdz * (.rd ex 0 0 1 - .rd ex 0 0 0))
    (.rd bz 0 0 0 - cst dtsdr * ((.k fun i => 1 + 0.5 / (rmin / dr + i.j + 0.5)) * .rd ey 1 0 0
      - (.k fun i => 1 - 0.5 / (rmin / dr + i.j + 0.5)) * .rd ey 0 0 0)) o σ

/-! ### Yee, arbitrary order, 3D -/

/-- `MIN(MIN(norder/2, (n-i)+nguard), i+nguard)`: number of terms at distance from the array ends. A Fortran loop
`do i = 1, n` with `n < 1` runs zero times. -/
def nterms (norder : ℕ) (n nguard i : ℤ) : ℕ := (min (min (norder / 2 : ℤ) ((n - i) + nguard)) (i + nguard)).toNat

/-- Parameters of the arbitrary-order routines: grid size, guard cells, orders, `ist` (0 on a nodal grid, 1 on a staggered
one), and the coefficient arrays (`dtsdx(i)`, 1-based; only elements `1..norder/2` are used). -/
structure NOrder where
  nx : ℤ
  ny : ℤ
  nz : ℤ
  gx : ℤ
  gy : ℤ
  gz : ℤ
  ox : ℕ
  oy : ℕ
  oz : ℕ
  ist : ℤ
  cx : ℕ → ℝ
  cy : ℕ → ℝ
  cz : ℕ → ℝ

/-- yee.F90:752-821 `pxrpush_em3d_bvec_norder`. Repeated assignments to the same element are written as one sum. -/
noncomputable def bvecN (p : NOrder) (o : Orders) (σ : Mem) : Res Mem :=
  let nxt := fun (i : I3) => nterms p.ox p.nx p.gx i.j
  let nyt := fun (i : I3) => nterms p.oy p.ny p.gy i.k
  let nzt := fun (i : I3) => nterms p.oz p.nz p.gz i.l
  three bx by' bz
    (.rd bx 0 0 0
      - .sum nyt (fun (i : ℕ) => cst (p.cy i) * (.rd ez 0 i 0 - .rd ez 0 (-i + p.ist) 0))
      + .sum nzt (fun (i : ℕ) => cst (p.cz i) * (.rd ey 0 0 i - .rd ey 0 0 (-i + p.ist))))
    (.rd by' 0 0 0
      + .sum nxt (fun (i : ℕ) => cst (p.cx i) * (.rd ez i 0 0 - .rd ez (-i + p.ist) 0 0))
      - .sum nzt (fun (i : ℕ) => cst (p.cz i) * (.rd ex 0 0 i - .rd ex 0 0 (-i + p.ist))))
    (.rd bz 0 0 0
      - .sum nxt (fun (i : ℕ) => cst (p.cx i) * (.rd ey i 0 0 - .rd ey (-i + p.ist) 0 0))
      + .sum nyt (fun (i : ℕ) => cst (p.cy i) * (.rd ex 0 i 0 - .rd ex 0 (-i + p.ist) 0))) o σ

/-- yee.F90:46-123 `pxrpush_em3d_evec_norder`. -/
noncomputable def evecN (mudt : ℝ) (p : NOrder) (o : Orders) (σ : Mem) : Res Mem :=
  let nxt := fun (i : I3) => nterms p.ox p.nx p.gx i.j
  let nyt := fun (i : I3) => nterms p.oy p.ny p.gy i.k
  let nzt := fun (i : I3) => nterms p.oz p.nz p.gz i.l
  three ex ey ez
    (.rd ex 0 0 0 - cst mudt * .rd jx 0 0 0
      + .sum nyt (fun (i : ℕ) => cst (p.cy i) * (.rd bz 0 (i - p.ist) 0 - .rd bz 0 (-i) 0))
      - .sum nzt (fun (i : ℕ) => cst (p.cz i) * (.rd by' 0 0 (i - p.ist) - .rd by' 0 0 (-i))))
    (.rd ey 0 0 0 - cst mudt * .rd jy 0 0 0
      - .sum nxt (fun (i : ℕ) => cst (p.cx i) * (.rd bz (i - p.ist) 0 0 - .rd bz (-i) 0 0))
      + .sum nzt (fun (i : ℕ) => cst (p.cz i) * (.rd bx 0 0 (i - p.ist) - .rd bx 0 0 (-i))))
    (.rd ez 0 0 0 - cst mudt * .rd jz 0 0 0
      + .sum nxt (fun (i : ℕ) => cst (p.cx i) * (.rd by' (i - p.ist) 0 0 - .rd by' (-i) 0 0))
      - .sum nyt (fun (i : ℕ) => cst (p.cy i) * (.rd bx 0 (i - p.ist) 0 - .rd bx 0 (-i) 0))) o σ

/-! ### Cole-Karkkainen-Cowan -/

/-- Coefficients of the 3D solver. -/
structure Ckc where
  ax : ℝ
  ay : ℝ
  az : ℝ
  bxy : ℝ
  bxz : ℝ
  byx : ℝ
  byz : ℝ
  bzx : ℝ
  bzy : ℝ
  gx : ℝ
  gy : ℝ
  gz : ℝ

/-- karkkainen.F90:117-146 (and 546-577). -/
noncomputable def ckcCoefs (dtsdx dtsdy dtsdz : ℝ) : Ckc :=
  let delta := max (max dtsdx dtsdy) dtsdz
  let rx := (dtsdx / delta) ^ 2
  let ry := (dtsdy / delta) ^ 2
  let rz := (dtsdz / delta) ^ 2
  let beta := 1 / 8 * (1 - rx * ry * rz / (ry * rz + rz * rx + rx * ry))
  let betaxy := ry * beta
  let betaxz := rz * beta
  let betayx := rx * beta
  let betayz := rz * beta
  let betazx := rx * beta
  let betazy := ry * beta
  let gammax := ry * rz * (1 / 16 - 1 / 8 * ry * rz / (ry * rz + rz * rx + rx * ry))
  let gammay := rx * rz * (1 / 16 - 1 / 8 * rx * rz / (ry * rz + rz * rx + rx * ry))
  let gammaz := rx * ry * (1 / 16 - 1 / 8 * rx * ry / (ry * rz + rz * rx + rx * ry))
  let alphax := 1 - 2 * betaxy - 2 * betaxz - 4 * gammax
  let alphay := 1 - 2 * betayx - 2 * betayz - 4 * gammay
  let alphaz := 1 - 2 * betazx - 2 * betazy - 4 * gammaz
  ⟨dtsdx * alphax, dtsdy * alphay, dtsdz * alphaz, dtsdx * betaxy, dtsdx * betaxz, dtsdy * betayx, dtsdy * betayz,
    dtsdz * betazx, dtsdz * betazy, dtsdx * gammax, dtsdy * gammay, dtsdz * gammaz⟩

/-- The x difference of the array `c` used in all routines: karkkainen.F90:193-201 (of `Ez`), 225-233 (of `Ey`), 582-590 (of
`F`). -/
def ckcDx (k : Ckc) (c : Comp) : Ex :=
  cst k.ax * (.rd c 1 0 0 - .rd c 0 0 0)
  + cst k.bxy * (.rd c 1 1 0 - .rd c 0 1 0 + .rd c 1 (-1) 0 - .rd c 0 (-1) 0)
  + cst k.bxz * (.rd c 1 0 1 - .rd c 0 0 1 + .rd c 1 0 (-1) - .rd c 0 0 (-1))
  + cst k.gx * (.rd c 1 1 1 - .rd c 0 1 1 + .rd c 1 (-1) 1 - .rd c 0 (-1) 1
      + .rd c 1 1 (-1) - .rd c 0 1 (-1) + .rd c 1 (-1) (-1) - .rd c 0 (-1) (-1))

/-- The y difference: karkkainen.F90:161-169 (of `Ez`), 234-242 (of `Ex`), 605-613 (of `F`). -/
def ckcDy (k : Ckc) (c : Comp) : Ex :=
  cst k.ay * (.rd c 0 1 0 - .rd c 0 0 0)
  + cst k.byx * (.rd c 1 1 0 - .rd c 1 0 0 + .rd c (-1) 1 0 - .rd c (-1) 0 0)
  + cst k.byz * (.rd c 0 1 1 - .rd c 0 0 1 + .rd c 0 1 (-1) - .rd c 0 0 (-1))
  + cst k.gy * (.rd c 1 1 1 - .rd c 1 0 1 + .rd c (-1) 1 1 - .rd c (-1) 0 1
      + .rd c 1 1 (-1) - .rd c 1 0 (-1) + .rd c (-1) 1 (-1) - .rd c (-1) 0 (-1))

/-- The z difference: karkkainen.F90:170-178 (of `Ey`), 202-210 (of `Ex`), 628-636 (of `F`). -/
def ckcDz (k : Ckc) (c : Comp) : Ex :=
  cst k.az * (.rd c 0 0 1 - .rd c 0 0 0)
  + cst k.bzx * (.rd c 1 0 1 - .rd c 1 0 0 + .rd c (-1) 0 1 - .rd c (-1) 0 0)
  + cst k.bzy * (.rd c 0 1 1 - .rd c 0 1 0 + .rd c 0 (-1) 1 - .rd c 0 (-1) 0)
  + cst k.gz * (.rd c 1 1 1 - .rd c 1 1 0 + .rd c (-1) 1 1 - .rd c (-1) 1 0
      + .rd c 1 (-1) 1 - .rd c 1 (-1) 0 + .rd c (-1) (-1) 1 - .rd c (-1) (-1) 0)

/-- karkkainen.F90:83-253 `pxrpush_em3d_bvec_ckc`. The differences are subtracted or added as a whole (the code distributes the
sign over their terms). -/
noncomputable def bvecCkc (dtsdx dtsdy dtsdz : ℝ) (o : Orders) (σ : Mem) : Res Mem :=
  let k := ckcCoefs dtsdx dtsdy dtsdz
  three bx by' bz (.rd bx 0 0 0 - ckcDy k ez + ckcDz k ey) (.rd by' 0 0 0 + ckcDx k ez - ckcDz k ex)
    (.rd bz 0 0 0 - ckcDx k ey + ckcDy k ex) o σ

/-- karkkainen.F90:498-647 `pxrpush_em3d_evec_f_ckc`. -/
noncomputable def evecFCkc (dtsdx dtsdy dtsdz : ℝ) (o : Orders) (σ : Mem) : Res Mem :=
  let k := ckcCoefs dtsdx dtsdy dtsdz
  three ex ey ez (.rd ex 0 0 0 + ckcDx k f) (.rd ey 0 0 0 + ckcDy k f) (.rd ez 0 0 0 + ckcDz k f) o σ

/-- Coefficients of the 2D solver: karkkainen.F90:313-325. -/
structure Ckc2 where
  ax : ℝ
  az : ℝ
  bxz : ℝ
  bzx : ℝ

/-- karkkainen.F90:313-325 (and 441-453). -/
noncomputable def ckc2Coefs (dtsdx dtsdz : ℝ) : Ckc2 :=
  let delta := max dtsdx dtsdz
  let rx := (dtsdx / delta) ^ 2
  let rz := (dtsdz / delta) ^ 2
  let betaxz := 1 / 8 * rz
  let betazx := 1 / 8 * rx
  let alphax := 1 - 2 * betaxz
  let alphaz := 1 - 2 * betazx
  ⟨dtsdx * alphax, dtsdz * alphaz, dtsdx * betaxz, dtsdz * betazx⟩

/-- karkkainen.F90:349-351, 367-369. -/
def ckc2Dx (k : Ckc2) (c : Comp) : Ex :=
  cst k.ax * (.rd c 1 0 0 - .rd c 0 0 0)
  + cst k.bxz * (.rd c 1 0 1 - .rd c 0 0 1 + .rd c 1 0 (-1) - .rd c 0 0 (-1))

/-- karkkainen.F90:334-336, 352-354. -/
def ckc2Dz (k : Ckc2) (c : Comp) : Ex :=
  cst k.az * (.rd c 0 0 1 - .rd c 0 0 0)
  + cst k.bzx * (.rd c 1 0 1 - .rd c 1 0 0 + .rd c (-1) 0 1 - .rd c (-1) 0 0)

/-- karkkainen.F90:272-378 `pxrpush_em2d_bvec_ckc`. -/
noncomputable def bvecCkc2 (dtsdx dtsdz : ℝ) (o : Orders) (σ : Mem) : Res Mem :=
  let k := ckc2Coefs dtsdx dtsdz
  three bx by' bz (.rd bx 0 0 0 + ckc2Dz k ey) (.rd by' 0 0 0 + ckc2Dx k ez - ckc2Dz k ex) (.rd bz 0 0 0 - ckc2Dx k ey) o σ

end Picsar.Maxwell
