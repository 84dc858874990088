import Verif.Model.Deposition

/-
Vectorised charge deposition, the default (`rhodepo=0`, charge_deposition_manager.F90:189-208):
src/particle_deposition/charge_deposition/charge_deposition_3d.F90, depose_rho_vecHVv2_1_1_1 (928-1098), depose_rho_vecHVv2_2_2_2 (1128-1335),
depose_rho_vecHVv4_3_3_3 (1838-2051).
The charge array is a flat array here, `rho(1:(1+nx+2*nxguard)*(1+ny+2*nyguard)*(1+nz+2*nzguard))` (936, 1135, 1844); the particles are taken by
blocks of `lvect` and deposited on `rhocells(8, NCELLS)`, one column per cell, which a last loop adds to the charge array.
Reals for floating point, `ℤ` for indices, every access to the charge array and to the columns of `rhocells` checked.
-/
namespace Picsar.ChargeVec
open Picsar Picsar.Grid Picsar.Deposition

/-- Flat array `a(1:size)`. -/
structure Flat where
  size : ℤ
  val : ℤ → ℝ

/-- `a(i) = a(i) + v`. -/
noncomputable def Flat.bump (a : Flat) (i : ℤ) (v : ℝ) : Res Flat :=
  if 1 ≤ i ∧ i ≤ a.size then .ok { a with val := Function.update a.val i (a.val i + v) } else .error .outOfBounds

/-- `rhocells(8, NCELLS)`; the first index is a literal or the variable of a loop from 1 to 8. -/
structure Cells where
  n : ℤ
  val : ℕ → ℤ → ℝ

/-- `rhocells(nv, ic) = rhocells(nv, ic) + v`. -/
noncomputable def Cells.bump (c : Cells) (nv : ℕ) (ic : ℤ) (v : ℝ) : Res Cells :=
  if 1 ≤ ic ∧ ic ≤ c.n then .ok { c with val := fun m i => if m = nv ∧ i = ic then c.val m i + v else c.val m i } else .error .outOfBounds

/-- Cells and guard cells of the tile. -/
structure Lay where
  nx : ℤ
  ny : ℤ
  nz : ℤ
  gx : ℤ
  gy : ℤ
  gz : ℤ

/-- `ngridx`, `ngridy`, `nnx = ngridx`, `nnxy = nnx*ngridy` (962, 967-968; 1162, 1167-1168; 1871, 1876-1877). -/
def Lay.ngridx (L : Lay) : ℤ := L.nx + 1 + 2 * L.gx
def Lay.ngridy (L : Lay) : ℤ := L.ny + 1 + 2 * L.gy
def Lay.nnxy (L : Lay) : ℤ := L.ngridx * L.ngridy

/-- Declared size of the charge array. -/
def Lay.size (L : Lay) : ℤ := (1 + L.nx + 2 * L.gx) * (1 + L.ny + 2 * L.gy) * (1 + L.nz + 2 * L.gz)

/-- First cell of `rhocells`: `jorig`, `korig`, `lorig` (974; 1171; 1879). -/
def jorig (n : ℕ) : ℤ := if n = 3 then -2 else -1
def korig (n : ℕ) : ℤ := if n = 3 then -2 else -1
def lorig (_n : ℕ) : ℤ := -1

/-- `ncx`, `ncy`, `ncz` (963; 1163; 1872). -/
def ncx (n : ℕ) (L : Lay) : ℤ := match n with
  | 1 => L.nx + 2
  | 2 => L.nx + 3
  | _ => L.nx + 5
def ncy (n : ℕ) (L : Lay) : ℤ := match n with
  | 1 => L.ny + 2
  | 2 => L.ny + 3
  | _ => L.ny + 4
def ncz (n : ℕ) (L : Lay) : ℤ := match n with
  | 1 => L.nz + 2
  | 2 => L.nz + 3
  | _ => L.nz + 2

/-- `ncxy`, `NCELLS` (964, 978; 1164, 1175; 1873, 1883). -/
def ncxy (n : ℕ) (L : Lay) : ℤ := ncx n L * ncy n L
def ncells (n : ℕ) (L : Lay) : ℤ := ncx n L * ncy n L * ncz n L

/-- `orig`, `ngx`, `ngxy` (975-977; 1172-1174; 1880-1882). -/
def orig (n : ℕ) (L : Lay) : ℤ := jorig n + L.gx + L.ngridx * (korig n + L.gy) + (lorig n + L.gz) * L.nnxy
def ngx (n : ℕ) (L : Lay) : ℤ := L.ngridx - ncx n L
def ngxy (n : ℕ) (L : Lay) : ℤ := L.ngridx * L.ngridy - ncx n L * ncy n L

/-- `moff(1:8)` (969; 1169; 1878). -/
def moff (n : ℕ) (L : Lay) : List ℤ := match n with
  | 1 => [0, 1, L.ngridx, L.ngridx + 1, L.nnxy, L.nnxy + 1, L.nnxy + L.ngridx, L.nnxy + L.ngridx + 1]
  | 2 => [-L.ngridx - L.nnxy, -L.nnxy, L.ngridx - L.nnxy, -L.ngridx, L.ngridx, -L.ngridx + L.nnxy, L.nnxy, L.ngridx + L.nnxy]
  | 3 => [-L.nnxy, 0, L.nnxy, 2 * L.nnxy, L.ngridx - L.nnxy, L.ngridx, L.ngridx + L.nnxy, L.ngridx + 2 * L.nnxy]
  | _ => []

/-- `ICELL(n)=1+(j-jorig)+(k-korig)*(ncx)+(l-lorig)*ncxy` (1015; 1210; 1918). -/
def icell (n : ℕ) (L : Lay) (j k l : ℤ) : ℤ := 1 + (j - jorig n) + (k - korig n) * ncx n L + (l - lorig n) * ncxy n L

/-- What the first loop keeps of a particle for the second: statements `rhocells(nv, ic) += v` and statements `rho(i) += v`. -/
structure Kept where
  cells : List (ℕ × ℤ × ℝ)
  direct : List (ℤ × ℝ)

/-- `mx`, `my`, `mz`, `sgn` of the eight vertices (970-973). -/
def corners : List (ℕ × ℝ × ℝ × ℝ × ℝ) :=
  [(1, 1, 1, 1, -1), (2, 0, 1, 1, 1), (3, 1, 0, 1, 1), (4, 0, 0, 1, -1), (5, 1, 1, 0, 1), (6, 0, 1, 0, -1), (7, 1, 0, 0, -1), (8, 0, 0, 0, 1)]

/-- Order 1 (1006-1022 and 1053-1056). -/
noncomputable def kept1 (L : Lay) (wq x y z : ℝ) : Kept :=
  let j := ⌊x⌋
  let k := ⌊y⌋
  let l := ⌊z⌋
  let sx := x - j
  let sy := y - k
  let sz := z - l
  ⟨corners.map fun c => (c.1, icell 1 L j k l, (-c.2.1 + sx) * (-c.2.2.1 + sy) * (-c.2.2.2.1 + sz) * wq * c.2.2.2.2), []⟩

/-- Order 2 (1201-1242 and 1269-1294): `www(n, 1:8)` on the eight columns around the central one, the central column `ww0` directly on the
charge array. `IG(n)=ICELL(n)+(k-korig)*ngx+(l-lorig)*ngxy`. The loop on the charge array has four iterations and `ww0(n,4)` is zero, set once
before the loops (1170). -/
noncomputable def kept2 (L : Lay) (wq x y z : ℝ) : Kept :=
  let j := nint x
  let k := nint y
  let l := nint z
  let ic := icell 2 L j k l
  let ig := ic + (k - korig 2) * ngx 2 L + (l - lorig 2) * ngxy 2 L
  let xint := x - j
  let yint := y - k
  let zint := z - l
  let sx0 := 1 / 2 * (1 / 2 - xint) ^ 2
  let sx1 := 3 / 4 - xint ^ 2
  let sx2 := 1 / 2 * (1 / 2 + xint) ^ 2
  let syy0 := 1 / 2 * (1 / 2 - yint) ^ 2
  let syy1 := 3 / 4 - yint ^ 2
  let syy2 := 1 / 2 * (1 / 2 + yint) ^ 2
  let szz0 := 1 / 2 * (1 / 2 - zint) ^ 2 * wq
  let szz1 := (3 / 4 - zint ^ 2) * wq
  let szz2 := 1 / 2 * (1 / 2 + zint) ^ 2 * wq
  let www : List (ℕ × ℝ) := [(1, syy0 * szz0), (2, syy1 * szz0), (3, syy2 * szz0), (4, syy0 * szz1), (5, syy2 * szz1), (6, syy0 * szz2),
    (7, syy1 * szz2), (8, syy2 * szz2)]
  let szy := syy1 * szz1
  ⟨www.flatMap fun w => [(w.1, ic - 1, w.2 * sx0), (w.1, ic, w.2 * sx1), (w.1, ic + 1, w.2 * sx2)],
    [(orig 2 L + ig + 1 - 2, szy * sx0), (orig 2 L + ig + 2 - 2, szy * sx1), (orig 2 L + ig + 3 - 2, szy * sx2), (orig 2 L + ig + 4 - 2, 0)]⟩

/-- Order 3 (1909-1962 and 1990-2011). -/
noncomputable def kept3 (L : Lay) (wq x y z : ℝ) : Kept :=
  let j := ⌊x⌋
  let k := ⌊y⌋
  let l := ⌊z⌋
  let ic := icell 3 L j k l
  let xint := x - j
  let yint := y - k
  let zint := z - l
  let oxint := 1 - xint
  let xintsq := xint * xint
  let oxintsq := oxint * oxint
  let sx1 := 1 / 6 * oxintsq * oxint
  let sx2 := 2 / 3 - xintsq * (1 - xint * (1 / 2))
  let sx3 := 2 / 3 - oxintsq * (1 - oxint * (1 / 2))
  let sx4 := 1 / 6 * xintsq * xint
  let oyint := 1 - yint
  let yintsq := yint * yint
  let oyintsq := oyint * oyint
  let sy1 := 1 / 6 * oyintsq * oyint
  let sy2 := 2 / 3 - yintsq * (1 - yint * (1 / 2))
  let sy3 := 2 / 3 - oyintsq * (1 - oyint * (1 / 2))
  let sy4 := 1 / 6 * yintsq * yint
  let ozint := 1 - zint
  let zintsq := zint * zint
  let ozintsq := ozint * ozint
  let sz1 := 1 / 6 * ozintsq * ozint * wq
  let sz2 := (2 / 3 - zintsq * (1 - zint * (1 / 2))) * wq
  let sz3 := (2 / 3 - ozintsq * (1 - ozint * (1 / 2))) * wq
  let sz4 := 1 / 6 * zintsq * zint * wq
  let www : List (ℕ × ℝ × ℝ) := [(1, sz1 * sy1, sz1 * sy3), (2, sz2 * sy1, sz2 * sy3), (3, sz3 * sy1, sz3 * sy3), (4, sz4 * sy1, sz4 * sy3),
    (5, sz1 * sy2, sz1 * sy4), (6, sz2 * sy2, sz2 * sy4), (7, sz3 * sy2, sz3 * sy4), (8, sz4 * sy2, sz4 * sy4)]
  ⟨www.flatMap fun w => [(w.1, ic - ncx 3 L - 1, w.2.1 * sx1), (w.1, ic - ncx 3 L, w.2.1 * sx2), (w.1, ic - ncx 3 L + 1, w.2.1 * sx3),
    (w.1, ic - ncx 3 L + 2, w.2.1 * sx4), (w.1, ic + ncx 3 L - 1, w.2.2 * sx1), (w.1, ic + ncx 3 L, w.2.2 * sx2),
    (w.1, ic + ncx 3 L + 1, w.2.2 * sx3), (w.1, ic + ncx 3 L + 2, w.2.2 * sx4)], []⟩

/-- First loop of a block: position in cells and weight, `wq = q*w*invvol` (1004-1022, 1199-1242, 1907-1962). -/
noncomputable def keep (n : ℕ) (L : Lay) (g : Geo) (p : Part) : Kept :=
  let dxi := 1 / g.dx
  let dyi := 1 / g.dy
  let dzi := 1 / g.dz
  let wq := g.q * p.w * (dxi * dyi * dzi)
  let x := (p.x - g.xmin) * dxi
  let y := (p.y - g.ymin) * dyi
  let z := (p.z - g.zmin) * dzi
  match n with
  | 1 => kept1 L wq x y z
  | 2 => kept2 L wq x y z
  | 3 => kept3 L wq x y z
  | _ => ⟨[], []⟩

/-- Second loop of a block: deposition on `rhocells` and, at order 2, on the charge array (1029-1062, 1249-1300, 1969-2016). -/
noncomputable def deposit (s : Cells × Flat) (k : Kept) : Res (Cells × Flat) := do
  let c ← k.cells.foldlM (fun (c : Cells) (t : ℕ × ℤ × ℝ) => c.bump t.1 t.2.1 t.2.2) s.1
  let r ← k.direct.foldlM (fun (r : Flat) (t : ℤ × ℝ) => r.bump t.1 t.2) s.2
  pure (c, r)

/-- Block `b` of `DO ip=1, np, lvect` with `DO n=1, MIN(lvect, np-ip+1)`, `nn=ip+n-1` (982, 1004-1005; 1178, 1199-1200; 1886, 1907-1908). -/
def block {α : Type} (lvect : ℕ) (ps : List α) (b : ℕ) : List α := (ps.drop (b * lvect)).take lvect

/-- Number of blocks: trip count `(np - 1 + lvect)/lvect` of the loop. -/
def nblocks (lvect np : ℕ) : ℕ := (np + lvect - 1) / lvect

/-- Loop over the blocks: every block computes first for all its particles, then deposits them. -/
noncomputable def particles (n : ℕ) (L : Lay) (g : Geo) (lvect : ℕ) (ps : List Part) (s : Cells × Flat) : Res (Cells × Flat) :=
  (List.range (nblocks lvect ps.length)).foldlM (fun (s : Cells × Flat) (b : ℕ) =>
    ((block lvect ps b).map (keep n L g)).foldlM deposit s) s

/-- One assignment `rho(i) = rho(i) + v` of the last loop executed by several SIMD lanes: all the lanes read, then all the lanes write (a lane
writes the sum it computed from what it read). -/
noncomputable def Flat.lanes (a : Flat) (ts : List (ℤ × ℝ)) : Res Flat :=
  if ∀ t ∈ ts, 1 ≤ t.1 ∧ t.1 ≤ a.size then .ok { a with val := (ts.map fun t => (t.1, a.val t.1 + t.2)).foldl (fun f w => Function.update f w.1 w.2) a.val }
  else .error .outOfBounds

/-- The eight assignments of the last loop, for the lanes `xs` of row `(iy, iz)`:
`ic=ix+(iy-1)*ncx+(iz-1)*ncxy`, `igrid=ic+(iy-1)*ngx+(iz-1)*ngxy+orig`, `rho(igrid+moff(nv))=rho(igrid+moff(nv))+rhocells(nv, ic)`
(1078-1087; 1315-1324; 2031-2040). Simplification: the reads `rhocells(nv, ic)` are not checked, `ic` runs from 1 to `NCELLS`. -/
noncomputable def reduceLanes (n : ℕ) (L : Lay) (c : Cells) (iy iz : ℤ) (r : Flat) (xs : List ℤ) : Res Flat :=
  (moff n L).zipIdx.foldlM (fun (r : Flat) (m : ℤ × ℕ) => r.lanes (xs.map fun ix =>
    let ic := ix + (iy - 1) * ncx n L + (iz - 1) * ncxy n L
    (ic + (iy - 1) * ngx n L + (iz - 1) * ngxy n L + orig n L + m.1, c.val (m.2 + 1) ic))) r

/-- Last loop (1066-1095; 1303-1332; 2019-2048): `DO iz; DO iy; DO ix` with `!$OMP SIMD` on the innermost, executed `V` iterations at a time. -/
noncomputable def reduce (n : ℕ) (L : Lay) (V : ℕ) (c : Cells) (r : Flat) : Res Flat :=
  (irange 1 (ncz n L)).foldlM (fun (r : Flat) (iz : ℤ) => (irange 1 (ncy n L)).foldlM (fun (r : Flat) (iy : ℤ) =>
    (List.range (nblocks V (irange 1 (ncx n L)).length)).foldlM (fun (r : Flat) (b : ℕ) =>
      reduceLanes n L c iy iz r (block V (irange 1 (ncx n L)) b)) r) r) r

/-- The whole routine. A zero stride `lvect` is not allowed by the language. -/
noncomputable def deposeVec (n : ℕ) (L : Lay) (V lvect : ℕ) (g : Geo) (ps : List Part) (rho : Flat) : Res Flat := do
  if lvect = 0 then .error .divByZero
  else
    let s ← particles n L g lvect ps (⟨ncells n L, fun _ _ => 0⟩, rho)
    reduce n L V s.1 s.2

end Picsar.ChargeVec
