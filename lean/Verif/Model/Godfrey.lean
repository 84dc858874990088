import Verif.Model.Grid
import Verif.Model.GodfreyTable
import Mathlib.Algebra.Order.Floor.Ring
import Mathlib.Algebra.Order.Archimedean.Real.Basic

/-
Filter against the numerical Cherenkov instability, src/filtering/nci_godfrey_corr.F90: init_godfrey_filter_coeffs (287-333),
apply_godfrey_filter_z_2d (351-371), apply_godfrey_filter_z_3d (391-415), called from C++ (`bind(c)`).
-/
namespace Picsar.Godfrey
open Picsar Picsar.Grid

/-- Fortran `INT`: truncation. Simplification: unbounded result. -/
noncomputable def truncI (x : ℝ) : ℤ := if 0 ≤ x then ⌊x⌋ else ⌈x⌉

/-- `coeff(1:4, index)`, `index` checked against the bounds `1:100`. -/
def rowAt (t : List Row) (i : ℤ) : Res Row :=
  if 1 ≤ i then match t[(i - 1).toNat]? with
    | some r => .ok r
    | none => .error .outOfBounds
  else .error .outOfBounds

/-- `index` (302-308) for a table of `size` columns: `INT(size_coeff_table*cdtodz)+1` limited to `1 .. size_coeff_table-1`. -/
noncomputable def index (size : ℤ) (c : ℝ) : ℤ :=
  let i := truncI (size * c) + 1
  let i := if i < 1 then 1 else i
  if i > size - 1 then size - 1 else i

/-- `weight_right = cdtodz - (index-1)/size_coeff_table` (309): `index` and `size_coeff_table` are integers, so `/` is the integer division. -/
noncomputable def weight (size : ℤ) (c : ℝ) (i : ℤ) : ℝ := c - (((i - 1).tdiv size : ℤ) : ℝ)

/-- The four `prestencil` values (310-313). -/
noncomputable def prestencil (t : List Row) (size : ℤ) (c : ℝ) : Res (ℝ × ℝ × ℝ × ℝ) := do
  let i := index size c
  let w := weight size c i
  let a ← rowAt t i
  let b ← rowAt t (i + 1)
  pure ((1 - w) * a.c1 + w * b.c1, (1 - w) * a.c2 + w * b.c2, (1 - w) * a.c3 + w * b.c3, (1 - w) * a.c4 + w * b.c4)

/-- `stencilz(0:4)` from the `prestencil` values (314-324). -/
noncomputable def stencil (p : ℝ × ℝ × ℝ × ℝ) : List ℝ :=
  [(256 + 128 * p.1 + 96 * p.2.1 + 80 * p.2.2.1 + 70 * p.2.2.2) / 256,
   -(64 * p.1 + 64 * p.2.1 + 60 * p.2.2.1 + 56 * p.2.2.2) / 256,
   (16 * p.2.1 + 24 * p.2.2.1 + 28 * p.2.2.2) / 256,
   -(4 * p.2.2.1 + 8 * p.2.2.2) / 256,
   (1 * p.2.2.2) / 256]

/-- `init_godfrey_filter_coeffs`: the two stencils, `STOP` (an exception) for another length or with `l_lower_order_in_v = 0` (297-300, 325-328). -/
noncomputable def initFilter (nstencilz : ℤ) (c : ℝ) (lower : ℤ) : Res (List ℝ × List ℝ) :=
  if nstencilz ≠ 5 then .error .exception
  else if lower ≠ 0 then do
    let ex ← prestencil exTable exTable.length c
    let by' ← prestencil byTable exTable.length c
    pure (stencil ex, stencil by')
  else .error .exception

/-- The arrays of the filter: `fin` is `.ex`, `fou` is `.ey` (distinct arrays by the rules of Fortran). -/
def bufs (fin fou : Arr) : Mem := fun c => if c = .ey then fou else fin

/-- Pass `ks`: `fou(i,j,k) = fou(i,j,k) + sten(ks)*(fin(i,j,k-ks)+fin(i,j,k+ks))` (406-414). -/
noncomputable def passEx (s : ℝ) (ks : ℕ) : Ex := .rd .ey 0 0 0 + cst s * (.rd .ex 0 0 (-(ks : ℤ)) + .rd .ex 0 0 ks)

/-- `apply_godfrey_filter_z_3d` for a stencil of `nsten` values: first pass with `sten(0)`, then `ks = 1 .. nsten-1`. Without values `sten(0)` does not
exist. -/
noncomputable def applyFilter (lo hi : I3) (sten : List ℝ) (fin fou : Arr) : Res Arr :=
  match sten with
  | [] => if box lo hi = [] then .ok fou else .error .outOfBounds
  | s :: ss => do
    let σ ← loop .ey (cst s * .rd .ex 0 0 0) (box lo hi) (bufs fin fou)
    let σ ← (ss.zipIdx 1).foldlM (fun (σ : Mem) (t : ℝ × ℕ) => loop .ey (passEx t.1 t.2) (box lo hi) σ) σ
    pure (σ .ey)

/-- `apply_godfrey_filter_z_2d`: the same on arrays `fin(i,k)`, which are indexed by `⟨i, 0, k⟩`. -/
noncomputable def applyFilter2 (lo hi : ℤ × ℤ) (sten : List ℝ) (fin fou : Arr) : Res Arr :=
  applyFilter ⟨lo.1, 0, lo.2⟩ ⟨hi.1, 0, hi.2⟩ sten fin fou

end Picsar.Godfrey
