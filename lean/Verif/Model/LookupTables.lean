import Verif.Base
import Verif.Model.Utilities
import Mathlib.Algebra.Order.Floor.Semiring

/-
Model of src/multi_physics/QED/src/lookup_tables.hpp (interpolation; the stream format is in
Model/TableIO.lean, the ownership of the underlying vectors in Model/PicsarVector.lean).
-/
namespace Picsar

/-- Floating point division where the divisor may vanish. -/
noncomputable def fdiv (a b : ℝ) : Res ℝ := if b = 0 then .error .divByZero else .ok (a / b)

/-- `static_cast<size_t>(floor(x))`: undefined behaviour when `floor(x)` is negative. (For
`x ≥ 2^64` the conversion is undefined as well; the model returns the unbounded value, which is then
outside every array.) -/
noncomputable def toSizeT (x : ℝ) : Res ℕ := if 0 ≤ x then .ok ⌊x⌋₊ else .error .badConversion

/-- `idx - 1` on `size_t`, used only to index an array: for `idx = 0` the value wraps to `2^64-1`,
which is outside every array. -/
def predIdx : ℕ → Res ℕ
  | 0 => .error .outOfBounds
  | n + 1 => .ok n

/-- lookup_tables.hpp:41-118 (class `lookup_1d`): members `coords`, `data`, `init_flag`. -/
structure Lookup1d where
  coords : List ℝ
  data : List ℝ
  init : Bool

/-- lookup_tables.hpp:120-204 (class `lookup_2d`): members `coords[0]`, `coords[1]`, `data`,
`init_flag`. -/
structure Lookup2d where
  coords0 : List ℝ
  coords1 : List ℝ
  data : List ℝ
  init : Bool

/-- lookup_tables.hpp:212-217 empty constructor. -/
def Lookup1d.empty : Lookup1d := ⟨[], [], false⟩

/-- lookup_tables.hpp:220-227 constructor from coordinates and data. -/
def Lookup1d.mk' (coords data : List ℝ) : Lookup1d := ⟨coords, data, true⟩

/-- lookup_tables.hpp:401-404 empty constructor. -/
def Lookup2d.empty : Lookup2d := ⟨[], [], [], false⟩

/-- lookup_tables.hpp:409-417 constructor from coordinates and data. -/
def Lookup2d.mk' (c0 c1 data : List ℝ) : Lookup2d := ⟨c0, c1, data, true⟩

/-- lookup_tables.hpp:312-320 (and 575-590, 668-674): index of the cell containing `w` on an
equispaced grid: `floor((coords.size()-1)*(where-xmin)/xsize)`. -/
noncomputable def equispacedIndex (coords : List ℝ) (w : ℝ) : Res ℕ := do
  let xmin ← rd coords 0
  let xmax ← rd coords (coords.length - 1)
  let q ← fdiv (((coords.length - 1 : ℕ) : ℝ) * (w - xmin)) (xmax - xmin)
  toSizeT q

/-- lookup_tables.hpp:323-328, 342-347: reading of the two neighbouring nodes and the final formula
`yleft + ((yright-yleft)/(xright-xleft))*(where-xleft)`. -/
noncomputable def interpCell (coords data : List ℝ) (l r : ℕ) (w : ℝ) : Res ℝ := do
  let xleft ← rd coords l
  let xright ← rd coords r
  let yleft ← rd data l
  let yright ← rd data r
  let s ← fdiv (yright - yleft) (xright - xleft)
  pure (yleft + s * (w - xleft))

/-- lookup_tables.hpp:307-329 `lookup_1d::interp_linear_equispaced`. -/
noncomputable def Lookup1d.interpLinearEquispaced (t : Lookup1d) (w : ℝ) : Res ℝ := do
  let idxLeft ← equispacedIndex t.coords w
  interpCell t.coords t.data idxLeft (idxLeft + 1) w

/-- lookup_tables.hpp:332-348 `lookup_1d::interp_linear`. -/
noncomputable def Lookup1d.interpLinear (t : Lookup1d) (w : ℝ) : Res ℝ := do
  let idxRight ← upperBound t.coords w
  let idxLeft ← predIdx idxRight
  interpCell t.coords t.data idxLeft idxRight w

/-- lookup_tables.hpp:752-761 `row_major`. -/
def rowMajor (i j _c1 c2 : ℕ) : ℕ := i * c2 + j

/-- lookup_tables.hpp:511-517 `data_at_coords`. -/
def Lookup2d.dataAtCoords (t : Lookup2d) (i j : ℕ) : Res ℝ :=
  rd t.data (rowMajor i j t.coords0.length t.coords1.length)

/-- lookup_tables.hpp:545-567 and 592-614: reading of the four corner nodes and the bilinear formula. -/
noncomputable def Lookup2d.interpCell2 (t : Lookup2d) (xl xr yl yr : ℕ) (wx wy : ℝ) : Res ℝ := do
  let xleft ← rd t.coords0 xl
  let xright ← rd t.coords0 xr
  let yleft ← rd t.coords1 yl
  let yright ← rd t.coords1 yr
  let sx := t.coords0.length
  let sy := t.coords1.length
  let zll ← rd t.data (rowMajor xl yl sx sy)
  let zlr ← rd t.data (rowMajor xl yr sx sy)
  let zrl ← rd t.data (rowMajor xr yl sx sy)
  let zrr ← rd t.data (rowMajor xr yr sx sy)
  let wll := (xright - wx) * (yright - wy)
  let wlr := (xright - wx) * (wy - yleft)
  let wrl := (wx - xleft) * (yright - wy)
  let wrr := (wx - xleft) * (wy - yleft)
  fdiv (wll * zll + wlr * zlr + wrl * zrl + wrr * zrr) ((xright - xleft) * (yright - yleft))

/-- lookup_tables.hpp:532-568 `lookup_2d::interp_linear`. -/
noncomputable def Lookup2d.interpLinear (t : Lookup2d) (wx wy : ℝ) : Res ℝ := do
  let xr ← upperBound t.coords0 wx
  let yr ← upperBound t.coords1 wy
  let xl ← predIdx xr
  let yl ← predIdx yr
  t.interpCell2 xl xr yl yr wx wy

/-- lookup_tables.hpp:571-615 `lookup_2d::interp_linear_equispaced`. -/
noncomputable def Lookup2d.interpLinearEquispaced (t : Lookup2d) (wx wy : ℝ) : Res ℝ := do
  let xl ← equispacedIndex t.coords0 wx
  let yl ← equispacedIndex t.coords1 wy
  t.interpCell2 xl (xl + 1) yl (yl + 1) wx wy

/-- lookup_tables.hpp:634-648 and 676-688: the two neighbouring rows and the convex combination
on the first coordinate. -/
noncomputable def Lookup2d.interpCellFirst (t : Lookup2d) (xl xr : ℕ) (wx : ℝ) (j : ℕ) : Res ℝ := do
  let xleft ← rd t.coords0 xl
  let xright ← rd t.coords0 xr
  let sx := t.coords0.length
  let sy := t.coords1.length
  let zlc ← rd t.data (rowMajor xl j sx sy)
  let zrc ← rd t.data (rowMajor xr j sx sy)
  fdiv ((xright - wx) * zlc + (wx - xleft) * zrc) (xright - xleft)

/-- lookup_tables.hpp:619-649 `lookup_2d::interp_linear_first` (the unused reads of `front()` and
`back()` included: they fault on an empty table). -/
noncomputable def Lookup2d.interpLinearFirst (t : Lookup2d) (wx : ℝ) (j : ℕ) : Res ℝ := do
  let _xmin ← rd t.coords0 0
  let _xmax ← rd t.coords0 (t.coords0.length - 1)
  let xr ← upperBound t.coords0 wx
  let xl ← predIdx xr
  t.interpCellFirst xl xr wx j

open Classical in
/-- lookup_tables.hpp:653-689 `lookup_2d::interp_linear_first_equispaced`. -/
noncomputable def Lookup2d.interpLinearFirstEquispaced (t : Lookup2d) (wx : ℝ) (j : ℕ) : Res ℝ := do
  let sx := t.coords0.length
  let sy := t.coords1.length
  let front ← rd t.coords0 0
  if wx ≤ front then rd t.data (rowMajor 0 j sx sy)
  else
    let back ← rd t.coords0 (sx - 1)
    if wx ≥ back then rd t.data (rowMajor (sx - 1) j sx sy)
    else
      let xl ← equispacedIndex t.coords0 wx
      t.interpCellFirst xl (xl + 1) wx j

end Picsar
