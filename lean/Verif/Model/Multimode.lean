import Verif.Model.Grid
import Mathlib.Analysis.Complex.Basic

/-
The field solver on azimuthal modes: `pxrpush_emrz_evec_multimode` and `pxrpush_emrz_bvec_multimode` (yee.F90:450-619, 1120-1240) as
they are compiled for an outer code (`WARPX` defined: the OpenMP directives are left out and the loops run in the order written). With
the directives the loop variable `m` is private and never assigned; that build is not modelled. Real numbers are exact. The integer
kinds of the bounds are not distinguished.
-/
namespace Picsar.Multimode
open Picsar
open Picsar.Grid (irange)

/-- The complex field arrays. -/
inductive Fld | er | et | ez | br | bt | bz | jr | jt | jz
  deriving DecidableEq

/-- `lo(1):hi(1), lo(2):hi(2)`. -/
structure Box where
  lo1 : ℤ
  hi1 : ℤ
  lo2 : ℤ
  hi2 : ℤ

/-- `complex(num) :: A(lo(1):hi(1), lo(2):hi(2), 0:nmodes-1)` (yee.F90:477-487); all arrays have the same number of modes. -/
structure Arr where
  box : Box
  val : ℤ → ℤ → ℕ → ℂ

/-- All arrays. -/
abbrev Mem := Fld → Arr

/-- The element `(j, k, m)` exists. -/
def Arr.has (a : Arr) (nm : ℕ) (j k : ℤ) (m : ℕ) : Prop :=
  (a.box.lo1 ≤ j ∧ j ≤ a.box.hi1) ∧ (a.box.lo2 ≤ k ∧ k ≤ a.box.hi2) ∧ m < nm

instance (a : Arr) (nm : ℕ) (j k : ℤ) (m : ℕ) : Decidable (a.has nm j k m) := by unfold Arr.has; infer_instance

/-- Right-hand sides at a point: `rd f a b` is `f(j+a, k+b, m)`, `k` a coefficient, which has no value after a division by zero. -/
inductive Ex
  | rd (f : Fld) (a b : ℤ)
  | k (c : Res ℂ)
  | add (x y : Ex)
  | sub (x y : Ex)
  | mul (x y : Ex)

instance : Add Ex := ⟨Ex.add⟩
instance : Sub Ex := ⟨Ex.sub⟩
instance : Mul Ex := ⟨Ex.mul⟩

/-- A number. -/
def cst (c : ℂ) : Ex := .k (.ok c)

/-- `x / r`. -/
noncomputable def quot (x : ℂ) (r : ℝ) : Res ℂ := if r = 0 then .error .divByZero else .ok (x / r)

/-- Evaluation with bounds checks. -/
def Ex.eval (σ : Mem) (nm : ℕ) (j k : ℤ) (m : ℕ) : Ex → Res ℂ
  | .rd f a b => if (σ f).has nm (j + a) (k + b) m then .ok ((σ f).val (j + a) (k + b) m) else .error .outOfBounds
  | .k c => c
  | .add x y => do
    let u ← x.eval σ nm j k m
    let v ← y.eval σ nm j k m
    pure (u + v)
  | .sub x y => do
    let u ← x.eval σ nm j k m
    let v ← y.eval σ nm j k m
    pure (u - v)
  | .mul x y => do
    let u ← x.eval σ nm j k m
    let v ← y.eval σ nm j k m
    pure (u * v)

/-- The assignment `t(j, k, m) = e`. -/
structure Stmt where
  j : ℤ
  k : ℤ
  e : Ex

/-- A store. -/
def Arr.set (a : Arr) (nm : ℕ) (j k : ℤ) (m : ℕ) (v : ℂ) : Res Arr :=
  if a.has nm j k m then .ok { a with val := fun x y n => if x = j ∧ y = k ∧ n = m then v else a.val x y n } else .error .outOfBounds

/-- Assignments to one array and one mode, in this order. -/
def exec (nm : ℕ) (t : Fld) (m : ℕ) : List Stmt → Mem → Res Mem
  | [], σ => .ok σ
  | s :: l, σ => do
    let v ← s.e.eval σ nm s.j s.k m
    let a ← (σ t).set nm s.j s.k m v
    exec nm t m l (Function.update σ t a)

/-- Scalar arguments: the boxes of the three components, `nmodes`, `mudt` (electric field only), `dtsdx`, `dtsdz`, `rmin`, `dr`
(`dtsdy` is not used). -/
structure Args where
  r : Box
  t : Box
  z : Box
  nmodes : ℕ
  mudt : ℝ
  dtsdx : ℝ
  dtsdz : ℝ
  rmin : ℝ
  dr : ℝ

/-- `i*m*dt` with `dt = dtsdx*dr` (yee.F90:499, 1156). -/
noncomputable def Args.imdt (a : Args) (m : ℕ) : ℂ := Complex.I * m * (a.dtsdx * a.dr : ℝ)

/-- `r = rmin+j*dr+0.5*dr` (yee.F90:514, 1224). -/
noncomputable def Args.rHalf (a : Args) (j : ℤ) : ℝ := a.rmin + j * a.dr + 0.5 * a.dr

/-- `r = rmin + j*dr` (yee.F90:583, 603, 1186). -/
noncomputable def Args.rNode (a : Args) (j : ℤ) : ℝ := a.rmin + j * a.dr

/-- `1. + s*0.5/x` where `x` is itself `rmin/dr` plus a number (yee.F90:581-582, 601-602, 1225-1226). -/
noncomputable def ratio (a : Args) (s x : ℝ) : Res ℂ := do
  let q ← quot a.rmin a.dr
  let h ← quot 0.5 (q.re + x)
  pure (1 + s * h)

/-- `do k = lo(2), hi(2); do j = lo(1), hi(1)` around one assignment. -/
def points (b : Box) (e : ℤ → Ex) : List Stmt := (irange b.lo2 b.hi2).flatMap fun k => (irange b.lo1 b.hi1).map fun j => ⟨j, k, e j⟩

/-- `do k; do j; if (j /= 0) ...; end do; if (lo(1) <= 0 .and. 0 <= hi(1)) then; j = 0; ...; end if; end do` (yee.F90:532-565, 578-609). -/
def pointsAxis (b : Box) (e : ℤ → Ex) (axis : Ex) : List Stmt := (irange b.lo2 b.hi2).flatMap fun k =>
  (((irange b.lo1 b.hi1).filter fun j => j ≠ 0).map fun j => ⟨j, k, e j⟩) ++ (if b.lo1 ≤ 0 ∧ 0 ≤ b.hi1 then [⟨0, k, axis⟩] else [])

open Fld

/-- yee.F90:514-517. -/
noncomputable def erRhs (a : Args) (m : ℕ) (j : ℤ) : Ex :=
  .rd er 0 0 - .k (quot (a.imdt m) (a.rHalf j)) * .rd bz 0 0 - cst a.dtsdz * (.rd bt 0 0 - .rd bt 0 (-1)) - cst a.mudt * .rd jr 0 0

/-- yee.F90:536-538 and 544-546. -/
noncomputable def etBulk (a : Args) : Ex :=
  .rd et 0 0 - cst a.dtsdx * (.rd bz 0 0 - .rd bz (-1) 0) + cst a.dtsdz * (.rd br 0 0 - .rd br 0 (-1)) - cst a.mudt * .rd jt 0 0

/-- yee.F90:543-563. -/
noncomputable def etAxis (a : Args) (m : ℕ) : Ex :=
  open Classical in if a.rmin ≠ 0 then etBulk a else if m = 1 then cst (-Complex.I) * .rd er 0 0 else cst 0

/-- yee.F90:581-586 and 601-606. -/
noncomputable def ezBulk (a : Args) (m : ℕ) (j : ℤ) : Ex :=
  .rd ez 0 0 + cst a.dtsdx * (.k (ratio a 1 j) * .rd bt 0 0 - .k (ratio a (-1) j) * .rd bt (-1) 0)
    + .k (quot (a.imdt m) (a.rNode j)) * .rd br 0 0 - cst a.mudt * .rd jz 0 0

/-- yee.F90:591-607. -/
noncomputable def ezAxis (a : Args) (m : ℕ) : Ex :=
  open Classical in if a.rmin = 0 then
    (if m = 0 then .rd ez 0 0 + cst 4 * cst a.dtsdx * .rd bt 0 0 - cst a.mudt * .rd jz 0 0 else cst 0)
  else ezBulk a m 0

/-- The body of `do m = 0, nmodes-1` (yee.F90:501-617). -/
noncomputable def evecMode (a : Args) (σ : Mem) (m : ℕ) : Res Mem := do
  let σ ← exec a.nmodes er m (points a.r (erRhs a m)) σ
  let σ ← exec a.nmodes et m (pointsAxis a.t (fun _ => etBulk a) (etAxis a m)) σ
  exec a.nmodes ez m (pointsAxis a.z (ezBulk a m) (ezAxis a m)) σ

/-- yee.F90:450-619 `pxrpush_emrz_evec_multimode`. -/
noncomputable def evec (a : Args) (σ : Mem) : Res Mem := (List.range a.nmodes).foldlM (evecMode a) σ

/-- yee.F90:1170-1189. -/
noncomputable def brRhs (a : Args) (m : ℕ) (j : ℤ) : Ex :=
  open Classical in if j = 0 ∧ a.rmin = 0 then
    (if m ≠ 1 then cst 0
     else .rd br 0 0 + .k (quot (a.imdt m) a.dr) * .rd ez 1 0 + cst a.dtsdz * (.rd et 0 1 - .rd et 0 0))
  else .rd br 0 0 + .k (quot (a.imdt m) (a.rNode j)) * .rd ez 0 0 + cst a.dtsdz * (.rd et 0 1 - .rd et 0 0)

/-- yee.F90:1206-1207. -/
noncomputable def btRhs (a : Args) : Ex :=
  .rd bt 0 0 + cst a.dtsdx * (.rd ez 1 0 - .rd ez 0 0) - cst a.dtsdz * (.rd er 0 1 - .rd er 0 0)

/-- yee.F90:1224-1228. -/
noncomputable def bzRhs (a : Args) (m : ℕ) (j : ℤ) : Ex :=
  .rd bz 0 0 - cst a.dtsdx * (.k (ratio a 1 (j + 0.5)) * .rd et 1 0 - .k (ratio a (-1) (j + 0.5)) * .rd et 0 0)
    - .k (quot (a.imdt m) (a.rHalf j)) * .rd er 0 0

/-- The body of `do m = 0, nmodes-1` (yee.F90:1157-1238). -/
noncomputable def bvecMode (a : Args) (σ : Mem) (m : ℕ) : Res Mem := do
  let σ ← exec a.nmodes br m (points a.r (brRhs a m)) σ
  let σ ← exec a.nmodes bt m (points a.t fun _ => btRhs a) σ
  exec a.nmodes bz m (points a.z (bzRhs a m)) σ

/-- yee.F90:1120-1240 `pxrpush_emrz_bvec_multimode`. -/
noncomputable def bvec (a : Args) (σ : Mem) : Res Mem := (List.range a.nmodes).foldlM (bvecMode a) σ

end Picsar.Multimode
