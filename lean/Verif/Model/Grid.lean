import Verif.Base
import Mathlib.Data.Real.Basic
import Mathlib.Algebra.BigOperators.Group.Finset.Basic

/-
Grid arrays with declared bounds and the triple loops that update them: the shape shared by the field solvers of
src/field_solvers/Maxwell. An assignment `A(j,k,l) = expression` inside `do l; do k; do j` (with `!$OMP DO COLLAPSE(3)`) is an
expression tree evaluated at every index of a list; every array access is checked against the declared bounds.
-/
namespace Picsar.Grid
open Picsar

/-- Index of a grid point. 2D (and r-z) arrays `A(j,k)` are indexed by `⟨j, 0, k⟩`. -/
structure I3 where
  j : ℤ
  k : ℤ
  l : ℤ
  deriving DecidableEq

/-- The field arrays passed to the solvers. -/
inductive Comp | ex | ey | ez | bx | by' | bz | jx | jy | jz | f
  deriving DecidableEq

/-- `lo ≤ i ≤ hi` in every direction. -/
def InBox (lo hi i : I3) : Prop :=
  lo.j ≤ i.j ∧ i.j ≤ hi.j ∧ lo.k ≤ i.k ∧ i.k ≤ hi.k ∧ lo.l ≤ i.l ∧ i.l ≤ hi.l

instance (lo hi i : I3) : Decidable (InBox lo hi i) := by unfold InBox; infer_instance

/-- `real(num) :: a(lo(1):hi(1), lo(2):hi(2), lo(3):hi(3))`. -/
structure Arr where
  lo : I3
  hi : I3
  val : I3 → ℝ

/-- All arrays. -/
abbrev Mem := Comp → Arr

/-- Read of an array element; outside the declared bounds it is undefined behaviour. -/
noncomputable def Arr.get (a : Arr) (i : I3) : Res ℝ :=
  if InBox a.lo a.hi i then .ok (a.val i) else .error .outOfBounds

/-- Write of an array element. -/
noncomputable def Arr.set (a : Arr) (i : I3) (v : ℝ) : Res Arr :=
  if InBox a.lo a.hi i then .ok { a with val := Function.update a.val i v } else .error .outOfBounds

/-- Right-hand sides. `rd c dj dk dl` is `c(j+dj,k+dk,l+dl)`; `k` a coefficient (that may depend on the index, in r-z geometry);
`cond` an `if` on the index; `sum n body` the inner loop `do i = 1, n` that accumulates `body i`. -/
inductive Ex
  | rd (c : Comp) (dj dk dl : ℤ)
  | k (f : I3 → ℝ)
  | add (a b : Ex)
  | sub (a b : Ex)
  | mul (a b : Ex)
  | cond (p : I3 → Bool) (a b : Ex)
  | sum (n : I3 → ℕ) (body : ℕ → Ex)

instance : Add Ex := ⟨Ex.add⟩
instance : Sub Ex := ⟨Ex.sub⟩
instance : Mul Ex := ⟨Ex.mul⟩

/-- A constant coefficient. -/
def cst (r : ℝ) : Ex := .k fun _ => r

/-- `⟨j+dj, k+dk, l+dl⟩`. -/
def I3.sh (i : I3) (dj dk dl : ℤ) : I3 := ⟨i.j + dj, i.k + dk, i.l + dl⟩

/-- Evaluation with bounds checks. -/
noncomputable def Ex.eval (σ : Mem) (i : I3) : Ex → Res ℝ
  | .rd c dj dk dl => (σ c).get (i.sh dj dk dl)
  | .k f => .ok (f i)
  | .add a b => do
    let x ← a.eval σ i
    let y ← b.eval σ i
    pure (x + y)
  | .sub a b => do
    let x ← a.eval σ i
    let y ← b.eval σ i
    pure (x - y)
  | .mul a b => do
    let x ← a.eval σ i
    let y ← b.eval σ i
    pure (x * y)
  | .cond p a b => if p i then a.eval σ i else b.eval σ i
  | .sum n body => (List.range (n i)).foldlM (fun (s : ℝ) (m : ℕ) => do
      let v ← (body (m + 1)).eval σ i
      pure (s + v)) 0

/-- `do` loop whose body is `t(j,k,l) = e`, over the indices of the list in this order. -/
noncomputable def loop (t : Comp) (e : Ex) : List I3 → Mem → Res Mem
  | [], σ => .ok σ
  | i :: is, σ => do
    let v ← e.eval σ i
    let a ← (σ t).set i v
    loop t e is (Function.update σ t a)

/-- `lo, lo+1, ..., hi`. -/
def irange (lo hi : ℤ) : List ℤ := (List.range (hi - lo + 1).toNat).map fun (n : ℕ) => lo + n

/-- Indices of `do l = lo(3), hi(3); do k = lo(2), hi(2); do j = lo(1), hi(1)`. -/
def box (lo hi : I3) : List I3 :=
  (irange lo.l hi.l).flatMap fun l => (irange lo.k hi.k).flatMap fun k => (irange lo.j hi.j).map fun j => ⟨j, k, l⟩

end Picsar.Grid
