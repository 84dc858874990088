import Verif.Model.FftGroups

/-
Specification of the exchange between the grid of the particles and the grid of the Fourier transforms. Global cells are numbered
`0..n-1`; the local element `c` of process `s` stands for the global cell `lo s + c`, the element `p` (from 1) of the transform array
of process `d` for the global cell `slo d + p - 1`, which lies outside `0..n-1` in the guard cells beyond the ends of the domain.
-/
namespace Picsar.FftGroups
open Picsar

/-- A coordinate of a process. -/
def Axis.In (A : Axis) (c : ℤ) : Prop := 0 ≤ c ∧ c < A.P

/-- The subdomains follow each other and cover the domain; the groups follow each other and cover the domain; the slabs of the
processes of a group follow each other and cover the cells of the group and `g` guard cells on both sides. -/
structure Axis.Ok (A : Axis) (g : ℤ) : Prop where
  groups : 1 ≤ A.G
  per : 1 ≤ A.P / A.G
  divides : A.P = A.G * (A.P / A.G)
  first : A.lo 0 = 0
  last : A.hi (A.P - 1) = A.n - 1
  next : ∀ c, 0 ≤ c → c + 1 < A.P → A.lo (c + 1) = A.hi c + 1
  filled : ∀ c, 0 ≤ c → c < A.P → A.lo c ≤ A.hi c
  same : ∀ k r, 0 ≤ k → k < A.G → 0 ≤ r → r < A.P / A.G →
    A.glo (k * (A.P / A.G) + r) = A.glo (k * (A.P / A.G)) ∧ A.ghi (k * (A.P / A.G) + r) = A.ghi (k * (A.P / A.G))
  groupFirst : A.glo 0 = 0
  groupLast : A.ghi ((A.G - 1) * (A.P / A.G)) = A.n - 1
  groupNext : ∀ k, 0 ≤ k → k + 1 < A.G → A.glo ((k + 1) * (A.P / A.G)) = A.ghi (k * (A.P / A.G)) + 1
  groupFilled : ∀ k, 0 ≤ k → k < A.G → A.glo (k * (A.P / A.G)) ≤ A.ghi (k * (A.P / A.G))
  slabFirst : ∀ k, 0 ≤ k → k < A.G → A.slo (k * (A.P / A.G)) = A.glo (k * (A.P / A.G)) - g
  slabLast : ∀ k, 0 ≤ k → k < A.G → A.shi (k * (A.P / A.G) + (A.P / A.G - 1)) = A.ghi (k * (A.P / A.G)) + g
  slabNext : ∀ k r, 0 ≤ k → k < A.G → 0 ≤ r → r + 1 < A.P / A.G →
    A.slo (k * (A.P / A.G) + (r + 1)) = A.shi (k * (A.P / A.G) + r) + 1
  slabFilled : ∀ c, 0 ≤ c → c < A.P → A.slo c ≤ A.shi c
  guards : 0 ≤ g ∧ 2 * g < A.n
  guardsL : 0 ≤ A.ng

/-- If every process is a group of its own, its slab is its subdomain with the guard cells of its arrays. -/
def Axis.Aligned (A : Axis) : Prop := A.P = A.G → ∀ c, A.In c → A.slo c = A.lo c - A.ng ∧ A.shi c = A.hi c + A.ng

/-- Element `c` of the array of process `s` holds the value that belongs into element `p` of the transform array of process `d`: both
stand for the same cell of the domain, in a periodic direction up to a whole number of periods. (A process that is a group of its own
takes everything from its own array, guard cells included.) -/
def Axis.Source (A : Axis) (d p s c : ℤ) : Prop :=
  (1 ≤ p ∧ p ≤ A.shi d - A.slo d + 1) ∧
  if A.P = A.G then s = d ∧ -A.ng ≤ c ∧ c ≤ A.hi s - A.lo s + A.ng ∧ A.lo s + c = A.slo d + p - 1
  else 0 ≤ c ∧ c ≤ A.hi s - A.lo s ∧
    if A.open_ then A.lo s + c = A.slo d + p - 1 else ∃ t : ℤ, A.lo s + c = A.slo d + p - 1 + t * A.n

/-- Element `p` of the transform array of process `d` holds the value that belongs into element `c` of the array of process `s`: both
stand for the same cell, and the cell belongs to the group of `d`. -/
def Axis.Image (A : Axis) (s c d p : ℤ) : Prop :=
  (1 ≤ p ∧ p ≤ A.shi d - A.slo d + 1) ∧ A.lo s + c = A.slo d + p - 1 ∧
  if A.P = A.G then s = d ∧ -A.ng ≤ c ∧ c ≤ A.hi s - A.lo s + A.ng
  else (0 ≤ c ∧ c ≤ A.hi s - A.lo s) ∧ A.glo d ≤ A.lo s + c ∧ A.lo s + c ≤ A.ghi d

/-- All cells of a slab that one process owns lie in the same period of a periodic direction. -/
def Axis.MeetsOnce (A : Axis) : Prop := A.P ≠ A.G → A.open_ = false → ∀ s d, A.In s → A.In d → ∀ x y,
  A.slo d ≤ x → x ≤ A.shi d → A.slo d ≤ y → y ≤ A.shi d →
  A.lo s ≤ x % A.n → x % A.n ≤ A.hi s → A.lo s ≤ y % A.n → y % A.n ≤ A.hi s → x / A.n = y / A.n

end Picsar.FftGroups
