import Verif.Model.FieldFile

/-
What a field file is meant to contain.
-/
namespace Picsar.FieldFile
open Picsar Picsar.Grid Picsar.Exchange Picsar.Datatypes

/-- The number `d` is in the file at byte `o`. -/
def Holds (f : File) (o : ℤ) (d : Datum) : Prop := ∀ k, 0 ≤ k → k < d.width → f (o + k) = some (d, k)

/-- `c 0 = 0 < c 1 < ... < c R = N` cut `N` cells into `R` parts. -/
def CutsOf (c : ℕ → ℤ) (R : ℕ) (N : ℤ) : Prop := c 0 = 0 ∧ (∀ r, r < R → c r < c (r + 1)) ∧ c R = N

/-- A Cartesian decomposition of the cells of the domain. -/
structure Decomp where
  R : Ax → ℕ
  c : Ax → ℕ → ℤ

def Decomp.Of (P : Decomp) (D : Domain) : Prop := ∀ a, CutsOf (P.c a) (P.R a) (D.cells a)

/-- A process of the decomposition. -/
def Decomp.Has (P : Decomp) (r : Ax → ℕ) : Prop := ∀ a, r a < P.R a

/-- Cells of process `r`. -/
def Decomp.n (P : Decomp) (r : Ax → ℕ) (a : Ax) : ℤ := P.c a (r a + 1) - P.c a (r a)

/-- Process `r` with an array that has `g` guard cells. -/
def Decomp.proc (P : Decomp) (g : Ax → ℤ) (mem : (Ax → ℕ) → ℤ → ℝ) (r : Ax → ℕ) : Local :=
  ⟨P.n r, fun a => P.c a (r a), ⟨P.n r, g⟩, mem r⟩

/-- Element `(i, j, k)` of the array of process `r`. -/
def Decomp.value (P : Decomp) (g : Ax → ℤ) (mem : (Ax → ℕ) → ℤ → ℝ) (r : Ax → ℕ) (i : I3) : ℝ := mem r ((⟨P.n r, g⟩ : Fld).addr i)

/-- The global grid point of local point `i` of process `r`. -/
def Decomp.glob (P : Decomp) (r : Ax → ℕ) (i : I3) : I3 := ⟨P.c .x (r .x) + i.j, P.c .y (r .y) + i.k, P.c .z (r .z) + i.l⟩

/-- Local points of a process that are not shared with a process above. -/
def Decomp.Own (P : Decomp) (r : Ax → ℕ) (i : I3) : Prop :=
  0 ≤ i.j ∧ i.j < P.n r .x ∧ 0 ≤ i.k ∧ i.k < P.n r .y ∧ 0 ≤ i.l ∧ i.l < P.n r .z

/-- Points of the global grid, except the last one in each direction. -/
def Domain.Has (D : Domain) (i : I3) : Prop :=
  0 ≤ i.j ∧ i.j < D.cells .x ∧ 0 ≤ i.k ∧ i.k < D.cells .y ∧ 0 ≤ i.l ∧ i.l < D.cells .z

/-- Byte of the file where the value at a point of the global grid belongs: after 60 bytes, column-major. -/
def Domain.byte (D : Domain) (i : I3) : ℤ := 60 + 8 * (i.j + D.cells .x * (i.k + D.cells .y * i.l))

/-- Size of the file. -/
def Domain.bytes (D : Domain) : ℤ := 60 + 8 * (D.cells .x * D.cells .y * D.cells .z)

/-- The header: limits and number of cells in x, in y, in z. -/
def HeaderIn (f : File) (D : Domain) : Prop :=
  Holds f 0 (.real (D.lo .x)) ∧ Holds f 8 (.real (D.hi .x)) ∧ Holds f 16 (.int (D.cells .x)) ∧
  Holds f 20 (.real (D.lo .y)) ∧ Holds f 28 (.real (D.hi .y)) ∧ Holds f 36 (.int (D.cells .y)) ∧
  Holds f 40 (.real (D.lo .z)) ∧ Holds f 48 (.real (D.hi .z)) ∧ Holds f 56 (.int (D.cells .z))

/-- Every process of the decomposition once, in some order. -/
def Decomp.Lists (P : Decomp) (ps : List (Ax → ℕ)) : Prop := ps.Nodup ∧ ∀ r, r ∈ ps ↔ P.Has r

end Picsar.FieldFile
