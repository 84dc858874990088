import Verif.Model.FieldExchange
/-
Exchange and summation in two dimensions: src/boundary_conditions/field_boundaries.F90, where most of the blocks for the y
direction are executed only if `c_dim == 3`.
-/
namespace Picsar.Exchange
open Picsar Picsar.Grid Picsar.Mpi

/-- Number in the 3-D program of a communication of the 2-D one: those along y (2 and 3) are left out. -/
def comm2 (k : ℕ) : ℕ := if k < 2 then k else k + 2

/-- A program without its `d` groups from `a` on, which are those along y. -/
def noY {R σ μ : Type} (Q : Prog R σ μ) (a d : ℕ) : Prog R σ μ where
  G := Q.G - d
  off g := if g ≤ a then Q.off g else Q.off (g + d) - 2
  dst k := Q.dst (comm2 k)
  src k := Q.src (comm2 k)
  pay k := Q.pay (comm2 k)
  put k := Q.put (comm2 k)
  fin g := Q.fin (if g < a then g else g + d)

/-- The summation part of `summation_bcs_nonblocking` for `c_dim = 2`: the block in lines 1179-1211 is skipped
(field_boundaries.F90:1143-1242). -/
noncomputable def sumNonblocking2 (D : Dom) : Prog (Proc D) Loc (List ℝ) := noY (sumNonblocking D) 1 1

/-- `exchange_mpi_3d_grid_array_with_guards_nonblocking` for `c_dim = 2`: the block from line 330 on is skipped
(field_boundaries.F90:283-389). -/
noncomputable def exchNonblocking2 (D : Dom) : Prog (Proc D) Loc (List ℝ) := noY (exchNonblocking D) 2 2

/-- `summation_bcs_nonblocking` for `c_dim = 2` (field_boundaries.F90:1131-1246). -/
noncomputable def summationNonblocking2 (D : Dom) : Prog (Proc D) Loc (List ℝ) := (sumNonblocking2 D).seq (exchNonblocking2 D)

/-- The summation part of `summation_bcs` for `c_dim = 2`: the block in lines 444-471 is skipped (field_boundaries.F90:415-497). -/
noncomputable def sumBlocking2 (D : Dom) : Prog (Proc D) Loc (List ℝ) := noY (sumBlocking D) 2 2

/-- `summation_bcs` for `c_dim = 2` (field_boundaries.F90:403-503). The blocking exchange that follows has no such test: it includes the
y direction (field_boundaries.F90:107-269). -/
noncomputable def summationBlocking2 (D : Dom) : Prog (Proc D) Loc (List ℝ) := (sumBlocking2 D).seq (exchBlocking D)

end Picsar.Exchange
