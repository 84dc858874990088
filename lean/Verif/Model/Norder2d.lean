import Verif.Model.Maxwell

/-
Model of the arbitrary-order 2D pushes of src/field_solvers/Maxwell/yee_solver/yee.F90. They work on 3D arrays at the fixed second
index `k`, set to 0 before the parallel region, where `k` is listed as PRIVATE.
-/
namespace Picsar.Maxwell
open Picsar Picsar.Grid
open Comp (ex ey ez bx by' bz jx jy jz f)

/-- Value, inside the parallel region, of a variable that had the value `v` before it and is listed in a `PRIVATE` clause:
undefined with OpenMP (OpenMP 5.0, 2.19.4.3), the same variable without OpenMP (the directive is a comment). -/
def privateCopy (openmp : Bool) (v : ℤ) : Option ℤ := if openmp then none else some v

/-- Ranges of the two loops `do l = -nzs, nz+nzs; do j = -nxs, nx+nxs`, at index `k`. -/
def range2 (nx nz nxs nzs k : ℤ) : Ranges :=
  ⟨⟨-nxs, k, -nzs⟩, ⟨nx + nxs, k, nz + nzs⟩, ⟨-nxs, k, -nzs⟩, ⟨nx + nxs, k, nz + nzs⟩, ⟨-nxs, k, -nzs⟩, ⟨nx + nxs, k, nz + nzs⟩⟩

/-- yee.F90:833-892 `pxrpush_em2d_bvec_norder`. The order of execution `o k` may depend on nothing but the ranges. -/
noncomputable def bvec2N (openmp : Bool) (p : NOrder) (nxs nzs : ℤ) (o : ℤ → Orders) (σ : Mem) : Res Mem :=
  match privateCopy openmp 0 with
  | none => if -nxs ≤ p.nx + nxs ∧ -nzs ≤ p.nz + nzs then .error .uninitialised else .ok σ
  | some k =>
    let nxt := fun (_ : I3) => p.ox / 2
    let nzt := fun (_ : I3) => p.oz / 2
    three bx by' bz
      (.rd bx 0 0 0 + .sum nzt (fun (i : ℕ) => cst (p.cz i) * (.rd ey 0 0 i - .rd ey 0 0 (-i + p.ist))))
      (.rd by' 0 0 0 + .sum nxt (fun (i : ℕ) => cst (p.cx i) * (.rd ez i 0 0 - .rd ez (-i + p.ist) 0 0))
        - .sum nzt (fun (i : ℕ) => cst (p.cz i) * (.rd ex 0 0 i - .rd ex 0 0 (-i + p.ist))))
      (.rd bz 0 0 0 - .sum nxt (fun (i : ℕ) => cst (p.cx i) * (.rd ey i 0 0 - .rd ey (-i + p.ist) 0 0)))
      (o k) σ

end Picsar.Maxwell
