import Verif.Model.Gather

/-
Default (unrolled, vectorised) field gathering routines. The statement lists at the end of this file are a transcription of the
accumulation statements of the Fortran routines, produced by tools/gather_gen.py (committed) from the text of /repo: one list entry per
statement, the same operands, signs and nesting; the shape factors of a product are written in front of the field factor.
Index of the nodes and shape factors are those of Model/Gather.lean (the routines repeat the same assignments as the loop
versions). Vectorisation (`!$OMP SIMD`) is not modelled: the body is executed particle by particle.
-/
namespace Picsar.Gather
open Picsar Picsar.Grid

/-- Direction. -/
inductive Ax | x | y | z
  deriving DecidableEq

/-- Shape factor `sx(i)` or, staggered, `sx0(i)`. -/
structure Sh where
  ax : Ax
  st : Bool
  i : ℤ
  deriving DecidableEq

/-- Right-hand sides: `fld q (s,dj) (s,dk) (s,dl)` is `qg(j+dj, k+dk, l+dl)` with `j0` in place of `j` when `s` is true; `a` the local scalar
`a`; `mulS s e` the product with a shape factor. -/
inductive GE
  | fld (q : Comp) (x y z : Bool × ℤ)
  | a
  | add (e f : GE)
  | mulS (s : Sh) (e : GE)

/-- `a = e` and `q(nn) = q(nn) + e`. -/
inductive GStmt
  | seta (e : GE)
  | acc (q : Comp) (e : GE)

/-- Values of the local variables of one particle: nodes and weights of the three directions, not staggered and staggered. -/
structure GEnv where
  base : Ax → Bool → ℤ
  wts : Ax → Bool → List (ℤ × ℝ)

/-- The local variables `j, j0, sx, sx0, ...` (see `base`, `axisWts`). -/
noncomputable def genv (o : Opts) (p : Pos) : GEnv where
  base ax st := match ax with
    | .x => base o.cx st p.x
    | .y => yBase o.cy o.d2 st p.y
    | .z => base o.cz st p.z
  wts ax st := match ax with
    | .x => axisWts o.cx st p.x
    | .y => yWts o.cy o.d2 st p.y
    | .z => axisWts o.cz st p.z

/-- Value of a shape factor; an element that the routine does not assign is undefined. -/
noncomputable def GEnv.sh (v : GEnv) (s : Sh) : Res ℝ :=
  match (v.wts s.ax s.st).find? (fun w => w.1 == s.i) with
  | some w => .ok w.2
  | none => .error .uninitialised

/-- Evaluation of a right-hand side. -/
noncomputable def GE.eval (σ : Mem) (v : GEnv) (a : ℝ) : GE → Res ℝ
  | .fld q x y z => (σ q).get ⟨v.base .x x.1 + x.2, v.base .y y.1 + y.2, v.base .z z.1 + z.2⟩
  | .a => .ok a
  | .add e f => do
    let x ← e.eval σ v a
    let y ← f.eval σ v a
    pure (x + y)
  | .mulS s e => do
    let w ← v.sh s
    let x ← e.eval σ v a
    pure (w * x)

/-- Execution of the statements of one particle. -/
noncomputable def GStmt.run (σ : Mem) (v : GEnv) : List GStmt → ℝ → (Comp → ℝ) → Res (Comp → ℝ)
  | [], _, out => .ok out
  | .seta e :: ss, a, out => do
    let x ← e.eval σ v a
    GStmt.run σ v ss x out
  | .acc q e :: ss, a, out => do
    let x ← e.eval σ v a
    GStmt.run σ v ss a (Function.update out q (out q + x))

/-- geteb3d_energy_conserving_vecV4_1_1_1, `l_lower_order_in_v` true (field_gathering_o1_3d.F90:2096-2120). -/
def prog_o1_3d_lower : List GStmt := [
  .seta (.add (.mulS ⟨.z, false, 0⟩ (.add (.mulS ⟨.y, false, 0⟩ (.fld .ex (true, 0) (false, 0) (false, 0))) (.mulS ⟨.y, false, 1⟩ (.fld .ex (true, 0) (false, 1) (false, 0))))) (.mulS ⟨.z, false, 1⟩ (.add (.mulS ⟨.y, false, 0⟩ (.fld .ex (true, 0) (false, 0) (false, 1))) (.mulS ⟨.y, false, 1⟩ (.fld .ex (true, 0) (false, 1) (false, 1)))))),
  .acc .ex .a,
  .seta (.add (.mulS ⟨.z, false, 0⟩ (.add (.mulS ⟨.x, false, 0⟩ (.fld .ey (false, 0) (true, 0) (false, 0))) (.mulS ⟨.x, false, 1⟩ (.fld .ey (false, 1) (true, 0) (false, 0))))) (.mulS ⟨.z, false, 1⟩ (.add (.mulS ⟨.x, false, 0⟩ (.fld .ey (false, 0) (true, 0) (false, 1))) (.mulS ⟨.x, false, 1⟩ (.fld .ey (false, 1) (true, 0) (false, 1)))))),
  .acc .ey .a,
  .seta (.add (.mulS ⟨.y, false, 0⟩ (.add (.mulS ⟨.x, false, 0⟩ (.fld .ez (false, 0) (false, 0) (true, 0))) (.mulS ⟨.x, false, 1⟩ (.fld .ez (false, 1) (false, 0) (true, 0))))) (.mulS ⟨.y, false, 1⟩ (.add (.mulS ⟨.x, false, 0⟩ (.fld .ez (false, 0) (false, 1) (true, 0))) (.mulS ⟨.x, false, 1⟩ (.fld .ez (false, 1) (false, 1) (true, 0)))))),
  .acc .ez .a,
  .seta (.add (.mulS ⟨.x, false, 0⟩ (.fld .bx (false, 0) (true, 0) (true, 0))) (.mulS ⟨.x, false, 1⟩ (.fld .bx (false, 1) (true, 0) (true, 0)))),
  .acc .bx .a,
  .seta (.add (.mulS ⟨.y, false, 0⟩ (.fld .by' (true, 0) (false, 0) (true, 0))) (.mulS ⟨.y, false, 1⟩ (.fld .by' (true, 0) (false, 1) (true, 0)))),
  .acc .by' .a,
  .seta (.add (.mulS ⟨.z, false, 0⟩ (.fld .bz (true, 0) (true, 0) (false, 0))) (.mulS ⟨.z, false, 1⟩ (.fld .bz (true, 0) (true, 0) (false, 1)))),
  .acc .bz .a]

/-- geteb3d_energy_conserving_vecV4_1_1_1, `l_lower_order_in_v` false (field_gathering_o1_3d.F90:2194-2239). -/
def prog_o1_3d : List GStmt := [
  .seta (.mulS ⟨.y, false, 0⟩ (.add (.mulS ⟨.x, true, 0⟩ (.fld .ex (true, 0) (false, 0) (false, 0))) (.mulS ⟨.x, true, 1⟩ (.fld .ex (true, 1) (false, 0) (false, 0))))),
  .seta (.add .a (.mulS ⟨.y, false, 1⟩ (.add (.mulS ⟨.x, true, 0⟩ (.fld .ex (true, 0) (false, 1) (false, 0))) (.mulS ⟨.x, true, 1⟩ (.fld .ex (true, 1) (false, 1) (false, 0)))))),
  .acc .ex (.mulS ⟨.z, false, 0⟩ .a),
  .seta (.mulS ⟨.y, false, 0⟩ (.add (.mulS ⟨.x, true, 0⟩ (.fld .ex (true, 0) (false, 0) (false, 1))) (.mulS ⟨.x, true, 1⟩ (.fld .ex (true, 1) (false, 0) (false, 1))))),
  .seta (.add .a (.mulS ⟨.y, false, 1⟩ (.add (.mulS ⟨.x, true, 0⟩ (.fld .ex (true, 0) (false, 1) (false, 1))) (.mulS ⟨.x, true, 1⟩ (.fld .ex (true, 1) (false, 1) (false, 1)))))),
  .acc .ex (.mulS ⟨.z, false, 1⟩ .a),
  .seta (.mulS ⟨.y, true, 0⟩ (.add (.mulS ⟨.x, false, 0⟩ (.fld .ey (false, 0) (true, 0) (false, 0))) (.mulS ⟨.x, false, 1⟩ (.fld .ey (false, 1) (true, 0) (false, 0))))),
  .seta (.add .a (.mulS ⟨.y, true, 1⟩ (.add (.mulS ⟨.x, false, 0⟩ (.fld .ey (false, 0) (true, 1) (false, 0))) (.mulS ⟨.x, false, 1⟩ (.fld .ey (false, 1) (true, 1) (false, 0)))))),
  .acc .ey (.mulS ⟨.z, false, 0⟩ .a),
  .seta (.mulS ⟨.y, true, 0⟩ (.add (.mulS ⟨.x, false, 0⟩ (.fld .ey (false, 0) (true, 0) (false, 1))) (.mulS ⟨.x, false, 1⟩ (.fld .ey (false, 1) (true, 0) (false, 1))))),
  .seta (.add .a (.mulS ⟨.y, true, 1⟩ (.add (.mulS ⟨.x, false, 0⟩ (.fld .ey (false, 0) (true, 1) (false, 1))) (.mulS ⟨.x, false, 1⟩ (.fld .ey (false, 1) (true, 1) (false, 1)))))),
  .acc .ey (.mulS ⟨.z, false, 1⟩ .a),
  .seta (.mulS ⟨.y, false, 0⟩ (.add (.mulS ⟨.x, false, 0⟩ (.fld .ez (false, 0) (false, 0) (true, 0))) (.mulS ⟨.x, false, 1⟩ (.fld .ez (false, 1) (false, 0) (true, 0))))),
  .seta (.add .a (.mulS ⟨.y, false, 1⟩ (.add (.mulS ⟨.x, false, 0⟩ (.fld .ez (false, 0) (false, 1) (true, 0))) (.mulS ⟨.x, false, 1⟩ (.fld .ez (false, 1) (false, 1) (true, 0)))))),
  .acc .ez (.mulS ⟨.z, true, 0⟩ .a),
  .seta (.mulS ⟨.y, false, 0⟩ (.add (.mulS ⟨.x, false, 0⟩ (.fld .ez (false, 0) (false, 0) (true, 1))) (.mulS ⟨.x, false, 1⟩ (.fld .ez (false, 1) (false, 0) (true, 1))))),
  .seta (.add .a (.mulS ⟨.y, false, 1⟩ (.add (.mulS ⟨.x, false, 0⟩ (.fld .ez (false, 0) (false, 1) (true, 1))) (.mulS ⟨.x, false, 1⟩ (.fld .ez (false, 1) (false, 1) (true, 1)))))),
  .acc .ez (.mulS ⟨.z, true, 1⟩ .a),
  .seta (.mulS ⟨.y, true, 0⟩ (.add (.mulS ⟨.x, false, 0⟩ (.fld .bx (false, 0) (true, 0) (true, 0))) (.mulS ⟨.x, false, 1⟩ (.fld .bx (false, 1) (true, 0) (true, 0))))),
  .seta (.add .a (.mulS ⟨.y, true, 1⟩ (.add (.mulS ⟨.x, false, 0⟩ (.fld .bx (false, 0) (true, 1) (true, 0))) (.mulS ⟨.x, false, 1⟩ (.fld .bx (false, 1) (true, 1) (true, 0)))))),
  .acc .bx (.mulS ⟨.z, true, 0⟩ .a),
  .seta (.mulS ⟨.y, true, 0⟩ (.add (.mulS ⟨.x, false, 0⟩ (.fld .bx (false, 0) (true, 0) (true, 1))) (.mulS ⟨.x, false, 1⟩ (.fld .bx (false, 1) (true, 0) (true, 1))))),
  .seta (.add .a (.mulS ⟨.y, true, 1⟩ (.add (.mulS ⟨.x, false, 0⟩ (.fld .bx (false, 0) (true, 1) (true, 1))) (.mulS ⟨.x, false, 1⟩ (.fld .bx (false, 1) (true, 1) (true, 1)))))),
  .acc .bx (.mulS ⟨.z, true, 1⟩ .a),
  .seta (.mulS ⟨.y, false, 0⟩ (.add (.mulS ⟨.x, true, 0⟩ (.fld .by' (true, 0) (false, 0) (true, 0))) (.mulS ⟨.x, true, 1⟩ (.fld .by' (true, 1) (false, 0) (true, 0))))),
  .seta (.add .a (.mulS ⟨.y, false, 1⟩ (.add (.mulS ⟨.x, true, 0⟩ (.fld .by' (true, 0) (false, 1) (true, 0))) (.mulS ⟨.x, true, 1⟩ (.fld .by' (true, 1) (false, 1) (true, 0)))))),
  .acc .by' (.mulS ⟨.z, true, 0⟩ .a),
  .seta (.mulS ⟨.y, false, 0⟩ (.add (.mulS ⟨.x, true, 0⟩ (.fld .by' (true, 0) (false, 0) (true, 1))) (.mulS ⟨.x, true, 1⟩ (.fld .by' (true, 1) (false, 0) (true, 1))))),
  .seta (.add .a (.mulS ⟨.y, false, 1⟩ (.add (.mulS ⟨.x, true, 0⟩ (.fld .by' (true, 0) (false, 1) (true, 1))) (.mulS ⟨.x, true, 1⟩ (.fld .by' (true, 1) (false, 1) (true, 1)))))),
  .acc .by' (.mulS ⟨.z, true, 1⟩ .a),
  .seta (.mulS ⟨.y, true, 0⟩ (.add (.mulS ⟨.x, true, 0⟩ (.fld .bz (true, 0) (true, 0) (false, 0))) (.mulS ⟨.x, true, 1⟩ (.fld .bz (true, 1) (true, 0) (false, 0))))),
  .seta (.add .a (.mulS ⟨.y, true, 1⟩ (.add (.mulS ⟨.x, true, 0⟩ (.fld .bz (true, 0) (true, 1) (false, 0))) (.mulS ⟨.x, true, 1⟩ (.fld .bz (true, 1) (true, 1) (false, 0)))))),
  .acc .bz (.mulS ⟨.z, false, 0⟩ .a),
  .seta (.mulS ⟨.y, true, 0⟩ (.add (.mulS ⟨.x, true, 0⟩ (.fld .bz (true, 0) (true, 0) (false, 1))) (.mulS ⟨.x, true, 1⟩ (.fld .bz (true, 1) (true, 0) (false, 1))))),
  .seta (.add .a (.mulS ⟨.y, true, 1⟩ (.add (.mulS ⟨.x, true, 0⟩ (.fld .bz (true, 0) (true, 1) (false, 1))) (.mulS ⟨.x, true, 1⟩ (.fld .bz (true, 1) (true, 1) (false, 1)))))),
  .acc .bz (.mulS ⟨.z, false, 1⟩ .a)]

/-- geteb3d_energy_conserving_vecV4_2_2_2, `l_lower_order_in_v` true (field_gathering_o2_3d.F90:2886-2963). -/
def prog_o2_3d_lower : List GStmt := [
  .seta (.mulS ⟨.y, false, -1⟩ (.add (.mulS ⟨.x, true, 0⟩ (.fld .ex (true, 0) (false, -1) (false, -1))) (.mulS ⟨.x, true, 1⟩ (.fld .ex (true, 1) (false, -1) (false, -1))))),
  .seta (.add .a (.mulS ⟨.y, false, 0⟩ (.add (.mulS ⟨.x, true, 0⟩ (.fld .ex (true, 0) (false, 0) (false, -1))) (.mulS ⟨.x, true, 1⟩ (.fld .ex (true, 1) (false, 0) (false, -1)))))),
  .seta (.add .a (.mulS ⟨.y, false, 1⟩ (.add (.mulS ⟨.x, true, 0⟩ (.fld .ex (true, 0) (false, 1) (false, -1))) (.mulS ⟨.x, true, 1⟩ (.fld .ex (true, 1) (false, 1) (false, -1)))))),
  .acc .ex (.mulS ⟨.z, false, -1⟩ .a),
  .seta (.mulS ⟨.y, false, -1⟩ (.add (.mulS ⟨.x, true, 0⟩ (.fld .ex (true, 0) (false, -1) (false, 0))) (.mulS ⟨.x, true, 1⟩ (.fld .ex (true, 1) (false, -1) (false, 0))))),
  .seta (.add .a (.mulS ⟨.y, false, 0⟩ (.add (.mulS ⟨.x, true, 0⟩ (.fld .ex (true, 0) (false, 0) (false, 0))) (.mulS ⟨.x, true, 1⟩ (.fld .ex (true, 1) (false, 0) (false, 0)))))),
  .seta (.add .a (.mulS ⟨.y, false, 1⟩ (.add (.mulS ⟨.x, true, 0⟩ (.fld .ex (true, 0) (false, 1) (false, 0))) (.mulS ⟨.x, true, 1⟩ (.fld .ex (true, 1) (false, 1) (false, 0)))))),
  .acc .ex (.mulS ⟨.z, false, 0⟩ .a),
  .seta (.mulS ⟨.y, false, -1⟩ (.add (.mulS ⟨.x, true, 0⟩ (.fld .ex (true, 0) (false, -1) (false, 1))) (.mulS ⟨.x, true, 1⟩ (.fld .ex (true, 1) (false, -1) (false, 1))))),
  .seta (.add .a (.mulS ⟨.y, false, 0⟩ (.add (.mulS ⟨.x, true, 0⟩ (.fld .ex (true, 0) (false, 0) (false, 1))) (.mulS ⟨.x, true, 1⟩ (.fld .ex (true, 1) (false, 0) (false, 1)))))),
  .seta (.add .a (.mulS ⟨.y, false, 1⟩ (.add (.mulS ⟨.x, true, 0⟩ (.fld .ex (true, 0) (false, 1) (false, 1))) (.mulS ⟨.x, true, 1⟩ (.fld .ex (true, 1) (false, 1) (false, 1)))))),
  .acc .ex (.mulS ⟨.z, false, 1⟩ .a),
  .seta (.mulS ⟨.y, true, 0⟩ (.add (.add (.mulS ⟨.x, false, -1⟩ (.fld .ey (false, -1) (true, 0) (false, -1))) (.mulS ⟨.x, false, 0⟩ (.fld .ey (false, 0) (true, 0) (false, -1)))) (.mulS ⟨.x, false, 1⟩ (.fld .ey (false, 1) (true, 0) (false, -1))))),
  .seta (.add .a (.mulS ⟨.y, true, 1⟩ (.add (.add (.mulS ⟨.x, false, -1⟩ (.fld .ey (false, -1) (true, 1) (false, -1))) (.mulS ⟨.x, false, 0⟩ (.fld .ey (false, 0) (true, 1) (false, -1)))) (.mulS ⟨.x, false, 1⟩ (.fld .ey (false, 1) (true, 1) (false, -1)))))),
  .acc .ey (.mulS ⟨.z, false, -1⟩ .a),
  .seta (.mulS ⟨.y, true, 0⟩ (.add (.add (.mulS ⟨.x, false, -1⟩ (.fld .ey (false, -1) (true, 0) (false, 0))) (.mulS ⟨.x, false, 0⟩ (.fld .ey (false, 0) (true, 0) (false, 0)))) (.mulS ⟨.x, false, 1⟩ (.fld .ey (false, 1) (true, 0) (false, 0))))),
  .seta (.add .a (.mulS ⟨.y, true, 1⟩ (.add (.add (.mulS ⟨.x, false, -1⟩ (.fld .ey (false, -1) (true, 1) (false, 0))) (.mulS ⟨.x, false, 0⟩ (.fld .ey (false, 0) (true, 1) (false, 0)))) (.mulS ⟨.x, false, 1⟩ (.fld .ey (false, 1) (true, 1) (false, 0)))))),
  .acc .ey (.mulS ⟨.z, false, 0⟩ .a),
  .seta (.mulS ⟨.y, true, 0⟩ (.add (.add (.mulS ⟨.x, false, -1⟩ (.fld .ey (false, -1) (true, 0) (false, 1))) (.mulS ⟨.x, false, 0⟩ (.fld .ey (false, 0) (true, 0) (false, 1)))) (.mulS ⟨.x, false, 1⟩ (.fld .ey (false, 1) (true, 0) (false, 1))))),
  .seta (.add .a (.mulS ⟨.y, true, 1⟩ (.add (.add (.mulS ⟨.x, false, -1⟩ (.fld .ey (false, -1) (true, 1) (false, 1))) (.mulS ⟨.x, false, 0⟩ (.fld .ey (false, 0) (true, 1) (false, 1)))) (.mulS ⟨.x, false, 1⟩ (.fld .ey (false, 1) (true, 1) (false, 1)))))),
  .acc .ey (.mulS ⟨.z, false, 1⟩ .a),
  .seta (.mulS ⟨.y, false, -1⟩ (.add (.add (.mulS ⟨.x, false, -1⟩ (.fld .ez (false, -1) (false, -1) (true, 0))) (.mulS ⟨.x, false, 0⟩ (.fld .ez (false, 0) (false, -1) (true, 0)))) (.mulS ⟨.x, false, 1⟩ (.fld .ez (false, 1) (false, -1) (true, 0))))),
  .seta (.add .a (.mulS ⟨.y, false, 0⟩ (.add (.add (.mulS ⟨.x, false, -1⟩ (.fld .ez (false, -1) (false, 0) (true, 0))) (.mulS ⟨.x, false, 0⟩ (.fld .ez (false, 0) (false, 0) (true, 0)))) (.mulS ⟨.x, false, 1⟩ (.fld .ez (false, 1) (false, 0) (true, 0)))))),
  .seta (.add .a (.mulS ⟨.y, false, 1⟩ (.add (.add (.mulS ⟨.x, false, -1⟩ (.fld .ez (false, -1) (false, 1) (true, 0))) (.mulS ⟨.x, false, 0⟩ (.fld .ez (false, 0) (false, 1) (true, 0)))) (.mulS ⟨.x, false, 1⟩ (.fld .ez (false, 1) (false, 1) (true, 0)))))),
  .acc .ez (.mulS ⟨.z, true, 0⟩ .a),
  .seta (.mulS ⟨.y, false, -1⟩ (.add (.add (.mulS ⟨.x, false, -1⟩ (.fld .ez (false, -1) (false, -1) (true, 1))) (.mulS ⟨.x, false, 0⟩ (.fld .ez (false, 0) (false, -1) (true, 1)))) (.mulS ⟨.x, false, 1⟩ (.fld .ez (false, 1) (false, -1) (true, 1))))),
  .seta (.add .a (.mulS ⟨.y, false, 0⟩ (.add (.add (.mulS ⟨.x, false, -1⟩ (.fld .ez (false, -1) (false, 0) (true, 1))) (.mulS ⟨.x, false, 0⟩ (.fld .ez (false, 0) (false, 0) (true, 1)))) (.mulS ⟨.x, false, 1⟩ (.fld .ez (false, 1) (false, 0) (true, 1)))))),
  .seta (.add .a (.mulS ⟨.y, false, 1⟩ (.add (.add (.mulS ⟨.x, false, -1⟩ (.fld .ez (false, -1) (false, 1) (true, 1))) (.mulS ⟨.x, false, 0⟩ (.fld .ez (false, 0) (false, 1) (true, 1)))) (.mulS ⟨.x, false, 1⟩ (.fld .ez (false, 1) (false, 1) (true, 1)))))),
  .acc .ez (.mulS ⟨.z, true, 1⟩ .a),
  .seta (.mulS ⟨.y, true, 0⟩ (.add (.add (.mulS ⟨.x, false, -1⟩ (.fld .bx (false, -1) (true, 0) (true, 0))) (.mulS ⟨.x, false, 0⟩ (.fld .bx (false, 0) (true, 0) (true, 0)))) (.mulS ⟨.x, false, 1⟩ (.fld .bx (false, 1) (true, 0) (true, 0))))),
  .seta (.add .a (.mulS ⟨.y, true, 1⟩ (.add (.add (.mulS ⟨.x, false, -1⟩ (.fld .bx (false, -1) (true, 1) (true, 0))) (.mulS ⟨.x, false, 0⟩ (.fld .bx (false, 0) (true, 1) (true, 0)))) (.mulS ⟨.x, false, 1⟩ (.fld .bx (false, 1) (true, 1) (true, 0)))))),
  .acc .bx (.mulS ⟨.z, true, 0⟩ .a),
  .seta (.mulS ⟨.y, true, 0⟩ (.add (.add (.mulS ⟨.x, false, -1⟩ (.fld .bx (false, -1) (true, 0) (true, 1))) (.mulS ⟨.x, false, 0⟩ (.fld .bx (false, 0) (true, 0) (true, 1)))) (.mulS ⟨.x, false, 1⟩ (.fld .bx (false, 1) (true, 0) (true, 1))))),
  .seta (.add .a (.mulS ⟨.y, true, 1⟩ (.add (.add (.mulS ⟨.x, false, -1⟩ (.fld .bx (false, -1) (true, 1) (true, 1))) (.mulS ⟨.x, false, 0⟩ (.fld .bx (false, 0) (true, 1) (true, 1)))) (.mulS ⟨.x, false, 1⟩ (.fld .bx (false, 1) (true, 1) (true, 1)))))),
  .acc .bx (.mulS ⟨.z, true, 1⟩ .a),
  .seta (.mulS ⟨.y, false, -1⟩ (.add (.mulS ⟨.x, true, 0⟩ (.fld .by' (true, 0) (false, -1) (true, 0))) (.mulS ⟨.x, true, 1⟩ (.fld .by' (true, 1) (false, -1) (true, 0))))),
  .seta (.add .a (.mulS ⟨.y, false, 0⟩ (.add (.mulS ⟨.x, true, 0⟩ (.fld .by' (true, 0) (false, 0) (true, 0))) (.mulS ⟨.x, true, 1⟩ (.fld .by' (true, 1) (false, 0) (true, 0)))))),
  .seta (.add .a (.mulS ⟨.y, false, 1⟩ (.add (.mulS ⟨.x, true, 0⟩ (.fld .by' (true, 0) (false, 1) (true, 0))) (.mulS ⟨.x, true, 1⟩ (.fld .by' (true, 1) (false, 1) (true, 0)))))),
  .acc .by' (.mulS ⟨.z, true, 0⟩ .a),
  .seta (.mulS ⟨.y, false, -1⟩ (.add (.mulS ⟨.x, true, 0⟩ (.fld .by' (true, 0) (false, -1) (true, 1))) (.mulS ⟨.x, true, 1⟩ (.fld .by' (true, 1) (false, -1) (true, 1))))),
  .seta (.add .a (.mulS ⟨.y, false, 0⟩ (.add (.mulS ⟨.x, true, 0⟩ (.fld .by' (true, 0) (false, 0) (true, 1))) (.mulS ⟨.x, true, 1⟩ (.fld .by' (true, 1) (false, 0) (true, 1)))))),
  .seta (.add .a (.mulS ⟨.y, false, 1⟩ (.add (.mulS ⟨.x, true, 0⟩ (.fld .by' (true, 0) (false, 1) (true, 1))) (.mulS ⟨.x, true, 1⟩ (.fld .by' (true, 1) (false, 1) (true, 1)))))),
  .acc .by' (.mulS ⟨.z, true, 1⟩ .a),
  .seta (.mulS ⟨.y, true, 0⟩ (.add (.mulS ⟨.x, true, 0⟩ (.fld .bz (true, 0) (true, 0) (false, -1))) (.mulS ⟨.x, true, 1⟩ (.fld .bz (true, 1) (true, 0) (false, -1))))),
  .seta (.add .a (.mulS ⟨.y, true, 1⟩ (.add (.mulS ⟨.x, true, 0⟩ (.fld .bz (true, 0) (true, 1) (false, -1))) (.mulS ⟨.x, true, 1⟩ (.fld .bz (true, 1) (true, 1) (false, -1)))))),
  .acc .bz (.mulS ⟨.z, false, -1⟩ .a),
  .seta (.mulS ⟨.y, true, 0⟩ (.add (.mulS ⟨.x, true, 0⟩ (.fld .bz (true, 0) (true, 0) (false, 0))) (.mulS ⟨.x, true, 1⟩ (.fld .bz (true, 1) (true, 0) (false, 0))))),
  .seta (.add .a (.mulS ⟨.y, true, 1⟩ (.add (.mulS ⟨.x, true, 0⟩ (.fld .bz (true, 0) (true, 1) (false, 0))) (.mulS ⟨.x, true, 1⟩ (.fld .bz (true, 1) (true, 1) (false, 0)))))),
  .acc .bz (.mulS ⟨.z, false, 0⟩ .a),
  .seta (.mulS ⟨.y, true, 0⟩ (.add (.mulS ⟨.x, true, 0⟩ (.fld .bz (true, 0) (true, 0) (false, 1))) (.mulS ⟨.x, true, 1⟩ (.fld .bz (true, 1) (true, 0) (false, 1))))),
  .seta (.add .a (.mulS ⟨.y, true, 1⟩ (.add (.mulS ⟨.x, true, 0⟩ (.fld .bz (true, 0) (true, 1) (false, 1))) (.mulS ⟨.x, true, 1⟩ (.fld .bz (true, 1) (true, 1) (false, 1)))))),
  .acc .bz (.mulS ⟨.z, false, 1⟩ .a)]

/-- geteb3d_energy_conserving_vecV4_2_2_2, `l_lower_order_in_v` false (field_gathering_o2_3d.F90:3053-3188). -/
def prog_o2_3d : List GStmt := [
  .seta (.mulS ⟨.y, false, -1⟩ (.add (.add (.mulS ⟨.x, true, -1⟩ (.fld .ex (true, -1) (false, -1) (false, -1))) (.mulS ⟨.x, true, 0⟩ (.fld .ex (true, 0) (false, -1) (false, -1)))) (.mulS ⟨.x, true, 1⟩ (.fld .ex (true, 1) (false, -1) (false, -1))))),
  .seta (.add .a (.mulS ⟨.y, false, 0⟩ (.add (.add (.mulS ⟨.x, true, -1⟩ (.fld .ex (true, -1) (false, 0) (false, -1))) (.mulS ⟨.x, true, 0⟩ (.fld .ex (true, 0) (false, 0) (false, -1)))) (.mulS ⟨.x, true, 1⟩ (.fld .ex (true, 1) (false, 0) (false, -1)))))),
  .seta (.add .a (.mulS ⟨.y, false, 1⟩ (.add (.add (.mulS ⟨.x, true, -1⟩ (.fld .ex (true, -1) (false, 1) (false, -1))) (.mulS ⟨.x, true, 0⟩ (.fld .ex (true, 0) (false, 1) (false, -1)))) (.mulS ⟨.x, true, 1⟩ (.fld .ex (true, 1) (false, 1) (false, -1)))))),
  .acc .ex (.mulS ⟨.z, false, -1⟩ .a),
  .seta (.mulS ⟨.y, false, -1⟩ (.add (.add (.mulS ⟨.x, true, -1⟩ (.fld .ex (true, -1) (false, -1) (false, 0))) (.mulS ⟨.x, true, 0⟩ (.fld .ex (true, 0) (false, -1) (false, 0)))) (.mulS ⟨.x, true, 1⟩ (.fld .ex (true, 1) (false, -1) (false, 0))))),
  .seta (.add .a (.mulS ⟨.y, false, 0⟩ (.add (.add (.mulS ⟨.x, true, -1⟩ (.fld .ex (true, -1) (false, 0) (false, 0))) (.mulS ⟨.x, true, 0⟩ (.fld .ex (true, 0) (false, 0) (false, 0)))) (.mulS ⟨.x, true, 1⟩ (.fld .ex (true, 1) (false, 0) (false, 0)))))),
  .seta (.add .a (.mulS ⟨.y, false, 1⟩ (.add (.add (.mulS ⟨.x, true, -1⟩ (.fld .ex (true, -1) (false, 1) (false, 0))) (.mulS ⟨.x, true, 0⟩ (.fld .ex (true, 0) (false, 1) (false, 0)))) (.mulS ⟨.x, true, 1⟩ (.fld .ex (true, 1) (false, 1) (false, 0)))))),
  .acc .ex (.mulS ⟨.z, false, 0⟩ .a),
  .seta (.mulS ⟨.y, false, -1⟩ (.add (.add (.mulS ⟨.x, true, -1⟩ (.fld .ex (true, -1) (false, -1) (false, 1))) (.mulS ⟨.x, true, 0⟩ (.fld .ex (true, 0) (false, -1) (false, 1)))) (.mulS ⟨.x, true, 1⟩ (.fld .ex (true, 1) (false, -1) (false, 1))))),
  .seta (.add .a (.mulS ⟨.y, false, 0⟩ (.add (.add (.mulS ⟨.x, true, -1⟩ (.fld .ex (true, -1) (false, 0) (false, 1))) (.mulS ⟨.x, true, 0⟩ (.fld .ex (true, 0) (false, 0) (false, 1)))) (.mulS ⟨.x, true, 1⟩ (.fld .ex (true, 1) (false, 0) (false, 1)))))),
  .seta (.add .a (.mulS ⟨.y, false, 1⟩ (.add (.add (.mulS ⟨.x, true, -1⟩ (.fld .ex (true, -1) (false, 1) (false, 1))) (.mulS ⟨.x, true, 0⟩ (.fld .ex (true, 0) (false, 1) (false, 1)))) (.mulS ⟨.x, true, 1⟩ (.fld .ex (true, 1) (false, 1) (false, 1)))))),
  .acc .ex (.mulS ⟨.z, false, 1⟩ .a),
  .seta (.mulS ⟨.y, true, -1⟩ (.add (.add (.mulS ⟨.x, false, -1⟩ (.fld .ey (false, -1) (true, -1) (false, -1))) (.mulS ⟨.x, false, 0⟩ (.fld .ey (false, 0) (true, -1) (false, -1)))) (.mulS ⟨.x, false, 1⟩ (.fld .ey (false, 1) (true, -1) (false, -1))))),
  .seta (.add .a (.mulS ⟨.y, true, 0⟩ (.add (.add (.mulS ⟨.x, false, -1⟩ (.fld .ey (false, -1) (true, 0) (false, -1))) (.mulS ⟨.x, false, 0⟩ (.fld .ey (false, 0) (true, 0) (false, -1)))) (.mulS ⟨.x, false, 1⟩ (.fld .ey (false, 1) (true, 0) (false, -1)))))),
  .seta (.add .a (.mulS ⟨.y, true, 1⟩ (.add (.add (.mulS ⟨.x, false, -1⟩ (.fld .ey (false, -1) (true, 1) (false, -1))) (.mulS ⟨.x, false, 0⟩ (.fld .ey (false, 0) (true, 1) (false, -1)))) (.mulS ⟨.x, false, 1⟩ (.fld .ey (false, 1) (true, 1) (false, -1)))))),
  .acc .ey (.mulS ⟨.z, false, -1⟩ .a),
  .seta (.mulS ⟨.y, true, -1⟩ (.add (.add (.mulS ⟨.x, false, -1⟩ (.fld .ey (false, -1) (true, -1) (false, 0))) (.mulS ⟨.x, false, 0⟩ (.fld .ey (false, 0) (true, -1) (false, 0)))) (.mulS ⟨.x, false, 1⟩ (.fld .ey (false, 1) (true, -1) (false, 0))))),
  .seta (.add .a (.mulS ⟨.y, true, 0⟩ (.add (.add (.mulS ⟨.x, false, -1⟩ (.fld .ey (false, -1) (true, 0) (false, 0))) (.mulS ⟨.x, false, 0⟩ (.fld .ey (false, 0) (true, 0) (false, 0)))) (.mulS ⟨.x, false, 1⟩ (.fld .ey (false, 1) (true, 0) (false, 0)))))),
  .seta (.add .a (.mulS ⟨.y, true, 1⟩ (.add (.add (.mulS ⟨.x, false, -1⟩ (.fld .ey (false, -1) (true, 1) (false, 0))) (.mulS ⟨.x, false, 0⟩ (.fld .ey (false, 0) (true, 1) (false, 0)))) (.mulS ⟨.x, false, 1⟩ (.fld .ey (false, 1) (true, 1) (false, 0)))))),
  .acc .ey (.mulS ⟨.z, false, 0⟩ .a),
  .seta (.mulS ⟨.y, true, -1⟩ (.add (.add (.mulS ⟨.x, false, -1⟩ (.fld .ey (false, -1) (true, -1) (false, 1))) (.mulS ⟨.x, false, 0⟩ (.fld .ey (false, 0) (true, -1) (false, 1)))) (.mulS ⟨.x, false, 1⟩ (.fld .ey (false, 1) (true, -1) (false, 1))))),
  .seta (.add .a (.mulS ⟨.y, true, 0⟩ (.add (.add (.mulS ⟨.x, false, -1⟩ (.fld .ey (false, -1) (true, 0) (false, 1))) (.mulS ⟨.x, false, 0⟩ (.fld .ey (false, 0) (true, 0) (false, 1)))) (.mulS ⟨.x, false, 1⟩ (.fld .ey (false, 1) (true, 0) (false, 1)))))),
  .seta (.add .a (.mulS ⟨.y, true, 1⟩ (.add (.add (.mulS ⟨.x, false, -1⟩ (.fld .ey (false, -1) (true, 1) (false, 1))) (.mulS ⟨.x, false, 0⟩ (.fld .ey (false, 0) (true, 1) (false, 1)))) (.mulS ⟨.x, false, 1⟩ (.fld .ey (false, 1) (true, 1) (false, 1)))))),
  .acc .ey (.mulS ⟨.z, false, 1⟩ .a),
  .seta (.mulS ⟨.y, false, -1⟩ (.add (.add (.mulS ⟨.x, false, -1⟩ (.fld .ez (false, -1) (false, -1) (true, -1))) (.mulS ⟨.x, false, 0⟩ (.fld .ez (false, 0) (false, -1) (true, -1)))) (.mulS ⟨.x, false, 1⟩ (.fld .ez (false, 1) (false, -1) (true, -1))))),
  .seta (.add .a (.mulS ⟨.y, false, 0⟩ (.add (.add (.mulS ⟨.x, false, -1⟩ (.fld .ez (false, -1) (false, 0) (true, -1))) (.mulS ⟨.x, false, 0⟩ (.fld .ez (false, 0) (false, 0) (true, -1)))) (.mulS ⟨.x, false, 1⟩ (.fld .ez (false, 1) (false, 0) (true, -1)))))),
  .seta (.add .a (.mulS ⟨.y, false, 1⟩ (.add (.add (.mulS ⟨.x, false, -1⟩ (.fld .ez (false, -1) (false, 1) (true, -1))) (.mulS ⟨.x, false, 0⟩ (.fld .ez (false, 0) (false, 1) (true, -1)))) (.mulS ⟨.x, false, 1⟩ (.fld .ez (false, 1) (false, 1) (true, -1)))))),
  .acc .ez (.mulS ⟨.z, true, -1⟩ .a),
  .seta (.mulS ⟨.y, false, -1⟩ (.add (.add (.mulS ⟨.x, false, -1⟩ (.fld .ez (false, -1) (false, -1) (true, 0))) (.mulS ⟨.x, false, 0⟩ (.fld .ez (false, 0) (false, -1) (true, 0)))) (.mulS ⟨.x, false, 1⟩ (.fld .ez (false, 1) (false, -1) (true, 0))))),
  .seta (.add .a (.mulS ⟨.y, false, 0⟩ (.add (.add (.mulS ⟨.x, false, -1⟩ (.fld .ez (false, -1) (false, 0) (true, 0))) (.mulS ⟨.x, false, 0⟩ (.fld .ez (false, 0) (false, 0) (true, 0)))) (.mulS ⟨.x, false, 1⟩ (.fld .ez (false, 1) (false, 0) (true, 0)))))),
  .seta (.add .a (.mulS ⟨.y, false, 1⟩ (.add (.add (.mulS ⟨.x, false, -1⟩ (.fld .ez (false, -1) (false, 1) (true, 0))) (.mulS ⟨.x, false, 0⟩ (.fld .ez (false, 0) (false, 1) (true, 0)))) (.mulS ⟨.x, false, 1⟩ (.fld .ez (false, 1) (false, 1) (true, 0)))))),
  .acc .ez (.mulS ⟨.z, true, 0⟩ .a),
  .seta (.mulS ⟨.y, false, -1⟩ (.add (.add (.mulS ⟨.x, false, -1⟩ (.fld .ez (false, -1) (false, -1) (true, 1))) (.mulS ⟨.x, false, 0⟩ (.fld .ez (false, 0) (false, -1) (true, 1)))) (.mulS ⟨.x, false, 1⟩ (.fld .ez (false, 1) (false, -1) (true, 1))))),
  .seta (.add .a (.mulS ⟨.y, false, 0⟩ (.add (.add (.mulS ⟨.x, false, -1⟩ (.fld .ez (false, -1) (false, 0) (true, 1))) (.mulS ⟨.x, false, 0⟩ (.fld .ez (false, 0) (false, 0) (true, 1)))) (.mulS ⟨.x, false, 1⟩ (.fld .ez (false, 1) (false, 0) (true, 1)))))),
  .seta (.add .a (.mulS ⟨.y, false, 1⟩ (.add (.add (.mulS ⟨.x, false, -1⟩ (.fld .ez (false, -1) (false, 1) (true, 1))) (.mulS ⟨.x, false, 0⟩ (.fld .ez (false, 0) (false, 1) (true, 1)))) (.mulS ⟨.x, false, 1⟩ (.fld .ez (false, 1) (false, 1) (true, 1)))))),
  .acc .ez (.mulS ⟨.z, true, 1⟩ .a),
  .seta (.mulS ⟨.y, true, -1⟩ (.add (.add (.mulS ⟨.x, false, -1⟩ (.fld .bx (false, -1) (true, -1) (true, -1))) (.mulS ⟨.x, false, 0⟩ (.fld .bx (false, 0) (true, -1) (true, -1)))) (.mulS ⟨.x, false, 1⟩ (.fld .bx (false, 1) (true, -1) (true, -1))))),
  .seta (.add .a (.mulS ⟨.y, true, 0⟩ (.add (.add (.mulS ⟨.x, false, -1⟩ (.fld .bx (false, -1) (true, 0) (true, -1))) (.mulS ⟨.x, false, 0⟩ (.fld .bx (false, 0) (true, 0) (true, -1)))) (.mulS ⟨.x, false, 1⟩ (.fld .bx (false, 1) (true, 0) (true, -1)))))),
  .seta (.add .a (.mulS ⟨.y, true, 1⟩ (.add (.add (.mulS ⟨.x, false, -1⟩ (.fld .bx (false, -1) (true, 1) (true, -1))) (.mulS ⟨.x, false, 0⟩ (.fld .bx (false, 0) (true, 1) (true, -1)))) (.mulS ⟨.x, false, 1⟩ (.fld .bx (false, 1) (true, 1) (true, -1)))))),
  .acc .bx (.mulS ⟨.z, true, -1⟩ .a),
  .seta (.mulS ⟨.y, true, -1⟩ (.add (.add (.mulS ⟨.x, false, -1⟩ (.fld .bx (false, -1) (true, -1) (true, 0))) (.mulS ⟨.x, false, 0⟩ (.fld .bx (false, 0) (true, -1) (true, 0)))) (.mulS ⟨.x, false, 1⟩ (.fld .bx (false, 1) (true, -1) (true, 0))))),
  .seta (.add .a (.mulS ⟨.y, true, 0⟩ (.add (.add (.mulS ⟨.x, false, -1⟩ (.fld .bx (false, -1) (true, 0) (true, 0))) (.mulS ⟨.x, false, 0⟩ (.fld .bx (false, 0) (true, 0) (true, 0)))) (.mulS ⟨.x, false, 1⟩ (.fld .bx (false, 1) (true, 0) (true, 0)))))),
  .seta (.add .a (.mulS ⟨.y, true, 1⟩ (.add (.add (.mulS ⟨.x, false, -1⟩ (.fld .bx (false, -1) (true, 1) (true, 0))) (.mulS ⟨.x, false, 0⟩ (.fld .bx (false, 0) (true, 1) (true, 0)))) (.mulS ⟨.x, false, 1⟩ (.fld .bx (false, 1) (true, 1) (true, 0)))))),
  .acc .bx (.mulS ⟨.z, true, 0⟩ .a),
  .seta (.mulS ⟨.y, true, -1⟩ (.add (.add (.mulS ⟨.x, false, -1⟩ (.fld .bx (false, -1) (true, -1) (true, 1))) (.mulS ⟨.x, false, 0⟩ (.fld .bx (false, 0) (true, -1) (true, 1)))) (.mulS ⟨.x, false, 1⟩ (.fld .bx (false, 1) (true, -1) (true, 1))))),
  .seta (.add .a (.mulS ⟨.y, true, 0⟩ (.add (.add (.mulS ⟨.x, false, -1⟩ (.fld .bx (false, -1) (true, 0) (true, 1))) (.mulS ⟨.x, false, 0⟩ (.fld .bx (false, 0) (true, 0) (true, 1)))) (.mulS ⟨.x, false, 1⟩ (.fld .bx (false, 1) (true, 0) (true, 1)))))),
  .seta (.add .a (.mulS ⟨.y, true, 1⟩ (.add (.add (.mulS ⟨.x, false, -1⟩ (.fld .bx (false, -1) (true, 1) (true, 1))) (.mulS ⟨.x, false, 0⟩ (.fld .bx (false, 0) (true, 1) (true, 1)))) (.mulS ⟨.x, false, 1⟩ (.fld .bx (false, 1) (true, 1) (true, 1)))))),
  .acc .bx (.mulS ⟨.z, true, 1⟩ .a),
  .seta (.mulS ⟨.y, false, -1⟩ (.add (.add (.mulS ⟨.x, true, -1⟩ (.fld .by' (true, -1) (false, -1) (true, -1))) (.mulS ⟨.x, true, 0⟩ (.fld .by' (true, 0) (false, -1) (true, -1)))) (.mulS ⟨.x, true, 1⟩ (.fld .by' (true, 1) (false, -1) (true, -1))))),
  .seta (.add .a (.mulS ⟨.y, false, 0⟩ (.add (.add (.mulS ⟨.x, true, -1⟩ (.fld .by' (true, -1) (false, 0) (true, -1))) (.mulS ⟨.x, true, 0⟩ (.fld .by' (true, 0) (false, 0) (true, -1)))) (.mulS ⟨.x, true, 1⟩ (.fld .by' (true, 1) (false, 0) (true, -1)))))),
  .seta (.add .a (.mulS ⟨.y, false, 1⟩ (.add (.add (.mulS ⟨.x, true, -1⟩ (.fld .by' (true, -1) (false, 1) (true, -1))) (.mulS ⟨.x, true, 0⟩ (.fld .by' (true, 0) (false, 1) (true, -1)))) (.mulS ⟨.x, true, 1⟩ (.fld .by' (true, 1) (false, 1) (true, -1)))))),
  .acc .by' (.mulS ⟨.z, true, -1⟩ .a),
  .seta (.mulS ⟨.y, false, -1⟩ (.add (.add (.mulS ⟨.x, true, -1⟩ (.fld .by' (true, -1) (false, -1) (true, 0))) (.mulS ⟨.x, true, 0⟩ (.fld .by' (true, 0) (false, -1) (true, 0)))) (.mulS ⟨.x, true, 1⟩ (.fld .by' (true, 1) (false, -1) (true, 0))))),
  .seta (.add .a (.mulS ⟨.y, false, 0⟩ (.add (.add (.mulS ⟨.x, true, -1⟩ (.fld .by' (true, -1) (false, 0) (true, 0))) (.mulS ⟨.x, true, 0⟩ (.fld .by' (true, 0) (false, 0) (true, 0)))) (.mulS ⟨.x, true, 1⟩ (.fld .by' (true, 1) (false, 0) (true, 0)))))),
  .seta (.add .a (.mulS ⟨.y, false, 1⟩ (.add (.add (.mulS ⟨.x, true, -1⟩ (.fld .by' (true, -1) (false, 1) (true, 0))) (.mulS ⟨.x, true, 0⟩ (.fld .by' (true, 0) (false, 1) (true, 0)))) (.mulS ⟨.x, true, 1⟩ (.fld .by' (true, 1) (false, 1) (true, 0)))))),
  .acc .by' (.mulS ⟨.z, true, 0⟩ .a),
  .seta (.mulS ⟨.y, false, -1⟩ (.add (.add (.mulS ⟨.x, true, -1⟩ (.fld .by' (true, -1) (false, -1) (true, 1))) (.mulS ⟨.x, true, 0⟩ (.fld .by' (true, 0) (false, -1) (true, 1)))) (.mulS ⟨.x, true, 1⟩ (.fld .by' (true, 1) (false, -1) (true, 1))))),
  .seta (.add .a (.mulS ⟨.y, false, 0⟩ (.add (.add (.mulS ⟨.x, true, -1⟩ (.fld .by' (true, -1) (false, 0) (true, 1))) (.mulS ⟨.x, true, 0⟩ (.fld .by' (true, 0) (false, 0) (true, 1)))) (.mulS ⟨.x, true, 1⟩ (.fld .by' (true, 1) (false, 0) (true, 1)))))),
  .seta (.add .a (.mulS ⟨.y, false, 1⟩ (.add (.add (.mulS ⟨.x, true, -1⟩ (.fld .by' (true, -1) (false, 1) (true, 1))) (.mulS ⟨.x, true, 0⟩ (.fld .by' (true, 0) (false, 1) (true, 1)))) (.mulS ⟨.x, true, 1⟩ (.fld .by' (true, 1) (false, 1) (true, 1)))))),
  .acc .by' (.mulS ⟨.z, true, 1⟩ .a),
  .seta (.mulS ⟨.y, true, -1⟩ (.add (.add (.mulS ⟨.x, true, -1⟩ (.fld .bz (true, -1) (true, -1) (false, -1))) (.mulS ⟨.x, true, 0⟩ (.fld .bz (true, 0) (true, -1) (false, -1)))) (.mulS ⟨.x, true, 1⟩ (.fld .bz (true, 1) (true, -1) (false, -1))))),
  .seta (.add .a (.mulS ⟨.y, true, 0⟩ (.add (.add (.mulS ⟨.x, true, -1⟩ (.fld .bz (true, -1) (true, 0) (false, -1))) (.mulS ⟨.x, true, 0⟩ (.fld .bz (true, 0) (true, 0) (false, -1)))) (.mulS ⟨.x, true, 1⟩ (.fld .bz (true, 1) (true, 0) (false, -1)))))),
  .seta (.add .a (.mulS ⟨.y, true, 1⟩ (.add (.add (.mulS ⟨.x, true, -1⟩ (.fld .bz (true, -1) (true, 1) (false, -1))) (.mulS ⟨.x, true, 0⟩ (.fld .bz (true, 0) (true, 1) (false, -1)))) (.mulS ⟨.x, true, 1⟩ (.fld .bz (true, 1) (true, 1) (false, -1)))))),
  .acc .bz (.mulS ⟨.z, false, -1⟩ .a),
  .seta (.mulS ⟨.y, true, -1⟩ (.add (.add (.mulS ⟨.x, true, -1⟩ (.fld .bz (true, -1) (true, -1) (false, 0))) (.mulS ⟨.x, true, 0⟩ (.fld .bz (true, 0) (true, -1) (false, 0)))) (.mulS ⟨.x, true, 1⟩ (.fld .bz (true, 1) (true, -1) (false, 0))))),
  .seta (.add .a (.mulS ⟨.y, true, 0⟩ (.add (.add (.mulS ⟨.x, true, -1⟩ (.fld .bz (true, -1) (true, 0) (false, 0))) (.mulS ⟨.x, true, 0⟩ (.fld .bz (true, 0) (true, 0) (false, 0)))) (.mulS ⟨.x, true, 1⟩ (.fld .bz (true, 1) (true, 0) (false, 0)))))),
  .seta (.add .a (.mulS ⟨.y, true, 1⟩ (.add (.add (.mulS ⟨.x, true, -1⟩ (.fld .bz (true, -1) (true, 1) (false, 0))) (.mulS ⟨.x, true, 0⟩ (.fld .bz (true, 0) (true, 1) (false, 0)))) (.mulS ⟨.x, true, 1⟩ (.fld .bz (true, 1) (true, 1) (false, 0)))))),
  .acc .bz (.mulS ⟨.z, false, 0⟩ .a),
  .seta (.mulS ⟨.y, true, -1⟩ (.add (.add (.mulS ⟨.x, true, -1⟩ (.fld .bz (true, -1) (true, -1) (false, 1))) (.mulS ⟨.x, true, 0⟩ (.fld .bz (true, 0) (true, -1) (false, 1)))) (.mulS ⟨.x, true, 1⟩ (.fld .bz (true, 1) (true, -1) (false, 1))))),
  .seta (.add .a (.mulS ⟨.y, true, 0⟩ (.add (.add (.mulS ⟨.x, true, -1⟩ (.fld .bz (true, -1) (true, 0) (false, 1))) (.mulS ⟨.x, true, 0⟩ (.fld .bz (true, 0) (true, 0) (false, 1)))) (.mulS ⟨.x, true, 1⟩ (.fld .bz (true, 1) (true, 0) (false, 1)))))),
  .seta (.add .a (.mulS ⟨.y, true, 1⟩ (.add (.add (.mulS ⟨.x, true, -1⟩ (.fld .bz (true, -1) (true, 1) (false, 1))) (.mulS ⟨.x, true, 0⟩ (.fld .bz (true, 0) (true, 1) (false, 1)))) (.mulS ⟨.x, true, 1⟩ (.fld .bz (true, 1) (true, 1) (false, 1)))))),
  .acc .bz (.mulS ⟨.z, false, 1⟩ .a)]

/-- geteb3d_energy_conserving_vecV3_3_3_3, `l_lower_order_in_v` true (field_gathering_o3_3d.F90:5771-5947). -/
def prog_o3_3d_lower : List GStmt := [
  .seta (.mulS ⟨.y, false, -1⟩ (.add (.add (.mulS ⟨.x, true, -1⟩ (.fld .ex (true, -1) (false, -1) (false, -1))) (.mulS ⟨.x, true, 0⟩ (.fld .ex (true, 0) (false, -1) (false, -1)))) (.mulS ⟨.x, true, 1⟩ (.fld .ex (true, 1) (false, -1) (false, -1))))),
  .seta (.add .a (.mulS ⟨.y, false, 0⟩ (.add (.add (.mulS ⟨.x, true, -1⟩ (.fld .ex (true, -1) (false, 0) (false, -1))) (.mulS ⟨.x, true, 0⟩ (.fld .ex (true, 0) (false, 0) (false, -1)))) (.mulS ⟨.x, true, 1⟩ (.fld .ex (true, 1) (false, 0) (false, -1)))))),
  .seta (.add .a (.mulS ⟨.y, false, 1⟩ (.add (.add (.mulS ⟨.x, true, -1⟩ (.fld .ex (true, -1) (false, 1) (false, -1))) (.mulS ⟨.x, true, 0⟩ (.fld .ex (true, 0) (false, 1) (false, -1)))) (.mulS ⟨.x, true, 1⟩ (.fld .ex (true, 1) (false, 1) (false, -1)))))),
  .seta (.add .a (.mulS ⟨.y, false, 2⟩ (.add (.add (.mulS ⟨.x, true, -1⟩ (.fld .ex (true, -1) (false, 2) (false, -1))) (.mulS ⟨.x, true, 0⟩ (.fld .ex (true, 0) (false, 2) (false, -1)))) (.mulS ⟨.x, true, 1⟩ (.fld .ex (true, 1) (false, 2) (false, -1)))))),
  .acc .ex (.mulS ⟨.z, false, -1⟩ .a),
  .seta (.mulS ⟨.y, false, -1⟩ (.add (.add (.mulS ⟨.x, true, -1⟩ (.fld .ex (true, -1) (false, -1) (false, 0))) (.mulS ⟨.x, true, 0⟩ (.fld .ex (true, 0) (false, -1) (false, 0)))) (.mulS ⟨.x, true, 1⟩ (.fld .ex (true, 1) (false, -1) (false, 0))))),
  .seta (.add .a (.mulS ⟨.y, false, 0⟩ (.add (.add (.mulS ⟨.x, true, -1⟩ (.fld .ex (true, -1) (false, 0) (false, 0))) (.mulS ⟨.x, true, 0⟩ (.fld .ex (true, 0) (false, 0) (false, 0)))) (.mulS ⟨.x, true, 1⟩ (.fld .ex (true, 1) (false, 0) (false, 0)))))),
  .seta (.add .a (.mulS ⟨.y, false, 1⟩ (.add (.add (.mulS ⟨.x, true, -1⟩ (.fld .ex (true, -1) (false, 1) (false, 0))) (.mulS ⟨.x, true, 0⟩ (.fld .ex (true, 0) (false, 1) (false, 0)))) (.mulS ⟨.x, true, 1⟩ (.fld .ex (true, 1) (false, 1) (false, 0)))))),
  .seta (.add .a (.mulS ⟨.y, false, 2⟩ (.add (.add (.mulS ⟨.x, true, -1⟩ (.fld .ex (true, -1) (false, 2) (false, 0))) (.mulS ⟨.x, true, 0⟩ (.fld .ex (true, 0) (false, 2) (false, 0)))) (.mulS ⟨.x, true, 1⟩ (.fld .ex (true, 1) (false, 2) (false, 0)))))),
  .acc .ex (.mulS ⟨.z, false, 0⟩ .a),
  .seta (.mulS ⟨.y, false, -1⟩ (.add (.add (.mulS ⟨.x, true, -1⟩ (.fld .ex (true, -1) (false, -1) (false, 1))) (.mulS ⟨.x, true, 0⟩ (.fld .ex (true, 0) (false, -1) (false, 1)))) (.mulS ⟨.x, true, 1⟩ (.fld .ex (true, 1) (false, -1) (false, 1))))),
  .seta (.add .a (.mulS ⟨.y, false, 0⟩ (.add (.add (.mulS ⟨.x, true, -1⟩ (.fld .ex (true, -1) (false, 0) (false, 1))) (.mulS ⟨.x, true, 0⟩ (.fld .ex (true, 0) (false, 0) (false, 1)))) (.mulS ⟨.x, true, 1⟩ (.fld .ex (true, 1) (false, 0) (false, 1)))))),
  .seta (.add .a (.mulS ⟨.y, false, 1⟩ (.add (.add (.mulS ⟨.x, true, -1⟩ (.fld .ex (true, -1) (false, 1) (false, 1))) (.mulS ⟨.x, true, 0⟩ (.fld .ex (true, 0) (false, 1) (false, 1)))) (.mulS ⟨.x, true, 1⟩ (.fld .ex (true, 1) (false, 1) (false, 1)))))),
  .seta (.add .a (.mulS ⟨.y, false, 2⟩ (.add (.add (.mulS ⟨.x, true, -1⟩ (.fld .ex (true, -1) (false, 2) (false, 1))) (.mulS ⟨.x, true, 0⟩ (.fld .ex (true, 0) (false, 2) (false, 1)))) (.mulS ⟨.x, true, 1⟩ (.fld .ex (true, 1) (false, 2) (false, 1)))))),
  .acc .ex (.mulS ⟨.z, false, 1⟩ .a),
  .seta (.mulS ⟨.y, false, -1⟩ (.add (.add (.mulS ⟨.x, true, -1⟩ (.fld .ex (true, -1) (false, -1) (false, 2))) (.mulS ⟨.x, true, 0⟩ (.fld .ex (true, 0) (false, -1) (false, 2)))) (.mulS ⟨.x, true, 1⟩ (.fld .ex (true, 1) (false, -1) (false, 2))))),
  .seta (.add .a (.mulS ⟨.y, false, 0⟩ (.add (.add (.mulS ⟨.x, true, -1⟩ (.fld .ex (true, -1) (false, 0) (false, 2))) (.mulS ⟨.x, true, 0⟩ (.fld .ex (true, 0) (false, 0) (false, 2)))) (.mulS ⟨.x, true, 1⟩ (.fld .ex (true, 1) (false, 0) (false, 2)))))),
  .seta (.add .a (.mulS ⟨.y, false, 1⟩ (.add (.add (.mulS ⟨.x, true, -1⟩ (.fld .ex (true, -1) (false, 1) (false, 2))) (.mulS ⟨.x, true, 0⟩ (.fld .ex (true, 0) (false, 1) (false, 2)))) (.mulS ⟨.x, true, 1⟩ (.fld .ex (true, 1) (false, 1) (false, 2)))))),
  .seta (.add .a (.mulS ⟨.y, false, 2⟩ (.add (.add (.mulS ⟨.x, true, -1⟩ (.fld .ex (true, -1) (false, 2) (false, 2))) (.mulS ⟨.x, true, 0⟩ (.fld .ex (true, 0) (false, 2) (false, 2)))) (.mulS ⟨.x, true, 1⟩ (.fld .ex (true, 1) (false, 2) (false, 2)))))),
  .acc .ex (.mulS ⟨.z, false, 2⟩ .a),
  .seta (.mulS ⟨.y, true, -1⟩ (.add (.add (.add (.mulS ⟨.x, false, -1⟩ (.fld .ey (false, -1) (true, -1) (false, -1))) (.mulS ⟨.x, false, 0⟩ (.fld .ey (false, 0) (true, -1) (false, -1)))) (.mulS ⟨.x, false, 1⟩ (.fld .ey (false, 1) (true, -1) (false, -1)))) (.mulS ⟨.x, false, 2⟩ (.fld .ey (false, 2) (true, -1) (false, -1))))),
  .seta (.add .a (.mulS ⟨.y, true, 0⟩ (.add (.add (.add (.mulS ⟨.x, false, -1⟩ (.fld .ey (false, -1) (true, 0) (false, -1))) (.mulS ⟨.x, false, 0⟩ (.fld .ey (false, 0) (true, 0) (false, -1)))) (.mulS ⟨.x, false, 1⟩ (.fld .ey (false, 1) (true, 0) (false, -1)))) (.mulS ⟨.x, false, 2⟩ (.fld .ey (false, 2) (true, 0) (false, -1)))))),
  .seta (.add .a (.mulS ⟨.y, true, 1⟩ (.add (.add (.add (.mulS ⟨.x, false, -1⟩ (.fld .ey (false, -1) (true, 1) (false, -1))) (.mulS ⟨.x, false, 0⟩ (.fld .ey (false, 0) (true, 1) (false, -1)))) (.mulS ⟨.x, false, 1⟩ (.fld .ey (false, 1) (true, 1) (false, -1)))) (.mulS ⟨.x, false, 2⟩ (.fld .ey (false, 2) (true, 1) (false, -1)))))),
  .acc .ey (.mulS ⟨.z, false, -1⟩ .a),
  .seta (.mulS ⟨.y, true, -1⟩ (.add (.add (.add (.mulS ⟨.x, false, -1⟩ (.fld .ey (false, -1) (true, -1) (false, 0))) (.mulS ⟨.x, false, 0⟩ (.fld .ey (false, 0) (true, -1) (false, 0)))) (.mulS ⟨.x, false, 1⟩ (.fld .ey (false, 1) (true, -1) (false, 0)))) (.mulS ⟨.x, false, 2⟩ (.fld .ey (false, 2) (true, -1) (false, 0))))),
  .seta (.add .a (.mulS ⟨.y, true, 0⟩ (.add (.add (.add (.mulS ⟨.x, false, -1⟩ (.fld .ey (false, -1) (true, 0) (false, 0))) (.mulS ⟨.x, false, 0⟩ (.fld .ey (false, 0) (true, 0) (false, 0)))) (.mulS ⟨.x, false, 1⟩ (.fld .ey (false, 1) (true, 0) (false, 0)))) (.mulS ⟨.x, false, 2⟩ (.fld .ey (false, 2) (true, 0) (false, 0)))))),
  .seta (.add .a (.mulS ⟨.y, true, 1⟩ (.add (.add (.add (.mulS ⟨.x, false, -1⟩ (.fld .ey (false, -1) (true, 1) (false, 0))) (.mulS ⟨.x, false, 0⟩ (.fld .ey (false, 0) (true, 1) (false, 0)))) (.mulS ⟨.x, false, 1⟩ (.fld .ey (false, 1) (true, 1) (false, 0)))) (.mulS ⟨.x, false, 2⟩ (.fld .ey (false, 2) (true, 1) (false, 0)))))),
  .acc .ey (.mulS ⟨.z, false, 0⟩ .a),
  .seta (.mulS ⟨.y, true, -1⟩ (.add (.add (.add (.mulS ⟨.x, false, -1⟩ (.fld .ey (false, -1) (true, -1) (false, 1))) (.mulS ⟨.x, false, 0⟩ (.fld .ey (false, 0) (true, -1) (false, 1)))) (.mulS ⟨.x, false, 1⟩ (.fld .ey (false, 1) (true, -1) (false, 1)))) (.mulS ⟨.x, false, 2⟩ (.fld .ey (false, 2) (true, -1) (false, 1))))),
  .seta (.add .a (.mulS ⟨.y, true, 0⟩ (.add (.add (.add (.mulS ⟨.x, false, -1⟩ (.fld .ey (false, -1) (true, 0) (false, 1))) (.mulS ⟨.x, false, 0⟩ (.fld .ey (false, 0) (true, 0) (false, 1)))) (.mulS ⟨.x, false, 1⟩ (.fld .ey (false, 1) (true, 0) (false, 1)))) (.mulS ⟨.x, false, 2⟩ (.fld .ey (false, 2) (true, 0) (false, 1)))))),
  .seta (.add .a (.mulS ⟨.y, true, 1⟩ (.add (.add (.add (.mulS ⟨.x, false, -1⟩ (.fld .ey (false, -1) (true, 1) (false, 1))) (.mulS ⟨.x, false, 0⟩ (.fld .ey (false, 0) (true, 1) (false, 1)))) (.mulS ⟨.x, false, 1⟩ (.fld .ey (false, 1) (true, 1) (false, 1)))) (.mulS ⟨.x, false, 2⟩ (.fld .ey (false, 2) (true, 1) (false, 1)))))),
  .acc .ey (.mulS ⟨.z, false, 1⟩ .a),
  .seta (.mulS ⟨.y, true, -1⟩ (.add (.add (.add (.mulS ⟨.x, false, -1⟩ (.fld .ey (false, -1) (true, -1) (false, 2))) (.mulS ⟨.x, false, 0⟩ (.fld .ey (false, 0) (true, -1) (false, 2)))) (.mulS ⟨.x, false, 1⟩ (.fld .ey (false, 1) (true, -1) (false, 2)))) (.mulS ⟨.x, false, 2⟩ (.fld .ey (false, 2) (true, -1) (false, 2))))),
  .seta (.add .a (.mulS ⟨.y, true, 0⟩ (.add (.add (.add (.mulS ⟨.x, false, -1⟩ (.fld .ey (false, -1) (true, 0) (false, 2))) (.mulS ⟨.x, false, 0⟩ (.fld .ey (false, 0) (true, 0) (false, 2)))) (.mulS ⟨.x, false, 1⟩ (.fld .ey (false, 1) (true, 0) (false, 2)))) (.mulS ⟨.x, false, 2⟩ (.fld .ey (false, 2) (true, 0) (false, 2)))))),
  .seta (.add .a (.mulS ⟨.y, true, 1⟩ (.add (.add (.add (.mulS ⟨.x, false, -1⟩ (.fld .ey (false, -1) (true, 1) (false, 2))) (.mulS ⟨.x, false, 0⟩ (.fld .ey (false, 0) (true, 1) (false, 2)))) (.mulS ⟨.x, false, 1⟩ (.fld .ey (false, 1) (true, 1) (false, 2)))) (.mulS ⟨.x, false, 2⟩ (.fld .ey (false, 2) (true, 1) (false, 2)))))),
  .acc .ey (.mulS ⟨.z, false, 2⟩ .a),
  .seta (.mulS ⟨.y, false, -1⟩ (.add (.add (.add (.mulS ⟨.x, false, -1⟩ (.fld .ez (false, -1) (false, -1) (true, -1))) (.mulS ⟨.x, false, 0⟩ (.fld .ez (false, 0) (false, -1) (true, -1)))) (.mulS ⟨.x, false, 1⟩ (.fld .ez (false, 1) (false, -1) (true, -1)))) (.mulS ⟨.x, false, 2⟩ (.fld .ez (false, 2) (false, -1) (true, -1))))),
  .seta (.add .a (.mulS ⟨.y, false, 0⟩ (.add (.add (.add (.mulS ⟨.x, false, -1⟩ (.fld .ez (false, -1) (false, 0) (true, -1))) (.mulS ⟨.x, false, 0⟩ (.fld .ez (false, 0) (false, 0) (true, -1)))) (.mulS ⟨.x, false, 1⟩ (.fld .ez (false, 1) (false, 0) (true, -1)))) (.mulS ⟨.x, false, 2⟩ (.fld .ez (false, 2) (false, 0) (true, -1)))))),
  .seta (.add .a (.mulS ⟨.y, false, 1⟩ (.add (.add (.add (.mulS ⟨.x, false, -1⟩ (.fld .ez (false, -1) (false, 1) (true, -1))) (.mulS ⟨.x, false, 0⟩ (.fld .ez (false, 0) (false, 1) (true, -1)))) (.mulS ⟨.x, false, 1⟩ (.fld .ez (false, 1) (false, 1) (true, -1)))) (.mulS ⟨.x, false, 2⟩ (.fld .ez (false, 2) (false, 1) (true, -1)))))),
  .seta (.add .a (.mulS ⟨.y, false, 2⟩ (.add (.add (.add (.mulS ⟨.x, false, -1⟩ (.fld .ez (false, -1) (false, 2) (true, -1))) (.mulS ⟨.x, false, 0⟩ (.fld .ez (false, 0) (false, 2) (true, -1)))) (.mulS ⟨.x, false, 1⟩ (.fld .ez (false, 1) (false, 2) (true, -1)))) (.mulS ⟨.x, false, 2⟩ (.fld .ez (false, 2) (false, 2) (true, -1)))))),
  .acc .ez (.mulS ⟨.z, true, -1⟩ .a),
  .seta (.mulS ⟨.y, false, -1⟩ (.add (.add (.add (.mulS ⟨.x, false, -1⟩ (.fld .ez (false, -1) (false, -1) (true, 0))) (.mulS ⟨.x, false, 0⟩ (.fld .ez (false, 0) (false, -1) (true, 0)))) (.mulS ⟨.x, false, 1⟩ (.fld .ez (false, 1) (false, -1) (true, 0)))) (.mulS ⟨.x, false, 2⟩ (.fld .ez (false, 2) (false, -1) (true, 0))))),
  .seta (.add .a (.mulS ⟨.y, false, 0⟩ (.add (.add (.add (.mulS ⟨.x, false, -1⟩ (.fld .ez (false, -1) (false, 0) (true, 0))) (.mulS ⟨.x, false, 0⟩ (.fld .ez (false, 0) (false, 0) (true, 0)))) (.mulS ⟨.x, false, 1⟩ (.fld .ez (false, 1) (false, 0) (true, 0)))) (.mulS ⟨.x, false, 2⟩ (.fld .ez (false, 2) (false, 0) (true, 0)))))),
  .seta (.add .a (.mulS ⟨.y, false, 1⟩ (.add (.add (.add (.mulS ⟨.x, false, -1⟩ (.fld .ez (false, -1) (false, 1) (true, 0))) (.mulS ⟨.x, false, 0⟩ (.fld .ez (false, 0) (false, 1) (true, 0)))) (.mulS ⟨.x, false, 1⟩ (.fld .ez (false, 1) (false, 1) (true, 0)))) (.mulS ⟨.x, false, 2⟩ (.fld .ez (false, 2) (false, 1) (true, 0)))))),
  .seta (.add .a (.mulS ⟨.y, false, 2⟩ (.add (.add (.add (.mulS ⟨.x, false, -1⟩ (.fld .ez (false, -1) (false, 2) (true, 0))) (.mulS ⟨.x, false, 0⟩ (.fld .ez (false, 0) (false, 2) (true, 0)))) (.mulS ⟨.x, false, 1⟩ (.fld .ez (false, 1) (false, 2) (true, 0)))) (.mulS ⟨.x, false, 2⟩ (.fld .ez (false, 2) (false, 2) (true, 0)))))),
  .acc .ez (.mulS ⟨.z, true, 0⟩ .a),
  .seta (.mulS ⟨.y, false, -1⟩ (.add (.add (.add (.mulS ⟨.x, false, -1⟩ (.fld .ez (false, -1) (false, -1) (true, 1))) (.mulS ⟨.x, false, 0⟩ (.fld .ez (false, 0) (false, -1) (true, 1)))) (.mulS ⟨.x, false, 1⟩ (.fld .ez (false, 1) (false, -1) (true, 1)))) (.mulS ⟨.x, false, 2⟩ (.fld .ez (false, 2) (false, -1) (true, 1))))),
  .seta (.add .a (.mulS ⟨.y, false, 0⟩ (.add (.add (.add (.mulS ⟨.x, false, -1⟩ (.fld .ez (false, -1) (false, 0) (true, 1))) (.mulS ⟨.x, false, 0⟩ (.fld .ez (false, 0) (false, 0) (true, 1)))) (.mulS ⟨.x, false, 1⟩ (.fld .ez (false, 1) (false, 0) (true, 1)))) (.mulS ⟨.x, false, 2⟩ (.fld .ez (false, 2) (false, 0) (true, 1)))))),
  .seta (.add .a (.mulS ⟨.y, false, 1⟩ (.add (.add (.add (.mulS ⟨.x, false, -1⟩ (.fld .ez (false, -1) (false, 1) (true, 1))) (.mulS ⟨.x, false, 0⟩ (.fld .ez (false, 0) (false, 1) (true, 1)))) (.mulS ⟨.x, false, 1⟩ (.fld .ez (false, 1) (false, 1) (true, 1)))) (.mulS ⟨.x, false, 2⟩ (.fld .ez (false, 2) (false, 1) (true, 1)))))),
  .seta (.add .a (.mulS ⟨.y, false, 2⟩ (.add (.add (.add (.mulS ⟨.x, false, -1⟩ (.fld .ez (false, -1) (false, 2) (true, 1))) (.mulS ⟨.x, false, 0⟩ (.fld .ez (false, 0) (false, 2) (true, 1)))) (.mulS ⟨.x, false, 1⟩ (.fld .ez (false, 1) (false, 2) (true, 1)))) (.mulS ⟨.x, false, 2⟩ (.fld .ez (false, 2) (false, 2) (true, 1)))))),
  .acc .ez (.mulS ⟨.z, true, 1⟩ .a),
  .seta (.mulS ⟨.y, true, -1⟩ (.add (.add (.add (.mulS ⟨.x, false, -1⟩ (.fld .bx (false, -1) (true, -1) (true, -1))) (.mulS ⟨.x, false, 0⟩ (.fld .bx (false, 0) (true, -1) (true, -1)))) (.mulS ⟨.x, false, 1⟩ (.fld .bx (false, 1) (true, -1) (true, -1)))) (.mulS ⟨.x, false, 2⟩ (.fld .bx (false, 2) (true, -1) (true, -1))))),
  .seta (.add .a (.mulS ⟨.y, true, 0⟩ (.add (.add (.add (.mulS ⟨.x, false, -1⟩ (.fld .bx (false, -1) (true, 0) (true, -1))) (.mulS ⟨.x, false, 0⟩ (.fld .bx (false, 0) (true, 0) (true, -1)))) (.mulS ⟨.x, false, 1⟩ (.fld .bx (false, 1) (true, 0) (true, -1)))) (.mulS ⟨.x, false, 2⟩ (.fld .bx (false, 2) (true, 0) (true, -1)))))),
  .seta (.add .a (.mulS ⟨.y, true, 1⟩ (.add (.add (.add (.mulS ⟨.x, false, -1⟩ (.fld .bx (false, -1) (true, 1) (true, -1))) (.mulS ⟨.x, false, 0⟩ (.fld .bx (false, 0) (true, 1) (true, -1)))) (.mulS ⟨.x, false, 1⟩ (.fld .bx (false, 1) (true, 1) (true, -1)))) (.mulS ⟨.x, false, 2⟩ (.fld .bx (false, 2) (true, 1) (true, -1)))))),
  .acc .bx (.mulS ⟨.z, true, -1⟩ .a),
  .seta (.mulS ⟨.y, true, -1⟩ (.add (.add (.add (.mulS ⟨.x, false, -1⟩ (.fld .bx (false, -1) (true, -1) (true, 0))) (.mulS ⟨.x, false, 0⟩ (.fld .bx (false, 0) (true, -1) (true, 0)))) (.mulS ⟨.x, false, 1⟩ (.fld .bx (false, 1) (true, -1) (true, 0)))) (.mulS ⟨.x, false, 2⟩ (.fld .bx (false, 2) (true, -1) (true, 0))))),
  .seta (.add .a (.mulS ⟨.y, true, 0⟩ (.add (.add (.add (.mulS ⟨.x, false, -1⟩ (.fld .bx (false, -1) (true, 0) (true, 0))) (.mulS ⟨.x, false, 0⟩ (.fld .bx (false, 0) (true, 0) (true, 0)))) (.mulS ⟨.x, false, 1⟩ (.fld .bx (false, 1) (true, 0) (true, 0)))) (.mulS ⟨.x, false, 2⟩ (.fld .bx (false, 2) (true, 0) (true, 0)))))),
  .seta (.add .a (.mulS ⟨.y, true, 1⟩ (.add (.add (.add (.mulS ⟨.x, false, -1⟩ (.fld .bx (false, -1) (true, 1) (true, 0))) (.mulS ⟨.x, false, 0⟩ (.fld .bx (false, 0) (true, 1) (true, 0)))) (.mulS ⟨.x, false, 1⟩ (.fld .bx (false, 1) (true, 1) (true, 0)))) (.mulS ⟨.x, false, 2⟩ (.fld .bx (false, 2) (true, 1) (true, 0)))))),
  .acc .bx (.mulS ⟨.z, true, 0⟩ .a),
  .seta (.mulS ⟨.y, true, -1⟩ (.add (.add (.add (.mulS ⟨.x, false, -1⟩ (.fld .bx (false, -1) (true, -1) (true, 1))) (.mulS ⟨.x, false, 0⟩ (.fld .bx (false, 0) (true, -1) (true, 1)))) (.mulS ⟨.x, false, 1⟩ (.fld .bx (false, 1) (true, -1) (true, 1)))) (.mulS ⟨.x, false, 2⟩ (.fld .bx (false, 2) (true, -1) (true, 1))))),
  .seta (.add .a (.mulS ⟨.y, true, 0⟩ (.add (.add (.add (.mulS ⟨.x, false, -1⟩ (.fld .bx (false, -1) (true, 0) (true, 1))) (.mulS ⟨.x, false, 0⟩ (.fld .bx (false, 0) (true, 0) (true, 1)))) (.mulS ⟨.x, false, 1⟩ (.fld .bx (false, 1) (true, 0) (true, 1)))) (.mulS ⟨.x, false, 2⟩ (.fld .bx (false, 2) (true, 0) (true, 1)))))),
  .seta (.add .a (.mulS ⟨.y, true, 1⟩ (.add (.add (.add (.mulS ⟨.x, false, -1⟩ (.fld .bx (false, -1) (true, 1) (true, 1))) (.mulS ⟨.x, false, 0⟩ (.fld .bx (false, 0) (true, 1) (true, 1)))) (.mulS ⟨.x, false, 1⟩ (.fld .bx (false, 1) (true, 1) (true, 1)))) (.mulS ⟨.x, false, 2⟩ (.fld .bx (false, 2) (true, 1) (true, 1)))))),
  .acc .bx (.mulS ⟨.z, true, 1⟩ .a),
  .seta (.mulS ⟨.y, false, -1⟩ (.add (.add (.mulS ⟨.x, true, -1⟩ (.fld .by' (true, -1) (false, -1) (true, -1))) (.mulS ⟨.x, true, 0⟩ (.fld .by' (true, 0) (false, -1) (true, -1)))) (.mulS ⟨.x, true, 1⟩ (.fld .by' (true, 1) (false, -1) (true, -1))))),
  .seta (.add .a (.mulS ⟨.y, false, 0⟩ (.add (.add (.mulS ⟨.x, true, -1⟩ (.fld .by' (true, -1) (false, 0) (true, -1))) (.mulS ⟨.x, true, 0⟩ (.fld .by' (true, 0) (false, 0) (true, -1)))) (.mulS ⟨.x, true, 1⟩ (.fld .by' (true, 1) (false, 0) (true, -1)))))),
  .seta (.add .a (.mulS ⟨.y, false, 1⟩ (.add (.add (.mulS ⟨.x, true, -1⟩ (.fld .by' (true, -1) (false, 1) (true, -1))) (.mulS ⟨.x, true, 0⟩ (.fld .by' (true, 0) (false, 1) (true, -1)))) (.mulS ⟨.x, true, 1⟩ (.fld .by' (true, 1) (false, 1) (true, -1)))))),
  .seta (.add .a (.mulS ⟨.y, false, 2⟩ (.add (.add (.mulS ⟨.x, true, -1⟩ (.fld .by' (true, -1) (false, 2) (true, -1))) (.mulS ⟨.x, true, 0⟩ (.fld .by' (true, 0) (false, 2) (true, -1)))) (.mulS ⟨.x, true, 1⟩ (.fld .by' (true, 1) (false, 2) (true, -1)))))),
  .acc .by' (.mulS ⟨.z, true, -1⟩ .a),
  .seta (.mulS ⟨.y, false, -1⟩ (.add (.add (.mulS ⟨.x, true, -1⟩ (.fld .by' (true, -1) (false, -1) (true, 0))) (.mulS ⟨.x, true, 0⟩ (.fld .by' (true, 0) (false, -1) (true, 0)))) (.mulS ⟨.x, true, 1⟩ (.fld .by' (true, 1) (false, -1) (true, 0))))),
  .seta (.add .a (.mulS ⟨.y, false, 0⟩ (.add (.add (.mulS ⟨.x, true, -1⟩ (.fld .by' (true, -1) (false, 0) (true, 0))) (.mulS ⟨.x, true, 0⟩ (.fld .by' (true, 0) (false, 0) (true, 0)))) (.mulS ⟨.x, true, 1⟩ (.fld .by' (true, 1) (false, 0) (true, 0)))))),
  .seta (.add .a (.mulS ⟨.y, false, 1⟩ (.add (.add (.mulS ⟨.x, true, -1⟩ (.fld .by' (true, -1) (false, 1) (true, 0))) (.mulS ⟨.x, true, 0⟩ (.fld .by' (true, 0) (false, 1) (true, 0)))) (.mulS ⟨.x, true, 1⟩ (.fld .by' (true, 1) (false, 1) (true, 0)))))),
  .seta (.add .a (.mulS ⟨.y, false, 2⟩ (.add (.add (.mulS ⟨.x, true, -1⟩ (.fld .by' (true, -1) (false, 2) (true, 0))) (.mulS ⟨.x, true, 0⟩ (.fld .by' (true, 0) (false, 2) (true, 0)))) (.mulS ⟨.x, true, 1⟩ (.fld .by' (true, 1) (false, 2) (true, 0)))))),
  .acc .by' (.mulS ⟨.z, true, 0⟩ .a),
  .seta (.mulS ⟨.y, false, -1⟩ (.add (.add (.mulS ⟨.x, true, -1⟩ (.fld .by' (true, -1) (false, -1) (true, 1))) (.mulS ⟨.x, true, 0⟩ (.fld .by' (true, 0) (false, -1) (true, 1)))) (.mulS ⟨.x, true, 1⟩ (.fld .by' (true, 1) (false, -1) (true, 1))))),
  .seta (.add .a (.mulS ⟨.y, false, 0⟩ (.add (.add (.mulS ⟨.x, true, -1⟩ (.fld .by' (true, -1) (false, 0) (true, 1))) (.mulS ⟨.x, true, 0⟩ (.fld .by' (true, 0) (false, 0) (true, 1)))) (.mulS ⟨.x, true, 1⟩ (.fld .by' (true, 1) (false, 0) (true, 1)))))),
  .seta (.add .a (.mulS ⟨.y, false, 1⟩ (.add (.add (.mulS ⟨.x, true, -1⟩ (.fld .by' (true, -1) (false, 1) (true, 1))) (.mulS ⟨.x, true, 0⟩ (.fld .by' (true, 0) (false, 1) (true, 1)))) (.mulS ⟨.x, true, 1⟩ (.fld .by' (true, 1) (false, 1) (true, 1)))))),
  .seta (.add .a (.mulS ⟨.y, false, 2⟩ (.add (.add (.mulS ⟨.x, true, -1⟩ (.fld .by' (true, -1) (false, 2) (true, 1))) (.mulS ⟨.x, true, 0⟩ (.fld .by' (true, 0) (false, 2) (true, 1)))) (.mulS ⟨.x, true, 1⟩ (.fld .by' (true, 1) (false, 2) (true, 1)))))),
  .acc .by' (.mulS ⟨.z, true, 1⟩ .a),
  .seta (.mulS ⟨.y, true, -1⟩ (.add (.add (.mulS ⟨.x, true, -1⟩ (.fld .bz (true, -1) (true, -1) (false, -1))) (.mulS ⟨.x, true, 0⟩ (.fld .bz (true, 0) (true, -1) (false, -1)))) (.mulS ⟨.x, true, 1⟩ (.fld .bz (true, 1) (true, -1) (false, -1))))),
  .seta (.add .a (.mulS ⟨.y, true, 0⟩ (.add (.add (.mulS ⟨.x, true, -1⟩ (.fld .bz (true, -1) (true, 0) (false, -1))) (.mulS ⟨.x, true, 0⟩ (.fld .bz (true, 0) (true, 0) (false, -1)))) (.mulS ⟨.x, true, 1⟩ (.fld .bz (true, 1) (true, 0) (false, -1)))))),
  .seta (.add .a (.mulS ⟨.y, true, 1⟩ (.add (.add (.mulS ⟨.x, true, -1⟩ (.fld .bz (true, -1) (true, 1) (false, -1))) (.mulS ⟨.x, true, 0⟩ (.fld .bz (true, 0) (true, 1) (false, -1)))) (.mulS ⟨.x, true, 1⟩ (.fld .bz (true, 1) (true, 1) (false, -1)))))),
  .acc .bz (.mulS ⟨.z, false, -1⟩ .a),
  .seta (.mulS ⟨.y, true, -1⟩ (.add (.add (.mulS ⟨.x, true, -1⟩ (.fld .bz (true, -1) (true, -1) (false, 0))) (.mulS ⟨.x, true, 0⟩ (.fld .bz (true, 0) (true, -1) (false, 0)))) (.mulS ⟨.x, true, 1⟩ (.fld .bz (true, 1) (true, -1) (false, 0))))),
  .seta (.add .a (.mulS ⟨.y, true, 0⟩ (.add (.add (.mulS ⟨.x, true, -1⟩ (.fld .bz (true, -1) (true, 0) (false, 0))) (.mulS ⟨.x, true, 0⟩ (.fld .bz (true, 0) (true, 0) (false, 0)))) (.mulS ⟨.x, true, 1⟩ (.fld .bz (true, 1) (true, 0) (false, 0)))))),
  .seta (.add .a (.mulS ⟨.y, true, 1⟩ (.add (.add (.mulS ⟨.x, true, -1⟩ (.fld .bz (true, -1) (true, 1) (false, 0))) (.mulS ⟨.x, true, 0⟩ (.fld .bz (true, 0) (true, 1) (false, 0)))) (.mulS ⟨.x, true, 1⟩ (.fld .bz (true, 1) (true, 1) (false, 0)))))),
  .acc .bz (.mulS ⟨.z, false, 0⟩ .a),
  .seta (.mulS ⟨.y, true, -1⟩ (.add (.add (.mulS ⟨.x, true, -1⟩ (.fld .bz (true, -1) (true, -1) (false, 1))) (.mulS ⟨.x, true, 0⟩ (.fld .bz (true, 0) (true, -1) (false, 1)))) (.mulS ⟨.x, true, 1⟩ (.fld .bz (true, 1) (true, -1) (false, 1))))),
  .seta (.add .a (.mulS ⟨.y, true, 0⟩ (.add (.add (.mulS ⟨.x, true, -1⟩ (.fld .bz (true, -1) (true, 0) (false, 1))) (.mulS ⟨.x, true, 0⟩ (.fld .bz (true, 0) (true, 0) (false, 1)))) (.mulS ⟨.x, true, 1⟩ (.fld .bz (true, 1) (true, 0) (false, 1)))))),
  .seta (.add .a (.mulS ⟨.y, true, 1⟩ (.add (.add (.mulS ⟨.x, true, -1⟩ (.fld .bz (true, -1) (true, 1) (false, 1))) (.mulS ⟨.x, true, 0⟩ (.fld .bz (true, 0) (true, 1) (false, 1)))) (.mulS ⟨.x, true, 1⟩ (.fld .bz (true, 1) (true, 1) (false, 1)))))),
  .acc .bz (.mulS ⟨.z, false, 1⟩ .a),
  .seta (.mulS ⟨.y, true, -1⟩ (.add (.add (.mulS ⟨.x, true, -1⟩ (.fld .bz (true, -1) (true, -1) (false, 2))) (.mulS ⟨.x, true, 0⟩ (.fld .bz (true, 0) (true, -1) (false, 2)))) (.mulS ⟨.x, true, 1⟩ (.fld .bz (true, 1) (true, -1) (false, 2))))),
  .seta (.add .a (.mulS ⟨.y, true, 0⟩ (.add (.add (.mulS ⟨.x, true, -1⟩ (.fld .bz (true, -1) (true, 0) (false, 2))) (.mulS ⟨.x, true, 0⟩ (.fld .bz (true, 0) (true, 0) (false, 2)))) (.mulS ⟨.x, true, 1⟩ (.fld .bz (true, 1) (true, 0) (false, 2)))))),
  .seta (.add .a (.mulS ⟨.y, true, 1⟩ (.add (.add (.mulS ⟨.x, true, -1⟩ (.fld .bz (true, -1) (true, 1) (false, 2))) (.mulS ⟨.x, true, 0⟩ (.fld .bz (true, 0) (true, 1) (false, 2)))) (.mulS ⟨.x, true, 1⟩ (.fld .bz (true, 1) (true, 1) (false, 2)))))),
  .acc .bz (.mulS ⟨.z, false, 2⟩ .a)]

/-- geteb3d_energy_conserving_vecV3_3_3_3, `l_lower_order_in_v` false (field_gathering_o3_3d.F90:6054-6279). -/
def prog_o3_3d : List GStmt := [
  .seta (.mulS ⟨.y, false, -1⟩ (.add (.add (.add (.mulS ⟨.x, true, -1⟩ (.fld .ex (true, -1) (false, -1) (false, -1))) (.mulS ⟨.x, true, 0⟩ (.fld .ex (true, 0) (false, -1) (false, -1)))) (.mulS ⟨.x, true, 1⟩ (.fld .ex (true, 1) (false, -1) (false, -1)))) (.mulS ⟨.x, true, 2⟩ (.fld .ex (true, 2) (false, -1) (false, -1))))),
  .seta (.add .a (.mulS ⟨.y, false, 0⟩ (.add (.add (.add (.mulS ⟨.x, true, -1⟩ (.fld .ex (true, -1) (false, 0) (false, -1))) (.mulS ⟨.x, true, 0⟩ (.fld .ex (true, 0) (false, 0) (false, -1)))) (.mulS ⟨.x, true, 1⟩ (.fld .ex (true, 1) (false, 0) (false, -1)))) (.mulS ⟨.x, true, 2⟩ (.fld .ex (true, 2) (false, 0) (false, -1)))))),
  .seta (.add .a (.mulS ⟨.y, false, 1⟩ (.add (.add (.add (.mulS ⟨.x, true, -1⟩ (.fld .ex (true, -1) (false, 1) (false, -1))) (.mulS ⟨.x, true, 0⟩ (.fld .ex (true, 0) (false, 1) (false, -1)))) (.mulS ⟨.x, true, 1⟩ (.fld .ex (true, 1) (false, 1) (false, -1)))) (.mulS ⟨.x, true, 2⟩ (.fld .ex (true, 2) (false, 1) (false, -1)))))),
  .seta (.add .a (.mulS ⟨.y, false, 2⟩ (.add (.add (.add (.mulS ⟨.x, true, -1⟩ (.fld .ex (true, -1) (false, 2) (false, -1))) (.mulS ⟨.x, true, 0⟩ (.fld .ex (true, 0) (false, 2) (false, -1)))) (.mulS ⟨.x, true, 1⟩ (.fld .ex (true, 1) (false, 2) (false, -1)))) (.mulS ⟨.x, true, 2⟩ (.fld .ex (true, 2) (false, 2) (false, -1)))))),
  .acc .ex (.mulS ⟨.z, false, -1⟩ .a),
  .seta (.mulS ⟨.y, false, -1⟩ (.add (.add (.add (.mulS ⟨.x, true, -1⟩ (.fld .ex (true, -1) (false, -1) (false, 0))) (.mulS ⟨.x, true, 0⟩ (.fld .ex (true, 0) (false, -1) (false, 0)))) (.mulS ⟨.x, true, 1⟩ (.fld .ex (true, 1) (false, -1) (false, 0)))) (.mulS ⟨.x, true, 2⟩ (.fld .ex (true, 2) (false, -1) (false, 0))))),
  .seta (.add .a (.mulS ⟨.y, false, 0⟩ (.add (.add (.add (.mulS ⟨.x, true, -1⟩ (.fld .ex (true, -1) (false, 0) (false, 0))) (.mulS ⟨.x, true, 0⟩ (.fld .ex (true, 0) (false, 0) (false, 0)))) (.mulS ⟨.x, true, 1⟩ (.fld .ex (true, 1) (false, 0) (false, 0)))) (.mulS ⟨.x, true, 2⟩ (.fld .ex (true, 2) (false, 0) (false, 0)))))),
  .seta (.add .a (.mulS ⟨.y, false, 1⟩ (.add (.add (.add (.mulS ⟨.x, true, -1⟩ (.fld .ex (true, -1) (false, 1) (false, 0))) (.mulS ⟨.x, true, 0⟩ (.fld .ex (true, 0) (false, 1) (false, 0)))) (.mulS ⟨.x, true, 1⟩ (.fld .ex (true, 1) (false, 1) (false, 0)))) (.mulS ⟨.x, true, 2⟩ (.fld .ex (true, 2) (false, 1) (false, 0)))))),
  .seta (.add .a (.mulS ⟨.y, false, 2⟩ (.add (.add (.add (.mulS ⟨.x, true, -1⟩ (.fld .ex (true, -1) (false, 2) (false, 0))) (.mulS ⟨.x, true, 0⟩ (.fld .ex (true, 0) (false, 2) (false, 0)))) (.mulS ⟨.x, true, 1⟩ (.fld .ex (true, 1) (false, 2) (false, 0)))) (.mulS ⟨.x, true, 2⟩ (.fld .ex (true, 2) (false, 2) (false, 0)))))),
  .acc .ex (.mulS ⟨.z, false, 0⟩ .a),
  .seta (.mulS ⟨.y, false, -1⟩ (.add (.add (.add (.mulS ⟨.x, true, -1⟩ (.fld .ex (true, -1) (false, -1) (false, 1))) (.mulS ⟨.x, true, 0⟩ (.fld .ex (true, 0) (false, -1) (false, 1)))) (.mulS ⟨.x, true, 1⟩ (.fld .ex (true, 1) (false, -1) (false, 1)))) (.mulS ⟨.x, true, 2⟩ (.fld .ex (true, 2) (false, -1) (false, 1))))),
  .seta (.add .a (.mulS ⟨.y, false, 0⟩ (.add (.add (.add (.mulS ⟨.x, true, -1⟩ (.fld .ex (true, -1) (false, 0) (false, 1))) (.mulS ⟨.x, true, 0⟩ (.fld .ex (true, 0) (false, 0) (false, 1)))) (.mulS ⟨.x, true, 1⟩ (.fld .ex (true, 1) (false, 0) (false, 1)))) (.mulS ⟨.x, true, 2⟩ (.fld .ex (true, 2) (false, 0) (false, 1)))))),
  .seta (.add .a (.mulS ⟨.y, false, 1⟩ (.add (.add (.add (.mulS ⟨.x, true, -1⟩ (.fld .ex (true, -1) (false, 1) (false, 1))) (.mulS ⟨.x, true, 0⟩ (.fld .ex (true, 0) (false, 1) (false, 1)))) (.mulS ⟨.x, true, 1⟩ (.fld .ex (true, 1) (false, 1) (false, 1)))) (.mulS ⟨.x, true, 2⟩ (.fld .ex (true, 2) (false, 1) (false, 1)))))),
  .seta (.add .a (.mulS ⟨.y, false, 2⟩ (.add (.add (.add (.mulS ⟨.x, true, -1⟩ (.fld .ex (true, -1) (false, 2) (false, 1))) (.mulS ⟨.x, true, 0⟩ (.fld .ex (true, 0) (false, 2) (false, 1)))) (.mulS ⟨.x, true, 1⟩ (.fld .ex (true, 1) (false, 2) (false, 1)))) (.mulS ⟨.x, true, 2⟩ (.fld .ex (true, 2) (false, 2) (false, 1)))))),
  .acc .ex (.mulS ⟨.z, false, 1⟩ .a),
  .seta (.mulS ⟨.y, false, -1⟩ (.add (.add (.add (.mulS ⟨.x, true, -1⟩ (.fld .ex (true, -1) (false, -1) (false, 2))) (.mulS ⟨.x, true, 0⟩ (.fld .ex (true, 0) (false, -1) (false, 2)))) (.mulS ⟨.x, true, 1⟩ (.fld .ex (true, 1) (false, -1) (false, 2)))) (.mulS ⟨.x, true, 2⟩ (.fld .ex (true, 2) (false, -1) (false, 2))))),
  .seta (.add .a (.mulS ⟨.y, false, 0⟩ (.add (.add (.add (.mulS ⟨.x, true, -1⟩ (.fld .ex (true, -1) (false, 0) (false, 2))) (.mulS ⟨.x, true, 0⟩ (.fld .ex (true, 0) (false, 0) (false, 2)))) (.mulS ⟨.x, true, 1⟩ (.fld .ex (true, 1) (false, 0) (false, 2)))) (.mulS ⟨.x, true, 2⟩ (.fld .ex (true, 2) (false, 0) (false, 2)))))),
  .seta (.add .a (.mulS ⟨.y, false, 1⟩ (.add (.add (.add (.mulS ⟨.x, true, -1⟩ (.fld .ex (true, -1) (false, 1) (false, 2))) (.mulS ⟨.x, true, 0⟩ (.fld .ex (true, 0) (false, 1) (false, 2)))) (.mulS ⟨.x, true, 1⟩ (.fld .ex (true, 1) (false, 1) (false, 2)))) (.mulS ⟨.x, true, 2⟩ (.fld .ex (true, 2) (false, 1) (false, 2)))))),
  .seta (.add .a (.mulS ⟨.y, false, 2⟩ (.add (.add (.add (.mulS ⟨.x, true, -1⟩ (.fld .ex (true, -1) (false, 2) (false, 2))) (.mulS ⟨.x, true, 0⟩ (.fld .ex (true, 0) (false, 2) (false, 2)))) (.mulS ⟨.x, true, 1⟩ (.fld .ex (true, 1) (false, 2) (false, 2)))) (.mulS ⟨.x, true, 2⟩ (.fld .ex (true, 2) (false, 2) (false, 2)))))),
  .acc .ex (.mulS ⟨.z, false, 2⟩ .a),
  .seta (.mulS ⟨.y, true, -1⟩ (.add (.add (.add (.mulS ⟨.x, false, -1⟩ (.fld .ey (false, -1) (true, -1) (false, -1))) (.mulS ⟨.x, false, 0⟩ (.fld .ey (false, 0) (true, -1) (false, -1)))) (.mulS ⟨.x, false, 1⟩ (.fld .ey (false, 1) (true, -1) (false, -1)))) (.mulS ⟨.x, false, 2⟩ (.fld .ey (false, 2) (true, -1) (false, -1))))),
  .seta (.add .a (.mulS ⟨.y, true, 0⟩ (.add (.add (.add (.mulS ⟨.x, false, -1⟩ (.fld .ey (false, -1) (true, 0) (false, -1))) (.mulS ⟨.x, false, 0⟩ (.fld .ey (false, 0) (true, 0) (false, -1)))) (.mulS ⟨.x, false, 1⟩ (.fld .ey (false, 1) (true, 0) (false, -1)))) (.mulS ⟨.x, false, 2⟩ (.fld .ey (false, 2) (true, 0) (false, -1)))))),
  .seta (.add .a (.mulS ⟨.y, true, 1⟩ (.add (.add (.add (.mulS ⟨.x, false, -1⟩ (.fld .ey (false, -1) (true, 1) (false, -1))) (.mulS ⟨.x, false, 0⟩ (.fld .ey (false, 0) (true, 1) (false, -1)))) (.mulS ⟨.x, false, 1⟩ (.fld .ey (false, 1) (true, 1) (false, -1)))) (.mulS ⟨.x, false, 2⟩ (.fld .ey (false, 2) (true, 1) (false, -1)))))),
  .seta (.add .a (.mulS ⟨.y, true, 2⟩ (.add (.add (.add (.mulS ⟨.x, false, -1⟩ (.fld .ey (false, -1) (true, 2) (false, -1))) (.mulS ⟨.x, false, 0⟩ (.fld .ey (false, 0) (true, 2) (false, -1)))) (.mulS ⟨.x, false, 1⟩ (.fld .ey (false, 1) (true, 2) (false, -1)))) (.mulS ⟨.x, false, 2⟩ (.fld .ey (false, 2) (true, 2) (false, -1)))))),
  .acc .ey (.mulS ⟨.z, false, -1⟩ .a),
  .seta (.mulS ⟨.y, true, -1⟩ (.add (.add (.add (.mulS ⟨.x, false, -1⟩ (.fld .ey (false, -1) (true, -1) (false, 0))) (.mulS ⟨.x, false, 0⟩ (.fld .ey (false, 0) (true, -1) (false, 0)))) (.mulS ⟨.x, false, 1⟩ (.fld .ey (false, 1) (true, -1) (false, 0)))) (.mulS ⟨.x, false, 2⟩ (.fld .ey (false, 2) (true, -1) (false, 0))))),
  .seta (.add .a (.mulS ⟨.y, true, 0⟩ (.add (.add (.add (.mulS ⟨.x, false, -1⟩ (.fld .ey (false, -1) (true, 0) (false, 0))) (.mulS ⟨.x, false, 0⟩ (.fld .ey (false, 0) (true, 0) (false, 0)))) (.mulS ⟨.x, false, 1⟩ (.fld .ey (false, 1) (true, 0) (false, 0)))) (.mulS ⟨.x, false, 2⟩ (.fld .ey (false, 2) (true, 0) (false, 0)))))),
  .seta (.add .a (.mulS ⟨.y, true, 1⟩ (.add (.add (.add (.mulS ⟨.x, false, -1⟩ (.fld .ey (false, -1) (true, 1) (false, 0))) (.mulS ⟨.x, false, 0⟩ (.fld .ey (false, 0) (true, 1) (false, 0)))) (.mulS ⟨.x, false, 1⟩ (.fld .ey (false, 1) (true, 1) (false, 0)))) (.mulS ⟨.x, false, 2⟩ (.fld .ey (false, 2) (true, 1) (false, 0)))))),
  .seta (.add .a (.mulS ⟨.y, true, 2⟩ (.add (.add (.add (.mulS ⟨.x, false, -1⟩ (.fld .ey (false, -1) (true, 2) (false, 0))) (.mulS ⟨.x, false, 0⟩ (.fld .ey (false, 0) (true, 2) (false, 0)))) (.mulS ⟨.x, false, 1⟩ (.fld .ey (false, 1) (true, 2) (false, 0)))) (.mulS ⟨.x, false, 2⟩ (.fld .ey (false, 2) (true, 2) (false, 0)))))),
  .acc .ey (.mulS ⟨.z, false, 0⟩ .a),
  .seta (.mulS ⟨.y, true, -1⟩ (.add (.add (.add (.mulS ⟨.x, false, -1⟩ (.fld .ey (false, -1) (true, -1) (false, 1))) (.mulS ⟨.x, false, 0⟩ (.fld .ey (false, 0) (true, -1) (false, 1)))) (.mulS ⟨.x, false, 1⟩ (.fld .ey (false, 1) (true, -1) (false, 1)))) (.mulS ⟨.x, false, 2⟩ (.fld .ey (false, 2) (true, -1) (false, 1))))),
  .seta (.add .a (.mulS ⟨.y, true, 0⟩ (.add (.add (.add (.mulS ⟨.x, false, -1⟩ (.fld .ey (false, -1) (true, 0) (false, 1))) (.mulS ⟨.x, false, 0⟩ (.fld .ey (false, 0) (true, 0) (false, 1)))) (.mulS ⟨.x, false, 1⟩ (.fld .ey (false, 1) (true, 0) (false, 1)))) (.mulS ⟨.x, false, 2⟩ (.fld .ey (false, 2) (true, 0) (false, 1)))))),
  .seta (.add .a (.mulS ⟨.y, true, 1⟩ (.add (.add (.add (.mulS ⟨.x, false, -1⟩ (.fld .ey (false, -1) (true, 1) (false, 1))) (.mulS ⟨.x, false, 0⟩ (.fld .ey (false, 0) (true, 1) (false, 1)))) (.mulS ⟨.x, false, 1⟩ (.fld .ey (false, 1) (true, 1) (false, 1)))) (.mulS ⟨.x, false, 2⟩ (.fld .ey (false, 2) (true, 1) (false, 1)))))),
  .seta (.add .a (.mulS ⟨.y, true, 2⟩ (.add (.add (.add (.mulS ⟨.x, false, -1⟩ (.fld .ey (false, -1) (true, 2) (false, 1))) (.mulS ⟨.x, false, 0⟩ (.fld .ey (false, 0) (true, 2) (false, 1)))) (.mulS ⟨.x, false, 1⟩ (.fld .ey (false, 1) (true, 2) (false, 1)))) (.mulS ⟨.x, false, 2⟩ (.fld .ey (false, 2) (true, 2) (false, 1)))))),
  .acc .ey (.mulS ⟨.z, false, 1⟩ .a),
  .seta (.mulS ⟨.y, true, -1⟩ (.add (.add (.add (.mulS ⟨.x, false, -1⟩ (.fld .ey (false, -1) (true, -1) (false, 2))) (.mulS ⟨.x, false, 0⟩ (.fld .ey (false, 0) (true, -1) (false, 2)))) (.mulS ⟨.x, false, 1⟩ (.fld .ey (false, 1) (true, -1) (false, 2)))) (.mulS ⟨.x, false, 2⟩ (.fld .ey (false, 2) (true, -1) (false, 2))))),
  .seta (.add .a (.mulS ⟨.y, true, 0⟩ (.add (.add (.add (.mulS ⟨.x, false, -1⟩ (.fld .ey (false, -1) (true, 0) (false, 2))) (.mulS ⟨.x, false, 0⟩ (.fld .ey (false, 0) (true, 0) (false, 2)))) (.mulS ⟨.x, false, 1⟩ (.fld .ey (false, 1) (true, 0) (false, 2)))) (.mulS ⟨.x, false, 2⟩ (.fld .ey (false, 2) (true, 0) (false, 2)))))),
  .seta (.add .a (.mulS ⟨.y, true, 1⟩ (.add (.add (.add (.mulS ⟨.x, false, -1⟩ (.fld .ey (false, -1) (true, 1) (false, 2))) (.mulS ⟨.x, false, 0⟩ (.fld .ey (false, 0) (true, 1) (false, 2)))) (.mulS ⟨.x, false, 1⟩ (.fld .ey (false, 1) (true, 1) (false, 2)))) (.mulS ⟨.x, false, 2⟩ (.fld .ey (false, 2) (true, 1) (false, 2)))))),
  .seta (.add .a (.mulS ⟨.y, true, 2⟩ (.add (.add (.add (.mulS ⟨.x, false, -1⟩ (.fld .ey (false, -1) (true, 2) (false, 2))) (.mulS ⟨.x, false, 0⟩ (.fld .ey (false, 0) (true, 2) (false, 2)))) (.mulS ⟨.x, false, 1⟩ (.fld .ey (false, 1) (true, 2) (false, 2)))) (.mulS ⟨.x, false, 2⟩ (.fld .ey (false, 2) (true, 2) (false, 2)))))),
  .acc .ey (.mulS ⟨.z, false, 2⟩ .a),
  .seta (.mulS ⟨.y, false, -1⟩ (.add (.add (.add (.mulS ⟨.x, false, -1⟩ (.fld .ez (false, -1) (false, -1) (true, -1))) (.mulS ⟨.x, false, 0⟩ (.fld .ez (false, 0) (false, -1) (true, -1)))) (.mulS ⟨.x, false, 1⟩ (.fld .ez (false, 1) (false, -1) (true, -1)))) (.mulS ⟨.x, false, 2⟩ (.fld .ez (false, 2) (false, -1) (true, -1))))),
  .seta (.add .a (.mulS ⟨.y, false, 0⟩ (.add (.add (.add (.mulS ⟨.x, false, -1⟩ (.fld .ez (false, -1) (false, 0) (true, -1))) (.mulS ⟨.x, false, 0⟩ (.fld .ez (false, 0) (false, 0) (true, -1)))) (.mulS ⟨.x, false, 1⟩ (.fld .ez (false, 1) (false, 0) (true, -1)))) (.mulS ⟨.x, false, 2⟩ (.fld .ez (false, 2) (false, 0) (true, -1)))))),
  .seta (.add .a (.mulS ⟨.y, false, 1⟩ (.add (.add (.add (.mulS ⟨.x, false, -1⟩ (.fld .ez (false, -1) (false, 1) (true, -1))) (.mulS ⟨.x, false, 0⟩ (.fld .ez (false, 0) (false, 1) (true, -1)))) (.mulS ⟨.x, false, 1⟩ (.fld .ez (false, 1) (false, 1) (true, -1)))) (.mulS ⟨.x, false, 2⟩ (.fld .ez (false, 2) (false, 1) (true, -1)))))),
  .seta (.add .a (.mulS ⟨.y, false, 2⟩ (.add (.add (.add (.mulS ⟨.x, false, -1⟩ (.fld .ez (false, -1) (false, 2) (true, -1))) (.mulS ⟨.x, false, 0⟩ (.fld .ez (false, 0) (false, 2) (true, -1)))) (.mulS ⟨.x, false, 1⟩ (.fld .ez (false, 1) (false, 2) (true, -1)))) (.mulS ⟨.x, false, 2⟩ (.fld .ez (false, 2) (false, 2) (true, -1)))))),
  .acc .ez (.mulS ⟨.z, true, -1⟩ .a),
  .seta (.mulS ⟨.y, false, -1⟩ (.add (.add (.add (.mulS ⟨.x, false, -1⟩ (.fld .ez (false, -1) (false, -1) (true, 0))) (.mulS ⟨.x, false, 0⟩ (.fld .ez (false, 0) (false, -1) (true, 0)))) (.mulS ⟨.x, false, 1⟩ (.fld .ez (false, 1) (false, -1) (true, 0)))) (.mulS ⟨.x, false, 2⟩ (.fld .ez (false, 2) (false, -1) (true, 0))))),
  .seta (.add .a (.mulS ⟨.y, false, 0⟩ (.add (.add (.add (.mulS ⟨.x, false, -1⟩ (.fld .ez (false, -1) (false, 0) (true, 0))) (.mulS ⟨.x, false, 0⟩ (.fld .ez (false, 0) (false, 0) (true, 0)))) (.mulS ⟨.x, false, 1⟩ (.fld .ez (false, 1) (false, 0) (true, 0)))) (.mulS ⟨.x, false, 2⟩ (.fld .ez (false, 2) (false, 0) (true, 0)))))),
  .seta (.add .a (.mulS ⟨.y, false, 1⟩ (.add (.add (.add (.mulS ⟨.x, false, -1⟩ (.fld .ez (false, -1) (false, 1) (true, 0))) (.mulS ⟨.x, false, 0⟩ (.fld .ez (false, 0) (false, 1) (true, 0)))) (.mulS ⟨.x, false, 1⟩ (.fld .ez (false, 1) (false, 1) (true, 0)))) (.mulS ⟨.x, false, 2⟩ (.fld .ez (false, 2) (false, 1) (true, 0)))))),
  .seta (.add .a (.mulS ⟨.y, false, 2⟩ (.add (.add (.add (.mulS ⟨.x, false, -1⟩ (.fld .ez (false, -1) (false, 2) (true, 0))) (.mulS ⟨.x, false, 0⟩ (.fld .ez (false, 0) (false, 2) (true, 0)))) (.mulS ⟨.x, false, 1⟩ (.fld .ez (false, 1) (false, 2) (true, 0)))) (.mulS ⟨.x, false, 2⟩ (.fld .ez (false, 2) (false, 2) (true, 0)))))),
  .acc .ez (.mulS ⟨.z, true, 0⟩ .a),
  .seta (.mulS ⟨.y, false, -1⟩ (.add (.add (.add (.mulS ⟨.x, false, -1⟩ (.fld .ez (false, -1) (false, -1) (true, 1))) (.mulS ⟨.x, false, 0⟩ (.fld .ez (false, 0) (false, -1) (true, 1)))) (.mulS ⟨.x, false, 1⟩ (.fld .ez (false, 1) (false, -1) (true, 1)))) (.mulS ⟨.x, false, 2⟩ (.fld .ez (false, 2) (false, -1) (true, 1))))),
  .seta (.add .a (.mulS ⟨.y, false, 0⟩ (.add (.add (.add (.mulS ⟨.x, false, -1⟩ (.fld .ez (false, -1) (false, 0) (true, 1))) (.mulS ⟨.x, false, 0⟩ (.fld .ez (false, 0) (false, 0) (true, 1)))) (.mulS ⟨.x, false, 1⟩ (.fld .ez (false, 1) (false, 0) (true, 1)))) (.mulS ⟨.x, false, 2⟩ (.fld .ez (false, 2) (false, 0) (true, 1)))))),
  .seta (.add .a (.mulS ⟨.y, false, 1⟩ (.add (.add (.add (.mulS ⟨.x, false, -1⟩ (.fld .ez (false, -1) (false, 1) (true, 1))) (.mulS ⟨.x, false, 0⟩ (.fld .ez (false, 0) (false, 1) (true, 1)))) (.mulS ⟨.x, false, 1⟩ (.fld .ez (false, 1) (false, 1) (true, 1)))) (.mulS ⟨.x, false, 2⟩ (.fld .ez (false, 2) (false, 1) (true, 1)))))),
  .seta (.add .a (.mulS ⟨.y, false, 2⟩ (.add (.add (.add (.mulS ⟨.x, false, -1⟩ (.fld .ez (false, -1) (false, 2) (true, 1))) (.mulS ⟨.x, false, 0⟩ (.fld .ez (false, 0) (false, 2) (true, 1)))) (.mulS ⟨.x, false, 1⟩ (.fld .ez (false, 1) (false, 2) (true, 1)))) (.mulS ⟨.x, false, 2⟩ (.fld .ez (false, 2) (false, 2) (true, 1)))))),
  .acc .ez (.mulS ⟨.z, true, 1⟩ .a),
  .seta (.mulS ⟨.y, false, -1⟩ (.add (.add (.add (.mulS ⟨.x, false, -1⟩ (.fld .ez (false, -1) (false, -1) (true, 2))) (.mulS ⟨.x, false, 0⟩ (.fld .ez (false, 0) (false, -1) (true, 2)))) (.mulS ⟨.x, false, 1⟩ (.fld .ez (false, 1) (false, -1) (true, 2)))) (.mulS ⟨.x, false, 2⟩ (.fld .ez (false, 2) (false, -1) (true, 2))))),
  .seta (.add .a (.mulS ⟨.y, false, 0⟩ (.add (.add (.add (.mulS ⟨.x, false, -1⟩ (.fld .ez (false, -1) (false, 0) (true, 2))) (.mulS ⟨.x, false, 0⟩ (.fld .ez (false, 0) (false, 0) (true, 2)))) (.mulS ⟨.x, false, 1⟩ (.fld .ez (false, 1) (false, 0) (true, 2)))) (.mulS ⟨.x, false, 2⟩ (.fld .ez (false, 2) (false, 0) (true, 2)))))),
  .seta (.add .a (.mulS ⟨.y, false, 1⟩ (.add (.add (.add (.mulS ⟨.x, false, -1⟩ (.fld .ez (false, -1) (false, 1) (true, 2))) (.mulS ⟨.x, false, 0⟩ (.fld .ez (false, 0) (false, 1) (true, 2)))) (.mulS ⟨.x, false, 1⟩ (.fld .ez (false, 1) (false, 1) (true, 2)))) (.mulS ⟨.x, false, 2⟩ (.fld .ez (false, 2) (false, 1) (true, 2)))))),
  .seta (.add .a (.mulS ⟨.y, false, 2⟩ (.add (.add (.add (.mulS ⟨.x, false, -1⟩ (.fld .ez (false, -1) (false, 2) (true, 2))) (.mulS ⟨.x, false, 0⟩ (.fld .ez (false, 0) (false, 2) (true, 2)))) (.mulS ⟨.x, false, 1⟩ (.fld .ez (false, 1) (false, 2) (true, 2)))) (.mulS ⟨.x, false, 2⟩ (.fld .ez (false, 2) (false, 2) (true, 2)))))),
  .acc .ez (.mulS ⟨.z, true, 2⟩ .a),
  .seta (.mulS ⟨.y, true, -1⟩ (.add (.add (.add (.mulS ⟨.x, false, -1⟩ (.fld .bx (false, -1) (true, -1) (true, -1))) (.mulS ⟨.x, false, 0⟩ (.fld .bx (false, 0) (true, -1) (true, -1)))) (.mulS ⟨.x, false, 1⟩ (.fld .bx (false, 1) (true, -1) (true, -1)))) (.mulS ⟨.x, false, 2⟩ (.fld .bx (false, 2) (true, -1) (true, -1))))),
  .seta (.add .a (.mulS ⟨.y, true, 0⟩ (.add (.add (.add (.mulS ⟨.x, false, -1⟩ (.fld .bx (false, -1) (true, 0) (true, -1))) (.mulS ⟨.x, false, 0⟩ (.fld .bx (false, 0) (true, 0) (true, -1)))) (.mulS ⟨.x, false, 1⟩ (.fld .bx (false, 1) (true, 0) (true, -1)))) (.mulS ⟨.x, false, 2⟩ (.fld .bx (false, 2) (true, 0) (true, -1)))))),
  .seta (.add .a (.mulS ⟨.y, true, 1⟩ (.add (.add (.add (.mulS ⟨.x, false, -1⟩ (.fld .bx (false, -1) (true, 1) (true, -1))) (.mulS ⟨.x, false, 0⟩ (.fld .bx (false, 0) (true, 1) (true, -1)))) (.mulS ⟨.x, false, 1⟩ (.fld .bx (false, 1) (true, 1) (true, -1)))) (.mulS ⟨.x, false, 2⟩ (.fld .bx (false, 2) (true, 1) (true, -1)))))),
  .seta (.add .a (.mulS ⟨.y, true, 2⟩ (.add (.add (.add (.mulS ⟨.x, false, -1⟩ (.fld .bx (false, -1) (true, 2) (true, -1))) (.mulS ⟨.x, false, 0⟩ (.fld .bx (false, 0) (true, 2) (true, -1)))) (.mulS ⟨.x, false, 1⟩ (.fld .bx (false, 1) (true, 2) (true, -1)))) (.mulS ⟨.x, false, 2⟩ (.fld .bx (false, 2) (true, 2) (true, -1)))))),
  .acc .bx (.mulS ⟨.z, true, -1⟩ .a),
  .seta (.mulS ⟨.y, true, -1⟩ (.add (.add (.add (.mulS ⟨.x, false, -1⟩ (.fld .bx (false, -1) (true, -1) (true, 0))) (.mulS ⟨.x, false, 0⟩ (.fld .bx (false, 0) (true, -1) (true, 0)))) (.mulS ⟨.x, false, 1⟩ (.fld .bx (false, 1) (true, -1) (true, 0)))) (.mulS ⟨.x, false, 2⟩ (.fld .bx (false, 2) (true, -1) (true, 0))))),
  .seta (.add .a (.mulS ⟨.y, true, 0⟩ (.add (.add (.add (.mulS ⟨.x, false, -1⟩ (.fld .bx (false, -1) (true, 0) (true, 0))) (.mulS ⟨.x, false, 0⟩ (.fld .bx (false, 0) (true, 0) (true, 0)))) (.mulS ⟨.x, false, 1⟩ (.fld .bx (false, 1) (true, 0) (true, 0)))) (.mulS ⟨.x, false, 2⟩ (.fld .bx (false, 2) (true, 0) (true, 0)))))),
  .seta (.add .a (.mulS ⟨.y, true, 1⟩ (.add (.add (.add (.mulS ⟨.x, false, -1⟩ (.fld .bx (false, -1) (true, 1) (true, 0))) (.mulS ⟨.x, false, 0⟩ (.fld .bx (false, 0) (true, 1) (true, 0)))) (.mulS ⟨.x, false, 1⟩ (.fld .bx (false, 1) (true, 1) (true, 0)))) (.mulS ⟨.x, false, 2⟩ (.fld .bx (false, 2) (true, 1) (true, 0)))))),
  .seta (.add .a (.mulS ⟨.y, true, 2⟩ (.add (.add (.add (.mulS ⟨.x, false, -1⟩ (.fld .bx (false, -1) (true, 2) (true, 0))) (.mulS ⟨.x, false, 0⟩ (.fld .bx (false, 0) (true, 2) (true, 0)))) (.mulS ⟨.x, false, 1⟩ (.fld .bx (false, 1) (true, 2) (true, 0)))) (.mulS ⟨.x, false, 2⟩ (.fld .bx (false, 2) (true, 2) (true, 0)))))),
  .acc .bx (.mulS ⟨.z, true, 0⟩ .a),
  .seta (.mulS ⟨.y, true, -1⟩ (.add (.add (.add (.mulS ⟨.x, false, -1⟩ (.fld .bx (false, -1) (true, -1) (true, 1))) (.mulS ⟨.x, false, 0⟩ (.fld .bx (false, 0) (true, -1) (true, 1)))) (.mulS ⟨.x, false, 1⟩ (.fld .bx (false, 1) (true, -1) (true, 1)))) (.mulS ⟨.x, false, 2⟩ (.fld .bx (false, 2) (true, -1) (true, 1))))),
  .seta (.add .a (.mulS ⟨.y, true, 0⟩ (.add (.add (.add (.mulS ⟨.x, false, -1⟩ (.fld .bx (false, -1) (true, 0) (true, 1))) (.mulS ⟨.x, false, 0⟩ (.fld .bx (false, 0) (true, 0) (true, 1)))) (.mulS ⟨.x, false, 1⟩ (.fld .bx (false, 1) (true, 0) (true, 1)))) (.mulS ⟨.x, false, 2⟩ (.fld .bx (false, 2) (true, 0) (true, 1)))))),
  .seta (.add .a (.mulS ⟨.y, true, 1⟩ (.add (.add (.add (.mulS ⟨.x, false, -1⟩ (.fld .bx (false, -1) (true, 1) (true, 1))) (.mulS ⟨.x, false, 0⟩ (.fld .bx (false, 0) (true, 1) (true, 1)))) (.mulS ⟨.x, false, 1⟩ (.fld .bx (false, 1) (true, 1) (true, 1)))) (.mulS ⟨.x, false, 2⟩ (.fld .bx (false, 2) (true, 1) (true, 1)))))),
  .seta (.add .a (.mulS ⟨.y, true, 2⟩ (.add (.add (.add (.mulS ⟨.x, false, -1⟩ (.fld .bx (false, -1) (true, 2) (true, 1))) (.mulS ⟨.x, false, 0⟩ (.fld .bx (false, 0) (true, 2) (true, 1)))) (.mulS ⟨.x, false, 1⟩ (.fld .bx (false, 1) (true, 2) (true, 1)))) (.mulS ⟨.x, false, 2⟩ (.fld .bx (false, 2) (true, 2) (true, 1)))))),
  .acc .bx (.mulS ⟨.z, true, 1⟩ .a),
  .seta (.mulS ⟨.y, true, -1⟩ (.add (.add (.add (.mulS ⟨.x, false, -1⟩ (.fld .bx (false, -1) (true, -1) (true, 2))) (.mulS ⟨.x, false, 0⟩ (.fld .bx (false, 0) (true, -1) (true, 2)))) (.mulS ⟨.x, false, 1⟩ (.fld .bx (false, 1) (true, -1) (true, 2)))) (.mulS ⟨.x, false, 2⟩ (.fld .bx (false, 2) (true, -1) (true, 2))))),
  .seta (.add .a (.mulS ⟨.y, true, 0⟩ (.add (.add (.add (.mulS ⟨.x, false, -1⟩ (.fld .bx (false, -1) (true, 0) (true, 2))) (.mulS ⟨.x, false, 0⟩ (.fld .bx (false, 0) (true, 0) (true, 2)))) (.mulS ⟨.x, false, 1⟩ (.fld .bx (false, 1) (true, 0) (true, 2)))) (.mulS ⟨.x, false, 2⟩ (.fld .bx (false, 2) (true, 0) (true, 2)))))),
  .seta (.add .a (.mulS ⟨.y, true, 1⟩ (.add (.add (.add (.mulS ⟨.x, false, -1⟩ (.fld .bx (false, -1) (true, 1) (true, 2))) (.mulS ⟨.x, false, 0⟩ (.fld .bx (false, 0) (true, 1) (true, 2)))) (.mulS ⟨.x, false, 1⟩ (.fld .bx (false, 1) (true, 1) (true, 2)))) (.mulS ⟨.x, false, 2⟩ (.fld .bx (false, 2) (true, 1) (true, 2)))))),
  .seta (.add .a (.mulS ⟨.y, true, 2⟩ (.add (.add (.add (.mulS ⟨.x, false, -1⟩ (.fld .bx (false, -1) (true, 2) (true, 2))) (.mulS ⟨.x, false, 0⟩ (.fld .bx (false, 0) (true, 2) (true, 2)))) (.mulS ⟨.x, false, 1⟩ (.fld .bx (false, 1) (true, 2) (true, 2)))) (.mulS ⟨.x, false, 2⟩ (.fld .bx (false, 2) (true, 2) (true, 2)))))),
  .acc .bx (.mulS ⟨.z, true, 2⟩ .a),
  .seta (.mulS ⟨.y, false, -1⟩ (.add (.add (.add (.mulS ⟨.x, true, -1⟩ (.fld .by' (true, -1) (false, -1) (true, -1))) (.mulS ⟨.x, true, 0⟩ (.fld .by' (true, 0) (false, -1) (true, -1)))) (.mulS ⟨.x, true, 1⟩ (.fld .by' (true, 1) (false, -1) (true, -1)))) (.mulS ⟨.x, true, 2⟩ (.fld .by' (true, 2) (false, -1) (true, -1))))),
  .seta (.add .a (.mulS ⟨.y, false, 0⟩ (.add (.add (.add (.mulS ⟨.x, true, -1⟩ (.fld .by' (true, -1) (false, 0) (true, -1))) (.mulS ⟨.x, true, 0⟩ (.fld .by' (true, 0) (false, 0) (true, -1)))) (.mulS ⟨.x, true, 1⟩ (.fld .by' (true, 1) (false, 0) (true, -1)))) (.mulS ⟨.x, true, 2⟩ (.fld .by' (true, 2) (false, 0) (true, -1)))))),
  .seta (.add .a (.mulS ⟨.y, false, 1⟩ (.add (.add (.add (.mulS ⟨.x, true, -1⟩ (.fld .by' (true, -1) (false, 1) (true, -1))) (.mulS ⟨.x, true, 0⟩ (.fld .by' (true, 0) (false, 1) (true, -1)))) (.mulS ⟨.x, true, 1⟩ (.fld .by' (true, 1) (false, 1) (true, -1)))) (.mulS ⟨.x, true, 2⟩ (.fld .by' (true, 2) (false, 1) (true, -1)))))),
  .seta (.add .a (.mulS ⟨.y, false, 2⟩ (.add (.add (.add (.mulS ⟨.x, true, -1⟩ (.fld .by' (true, -1) (false, 2) (true, -1))) (.mulS ⟨.x, true, 0⟩ (.fld .by' (true, 0) (false, 2) (true, -1)))) (.mulS ⟨.x, true, 1⟩ (.fld .by' (true, 1) (false, 2) (true, -1)))) (.mulS ⟨.x, true, 2⟩ (.fld .by' (true, 2) (false, 2) (true, -1)))))),
  .acc .by' (.mulS ⟨.z, true, -1⟩ .a),
  .seta (.mulS ⟨.y, false, -1⟩ (.add (.add (.add (.mulS ⟨.x, true, -1⟩ (.fld .by' (true, -1) (false, -1) (true, 0))) (.mulS ⟨.x, true, 0⟩ (.fld .by' (true, 0) (false, -1) (true, 0)))) (.mulS ⟨.x, true, 1⟩ (.fld .by' (true, 1) (false, -1) (true, 0)))) (.mulS ⟨.x, true, 2⟩ (.fld .by' (true, 2) (false, -1) (true, 0))))),
  .seta (.add .a (.mulS ⟨.y, false, 0⟩ (.add (.add (.add (.mulS ⟨.x, true, -1⟩ (.fld .by' (true, -1) (false, 0) (true, 0))) (.mulS ⟨.x, true, 0⟩ (.fld .by' (true, 0) (false, 0) (true, 0)))) (.mulS ⟨.x, true, 1⟩ (.fld .by' (true, 1) (false, 0) (true, 0)))) (.mulS ⟨.x, true, 2⟩ (.fld .by' (true, 2) (false, 0) (true, 0)))))),
  .seta (.add .a (.mulS ⟨.y, false, 1⟩ (.add (.add (.add (.mulS ⟨.x, true, -1⟩ (.fld .by' (true, -1) (false, 1) (true, 0))) (.mulS ⟨.x, true, 0⟩ (.fld .by' (true, 0) (false, 1) (true, 0)))) (.mulS ⟨.x, true, 1⟩ (.fld .by' (true, 1) (false, 1) (true, 0)))) (.mulS ⟨.x, true, 2⟩ (.fld .by' (true, 2) (false, 1) (true, 0)))))),
  .seta (.add .a (.mulS ⟨.y, false, 2⟩ (.add (.add (.add (.mulS ⟨.x, true, -1⟩ (.fld .by' (true, -1) (false, 2) (true, 0))) (.mulS ⟨.x, true, 0⟩ (.fld .by' (true, 0) (false, 2) (true, 0)))) (.mulS ⟨.x, true, 1⟩ (.fld .by' (true, 1) (false, 2) (true, 0)))) (.mulS ⟨.x, true, 2⟩ (.fld .by' (true, 2) (false, 2) (true, 0)))))),
  .acc .by' (.mulS ⟨.z, true, 0⟩ .a),
  .seta (.mulS ⟨.y, false, -1⟩ (.add (.add (.add (.mulS ⟨.x, true, -1⟩ (.fld .by' (true, -1) (false, -1) (true, 1))) (.mulS ⟨.x, true, 0⟩ (.fld .by' (true, 0) (false, -1) (true, 1)))) (.mulS ⟨.x, true, 1⟩ (.fld .by' (true, 1) (false, -1) (true, 1)))) (.mulS ⟨.x, true, 2⟩ (.fld .by' (true, 2) (false, -1) (true, 1))))),
  .seta (.add .a (.mulS ⟨.y, false, 0⟩ (.add (.add (.add (.mulS ⟨.x, true, -1⟩ (.fld .by' (true, -1) (false, 0) (true, 1))) (.mulS ⟨.x, true, 0⟩ (.fld .by' (true, 0) (false, 0) (true, 1)))) (.mulS ⟨.x, true, 1⟩ (.fld .by' (true, 1) (false, 0) (true, 1)))) (.mulS ⟨.x, true, 2⟩ (.fld .by' (true, 2) (false, 0) (true, 1)))))),
  .seta (.add .a (.mulS ⟨.y, false, 1⟩ (.add (.add (.add (.mulS ⟨.x, true, -1⟩ (.fld .by' (true, -1) (false, 1) (true, 1))) (.mulS ⟨.x, true, 0⟩ (.fld .by' (true, 0) (false, 1) (true, 1)))) (.mulS ⟨.x, true, 1⟩ (.fld .by' (true, 1) (false, 1) (true, 1)))) (.mulS ⟨.x, true, 2⟩ (.fld .by' (true, 2) (false, 1) (true, 1)))))),
  .seta (.add .a (.mulS ⟨.y, false, 2⟩ (.add (.add (.add (.mulS ⟨.x, true, -1⟩ (.fld .by' (true, -1) (false, 2) (true, 1))) (.mulS ⟨.x, true, 0⟩ (.fld .by' (true, 0) (false, 2) (true, 1)))) (.mulS ⟨.x, true, 1⟩ (.fld .by' (true, 1) (false, 2) (true, 1)))) (.mulS ⟨.x, true, 2⟩ (.fld .by' (true, 2) (false, 2) (true, 1)))))),
  .acc .by' (.mulS ⟨.z, true, 1⟩ .a),
  .seta (.mulS ⟨.y, false, -1⟩ (.add (.add (.add (.mulS ⟨.x, true, -1⟩ (.fld .by' (true, -1) (false, -1) (true, 2))) (.mulS ⟨.x, true, 0⟩ (.fld .by' (true, 0) (false, -1) (true, 2)))) (.mulS ⟨.x, true, 1⟩ (.fld .by' (true, 1) (false, -1) (true, 2)))) (.mulS ⟨.x, true, 2⟩ (.fld .by' (true, 2) (false, -1) (true, 2))))),
  .seta (.add .a (.mulS ⟨.y, false, 0⟩ (.add (.add (.add (.mulS ⟨.x, true, -1⟩ (.fld .by' (true, -1) (false, 0) (true, 2))) (.mulS ⟨.x, true, 0⟩ (.fld .by' (true, 0) (false, 0) (true, 2)))) (.mulS ⟨.x, true, 1⟩ (.fld .by' (true, 1) (false, 0) (true, 2)))) (.mulS ⟨.x, true, 2⟩ (.fld .by' (true, 2) (false, 0) (true, 2)))))),
  .seta (.add .a (.mulS ⟨.y, false, 1⟩ (.add (.add (.add (.mulS ⟨.x, true, -1⟩ (.fld .by' (true, -1) (false, 1) (true, 2))) (.mulS ⟨.x, true, 0⟩ (.fld .by' (true, 0) (false, 1) (true, 2)))) (.mulS ⟨.x, true, 1⟩ (.fld .by' (true, 1) (false, 1) (true, 2)))) (.mulS ⟨.x, true, 2⟩ (.fld .by' (true, 2) (false, 1) (true, 2)))))),
  .seta (.add .a (.mulS ⟨.y, false, 2⟩ (.add (.add (.add (.mulS ⟨.x, true, -1⟩ (.fld .by' (true, -1) (false, 2) (true, 2))) (.mulS ⟨.x, true, 0⟩ (.fld .by' (true, 0) (false, 2) (true, 2)))) (.mulS ⟨.x, true, 1⟩ (.fld .by' (true, 1) (false, 2) (true, 2)))) (.mulS ⟨.x, true, 2⟩ (.fld .by' (true, 2) (false, 2) (true, 2)))))),
  .acc .by' (.mulS ⟨.z, true, 2⟩ .a),
  .seta (.mulS ⟨.y, true, -1⟩ (.add (.add (.add (.mulS ⟨.x, true, -1⟩ (.fld .bz (true, -1) (true, -1) (false, -1))) (.mulS ⟨.x, true, 0⟩ (.fld .bz (true, 0) (true, -1) (false, -1)))) (.mulS ⟨.x, true, 1⟩ (.fld .bz (true, 1) (true, -1) (false, -1)))) (.mulS ⟨.x, true, 2⟩ (.fld .bz (true, 2) (true, -1) (false, -1))))),
  .seta (.add .a (.mulS ⟨.y, true, 0⟩ (.add (.add (.add (.mulS ⟨.x, true, -1⟩ (.fld .bz (true, -1) (true, 0) (false, -1))) (.mulS ⟨.x, true, 0⟩ (.fld .bz (true, 0) (true, 0) (false, -1)))) (.mulS ⟨.x, true, 1⟩ (.fld .bz (true, 1) (true, 0) (false, -1)))) (.mulS ⟨.x, true, 2⟩ (.fld .bz (true, 2) (true, 0) (false, -1)))))),
  .seta (.add .a (.mulS ⟨.y, true, 1⟩ (.add (.add (.add (.mulS ⟨.x, true, -1⟩ (.fld .bz (true, -1) (true, 1) (false, -1))) (.mulS ⟨.x, true, 0⟩ (.fld .bz (true, 0) (true, 1) (false, -1)))) (.mulS ⟨.x, true, 1⟩ (.fld .bz (true, 1) (true, 1) (false, -1)))) (.mulS ⟨.x, true, 2⟩ (.fld .bz (true, 2) (true, 1) (false, -1)))))),
  .seta (.add .a (.mulS ⟨.y, true, 2⟩ (.add (.add (.add (.mulS ⟨.x, true, -1⟩ (.fld .bz (true, -1) (true, 2) (false, -1))) (.mulS ⟨.x, true, 0⟩ (.fld .bz (true, 0) (true, 2) (false, -1)))) (.mulS ⟨.x, true, 1⟩ (.fld .bz (true, 1) (true, 2) (false, -1)))) (.mulS ⟨.x, true, 2⟩ (.fld .bz (true, 2) (true, 2) (false, -1)))))),
  .acc .bz (.mulS ⟨.z, false, -1⟩ .a),
  .seta (.mulS ⟨.y, true, -1⟩ (.add (.add (.add (.mulS ⟨.x, true, -1⟩ (.fld .bz (true, -1) (true, -1) (false, 0))) (.mulS ⟨.x, true, 0⟩ (.fld .bz (true, 0) (true, -1) (false, 0)))) (.mulS ⟨.x, true, 1⟩ (.fld .bz (true, 1) (true, -1) (false, 0)))) (.mulS ⟨.x, true, 2⟩ (.fld .bz (true, 2) (true, -1) (false, 0))))),
  .seta (.add .a (.mulS ⟨.y, true, 0⟩ (.add (.add (.add (.mulS ⟨.x, true, -1⟩ (.fld .bz (true, -1) (true, 0) (false, 0))) (.mulS ⟨.x, true, 0⟩ (.fld .bz (true, 0) (true, 0) (false, 0)))) (.mulS ⟨.x, true, 1⟩ (.fld .bz (true, 1) (true, 0) (false, 0)))) (.mulS ⟨.x, true, 2⟩ (.fld .bz (true, 2) (true, 0) (false, 0)))))),
  .seta (.add .a (.mulS ⟨.y, true, 1⟩ (.add (.add (.add (.mulS ⟨.x, true, -1⟩ (.fld .bz (true, -1) (true, 1) (false, 0))) (.mulS ⟨.x, true, 0⟩ (.fld .bz (true, 0) (true, 1) (false, 0)))) (.mulS ⟨.x, true, 1⟩ (.fld .bz (true, 1) (true, 1) (false, 0)))) (.mulS ⟨.x, true, 2⟩ (.fld .bz (true, 2) (true, 1) (false, 0)))))),
  .seta (.add .a (.mulS ⟨.y, true, 2⟩ (.add (.add (.add (.mulS ⟨.x, true, -1⟩ (.fld .bz (true, -1) (true, 2) (false, 0))) (.mulS ⟨.x, true, 0⟩ (.fld .bz (true, 0) (true, 2) (false, 0)))) (.mulS ⟨.x, true, 1⟩ (.fld .bz (true, 1) (true, 2) (false, 0)))) (.mulS ⟨.x, true, 2⟩ (.fld .bz (true, 2) (true, 2) (false, 0)))))),
  .acc .bz (.mulS ⟨.z, false, 0⟩ .a),
  .seta (.mulS ⟨.y, true, -1⟩ (.add (.add (.add (.mulS ⟨.x, true, -1⟩ (.fld .bz (true, -1) (true, -1) (false, 1))) (.mulS ⟨.x, true, 0⟩ (.fld .bz (true, 0) (true, -1) (false, 1)))) (.mulS ⟨.x, true, 1⟩ (.fld .bz (true, 1) (true, -1) (false, 1)))) (.mulS ⟨.x, true, 2⟩ (.fld .bz (true, 2) (true, -1) (false, 1))))),
  .seta (.add .a (.mulS ⟨.y, true, 0⟩ (.add (.add (.add (.mulS ⟨.x, true, -1⟩ (.fld .bz (true, -1) (true, 0) (false, 1))) (.mulS ⟨.x, true, 0⟩ (.fld .bz (true, 0) (true, 0) (false, 1)))) (.mulS ⟨.x, true, 1⟩ (.fld .bz (true, 1) (true, 0) (false, 1)))) (.mulS ⟨.x, true, 2⟩ (.fld .bz (true, 2) (true, 0) (false, 1)))))),
  .seta (.add .a (.mulS ⟨.y, true, 1⟩ (.add (.add (.add (.mulS ⟨.x, true, -1⟩ (.fld .bz (true, -1) (true, 1) (false, 1))) (.mulS ⟨.x, true, 0⟩ (.fld .bz (true, 0) (true, 1) (false, 1)))) (.mulS ⟨.x, true, 1⟩ (.fld .bz (true, 1) (true, 1) (false, 1)))) (.mulS ⟨.x, true, 2⟩ (.fld .bz (true, 2) (true, 1) (false, 1)))))),
  .seta (.add .a (.mulS ⟨.y, true, 2⟩ (.add (.add (.add (.mulS ⟨.x, true, -1⟩ (.fld .bz (true, -1) (true, 2) (false, 1))) (.mulS ⟨.x, true, 0⟩ (.fld .bz (true, 0) (true, 2) (false, 1)))) (.mulS ⟨.x, true, 1⟩ (.fld .bz (true, 1) (true, 2) (false, 1)))) (.mulS ⟨.x, true, 2⟩ (.fld .bz (true, 2) (true, 2) (false, 1)))))),
  .acc .bz (.mulS ⟨.z, false, 1⟩ .a),
  .seta (.mulS ⟨.y, true, -1⟩ (.add (.add (.add (.mulS ⟨.x, true, -1⟩ (.fld .bz (true, -1) (true, -1) (false, 2))) (.mulS ⟨.x, true, 0⟩ (.fld .bz (true, 0) (true, -1) (false, 2)))) (.mulS ⟨.x, true, 1⟩ (.fld .bz (true, 1) (true, -1) (false, 2)))) (.mulS ⟨.x, true, 2⟩ (.fld .bz (true, 2) (true, -1) (false, 2))))),
  .seta (.add .a (.mulS ⟨.y, true, 0⟩ (.add (.add (.add (.mulS ⟨.x, true, -1⟩ (.fld .bz (true, -1) (true, 0) (false, 2))) (.mulS ⟨.x, true, 0⟩ (.fld .bz (true, 0) (true, 0) (false, 2)))) (.mulS ⟨.x, true, 1⟩ (.fld .bz (true, 1) (true, 0) (false, 2)))) (.mulS ⟨.x, true, 2⟩ (.fld .bz (true, 2) (true, 0) (false, 2)))))),
  .seta (.add .a (.mulS ⟨.y, true, 1⟩ (.add (.add (.add (.mulS ⟨.x, true, -1⟩ (.fld .bz (true, -1) (true, 1) (false, 2))) (.mulS ⟨.x, true, 0⟩ (.fld .bz (true, 0) (true, 1) (false, 2)))) (.mulS ⟨.x, true, 1⟩ (.fld .bz (true, 1) (true, 1) (false, 2)))) (.mulS ⟨.x, true, 2⟩ (.fld .bz (true, 2) (true, 1) (false, 2)))))),
  .seta (.add .a (.mulS ⟨.y, true, 2⟩ (.add (.add (.add (.mulS ⟨.x, true, -1⟩ (.fld .bz (true, -1) (true, 2) (false, 2))) (.mulS ⟨.x, true, 0⟩ (.fld .bz (true, 0) (true, 2) (false, 2)))) (.mulS ⟨.x, true, 1⟩ (.fld .bz (true, 1) (true, 2) (false, 2)))) (.mulS ⟨.x, true, 2⟩ (.fld .bz (true, 2) (true, 2) (false, 2)))))),
  .acc .bz (.mulS ⟨.z, false, 2⟩ .a)]

/-- pxr_gete2dxz_energy_conserving_vect_1_1 then pxr_getb2dxz_energy_conserving_vect_1_1, `l_lower_order_in_v` true (field_gathering_o1_2d.F90:566-577, field_gathering_o1_2d.F90:790-798). -/
def prog_o1_2d_lower : List GStmt := [
  .acc .ex (.mulS ⟨.x, true, 0⟩ (.mulS ⟨.z, false, 0⟩ (.fld .ex (true, 0) (false, 0) (false, 0)))),
  .acc .ex (.mulS ⟨.x, true, 0⟩ (.mulS ⟨.z, false, 1⟩ (.fld .ex (true, 0) (false, 0) (false, 1)))),
  .acc .ey (.mulS ⟨.x, false, 0⟩ (.mulS ⟨.z, false, 0⟩ (.fld .ey (false, 0) (false, 0) (false, 0)))),
  .acc .ey (.mulS ⟨.x, false, 1⟩ (.mulS ⟨.z, false, 0⟩ (.fld .ey (false, 1) (false, 0) (false, 0)))),
  .acc .ey (.mulS ⟨.x, false, 0⟩ (.mulS ⟨.z, false, 1⟩ (.fld .ey (false, 0) (false, 0) (false, 1)))),
  .acc .ey (.mulS ⟨.x, false, 1⟩ (.mulS ⟨.z, false, 1⟩ (.fld .ey (false, 1) (false, 0) (false, 1)))),
  .acc .ez (.mulS ⟨.x, false, 0⟩ (.mulS ⟨.z, true, 0⟩ (.fld .ez (false, 0) (false, 0) (true, 0)))),
  .acc .ez (.mulS ⟨.x, false, 1⟩ (.mulS ⟨.z, true, 0⟩ (.fld .ez (false, 1) (false, 0) (true, 0)))),
  .acc .bx (.mulS ⟨.x, false, 0⟩ (.mulS ⟨.z, true, 0⟩ (.fld .bx (false, 0) (false, 0) (true, 0)))),
  .acc .bx (.mulS ⟨.x, false, 1⟩ (.mulS ⟨.z, true, 0⟩ (.fld .bx (false, 1) (false, 0) (true, 0)))),
  .acc .by' (.mulS ⟨.x, true, 0⟩ (.mulS ⟨.z, true, 0⟩ (.fld .by' (true, 0) (false, 0) (true, 0)))),
  .acc .bz (.mulS ⟨.x, true, 0⟩ (.mulS ⟨.z, false, 0⟩ (.fld .bz (true, 0) (false, 0) (false, 0)))),
  .acc .bz (.mulS ⟨.x, true, 0⟩ (.mulS ⟨.z, false, 1⟩ (.fld .bz (true, 0) (false, 0) (false, 1))))]

/-- pxr_gete2dxz_energy_conserving_vect_1_1 then pxr_getb2dxz_energy_conserving_vect_1_1, `l_lower_order_in_v` false (field_gathering_o1_2d.F90:638-653, field_gathering_o1_2d.F90:861-869). -/
def prog_o1_2d : List GStmt := [
  .acc .ex (.mulS ⟨.x, true, 0⟩ (.mulS ⟨.z, false, 0⟩ (.fld .ex (true, 0) (false, 0) (false, 0)))),
  .acc .ex (.mulS ⟨.x, true, 1⟩ (.mulS ⟨.z, false, 0⟩ (.fld .ex (true, 1) (false, 0) (false, 0)))),
  .acc .ex (.mulS ⟨.x, true, 0⟩ (.mulS ⟨.z, false, 1⟩ (.fld .ex (true, 0) (false, 0) (false, 1)))),
  .acc .ex (.mulS ⟨.x, true, 1⟩ (.mulS ⟨.z, false, 1⟩ (.fld .ex (true, 1) (false, 0) (false, 1)))),
  .acc .ey (.mulS ⟨.x, false, 0⟩ (.mulS ⟨.z, false, 0⟩ (.fld .ey (false, 0) (false, 0) (false, 0)))),
  .acc .ey (.mulS ⟨.x, false, 1⟩ (.mulS ⟨.z, false, 0⟩ (.fld .ey (false, 1) (false, 0) (false, 0)))),
  .acc .ey (.mulS ⟨.x, false, 0⟩ (.mulS ⟨.z, false, 1⟩ (.fld .ey (false, 0) (false, 0) (false, 1)))),
  .acc .ey (.mulS ⟨.x, false, 1⟩ (.mulS ⟨.z, false, 1⟩ (.fld .ey (false, 1) (false, 0) (false, 1)))),
  .acc .ez (.mulS ⟨.x, false, 0⟩ (.mulS ⟨.z, true, 0⟩ (.fld .ez (false, 0) (false, 0) (true, 0)))),
  .acc .ez (.mulS ⟨.x, false, 1⟩ (.mulS ⟨.z, true, 0⟩ (.fld .ez (false, 1) (false, 0) (true, 0)))),
  .acc .ez (.mulS ⟨.x, false, 0⟩ (.mulS ⟨.z, true, 1⟩ (.fld .ez (false, 0) (false, 0) (true, 1)))),
  .acc .ez (.mulS ⟨.x, false, 1⟩ (.mulS ⟨.z, true, 1⟩ (.fld .ez (false, 1) (false, 0) (true, 1)))),
  .acc .bx (.mulS ⟨.x, false, 0⟩ (.mulS ⟨.z, true, 0⟩ (.fld .bx (false, 0) (false, 0) (true, 0)))),
  .acc .bx (.mulS ⟨.x, false, 1⟩ (.mulS ⟨.z, true, 0⟩ (.fld .bx (false, 1) (false, 0) (true, 0)))),
  .acc .by' (.mulS ⟨.x, true, 0⟩ (.mulS ⟨.z, true, 0⟩ (.fld .by' (true, 0) (false, 0) (true, 0)))),
  .acc .bz (.mulS ⟨.x, true, 0⟩ (.mulS ⟨.z, false, 0⟩ (.fld .bz (true, 0) (false, 0) (false, 0)))),
  .acc .bz (.mulS ⟨.x, true, 0⟩ (.mulS ⟨.z, false, 1⟩ (.fld .bz (true, 0) (false, 0) (false, 1))))]

/-- pxr_gete2dxz_energy_conserving_vect_2_2 then pxr_getb2dxz_energy_conserving_vect_2_2, `l_lower_order_in_v` true (field_gathering_o2_2d.F90:613-637, field_gathering_o2_2d.F90:879-898). -/
def prog_o2_2d_lower : List GStmt := [
  .acc .ex (.mulS ⟨.x, true, 0⟩ (.mulS ⟨.z, false, -1⟩ (.fld .ex (true, 0) (false, 0) (false, -1)))),
  .acc .ex (.mulS ⟨.x, true, 1⟩ (.mulS ⟨.z, false, -1⟩ (.fld .ex (true, 1) (false, 0) (false, -1)))),
  .acc .ex (.mulS ⟨.x, true, 0⟩ (.mulS ⟨.z, false, 0⟩ (.fld .ex (true, 0) (false, 0) (false, 0)))),
  .acc .ex (.mulS ⟨.x, true, 1⟩ (.mulS ⟨.z, false, 0⟩ (.fld .ex (true, 1) (false, 0) (false, 0)))),
  .acc .ex (.mulS ⟨.x, true, 0⟩ (.mulS ⟨.z, false, 1⟩ (.fld .ex (true, 0) (false, 0) (false, 1)))),
  .acc .ex (.mulS ⟨.x, true, 1⟩ (.mulS ⟨.z, false, 1⟩ (.fld .ex (true, 1) (false, 0) (false, 1)))),
  .acc .ey (.mulS ⟨.x, false, -1⟩ (.mulS ⟨.z, false, -1⟩ (.fld .ey (false, -1) (false, 0) (false, -1)))),
  .acc .ey (.mulS ⟨.x, false, 0⟩ (.mulS ⟨.z, false, -1⟩ (.fld .ey (false, 0) (false, 0) (false, -1)))),
  .acc .ey (.mulS ⟨.x, false, 1⟩ (.mulS ⟨.z, false, -1⟩ (.fld .ey (false, 1) (false, 0) (false, -1)))),
  .acc .ey (.mulS ⟨.x, false, -1⟩ (.mulS ⟨.z, false, 0⟩ (.fld .ey (false, -1) (false, 0) (false, 0)))),
  .acc .ey (.mulS ⟨.x, false, 0⟩ (.mulS ⟨.z, false, 0⟩ (.fld .ey (false, 0) (false, 0) (false, 0)))),
  .acc .ey (.mulS ⟨.x, false, 1⟩ (.mulS ⟨.z, false, 0⟩ (.fld .ey (false, 1) (false, 0) (false, 0)))),
  .acc .ey (.mulS ⟨.x, false, -1⟩ (.mulS ⟨.z, false, 1⟩ (.fld .ey (false, -1) (false, 0) (false, 1)))),
  .acc .ey (.mulS ⟨.x, false, 0⟩ (.mulS ⟨.z, false, 1⟩ (.fld .ey (false, 0) (false, 0) (false, 1)))),
  .acc .ey (.mulS ⟨.x, false, 1⟩ (.mulS ⟨.z, false, 1⟩ (.fld .ey (false, 1) (false, 0) (false, 1)))),
  .acc .ez (.mulS ⟨.x, false, -1⟩ (.mulS ⟨.z, true, 0⟩ (.fld .ez (false, -1) (false, 0) (true, 0)))),
  .acc .ez (.mulS ⟨.x, false, 0⟩ (.mulS ⟨.z, true, 0⟩ (.fld .ez (false, 0) (false, 0) (true, 0)))),
  .acc .ez (.mulS ⟨.x, false, 1⟩ (.mulS ⟨.z, true, 0⟩ (.fld .ez (false, 1) (false, 0) (true, 0)))),
  .acc .ez (.mulS ⟨.x, false, -1⟩ (.mulS ⟨.z, true, 1⟩ (.fld .ez (false, -1) (false, 0) (true, 1)))),
  .acc .ez (.mulS ⟨.x, false, 0⟩ (.mulS ⟨.z, true, 1⟩ (.fld .ez (false, 0) (false, 0) (true, 1)))),
  .acc .ez (.mulS ⟨.x, false, 1⟩ (.mulS ⟨.z, true, 1⟩ (.fld .ez (false, 1) (false, 0) (true, 1)))),
  .acc .bx (.mulS ⟨.x, false, -1⟩ (.mulS ⟨.z, true, 0⟩ (.fld .bx (false, -1) (false, 0) (true, 0)))),
  .acc .bx (.mulS ⟨.x, false, 0⟩ (.mulS ⟨.z, true, 0⟩ (.fld .bx (false, 0) (false, 0) (true, 0)))),
  .acc .bx (.mulS ⟨.x, false, 1⟩ (.mulS ⟨.z, true, 0⟩ (.fld .bx (false, 1) (false, 0) (true, 0)))),
  .acc .bx (.mulS ⟨.x, false, -1⟩ (.mulS ⟨.z, true, 1⟩ (.fld .bx (false, -1) (false, 0) (true, 1)))),
  .acc .bx (.mulS ⟨.x, false, 0⟩ (.mulS ⟨.z, true, 1⟩ (.fld .bx (false, 0) (false, 0) (true, 1)))),
  .acc .bx (.mulS ⟨.x, false, 1⟩ (.mulS ⟨.z, true, 1⟩ (.fld .bx (false, 1) (false, 0) (true, 1)))),
  .acc .by' (.mulS ⟨.x, true, 0⟩ (.mulS ⟨.z, true, 0⟩ (.fld .by' (true, 0) (false, 0) (true, 0)))),
  .acc .by' (.mulS ⟨.x, true, 1⟩ (.mulS ⟨.z, true, 0⟩ (.fld .by' (true, 1) (false, 0) (true, 0)))),
  .acc .by' (.mulS ⟨.x, true, 0⟩ (.mulS ⟨.z, true, 1⟩ (.fld .by' (true, 0) (false, 0) (true, 1)))),
  .acc .by' (.mulS ⟨.x, true, 1⟩ (.mulS ⟨.z, true, 1⟩ (.fld .by' (true, 1) (false, 0) (true, 1)))),
  .acc .bz (.mulS ⟨.x, true, 0⟩ (.mulS ⟨.z, false, -1⟩ (.fld .bz (true, 0) (false, 0) (false, -1)))),
  .acc .bz (.mulS ⟨.x, true, 1⟩ (.mulS ⟨.z, false, -1⟩ (.fld .bz (true, 1) (false, 0) (false, -1)))),
  .acc .bz (.mulS ⟨.x, true, 0⟩ (.mulS ⟨.z, false, 0⟩ (.fld .bz (true, 0) (false, 0) (false, 0)))),
  .acc .bz (.mulS ⟨.x, true, 1⟩ (.mulS ⟨.z, false, 0⟩ (.fld .bz (true, 1) (false, 0) (false, 0)))),
  .acc .bz (.mulS ⟨.x, true, 0⟩ (.mulS ⟨.z, false, 1⟩ (.fld .bz (true, 0) (false, 0) (false, 1)))),
  .acc .bz (.mulS ⟨.x, true, 1⟩ (.mulS ⟨.z, false, 1⟩ (.fld .bz (true, 1) (false, 0) (false, 1))))]

/-- pxr_gete2dxz_energy_conserving_vect_2_2 then pxr_getb2dxz_energy_conserving_vect_2_2, `l_lower_order_in_v` false (field_gathering_o2_2d.F90:709-739, field_gathering_o2_2d.F90:972-991). -/
def prog_o2_2d : List GStmt := [
  .acc .ex (.mulS ⟨.x, true, -1⟩ (.mulS ⟨.z, false, -1⟩ (.fld .ex (true, -1) (false, 0) (false, -1)))),
  .acc .ex (.mulS ⟨.x, true, 0⟩ (.mulS ⟨.z, false, -1⟩ (.fld .ex (true, 0) (false, 0) (false, -1)))),
  .acc .ex (.mulS ⟨.x, true, 1⟩ (.mulS ⟨.z, false, -1⟩ (.fld .ex (true, 1) (false, 0) (false, -1)))),
  .acc .ex (.mulS ⟨.x, true, -1⟩ (.mulS ⟨.z, false, 0⟩ (.fld .ex (true, -1) (false, 0) (false, 0)))),
  .acc .ex (.mulS ⟨.x, true, 0⟩ (.mulS ⟨.z, false, 0⟩ (.fld .ex (true, 0) (false, 0) (false, 0)))),
  .acc .ex (.mulS ⟨.x, true, 1⟩ (.mulS ⟨.z, false, 0⟩ (.fld .ex (true, 1) (false, 0) (false, 0)))),
  .acc .ex (.mulS ⟨.x, true, -1⟩ (.mulS ⟨.z, false, 1⟩ (.fld .ex (true, -1) (false, 0) (false, 1)))),
  .acc .ex (.mulS ⟨.x, true, 0⟩ (.mulS ⟨.z, false, 1⟩ (.fld .ex (true, 0) (false, 0) (false, 1)))),
  .acc .ex (.mulS ⟨.x, true, 1⟩ (.mulS ⟨.z, false, 1⟩ (.fld .ex (true, 1) (false, 0) (false, 1)))),
  .acc .ey (.mulS ⟨.x, false, -1⟩ (.mulS ⟨.z, false, -1⟩ (.fld .ey (false, -1) (false, 0) (false, -1)))),
  .acc .ey (.mulS ⟨.x, false, 0⟩ (.mulS ⟨.z, false, -1⟩ (.fld .ey (false, 0) (false, 0) (false, -1)))),
  .acc .ey (.mulS ⟨.x, false, 1⟩ (.mulS ⟨.z, false, -1⟩ (.fld .ey (false, 1) (false, 0) (false, -1)))),
  .acc .ey (.mulS ⟨.x, false, -1⟩ (.mulS ⟨.z, false, 0⟩ (.fld .ey (false, -1) (false, 0) (false, 0)))),
  .acc .ey (.mulS ⟨.x, false, 0⟩ (.mulS ⟨.z, false, 0⟩ (.fld .ey (false, 0) (false, 0) (false, 0)))),
  .acc .ey (.mulS ⟨.x, false, 1⟩ (.mulS ⟨.z, false, 0⟩ (.fld .ey (false, 1) (false, 0) (false, 0)))),
  .acc .ey (.mulS ⟨.x, false, -1⟩ (.mulS ⟨.z, false, 1⟩ (.fld .ey (false, -1) (false, 0) (false, 1)))),
  .acc .ey (.mulS ⟨.x, false, 0⟩ (.mulS ⟨.z, false, 1⟩ (.fld .ey (false, 0) (false, 0) (false, 1)))),
  .acc .ey (.mulS ⟨.x, false, 1⟩ (.mulS ⟨.z, false, 1⟩ (.fld .ey (false, 1) (false, 0) (false, 1)))),
  .acc .ez (.mulS ⟨.x, false, -1⟩ (.mulS ⟨.z, true, -1⟩ (.fld .ez (false, -1) (false, 0) (true, -1)))),
  .acc .ez (.mulS ⟨.x, false, 0⟩ (.mulS ⟨.z, true, -1⟩ (.fld .ez (false, 0) (false, 0) (true, -1)))),
  .acc .ez (.mulS ⟨.x, false, 1⟩ (.mulS ⟨.z, true, -1⟩ (.fld .ez (false, 1) (false, 0) (true, -1)))),
  .acc .ez (.mulS ⟨.x, false, -1⟩ (.mulS ⟨.z, true, 0⟩ (.fld .ez (false, -1) (false, 0) (true, 0)))),
  .acc .ez (.mulS ⟨.x, false, 0⟩ (.mulS ⟨.z, true, 0⟩ (.fld .ez (false, 0) (false, 0) (true, 0)))),
  .acc .ez (.mulS ⟨.x, false, 1⟩ (.mulS ⟨.z, true, 0⟩ (.fld .ez (false, 1) (false, 0) (true, 0)))),
  .acc .ez (.mulS ⟨.x, false, -1⟩ (.mulS ⟨.z, true, 1⟩ (.fld .ez (false, -1) (false, 0) (true, 1)))),
  .acc .ez (.mulS ⟨.x, false, 0⟩ (.mulS ⟨.z, true, 1⟩ (.fld .ez (false, 0) (false, 0) (true, 1)))),
  .acc .ez (.mulS ⟨.x, false, 1⟩ (.mulS ⟨.z, true, 1⟩ (.fld .ez (false, 1) (false, 0) (true, 1)))),
  .acc .bx (.mulS ⟨.x, false, -1⟩ (.mulS ⟨.z, true, 0⟩ (.fld .bx (false, -1) (false, 0) (true, 0)))),
  .acc .bx (.mulS ⟨.x, false, 0⟩ (.mulS ⟨.z, true, 0⟩ (.fld .bx (false, 0) (false, 0) (true, 0)))),
  .acc .bx (.mulS ⟨.x, false, 1⟩ (.mulS ⟨.z, true, 0⟩ (.fld .bx (false, 1) (false, 0) (true, 0)))),
  .acc .bx (.mulS ⟨.x, false, -1⟩ (.mulS ⟨.z, true, 1⟩ (.fld .bx (false, -1) (false, 0) (true, 1)))),
  .acc .bx (.mulS ⟨.x, false, 0⟩ (.mulS ⟨.z, true, 1⟩ (.fld .bx (false, 0) (false, 0) (true, 1)))),
  .acc .bx (.mulS ⟨.x, false, 1⟩ (.mulS ⟨.z, true, 1⟩ (.fld .bx (false, 1) (false, 0) (true, 1)))),
  .acc .by' (.mulS ⟨.x, true, 0⟩ (.mulS ⟨.z, true, 0⟩ (.fld .by' (true, 0) (false, 0) (true, 0)))),
  .acc .by' (.mulS ⟨.x, true, 1⟩ (.mulS ⟨.z, true, 0⟩ (.fld .by' (true, 1) (false, 0) (true, 0)))),
  .acc .by' (.mulS ⟨.x, true, 0⟩ (.mulS ⟨.z, true, 1⟩ (.fld .by' (true, 0) (false, 0) (true, 1)))),
  .acc .by' (.mulS ⟨.x, true, 1⟩ (.mulS ⟨.z, true, 1⟩ (.fld .by' (true, 1) (false, 0) (true, 1)))),
  .acc .bz (.mulS ⟨.x, true, 0⟩ (.mulS ⟨.z, false, -1⟩ (.fld .bz (true, 0) (false, 0) (false, -1)))),
  .acc .bz (.mulS ⟨.x, true, 1⟩ (.mulS ⟨.z, false, -1⟩ (.fld .bz (true, 1) (false, 0) (false, -1)))),
  .acc .bz (.mulS ⟨.x, true, 0⟩ (.mulS ⟨.z, false, 0⟩ (.fld .bz (true, 0) (false, 0) (false, 0)))),
  .acc .bz (.mulS ⟨.x, true, 1⟩ (.mulS ⟨.z, false, 0⟩ (.fld .bz (true, 1) (false, 0) (false, 0)))),
  .acc .bz (.mulS ⟨.x, true, 0⟩ (.mulS ⟨.z, false, 1⟩ (.fld .bz (true, 0) (false, 0) (false, 1)))),
  .acc .bz (.mulS ⟨.x, true, 1⟩ (.mulS ⟨.z, false, 1⟩ (.fld .bz (true, 1) (false, 0) (false, 1))))]

/-- pxr_geteb2dxz_energy_conserving_vect_3_3, `l_lower_order_in_v` true (field_gathering_o3_2d.F90:1364-1433). -/
def prog_o3_2d_lower : List GStmt := [
  .seta (.add (.add (.mulS ⟨.x, true, -1⟩ (.fld .ex (true, -1) (false, 0) (false, -1))) (.mulS ⟨.x, true, 0⟩ (.fld .ex (true, 0) (false, 0) (false, -1)))) (.mulS ⟨.x, true, 1⟩ (.fld .ex (true, 1) (false, 0) (false, -1)))),
  .acc .ex (.mulS ⟨.z, false, -1⟩ .a),
  .seta (.add (.add (.mulS ⟨.x, true, -1⟩ (.fld .ex (true, -1) (false, 0) (false, 0))) (.mulS ⟨.x, true, 0⟩ (.fld .ex (true, 0) (false, 0) (false, 0)))) (.mulS ⟨.x, true, 1⟩ (.fld .ex (true, 1) (false, 0) (false, 0)))),
  .acc .ex (.mulS ⟨.z, false, 0⟩ .a),
  .seta (.add (.add (.mulS ⟨.x, true, -1⟩ (.fld .ex (true, -1) (false, 0) (false, 1))) (.mulS ⟨.x, true, 0⟩ (.fld .ex (true, 0) (false, 0) (false, 1)))) (.mulS ⟨.x, true, 1⟩ (.fld .ex (true, 1) (false, 0) (false, 1)))),
  .acc .ex (.mulS ⟨.z, false, 1⟩ .a),
  .seta (.add (.add (.mulS ⟨.x, true, -1⟩ (.fld .ex (true, -1) (false, 0) (false, 2))) (.mulS ⟨.x, true, 0⟩ (.fld .ex (true, 0) (false, 0) (false, 2)))) (.mulS ⟨.x, true, 1⟩ (.fld .ex (true, 1) (false, 0) (false, 2)))),
  .acc .ex (.mulS ⟨.z, false, 2⟩ .a),
  .seta (.add (.add (.add (.mulS ⟨.x, false, -1⟩ (.fld .ey (false, -1) (false, 0) (false, -1))) (.mulS ⟨.x, false, 0⟩ (.fld .ey (false, 0) (false, 0) (false, -1)))) (.mulS ⟨.x, false, 1⟩ (.fld .ey (false, 1) (false, 0) (false, -1)))) (.mulS ⟨.x, false, 2⟩ (.fld .ey (false, 2) (false, 0) (false, -1)))),
  .acc .ey (.mulS ⟨.z, false, -1⟩ .a),
  .seta (.add (.add (.add (.mulS ⟨.x, false, -1⟩ (.fld .ey (false, -1) (false, 0) (false, 0))) (.mulS ⟨.x, false, 0⟩ (.fld .ey (false, 0) (false, 0) (false, 0)))) (.mulS ⟨.x, false, 1⟩ (.fld .ey (false, 1) (false, 0) (false, 0)))) (.mulS ⟨.x, false, 2⟩ (.fld .ey (false, 2) (false, 0) (false, 0)))),
  .acc .ey (.mulS ⟨.z, false, 0⟩ .a),
  .seta (.add (.add (.add (.mulS ⟨.x, false, -1⟩ (.fld .ey (false, -1) (false, 0) (false, 1))) (.mulS ⟨.x, false, 0⟩ (.fld .ey (false, 0) (false, 0) (false, 1)))) (.mulS ⟨.x, false, 1⟩ (.fld .ey (false, 1) (false, 0) (false, 1)))) (.mulS ⟨.x, false, 2⟩ (.fld .ey (false, 2) (false, 0) (false, 1)))),
  .acc .ey (.mulS ⟨.z, false, 1⟩ .a),
  .seta (.add (.add (.add (.mulS ⟨.x, false, -1⟩ (.fld .ey (false, -1) (false, 0) (false, 2))) (.mulS ⟨.x, false, 0⟩ (.fld .ey (false, 0) (false, 0) (false, 2)))) (.mulS ⟨.x, false, 1⟩ (.fld .ey (false, 1) (false, 0) (false, 2)))) (.mulS ⟨.x, false, 2⟩ (.fld .ey (false, 2) (false, 0) (false, 2)))),
  .acc .ey (.mulS ⟨.z, false, 2⟩ .a),
  .seta (.add (.add (.add (.mulS ⟨.x, false, -1⟩ (.fld .ez (false, -1) (false, 0) (true, -1))) (.mulS ⟨.x, false, 0⟩ (.fld .ez (false, 0) (false, 0) (true, -1)))) (.mulS ⟨.x, false, 1⟩ (.fld .ez (false, 1) (false, 0) (true, -1)))) (.mulS ⟨.x, false, 2⟩ (.fld .ez (false, 2) (false, 0) (true, -1)))),
  .acc .ez (.mulS ⟨.z, true, -1⟩ .a),
  .seta (.add (.add (.add (.mulS ⟨.x, false, -1⟩ (.fld .ez (false, -1) (false, 0) (true, 0))) (.mulS ⟨.x, false, 0⟩ (.fld .ez (false, 0) (false, 0) (true, 0)))) (.mulS ⟨.x, false, 1⟩ (.fld .ez (false, 1) (false, 0) (true, 0)))) (.mulS ⟨.x, false, 2⟩ (.fld .ez (false, 2) (false, 0) (true, 0)))),
  .acc .ez (.mulS ⟨.z, true, 0⟩ .a),
  .seta (.add (.add (.add (.mulS ⟨.x, false, -1⟩ (.fld .ez (false, -1) (false, 0) (true, 1))) (.mulS ⟨.x, false, 0⟩ (.fld .ez (false, 0) (false, 0) (true, 1)))) (.mulS ⟨.x, false, 1⟩ (.fld .ez (false, 1) (false, 0) (true, 1)))) (.mulS ⟨.x, false, 2⟩ (.fld .ez (false, 2) (false, 0) (true, 1)))),
  .acc .ez (.mulS ⟨.z, true, 1⟩ .a),
  .seta (.add (.add (.add (.mulS ⟨.x, false, -1⟩ (.fld .bx (false, -1) (false, 0) (true, -1))) (.mulS ⟨.x, false, 0⟩ (.fld .bx (false, 0) (false, 0) (true, -1)))) (.mulS ⟨.x, false, 1⟩ (.fld .bx (false, 1) (false, 0) (true, -1)))) (.mulS ⟨.x, false, 2⟩ (.fld .bx (false, 2) (false, 0) (true, -1)))),
  .acc .bx (.mulS ⟨.z, true, -1⟩ .a),
  .seta (.add (.add (.add (.mulS ⟨.x, false, -1⟩ (.fld .bx (false, -1) (false, 0) (true, 0))) (.mulS ⟨.x, false, 0⟩ (.fld .bx (false, 0) (false, 0) (true, 0)))) (.mulS ⟨.x, false, 1⟩ (.fld .bx (false, 1) (false, 0) (true, 0)))) (.mulS ⟨.x, false, 2⟩ (.fld .bx (false, 2) (false, 0) (true, 0)))),
  .acc .bx (.mulS ⟨.z, true, 0⟩ .a),
  .seta (.add (.add (.add (.mulS ⟨.x, false, -1⟩ (.fld .bx (false, -1) (false, 0) (true, 1))) (.mulS ⟨.x, false, 0⟩ (.fld .bx (false, 0) (false, 0) (true, 1)))) (.mulS ⟨.x, false, 1⟩ (.fld .bx (false, 1) (false, 0) (true, 1)))) (.mulS ⟨.x, false, 2⟩ (.fld .bx (false, 2) (false, 0) (true, 1)))),
  .acc .bx (.mulS ⟨.z, true, 1⟩ .a),
  .seta (.add (.add (.mulS ⟨.x, true, -1⟩ (.fld .by' (true, -1) (false, 0) (true, -1))) (.mulS ⟨.x, true, 0⟩ (.fld .by' (true, 0) (false, 0) (true, -1)))) (.mulS ⟨.x, true, 1⟩ (.fld .by' (true, 1) (false, 0) (true, -1)))),
  .acc .by' (.mulS ⟨.z, true, -1⟩ .a),
  .seta (.add (.add (.mulS ⟨.x, true, -1⟩ (.fld .by' (true, -1) (false, 0) (true, 0))) (.mulS ⟨.x, true, 0⟩ (.fld .by' (true, 0) (false, 0) (true, 0)))) (.mulS ⟨.x, true, 1⟩ (.fld .by' (true, 1) (false, 0) (true, 0)))),
  .acc .by' (.mulS ⟨.z, true, 0⟩ .a),
  .seta (.add (.add (.mulS ⟨.x, true, -1⟩ (.fld .by' (true, -1) (false, 0) (true, 1))) (.mulS ⟨.x, true, 0⟩ (.fld .by' (true, 0) (false, 0) (true, 1)))) (.mulS ⟨.x, true, 1⟩ (.fld .by' (true, 1) (false, 0) (true, 1)))),
  .acc .by' (.mulS ⟨.z, true, 1⟩ .a),
  .seta (.add (.add (.add (.mulS ⟨.z, false, -1⟩ (.fld .bz (true, -1) (false, 0) (false, -1))) (.mulS ⟨.z, false, 0⟩ (.fld .bz (true, -1) (false, 0) (false, 0)))) (.mulS ⟨.z, false, 1⟩ (.fld .bz (true, -1) (false, 0) (false, 1)))) (.mulS ⟨.z, false, 2⟩ (.fld .bz (true, -1) (false, 0) (false, 2)))),
  .acc .bz (.mulS ⟨.x, true, -1⟩ .a),
  .seta (.add (.add (.add (.mulS ⟨.z, false, -1⟩ (.fld .bz (true, 0) (false, 0) (false, -1))) (.mulS ⟨.z, false, 0⟩ (.fld .bz (true, 0) (false, 0) (false, 0)))) (.mulS ⟨.z, false, 1⟩ (.fld .bz (true, 0) (false, 0) (false, 1)))) (.mulS ⟨.z, false, 2⟩ (.fld .bz (true, 0) (false, 0) (false, 2)))),
  .acc .bz (.mulS ⟨.x, true, 0⟩ .a),
  .seta (.add (.add (.add (.mulS ⟨.z, false, -1⟩ (.fld .bz (true, 1) (false, 0) (false, -1))) (.mulS ⟨.z, false, 0⟩ (.fld .bz (true, 1) (false, 0) (false, 0)))) (.mulS ⟨.z, false, 1⟩ (.fld .bz (true, 1) (false, 0) (false, 1)))) (.mulS ⟨.z, false, 2⟩ (.fld .bz (true, 1) (false, 0) (false, 2)))),
  .acc .bz (.mulS ⟨.x, true, 1⟩ .a)]

/-- pxr_geteb2dxz_energy_conserving_vect_3_3, `l_lower_order_in_v` false (field_gathering_o3_2d.F90:1521-1603). -/
def prog_o3_2d : List GStmt := [
  .seta (.add (.add (.add (.mulS ⟨.x, true, -1⟩ (.fld .ex (true, -1) (false, 0) (false, -1))) (.mulS ⟨.x, true, 0⟩ (.fld .ex (true, 0) (false, 0) (false, -1)))) (.mulS ⟨.x, true, 1⟩ (.fld .ex (true, 1) (false, 0) (false, -1)))) (.mulS ⟨.x, true, 2⟩ (.fld .ex (true, 2) (false, 0) (false, -1)))),
  .acc .ex (.mulS ⟨.z, false, -1⟩ .a),
  .seta (.add .a (.add (.add (.add (.mulS ⟨.x, true, -1⟩ (.fld .ex (true, -1) (false, 0) (false, 0))) (.mulS ⟨.x, true, 0⟩ (.fld .ex (true, 0) (false, 0) (false, 0)))) (.mulS ⟨.x, true, 1⟩ (.fld .ex (true, 1) (false, 0) (false, 0)))) (.mulS ⟨.x, true, 2⟩ (.fld .ex (true, 2) (false, 0) (false, 0))))),
  .acc .ex (.mulS ⟨.z, false, 0⟩ .a),
  .seta (.add .a (.add (.add (.add (.mulS ⟨.x, true, -1⟩ (.fld .ex (true, -1) (false, 0) (false, 1))) (.mulS ⟨.x, true, 0⟩ (.fld .ex (true, 0) (false, 0) (false, 1)))) (.mulS ⟨.x, true, 1⟩ (.fld .ex (true, 1) (false, 0) (false, 1)))) (.mulS ⟨.x, true, 2⟩ (.fld .ex (true, 2) (false, 0) (false, 1))))),
  .acc .ex (.mulS ⟨.z, false, 1⟩ .a),
  .seta (.add .a (.add (.add (.add (.mulS ⟨.x, true, -1⟩ (.fld .ex (true, -1) (false, 0) (false, 2))) (.mulS ⟨.x, true, 0⟩ (.fld .ex (true, 0) (false, 0) (false, 2)))) (.mulS ⟨.x, true, 1⟩ (.fld .ex (true, 1) (false, 0) (false, 2)))) (.mulS ⟨.x, true, 2⟩ (.fld .ex (true, 2) (false, 0) (false, 2))))),
  .acc .ex (.mulS ⟨.z, false, 2⟩ .a),
  .seta (.add (.add (.add (.mulS ⟨.x, false, -1⟩ (.fld .ey (false, -1) (false, 0) (false, -1))) (.mulS ⟨.x, false, 0⟩ (.fld .ey (false, 0) (false, 0) (false, -1)))) (.mulS ⟨.x, false, 1⟩ (.fld .ey (false, 1) (false, 0) (false, -1)))) (.mulS ⟨.x, false, 2⟩ (.fld .ey (false, 2) (false, 0) (false, -1)))),
  .acc .ey (.mulS ⟨.z, false, -1⟩ .a),
  .seta (.add .a (.add (.add (.add (.mulS ⟨.x, false, -1⟩ (.fld .ey (false, -1) (false, 0) (false, 0))) (.mulS ⟨.x, false, 0⟩ (.fld .ey (false, 0) (false, 0) (false, 0)))) (.mulS ⟨.x, false, 1⟩ (.fld .ey (false, 1) (false, 0) (false, 0)))) (.mulS ⟨.x, false, 2⟩ (.fld .ey (false, 2) (false, 0) (false, 0))))),
  .acc .ey (.mulS ⟨.z, false, 0⟩ .a),
  .seta (.add .a (.add (.add (.add (.mulS ⟨.x, false, -1⟩ (.fld .ey (false, -1) (false, 0) (false, 1))) (.mulS ⟨.x, false, 0⟩ (.fld .ey (false, 0) (false, 0) (false, 1)))) (.mulS ⟨.x, false, 1⟩ (.fld .ey (false, 1) (false, 0) (false, 1)))) (.mulS ⟨.x, false, 2⟩ (.fld .ey (false, 2) (false, 0) (false, 1))))),
  .acc .ey (.mulS ⟨.z, false, 1⟩ .a),
  .seta (.add .a (.add (.add (.add (.mulS ⟨.x, false, -1⟩ (.fld .ey (false, -1) (false, 0) (false, 2))) (.mulS ⟨.x, false, 0⟩ (.fld .ey (false, 0) (false, 0) (false, 2)))) (.mulS ⟨.x, false, 1⟩ (.fld .ey (false, 1) (false, 0) (false, 2)))) (.mulS ⟨.x, false, 2⟩ (.fld .ey (false, 2) (false, 0) (false, 2))))),
  .acc .ey (.mulS ⟨.z, false, 2⟩ .a),
  .seta (.add (.add (.add (.mulS ⟨.x, false, -1⟩ (.fld .ez (false, -1) (false, 0) (true, -1))) (.mulS ⟨.x, false, 0⟩ (.fld .ez (false, 0) (false, 0) (true, -1)))) (.mulS ⟨.x, false, 1⟩ (.fld .ez (false, 1) (false, 0) (true, -1)))) (.mulS ⟨.x, false, 2⟩ (.fld .ez (false, 2) (false, 0) (true, -1)))),
  .acc .ey (.mulS ⟨.z, true, -1⟩ .a),
  .seta (.add .a (.add (.add (.add (.mulS ⟨.x, false, -1⟩ (.fld .ez (false, -1) (false, 0) (true, 0))) (.mulS ⟨.x, false, 0⟩ (.fld .ez (false, 0) (false, 0) (true, 0)))) (.mulS ⟨.x, false, 1⟩ (.fld .ez (false, 1) (false, 0) (true, 0)))) (.mulS ⟨.x, false, 2⟩ (.fld .ez (false, 2) (false, 0) (true, 0))))),
  .acc .ey (.mulS ⟨.z, true, 0⟩ .a),
  .seta (.add .a (.add (.add (.add (.mulS ⟨.x, false, -1⟩ (.fld .ez (false, -1) (false, 0) (true, 1))) (.mulS ⟨.x, false, 0⟩ (.fld .ez (false, 0) (false, 0) (true, 1)))) (.mulS ⟨.x, false, 1⟩ (.fld .ez (false, 1) (false, 0) (true, 1)))) (.mulS ⟨.x, false, 2⟩ (.fld .ez (false, 2) (false, 0) (true, 1))))),
  .acc .ey (.mulS ⟨.z, true, 1⟩ .a),
  .seta (.add .a (.add (.add (.add (.mulS ⟨.x, false, -1⟩ (.fld .ez (false, -1) (false, 0) (true, 2))) (.mulS ⟨.x, false, 0⟩ (.fld .ez (false, 0) (false, 0) (true, 2)))) (.mulS ⟨.x, false, 1⟩ (.fld .ez (false, 1) (false, 0) (true, 2)))) (.mulS ⟨.x, false, 2⟩ (.fld .ez (false, 2) (false, 0) (true, 2))))),
  .acc .ey (.mulS ⟨.z, true, 2⟩ .a),
  .seta (.add (.add (.add (.mulS ⟨.x, false, -1⟩ (.fld .bx (false, -1) (false, 0) (true, -1))) (.mulS ⟨.x, false, 0⟩ (.fld .bx (false, 0) (false, 0) (true, -1)))) (.mulS ⟨.x, false, 1⟩ (.fld .bx (false, 1) (false, 0) (true, -1)))) (.mulS ⟨.x, false, 2⟩ (.fld .bx (false, 2) (false, 0) (true, -1)))),
  .acc .bx (.mulS ⟨.z, true, -1⟩ .a),
  .seta (.add (.add (.add (.mulS ⟨.x, false, -1⟩ (.fld .bx (false, -1) (false, 0) (true, 0))) (.mulS ⟨.x, false, 0⟩ (.fld .bx (false, 0) (false, 0) (true, 0)))) (.mulS ⟨.x, false, 1⟩ (.fld .bx (false, 1) (false, 0) (true, 0)))) (.mulS ⟨.x, false, 2⟩ (.fld .bx (false, 2) (false, 0) (true, 0)))),
  .acc .bx (.mulS ⟨.z, true, 0⟩ .a),
  .seta (.add (.add (.add (.mulS ⟨.x, false, -1⟩ (.fld .bx (false, -1) (false, 0) (true, 1))) (.mulS ⟨.x, false, 0⟩ (.fld .bx (false, 0) (false, 0) (true, 1)))) (.mulS ⟨.x, false, 1⟩ (.fld .bx (false, 1) (false, 0) (true, 1)))) (.mulS ⟨.x, false, 2⟩ (.fld .bx (false, 2) (false, 0) (true, 1)))),
  .acc .bx (.mulS ⟨.z, true, 1⟩ .a),
  .seta (.add (.add (.add (.mulS ⟨.x, false, -1⟩ (.fld .bx (false, -1) (false, 0) (true, 2))) (.mulS ⟨.x, false, 0⟩ (.fld .bx (false, 0) (false, 0) (true, 2)))) (.mulS ⟨.x, false, 1⟩ (.fld .bx (false, 1) (false, 0) (true, 2)))) (.mulS ⟨.x, false, 2⟩ (.fld .bx (false, 2) (false, 0) (true, 2)))),
  .acc .bx (.mulS ⟨.z, true, 2⟩ .a),
  .seta (.add (.add (.add (.mulS ⟨.x, true, -1⟩ (.fld .by' (true, -1) (false, 0) (true, -1))) (.mulS ⟨.x, true, 0⟩ (.fld .by' (true, 0) (false, 0) (true, -1)))) (.mulS ⟨.x, true, 1⟩ (.fld .by' (true, 1) (false, 0) (true, -1)))) (.mulS ⟨.x, true, 2⟩ (.fld .by' (true, 2) (false, 0) (true, -1)))),
  .acc .by' (.mulS ⟨.z, true, -1⟩ .a),
  .seta (.add (.add (.add (.mulS ⟨.x, true, -1⟩ (.fld .by' (true, -1) (false, 0) (true, 0))) (.mulS ⟨.x, true, 0⟩ (.fld .by' (true, 0) (false, 0) (true, 0)))) (.mulS ⟨.x, true, 1⟩ (.fld .by' (true, 1) (false, 0) (true, 0)))) (.mulS ⟨.x, true, 2⟩ (.fld .by' (true, 2) (false, 0) (true, 0)))),
  .acc .by' (.mulS ⟨.z, true, 0⟩ .a),
  .seta (.add (.add (.add (.mulS ⟨.x, true, -1⟩ (.fld .by' (true, -1) (false, 0) (true, 1))) (.mulS ⟨.x, true, 0⟩ (.fld .by' (true, 0) (false, 0) (true, 1)))) (.mulS ⟨.x, true, 1⟩ (.fld .by' (true, 1) (false, 0) (true, 1)))) (.mulS ⟨.x, true, 2⟩ (.fld .by' (true, 2) (false, 0) (true, 1)))),
  .acc .by' (.mulS ⟨.z, true, 1⟩ .a),
  .seta (.add (.add (.add (.mulS ⟨.x, true, -1⟩ (.fld .by' (true, -1) (false, 0) (true, 2))) (.mulS ⟨.x, true, 0⟩ (.fld .by' (true, 0) (false, 0) (true, 2)))) (.mulS ⟨.x, true, 1⟩ (.fld .by' (true, 1) (false, 0) (true, 2)))) (.mulS ⟨.x, true, 2⟩ (.fld .by' (true, 2) (false, 0) (true, 2)))),
  .acc .by' (.mulS ⟨.z, true, 2⟩ .a),
  .seta (.add (.add (.add (.mulS ⟨.x, true, -1⟩ (.fld .bz (true, -1) (false, 0) (false, -1))) (.mulS ⟨.x, true, 0⟩ (.fld .bz (true, 0) (false, 0) (false, -1)))) (.mulS ⟨.x, true, 1⟩ (.fld .bz (true, 1) (false, 0) (false, -1)))) (.mulS ⟨.x, true, 2⟩ (.fld .bz (true, 2) (false, 0) (false, -1)))),
  .acc .bx (.mulS ⟨.z, false, -1⟩ .a),
  .seta (.add (.add (.add (.mulS ⟨.x, true, -1⟩ (.fld .bz (true, -1) (false, 0) (false, 0))) (.mulS ⟨.x, true, 0⟩ (.fld .bz (true, 0) (false, 0) (false, 0)))) (.mulS ⟨.x, true, 1⟩ (.fld .bz (true, 1) (false, 0) (false, 0)))) (.mulS ⟨.x, true, 2⟩ (.fld .bz (true, 2) (false, 0) (false, 0)))),
  .acc .bx (.mulS ⟨.z, false, 0⟩ .a),
  .seta (.add (.add (.add (.mulS ⟨.x, true, -1⟩ (.fld .bz (true, -1) (false, 0) (false, 1))) (.mulS ⟨.x, true, 0⟩ (.fld .bz (true, 0) (false, 0) (false, 1)))) (.mulS ⟨.x, true, 1⟩ (.fld .bz (true, 1) (false, 0) (false, 1)))) (.mulS ⟨.x, true, 2⟩ (.fld .bz (true, 2) (false, 0) (false, 1)))),
  .acc .bx (.mulS ⟨.z, false, 1⟩ .a),
  .seta (.add (.add (.add (.mulS ⟨.x, true, -1⟩ (.fld .bz (true, -1) (false, 0) (false, 2))) (.mulS ⟨.x, true, 0⟩ (.fld .bz (true, 0) (false, 0) (false, 2)))) (.mulS ⟨.x, true, 1⟩ (.fld .bz (true, 1) (false, 0) (false, 2)))) (.mulS ⟨.x, true, 2⟩ (.fld .bz (true, 2) (false, 0) (false, 2)))),
  .acc .bx (.mulS ⟨.z, false, 2⟩ .a)]

/-- Statements of the unrolled routine for an order (field_gathering_manager_3d.F90:608-643, field_gathering_manager_2d.F90:223-259). -/
def defaultProg (n : ℕ) (lower d2 : Bool) : List GStmt :=
  match d2, n, lower with
  | false, 1, true => prog_o1_3d_lower
  | false, 1, false => prog_o1_3d
  | false, 2, true => prog_o2_3d_lower
  | false, 2, false => prog_o2_3d
  | false, 3, true => prog_o3_3d_lower
  | false, 3, false => prog_o3_3d
  | true, 1, true => prog_o1_2d_lower
  | true, 1, false => prog_o1_2d
  | true, 2, true => prog_o2_2d_lower
  | true, 2, false => prog_o2_2d
  | true, 3, true => prog_o3_2d_lower
  | true, 3, false => prog_o3_2d
  | _, _, _ => []

/-- `geteb3d_energy_conserving_generic` and `geteb2dxz_energy_conserving_generic` for one particle: algorithm 1 (scalar) and 2 (arbitrary
order) are the loop versions; the default algorithm is unrolled when the three orders are equal to 1, 2 or 3 and otherwise the
arbitrary-order loops (manager_3d:549-643, manager_2d:150-259; the developer algorithms 3-7 of `-DDEV` builds are not modelled;
`noy` is also tested in 2D). `a0` is the indeterminate initial value of the local scalar `a`. -/
noncomputable def gather (algo : ℤ) (o : Opts) (σ : Mem) (p : Pos) (a0 : ℝ) (out : Comp → ℝ) : Res (Comp → ℝ) :=
  if algo = 1 ∨ algo = 2 then gatherPart o σ p out
  else if o.nx = o.ny ∧ o.ny = o.nz ∧ (o.nx = 1 ∨ o.nx = 2 ∨ o.nx = 3) then
    GStmt.run σ (genv o p) (defaultProg o.nx o.lower o.d2) a0 out
  else gatherPart o σ p out

/-- Loop over the particles of a tile, the particle fields having been set to zero
(field_gathering_manager_3d.F90:217-222 `curr_tile%part_ex(1:count) = 0.0_num`, ...). -/
noncomputable def gatherAll (algo : ℤ) (o : Opts) (σ : Mem) (a0 : ℝ) : List Pos → Res (List (Comp → ℝ))
  | [] => .ok []
  | p :: ps => do
    let r ← gather algo o σ p a0 (fun _ => 0)
    let rs ← gatherAll algo o σ a0 ps
    pure (r :: rs)

/-- The particles of a tile given by their positions: `x = (xp(ip)-xmin)*dxi` and so on, then the loop over the particles. -/
noncomputable def gatherTile (algo : ℤ) (o : Opts) (geo : Deposition.Geo) (σ : Mem) (a0 : ℝ) (xs : List (ℝ × ℝ × ℝ)) : Res (List (Comp → ℝ)) :=
  gatherAll algo o σ a0 (xs.map fun r => cellPos geo r.1 r.2.1 r.2.2)

end Picsar.Gather
