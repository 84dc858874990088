#!/usr/bin/env python3
"""Transcribe the unrolled accumulation statements of the default field gathering routines into Lean expression trees.

Reads /repo, writes lean/Verif/Model/GatherUnrolled.lean. Only `a = ...` and `ex(nn) = ex(nn) + ...` statements between the given
lines are taken; a product keeps its factors but the shape factors are moved in front of the field factor.
"""
import os
import re

D = '/repo/src/field_gathering/energy_conserving/'
OUT = os.path.join(os.path.dirname(__file__), '..', 'lean', 'Verif', 'Model', 'GatherUnrolled.lean')


def stmts(fn, a, b):
    lines = open(D + fn).read().split('\n')[a - 1:b]
    out, cur, start = [], '', None
    for n, l in enumerate(lines):
        s = l.strip()
        if not s or s.startswith('!') or s.startswith('#'):
            continue
        if s.startswith('&'):
            s = s[1:]
        if start is None:
            start = a + n
        if s.endswith('&'):
            cur += s[:-1] + ' '
            continue
        cur += s
        out.append((start, re.sub(r'\s+', '', cur).lower()))
        cur, start = '', None
    return out


def tok(s):
    return re.findall(r'[a-z_][a-z0-9_]*\((?:[^()]*)\)|[a-z_][a-z0-9_]*|[-+*/()]', s)


def ilit(i):
    return str(i) if i >= 0 else '(%d)' % i


class P:
    def __init__(s, t):
        s.t, s.i = t, 0

    def pk(s):
        return s.t[s.i] if s.i < len(s.t) else None

    def expr(s):
        r = s.term()
        while s.pk() == '+':
            s.i += 1
            r = ('add', r, s.term())
        return r

    def term(s):
        fs = [s.factor()]
        while s.pk() == '*':
            s.i += 1
            fs.append(s.factor())
        sh = [f for f in fs if f[0] == 's']
        ot = [f for f in fs if f[0] != 's']
        assert len(ot) == 1, fs
        r = ot[0]
        for f in reversed(sh):
            r = ('mul', f, r)
        return r

    def factor(s):
        x = s.t[s.i]
        s.i += 1
        if x == '(':
            r = s.expr()
            assert s.t[s.i] == ')'
            s.i += 1
            return r
        if x == 'a':
            return ('a',)
        m = re.match(r's([xyz])(0?)\((?:n,)?(-?\d)\)$', x)
        if m:
            return ('s', m.group(1), m.group(2) == '0', int(m.group(3)))
        m = re.match(r'([eb][xyz])g\((.*)\)$', x)
        assert m, x
        idx = m.group(2).split(',')
        if idx[1] == '1':
            idx[1] = 'k'
        ref = []
        for v, i in zip('jkl', idx):
            mm = re.match(v + r'(0?)([+-]\d)?$', i)
            assert mm, i
            ref.append((mm.group(1) == '0', int(mm.group(2) or 0)))
        return ('f', m.group(1), ref)


def comp(c):
    return ".by'" if c == 'by' else '.' + c


def b(x):
    return 'true' if x else 'false'


def lean(e):
    if e[0] == 'a':
        return '.a'
    if e[0] == 'f':
        return '(.fld %s %s)' % (comp(e[1]), ' '.join('(%s, %d)' % (b(st), o) for st, o in e[2]))
    if e[0] == 'add':
        return '(.add %s %s)' % (lean(e[1]), lean(e[2]))
    _, (_, ax, st, i), r = e
    return '(.mulS ⟨.%s, %s, %s⟩ %s)' % (ax, b(st), str(i), lean(r))


def prog(fn, x, y):
    out = []
    for ln, s in stmts(fn, x, y):
        m = re.match(r'(a|[eb][xyz])(\(nn\))?=(.*)$', s)
        if not m:
            continue
        v, rhs = m.group(1), m.group(3)
        if v != 'a':
            pre = v + '(nn)+'
            assert rhs.startswith(pre), (ln, s)
            rhs = rhs[len(pre):]
        p = P(tok(rhs))
        r = p.expr()
        assert p.i == len(p.t), (ln, s)
        out.append('.seta ' + lean(r) if v == 'a' else '.acc %s %s' % (comp(v), lean(r)))
    return out


PROGS = [
    ('o1_3d_lower', 'geteb3d_energy_conserving_vecV4_1_1_1, `l_lower_order_in_v` true', [('field_gathering_o1_3d.F90', 2060, 2130)]),
    ('o1_3d', 'geteb3d_energy_conserving_vecV4_1_1_1, `l_lower_order_in_v` false', [('field_gathering_o1_3d.F90', 2160, 2245)]),
    ('o2_3d_lower', 'geteb3d_energy_conserving_vecV4_2_2_2, `l_lower_order_in_v` true', [('field_gathering_o2_3d.F90', 2830, 2975)]),
    ('o2_3d', 'geteb3d_energy_conserving_vecV4_2_2_2, `l_lower_order_in_v` false', [('field_gathering_o2_3d.F90', 2999, 3196)]),
    ('o3_3d_lower', 'geteb3d_energy_conserving_vecV3_3_3_3, `l_lower_order_in_v` true', [('field_gathering_o3_3d.F90', 5760, 5950)]),
    ('o3_3d', 'geteb3d_energy_conserving_vecV3_3_3_3, `l_lower_order_in_v` false', [('field_gathering_o3_3d.F90', 6030, 6285)]),
    ('o1_2d_lower', 'pxr_gete2dxz_energy_conserving_vect_1_1 then pxr_getb2dxz_energy_conserving_vect_1_1, `l_lower_order_in_v` true',
     [('field_gathering_o1_2d.F90', 560, 580), ('field_gathering_o1_2d.F90', 780, 795)]),
    ('o1_2d', 'pxr_gete2dxz_energy_conserving_vect_1_1 then pxr_getb2dxz_energy_conserving_vect_1_1, `l_lower_order_in_v` false',
     [('field_gathering_o1_2d.F90', 600, 688), ('field_gathering_o1_2d.F90', 806, 874)]),
    ('o2_2d_lower', 'pxr_gete2dxz_energy_conserving_vect_2_2 then pxr_getb2dxz_energy_conserving_vect_2_2, `l_lower_order_in_v` true',
     None),
    ('o2_2d', 'pxr_gete2dxz_energy_conserving_vect_2_2 then pxr_getb2dxz_energy_conserving_vect_2_2, `l_lower_order_in_v` false', None),
    ('o3_2d_lower', 'pxr_geteb2dxz_energy_conserving_vect_3_3, `l_lower_order_in_v` true', None),
    ('o3_2d', 'pxr_geteb2dxz_energy_conserving_vect_3_3, `l_lower_order_in_v` false', None),
]


def split(fn, a, bnd, lower):
    lines = open(D + fn).read().split('\n')
    els = [i + 1 for i in range(a, bnd) if lines[i].strip().lower() == 'else']
    return (fn, a, els[-1]) if lower else (fn, els[-1], bnd)


R2 = {'o2_2d': [('field_gathering_o2_2d.F90', 518, 772), ('field_gathering_o2_2d.F90', 774, 998)],
      'o3_2d': [('field_gathering_o3_2d.F90', 1232, 1610)],
      'o1_2d': [('field_gathering_o1_2d.F90', 471, 688), ('field_gathering_o1_2d.F90', 690, 874)]}


def main():
    o = ['''import Verif.Model.Gather

/-
Default (unrolled, vectorised) field gathering routines. The statement lists at the end of this file are a transcription of the
accumulation statements of the Fortran routines, produced by tools/gather_gen.py (committed) from the text of /repo: one list entry per
statement, the same operands, signs and nesting; the shape factors of a product are written in front of the field factor.
Index of the nodes and shape factors are those of Model/Gather.lean (the routines repeat the same assignments as the loop
versions). Vectorisation (`!$OMP SIMD`) is not modelled: the body is executed particle by particle.
-/
namespace Picsar.Gather
open Picsar Picsar.Grid

/-- Direction. -/
inductive Ax | x | y | z
  deriving DecidableEq

/-- Shape factor `sx(i)` or, staggered, `sx0(i)`. -/
structure Sh where
  ax : Ax
  st : Bool
  i : ℤ
  deriving DecidableEq

/-- Right-hand sides: `fld q (s,dj) (s,dk) (s,dl)` is `qg(j+dj, k+dk, l+dl)` with `j0` in place of `j` when `s` is true; `a` the local scalar
`a`; `mulS s e` the product with a shape factor. -/
inductive GE
  | fld (q : Comp) (x y z : Bool × ℤ)
  | a
  | add (e f : GE)
  | mulS (s : Sh) (e : GE)

/-- `a = e` and `q(nn) = q(nn) + e`. -/
inductive GStmt
  | seta (e : GE)
  | acc (q : Comp) (e : GE)

/-- Values of the local variables of one particle: nodes and weights of the three directions, not staggered and staggered. -/
structure GEnv where
  base : Ax → Bool → ℤ
  wts : Ax → Bool → List (ℤ × ℝ)

/-- The local variables `j, j0, sx, sx0, ...` (see `base`, `axisWts`). -/
noncomputable def genv (o : Opts) (p : Pos) : GEnv where
  base ax st := match ax with
    | .x => base o.cx st p.x
    | .y => yBase o.cy o.d2 st p.y
    | .z => base o.cz st p.z
  wts ax st := match ax with
    | .x => axisWts o.cx st p.x
    | .y => yWts o.cy o.d2 st p.y
    | .z => axisWts o.cz st p.z

/-- Value of a shape factor; an element that the routine does not assign is undefined. -/
noncomputable def GEnv.sh (v : GEnv) (s : Sh) : Res ℝ :=
  match (v.wts s.ax s.st).find? (fun w => w.1 == s.i) with
  | some w => .ok w.2
  | none => .error .uninitialised

/-- Evaluation of a right-hand side. -/
noncomputable def GE.eval (σ : Mem) (v : GEnv) (a : ℝ) : GE → Res ℝ
  | .fld q x y z => (σ q).get ⟨v.base .x x.1 + x.2, v.base .y y.1 + y.2, v.base .z z.1 + z.2⟩
  | .a => .ok a
  | .add e f => do
    let x ← e.eval σ v a
    let y ← f.eval σ v a
    pure (x + y)
  | .mulS s e => do
    let w ← v.sh s
    let x ← e.eval σ v a
    pure (w * x)

/-- Execution of the statements of one particle. -/
noncomputable def GStmt.run (σ : Mem) (v : GEnv) : List GStmt → ℝ → (Comp → ℝ) → Res (Comp → ℝ)
  | [], _, out => .ok out
  | .seta e :: ss, a, out => do
    let x ← e.eval σ v a
    GStmt.run σ v ss x out
  | .acc q e :: ss, a, out => do
    let x ← e.eval σ v a
    GStmt.run σ v ss a (Function.update out q (out q + x))
''']
    for name, doc, rs in PROGS:
        lower = name.endswith('_lower')
        key = name.replace('_lower', '')
        if key in R2:
            rs = [split(fn, x, y, lower) for fn, x, y in R2[key]]
        ps = []
        cites = []
        for fn, x, y in rs:
            ps += prog(fn, x, y)
            ls = [ln for ln, s in stmts(fn, x, y) if re.match(r'(a|[eb][xyz])(\(nn\))?=', s)]
            cites.append('%s:%d-%d' % (fn, ls[0], ls[-1]))
        o.append('/-- %s (%s). -/\ndef prog_%s : List GStmt := [\n  %s]\n' % (doc, ', '.join(cites), name, ',\n  '.join(ps)))
    o.append('''/-- Statements of the unrolled routine for an order (field_gathering_manager_3d.F90:608-643, field_gathering_manager_2d.F90:223-259). -/
def defaultProg (n : ℕ) (lower d2 : Bool) : List GStmt :=
  match d2, n, lower with
  | false, 1, true => prog_o1_3d_lower
  | false, 1, false => prog_o1_3d
  | false, 2, true => prog_o2_3d_lower
  | false, 2, false => prog_o2_3d
  | false, 3, true => prog_o3_3d_lower
  | false, 3, false => prog_o3_3d
  | true, 1, true => prog_o1_2d_lower
  | true, 1, false => prog_o1_2d
  | true, 2, true => prog_o2_2d_lower
  | true, 2, false => prog_o2_2d
  | true, 3, true => prog_o3_2d_lower
  | true, 3, false => prog_o3_2d
  | _, _, _ => []

/-- `geteb3d_energy_conserving_generic` and `geteb2dxz_energy_conserving_generic` for one particle: algorithm 1 (scalar) and 2 (arbitrary
order) are the loop versions; the default algorithm is unrolled when the three orders are equal to 1, 2 or 3 and otherwise the
arbitrary-order loops (manager_3d:549-643, manager_2d:150-259; the developer algorithms 3-7 of `-DDEV` builds are not modelled;
`noy` is also tested in 2D). `a0` is the indeterminate initial value of the local scalar `a`. -/
noncomputable def gather (algo : ℤ) (o : Opts) (σ : Mem) (p : Pos) (a0 : ℝ) (out : Comp → ℝ) : Res (Comp → ℝ) :=
  if algo = 1 ∨ algo = 2 then gatherPart o σ p out
  else if o.nx = o.ny ∧ o.ny = o.nz ∧ (o.nx = 1 ∨ o.nx = 2 ∨ o.nx = 3) then
    GStmt.run σ (genv o p) (defaultProg o.nx o.lower o.d2) a0 out
  else gatherPart o σ p out

/-- Loop over the particles of a tile, the particle fields having been set to zero
(field_gathering_manager_3d.F90:217-222 `curr_tile%part_ex(1:count) = 0.0_num`, ...). -/
noncomputable def gatherAll (algo : ℤ) (o : Opts) (σ : Mem) (a0 : ℝ) : List Pos → Res (List (Comp → ℝ))
  | [] => .ok []
  | p :: ps => do
    let r ← gather algo o σ p a0 (fun _ => 0)
    let rs ← gatherAll algo o σ a0 ps
    pure (r :: rs)

/-- The particles of a tile given by their positions: `x = (xp(ip)-xmin)*dxi` and so on, then the loop over the particles. -/
noncomputable def gatherTile (algo : ℤ) (o : Opts) (geo : Deposition.Geo) (σ : Mem) (a0 : ℝ) (xs : List (ℝ × ℝ × ℝ)) : Res (List (Comp → ℝ)) :=
  gatherAll algo o σ a0 (xs.map fun r => cellPos geo r.1 r.2.1 r.2.2)

end Picsar.Gather
''')
    open(OUT, 'w').write('\n'.join(o))


main()
