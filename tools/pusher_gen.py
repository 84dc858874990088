#!/usr/bin/env python3
"""Writes lean/Verif/Model/PushKernels.lean from particle_pusher_manager_3d.F90 of /repo (see gather_gen.py)."""
import os
here = os.path.dirname(os.path.abspath(__file__))
g = {'__name__': 'gather_gen', '__file__': os.path.join(here, 'gather_gen.py')}
exec(compile(open(os.path.join(here, 'gather_gen.py')).read(), 'gather_gen.py', 'exec'), g)
g['D'] = '/repo/src/particle_pushers/'
FN = 'particle_pusher_manager_3d.F90'
out = ['''import Verif.Model.GatherUnrolled

/-
Accumulation statements of the three kernels that gather the fields and push the particles block by block
(src/particle_pushers/particle_pusher_manager_3d.F90). Written by tools/pusher_gen.py (committed) from the text of /repo, one list entry
per statement; the shape factors of a product are written in front of the field factor.
-/
namespace Picsar.PushMgr
open Picsar.Gather
''']
for n, a, b in ((1, 1405, 1440), (2, 1645, 1735), (3, 1945, 2155)):
    p = g['prog'](FN, a, b)
    ls = [l for l, s in g['stmts'](FN, a, b) if s.startswith('a=') or s[:2] in ('ex', 'ey', 'ez', 'bx', 'by', 'bz')]
    out.append('/-- field_gathering_plus_particle_pusher_%d_%d_%d (%s:%d-%d). -/' % (n, n, n, FN, ls[0], ls[-1]))
    out.append('def kernel_o%d : List GStmt := [\n  ' % n + ',\n  '.join(p) + ']\n')
out.append('end Picsar.PushMgr')
open(os.path.join(here, '../lean/Verif/Model/PushKernels.lean'), 'w').write('\n'.join(out) + '\n')
