import Verif.Model.GatherUnrolled

/-
Accumulation statements of the three kernels that gather the fields and push the particles block by block
(src/particle_pushers/particle_pusher_manager_3d.F90). Written by tools/pusher_gen.py (committed) from the text of /repo, one list entry
per statement; the shape factors of a product are written in front of the field factor.
-/
namespace Picsar.PushMgr
open Picsar.Gather

/-- field_gathering_plus_particle_pusher_1_1_1 (particle_pusher_manager_3d.F90:1415-1439). -/
def kernel_o1 : List GStmt := [
  .seta (.add (.mulS ⟨.z, false, 0⟩ (.add (.mulS ⟨.y, false, 0⟩ (.fld .ex (true, 0) (false, 0) (false, 0))) (.mulS ⟨.y, false, 1⟩ (.fld .ex (true, 0) (false, 1) (false, 0))))) (.mulS ⟨.z, false, 1⟩ (.add (.mulS ⟨.y, false, 0⟩ (.fld .ex (true, 0) (false, 0) (false, 1))) (.mulS ⟨.y, false, 1⟩ (.fld .ex (true, 0) (false, 1) (false, 1)))))),
  .acc .ex .a,
  .seta (.add (.mulS ⟨.z, false, 0⟩ (.add (.mulS ⟨.x, false, 0⟩ (.fld .ey (false, 0) (true, 0) (false, 0))) (.mulS ⟨.x, false, 1⟩ (.fld .ey (false, 1) (true, 0) (false, 0))))) (.mulS ⟨.z, false, 1⟩ (.add (.mulS ⟨.x, false, 0⟩ (.fld .ey (false, 0) (true, 0) (false, 1))) (.mulS ⟨.x, false, 1⟩ (.fld .ey (false, 1) (true, 0) (false, 1)))))),
  .acc .ey .a,
  .seta (.add (.mulS ⟨.y, false, 0⟩ (.add (.mulS ⟨.x, false, 0⟩ (.fld .ez (false, 0) (false, 0) (true, 0))) (.mulS ⟨.x, false, 1⟩ (.fld .ez (false, 1) (false, 0) (true, 0))))) (.mulS ⟨.y, false, 1⟩ (.add (.mulS ⟨.x, false, 0⟩ (.fld .ez (false, 0) (false, 1) (true, 0))) (.mulS ⟨.x, false, 1⟩ (.fld .ez (false, 1) (false, 1) (true, 0)))))),
  .acc .ez .a,
  .seta (.add (.mulS ⟨.x, false, 0⟩ (.fld .bx (false, 0) (true, 0) (true, 0))) (.mulS ⟨.x, false, 1⟩ (.fld .bx (false, 1) (true, 0) (true, 0)))),
  .acc .bx .a,
  .seta (.add (.mulS ⟨.y, false, 0⟩ (.fld .by' (true, 0) (false, 0) (true, 0))) (.mulS ⟨.y, false, 1⟩ (.fld .by' (true, 0) (false, 1) (true, 0)))),
  .acc .by' .a,
  .seta (.add (.mulS ⟨.z, false, 0⟩ (.fld .bz (true, 0) (true, 0) (false, 0))) (.mulS ⟨.z, false, 1⟩ (.fld .bz (true, 0) (true, 0) (false, 1)))),
  .acc .bz .a]

/-- field_gathering_plus_particle_pusher_2_2_2 (particle_pusher_manager_3d.F90:1658-1735). -/
def kernel_o2 : List GStmt := [
  .seta (.mulS ⟨.y, false, -1⟩ (.add (.mulS ⟨.x, true, 0⟩ (.fld .ex (true, 0) (false, -1) (false, -1))) (.mulS ⟨.x, true, 1⟩ (.fld .ex (true, 1) (false, -1) (false, -1))))),
  .seta (.add .a (.mulS ⟨.y, false, 0⟩ (.add (.mulS ⟨.x, true, 0⟩ (.fld .ex (true, 0) (false, 0) (false, -1))) (.mulS ⟨.x, true, 1⟩ (.fld .ex (true, 1) (false, 0) (false, -1)))))),
  .seta (.add .a (.mulS ⟨.y, false, 1⟩ (.add (.mulS ⟨.x, true, 0⟩ (.fld .ex (true, 0) (false, 1) (false, -1))) (.mulS ⟨.x, true, 1⟩ (.fld .ex (true, 1) (false, 1) (false, -1)))))),
  .acc .ex (.mulS ⟨.z, false, -1⟩ .a),
  .seta (.mulS ⟨.y, false, -1⟩ (.add (.mulS ⟨.x, true, 0⟩ (.fld .ex (true, 0) (false, -1) (false, 0))) (.mulS ⟨.x, true, 1⟩ (.fld .ex (true, 1) (false, -1) (false, 0))))),
  .seta (.add .a (.mulS ⟨.y, false, 0⟩ (.add (.mulS ⟨.x, true, 0⟩ (.fld .ex (true, 0) (false, 0) (false, 0))) (.mulS ⟨.x, true, 1⟩ (.fld .ex (true, 1) (false, 0) (false, 0)))))),
  .seta (.add .a (.mulS ⟨.y, false, 1⟩ (.add (.mulS ⟨.x, true, 0⟩ (.fld .ex (true, 0) (false, 1) (false, 0))) (.mulS ⟨.x, true, 1⟩ (.fld .ex (true, 1) (false, 1) (false, 0)))))),
  .acc .ex (.mulS ⟨.z, false, 0⟩ .a),
  .seta (.mulS ⟨.y, false, -1⟩ (.add (.mulS ⟨.x, true, 0⟩ (.fld .ex (true, 0) (false, -1) (false, 1))) (.mulS ⟨.x, true, 1⟩ (.fld .ex (true, 1) (false, -1) (false, 1))))),
  .seta (.add .a (.mulS ⟨.y, false, 0⟩ (.add (.mulS ⟨.x, true, 0⟩ (.fld .ex (true, 0) (false, 0) (false, 1))) (.mulS ⟨.x, true, 1⟩ (.fld .ex (true, 1) (false, 0) (false, 1)))))),
  .seta (.add .a (.mulS ⟨.y, false, 1⟩ (.add (.mulS ⟨.x, true, 0⟩ (.fld .ex (true, 0) (false, 1) (false, 1))) (.mulS ⟨.x, true, 1⟩ (.fld .ex (true, 1) (false, 1) (false, 1)))))),
  .acc .ex (.mulS ⟨.z, false, 1⟩ .a),
  .seta (.mulS ⟨.y, true, 0⟩ (.add (.add (.mulS ⟨.x, false, -1⟩ (.fld .ey (false, -1) (true, 0) (false, -1))) (.mulS ⟨.x, false, 0⟩ (.fld .ey (false, 0) (true, 0) (false, -1)))) (.mulS ⟨.x, false, 1⟩ (.fld .ey (false, 1) (true, 0) (false, -1))))),
  .seta (.add .a (.mulS ⟨.y, true, 1⟩ (.add (.add (.mulS ⟨.x, false, -1⟩ (.fld .ey (false, -1) (true, 1) (false, -1))) (.mulS ⟨.x, false, 0⟩ (.fld .ey (false, 0) (true, 1) (false, -1)))) (.mulS ⟨.x, false, 1⟩ (.fld .ey (false, 1) (true, 1) (false, -1)))))),
  .acc .ey (.mulS ⟨.z, false, -1⟩ .a),
  .seta (.mulS ⟨.y, true, 0⟩ (.add (.add (.mulS ⟨.x, false, -1⟩ (.fld .ey (false, -1) (true, 0) (false, 0))) (.mulS ⟨.x, false, 0⟩ (.fld .ey (false, 0) (true, 0) (false, 0)))) (.mulS ⟨.x, false, 1⟩ (.fld .ey (false, 1) (true, 0) (false, 0))))),
  .seta (.add .a (.mulS ⟨.y, true, 1⟩ (.add (.add (.mulS ⟨.x, false, -1⟩ (.fld .ey (false, -1) (true, 1) (false, 0))) (.mulS ⟨.x, false, 0⟩ (.fld .ey (false, 0) (true, 1) (false, 0)))) (.mulS ⟨.x, false, 1⟩ (.fld .ey (false, 1) (true, 1) (false, 0)))))),
  .acc .ey (.mulS ⟨.z, false, 0⟩ .a),
  .seta (.mulS ⟨.y, true, 0⟩ (.add (.add (.mulS ⟨.x, false, -1⟩ (.fld .ey (false, -1) (true, 0) (false, 1))) (.mulS ⟨.x, false, 0⟩ (.fld .ey (false, 0) (true, 0) (false, 1)))) (.mulS ⟨.x, false, 1⟩ (.fld .ey (false, 1) (true, 0) (false, 1))))),
  .seta (.add .a (.mulS ⟨.y, true, 1⟩ (.add (.add (.mulS ⟨.x, false, -1⟩ (.fld .ey (false, -1) (true, 1) (false, 1))) (.mulS ⟨.x, false, 0⟩ (.fld .ey (false, 0) (true, 1) (false, 1)))) (.mulS ⟨.x, false, 1⟩ (.fld .ey (false, 1) (true, 1) (false, 1)))))),
  .acc .ey (.mulS ⟨.z, false, 1⟩ .a),
  .seta (.mulS ⟨.y, false, -1⟩ (.add (.add (.mulS ⟨.x, false, -1⟩ (.fld .ez (false, -1) (false, -1) (true, 0))) (.mulS ⟨.x, false, 0⟩ (.fld .ez (false, 0) (false, -1) (true, 0)))) (.mulS ⟨.x, false, 1⟩ (.fld .ez (false, 1) (false, -1) (true, 0))))),
  .seta (.add .a (.mulS ⟨.y, false, 0⟩ (.add (.add (.mulS ⟨.x, false, -1⟩ (.fld .ez (false, -1) (false, 0) (true, 0))) (.mulS ⟨.x, false, 0⟩ (.fld .ez (false, 0) (false, 0) (true, 0)))) (.mulS ⟨.x, false, 1⟩ (.fld .ez (false, 1) (false, 0) (true, 0)))))),
  .seta (.add .a (.mulS ⟨.y, false, 1⟩ (.add (.add (.mulS ⟨.x, false, -1⟩ (.fld .ez (false, -1) (false, 1) (true, 0))) (.mulS ⟨.x, false, 0⟩ (.fld .ez (false, 0) (false, 1) (true, 0)))) (.mulS ⟨.x, false, 1⟩ (.fld .ez (false, 1) (false, 1) (true, 0)))))),
  .acc .ez (.mulS ⟨.z, true, 0⟩ .a),
  .seta (.mulS ⟨.y, false, -1⟩ (.add (.add (.mulS ⟨.x, false, -1⟩ (.fld .ez (false, -1) (false, -1) (true, 1))) (.mulS ⟨.x, false, 0⟩ (.fld .ez (false, 0) (false, -1) (true, 1)))) (.mulS ⟨.x, false, 1⟩ (.fld .ez (false, 1) (false, -1) (true, 1))))),
  .seta (.add .a (.mulS ⟨.y, false, 0⟩ (.add (.add (.mulS ⟨.x, false, -1⟩ (.fld .ez (false, -1) (false, 0) (true, 1))) (.mulS ⟨.x, false, 0⟩ (.fld .ez (false, 0) (false, 0) (true, 1)))) (.mulS ⟨.x, false, 1⟩ (.fld .ez (false, 1) (false, 0) (true, 1)))))),
  .seta (.add .a (.mulS ⟨.y, false, 1⟩ (.add (.add (.mulS ⟨.x, false, -1⟩ (.fld .ez (false, -1) (false, 1) (true, 1))) (.mulS ⟨.x, false, 0⟩ (.fld .ez (false, 0) (false, 1) (true, 1)))) (.mulS ⟨.x, false, 1⟩ (.fld .ez (false, 1) (false, 1) (true, 1)))))),
  .acc .ez (.mulS ⟨.z, true, 1⟩ .a),
  .seta (.mulS ⟨.y, true, 0⟩ (.add (.add (.mulS ⟨.x, false, -1⟩ (.fld .bx (false, -1) (true, 0) (true, 0))) (.mulS ⟨.x, false, 0⟩ (.fld .bx (false, 0) (true, 0) (true, 0)))) (.mulS ⟨.x, false, 1⟩ (.fld .bx (false, 1) (true, 0) (true, 0))))),
  .seta (.add .a (.mulS ⟨.y, true, 1⟩ (.add (.add (.mulS ⟨.x, false, -1⟩ (.fld .bx (false, -1) (true, 1) (true, 0))) (.mulS ⟨.x, false, 0⟩ (.fld .bx (false, 0) (true, 1) (true, 0)))) (.mulS ⟨.x, false, 1⟩ (.fld .bx (false, 1) (true, 1) (true, 0)))))),
  .acc .bx (.mulS ⟨.z, true, 0⟩ .a),
  .seta (.mulS ⟨.y, true, 0⟩ (.add (.add (.mulS ⟨.x, false, -1⟩ (.fld .bx (false, -1) (true, 0) (true, 1))) (.mulS ⟨.x, false, 0⟩ (.fld .bx (false, 0) (true, 0) (true, 1)))) (.mulS ⟨.x, false, 1⟩ (.fld .bx (false, 1) (true, 0) (true, 1))))),
  .seta (.add .a (.mulS ⟨.y, true, 1⟩ (.add (.add (.mulS ⟨.x, false, -1⟩ (.fld .bx (false, -1) (true, 1) (true, 1))) (.mulS ⟨.x, false, 0⟩ (.fld .bx (false, 0) (true, 1) (true, 1)))) (.mulS ⟨.x, false, 1⟩ (.fld .bx (false, 1) (true, 1) (true, 1)))))),
  .acc .bx (.mulS ⟨.z, true, 1⟩ .a),
  .seta (.mulS ⟨.y, false, -1⟩ (.add (.mulS ⟨.x, true, 0⟩ (.fld .by' (true, 0) (false, -1) (true, 0))) (.mulS ⟨.x, true, 1⟩ (.fld .by' (true, 1) (false, -1) (true, 0))))),
  .seta (.add .a (.mulS ⟨.y, false, 0⟩ (.add (.mulS ⟨.x, true, 0⟩ (.fld .by' (true, 0) (false, 0) (true, 0))) (.mulS ⟨.x, true, 1⟩ (.fld .by' (true, 1) (false, 0) (true, 0)))))),
  .seta (.add .a (.mulS ⟨.y, false, 1⟩ (.add (.mulS ⟨.x, true, 0⟩ (.fld .by' (true, 0) (false, 1) (true, 0))) (.mulS ⟨.x, true, 1⟩ (.fld .by' (true, 1) (false, 1) (true, 0)))))),
  .acc .by' (.mulS ⟨.z, true, 0⟩ .a),
  .seta (.mulS ⟨.y, false, -1⟩ (.add (.mulS ⟨.x, true, 0⟩ (.fld .by' (true, 0) (false, -1) (true, 1))) (.mulS ⟨.x, true, 1⟩ (.fld .by' (true, 1) (false, -1) (true, 1))))),
  .seta (.add .a (.mulS ⟨.y, false, 0⟩ (.add (.mulS ⟨.x, true, 0⟩ (.fld .by' (true, 0) (false, 0) (true, 1))) (.mulS ⟨.x, true, 1⟩ (.fld .by' (true, 1) (false, 0) (true, 1)))))),
  .seta (.add .a (.mulS ⟨.y, false, 1⟩ (.add (.mulS ⟨.x, true, 0⟩ (.fld .by' (true, 0) (false, 1) (true, 1))) (.mulS ⟨.x, true, 1⟩ (.fld .by' (true, 1) (false, 1) (true, 1)))))),
  .acc .by' (.mulS ⟨.z, true, 1⟩ .a),
  .seta (.mulS ⟨.y, true, 0⟩ (.add (.mulS ⟨.x, true, 0⟩ (.fld .bz (true, 0) (true, 0) (false, -1))) (.mulS ⟨.x, true, 1⟩ (.fld .bz (true, 1) (true, 0) (false, -1))))),
  .seta (.add .a (.mulS ⟨.y, true, 1⟩ (.add (.mulS ⟨.x, true, 0⟩ (.fld .bz (true, 0) (true, 1) (false, -1))) (.mulS ⟨.x, true, 1⟩ (.fld .bz (true, 1) (true, 1) (false, -1)))))),
  .acc .bz (.mulS ⟨.z, false, -1⟩ .a),
  .seta (.mulS ⟨.y, true, 0⟩ (.add (.mulS ⟨.x, true, 0⟩ (.fld .bz (true, 0) (true, 0) (false, 0))) (.mulS ⟨.x, true, 1⟩ (.fld .bz (true, 1) (true, 0) (false, 0))))),
  .seta (.add .a (.mulS ⟨.y, true, 1⟩ (.add (.mulS ⟨.x, true, 0⟩ (.fld .bz (true, 0) (true, 1) (false, 0))) (.mulS ⟨.x, true, 1⟩ (.fld .bz (true, 1) (true, 1) (false, 0)))))),
  .acc .bz (.mulS ⟨.z, false, 0⟩ .a),
  .seta (.mulS ⟨.y, true, 0⟩ (.add (.mulS ⟨.x, true, 0⟩ (.fld .bz (true, 0) (true, 0) (false, 1))) (.mulS ⟨.x, true, 1⟩ (.fld .bz (true, 1) (true, 0) (false, 1))))),
  .seta (.add .a (.mulS ⟨.y, true, 1⟩ (.add (.mulS ⟨.x, true, 0⟩ (.fld .bz (true, 0) (true, 1) (false, 1))) (.mulS ⟨.x, true, 1⟩ (.fld .bz (true, 1) (true, 1) (false, 1)))))),
  .acc .bz (.mulS ⟨.z, false, 1⟩ .a)]

/-- field_gathering_plus_particle_pusher_3_3_3 (particle_pusher_manager_3d.F90:1975-2151). -/
def kernel_o3 : List GStmt := [
  .seta (.mulS ⟨.y, false, -1⟩ (.add (.add (.mulS ⟨.x, true, -1⟩ (.fld .ex (true, -1) (false, -1) (false, -1))) (.mulS ⟨.x, true, 0⟩ (.fld .ex (true, 0) (false, -1) (false, -1)))) (.mulS ⟨.x, true, 1⟩ (.fld .ex (true, 1) (false, -1) (false, -1))))),
  .seta (.add .a (.mulS ⟨.y, false, 0⟩ (.add (.add (.mulS ⟨.x, true, -1⟩ (.fld .ex (true, -1) (false, 0) (false, -1))) (.mulS ⟨.x, true, 0⟩ (.fld .ex (true, 0) (false, 0) (false, -1)))) (.mulS ⟨.x, true, 1⟩ (.fld .ex (true, 1) (false, 0) (false, -1)))))),
  .seta (.add .a (.mulS ⟨.y, false, 1⟩ (.add (.add (.mulS ⟨.x, true, -1⟩ (.fld .ex (true, -1) (false, 1) (false, -1))) (.mulS ⟨.x, true, 0⟩ (.fld .ex (true, 0) (false, 1) (false, -1)))) (.mulS ⟨.x, true, 1⟩ (.fld .ex (true, 1) (false, 1) (false, -1)))))),
  .seta (.add .a (.mulS ⟨.y, false, 2⟩ (.add (.add (.mulS ⟨.x, true, -1⟩ (.fld .ex (true, -1) (false, 2) (false, -1))) (.mulS ⟨.x, true, 0⟩ (.fld .ex (true, 0) (false, 2) (false, -1)))) (.mulS ⟨.x, true, 1⟩ (.fld .ex (true, 1) (false, 2) (false, -1)))))),
  .acc .ex (.mulS ⟨.z, false, -1⟩ .a),
  .seta (.mulS ⟨.y, false, -1⟩ (.add (.add (.mulS ⟨.x, true, -1⟩ (.fld .ex (true, -1) (false, -1) (false, 0))) (.mulS ⟨.x, true, 0⟩ (.fld .ex (true, 0) (false, -1) (false, 0)))) (.mulS ⟨.x, true, 1⟩ (.fld .ex (true, 1) (false, -1) (false, 0))))),
  .seta (.add .a (.mulS ⟨.y, false, 0⟩ (.add (.add (.mulS ⟨.x, true, -1⟩ (.fld .ex (true, -1) (false, 0) (false, 0))) (.mulS ⟨.x, true, 0⟩ (.fld .ex (true, 0) (false, 0) (false, 0)))) (.mulS ⟨.x, true, 1⟩ (.fld .ex (true, 1) (false, 0) (false, 0)))))),
  .seta (.add .a (.mulS ⟨.y, false, 1⟩ (.add (.add (.mulS ⟨.x, true, -1⟩ (.fld .ex (true, -1) (false, 1) (false, 0))) (.mulS ⟨.x, true, 0⟩ (.fld .ex (true, 0) (false, 1) (false, 0)))) (.mulS ⟨.x, true, 1⟩ (.fld .ex (true, 1) (false, 1) (false, 0)))))),
  .seta (.add .a (.mulS ⟨.y, false, 2⟩ (.add (.add (.mulS ⟨.x, true, -1⟩ (.fld .ex (true, -1) (false, 2) (false, 0))) (.mulS ⟨.x, true, 0⟩ (.fld .ex (true, 0) (false, 2) (false, 0)))) (.mulS ⟨.x, true, 1⟩ (.fld .ex (true, 1) (false, 2) (false, 0)))))),
  .acc .ex (.mulS ⟨.z, false, 0⟩ .a),
  .seta (.mulS ⟨.y, false, -1⟩ (.add (.add (.mulS ⟨.x, true, -1⟩ (.fld .ex (true, -1) (false, -1) (false, 1))) (.mulS ⟨.x, true, 0⟩ (.fld .ex (true, 0) (false, -1) (false, 1)))) (.mulS ⟨.x, true, 1⟩ (.fld .ex (true, 1) (false, -1) (false, 1))))),
  .seta (.add .a (.mulS ⟨.y, false, 0⟩ (.add (.add (.mulS ⟨.x, true, -1⟩ (.fld .ex (true, -1) (false, 0) (false, 1))) (.mulS ⟨.x, true, 0⟩ (.fld .ex (true, 0) (false, 0) (false, 1)))) (.mulS ⟨.x, true, 1⟩ (.fld .ex (true, 1) (false, 0) (false, 1)))))),
  .seta (.add .a (.mulS ⟨.y, false, 1⟩ (.add (.add (.mulS ⟨.x, true, -1⟩ (.fld .ex (true, -1) (false, 1) (false, 1))) (.mulS ⟨.x, true, 0⟩ (.fld .ex (true, 0) (false, 1) (false, 1)))) (.mulS ⟨.x, true, 1⟩ (.fld .ex (true, 1) (false, 1) (false, 1)))))),
  .seta (.add .a (.mulS ⟨.y, false, 2⟩ (.add (.add (.mulS ⟨.x, true, -1⟩ (.fld .ex (true, -1) (false, 2) (false, 1))) (.mulS ⟨.x, true, 0⟩ (.fld .ex (true, 0) (false, 2) (false, 1)))) (.mulS ⟨.x, true, 1⟩ (.fld .ex (true, 1) (false, 2) (false, 1)))))),
  .acc .ex (.mulS ⟨.z, false, 1⟩ .a),
  .seta (.mulS ⟨.y, false, -1⟩ (.add (.add (.mulS ⟨.x, true, -1⟩ (.fld .ex (true, -1) (false, -1) (false, 2))) (.mulS ⟨.x, true, 0⟩ (.fld .ex (true, 0) (false, -1) (false, 2)))) (.mulS ⟨.x, true, 1⟩ (.fld .ex (true, 1) (false, -1) (false, 2))))),
  .seta (.add .a (.mulS ⟨.y, false, 0⟩ (.add (.add (.mulS ⟨.x, true, -1⟩ (.fld .ex (true, -1) (false, 0) (false, 2))) (.mulS ⟨.x, true, 0⟩ (.fld .ex (true, 0) (false, 0) (false, 2)))) (.mulS ⟨.x, true, 1⟩ (.fld .ex (true, 1) (false, 0) (false, 2)))))),
  .seta (.add .a (.mulS ⟨.y, false, 1⟩ (.add (.add (.mulS ⟨.x, true, -1⟩ (.fld .ex (true, -1) (false, 1) (false, 2))) (.mulS ⟨.x, true, 0⟩ (.fld .ex (true, 0) (false, 1) (false, 2)))) (.mulS ⟨.x, true, 1⟩ (.fld .ex (true, 1) (false, 1) (false, 2)))))),
  .seta (.add .a (.mulS ⟨.y, false, 2⟩ (.add (.add (.mulS ⟨.x, true, -1⟩ (.fld .ex (true, -1) (false, 2) (false, 2))) (.mulS ⟨.x, true, 0⟩ (.fld .ex (true, 0) (false, 2) (false, 2)))) (.mulS ⟨.x, true, 1⟩ (.fld .ex (true, 1) (false, 2) (false, 2)))))),
  .acc .ex (.mulS ⟨.z, false, 2⟩ .a),
  .seta (.mulS ⟨.y, true, -1⟩ (.add (.add (.add (.mulS ⟨.x, false, -1⟩ (.fld .ey (false, -1) (true, -1) (false, -1))) (.mulS ⟨.x, false, 0⟩ (.fld .ey (false, 0) (true, -1) (false, -1)))) (.mulS ⟨.x, false, 1⟩ (.fld .ey (false, 1) (true, -1) (false, -1)))) (.mulS ⟨.x, false, 2⟩ (.fld .ey (false, 2) (true, -1) (false, -1))))),
  .seta (.add .a (.mulS ⟨.y, true, 0⟩ (.add (.add (.add (.mulS ⟨.x, false, -1⟩ (.fld .ey (false, -1) (true, 0) (false, -1))) (.mulS ⟨.x, false, 0⟩ (.fld .ey (false, 0) (true, 0) (false, -1)))) (.mulS ⟨.x, false, 1⟩ (.fld .ey (false, 1) (true, 0) (false, -1)))) (.mulS ⟨.x, false, 2⟩ (.fld .ey (false, 2) (true, 0) (false, -1)))))),
  .seta (.add .a (.mulS ⟨.y, true, 1⟩ (.add (.add (.add (.mulS ⟨.x, false, -1⟩ (.fld .ey (false, -1) (true, 1) (false, -1))) (.mulS ⟨.x, false, 0⟩ (.fld .ey (false, 0) (true, 1) (false, -1)))) (.mulS ⟨.x, false, 1⟩ (.fld .ey (false, 1) (true, 1) (false, -1)))) (.mulS ⟨.x, false, 2⟩ (.fld .ey (false, 2) (true, 1) (false, -1)))))),
  .acc .ey (.mulS ⟨.z, false, -1⟩ .a),
  .seta (.mulS ⟨.y, true, -1⟩ (.add (.add (.add (.mulS ⟨.x, false, -1⟩ (.fld .ey (false, -1) (true, -1) (false, 0))) (.mulS ⟨.x, false, 0⟩ (.fld .ey (false, 0) (true, -1) (false, 0)))) (.mulS ⟨.x, false, 1⟩ (.fld .ey (false, 1) (true, -1) (false, 0)))) (.mulS ⟨.x, false, 2⟩ (.fld .ey (false, 2) (true, -1) (false, 0))))),
  .seta (.add .a (.mulS ⟨.y, true, 0⟩ (.add (.add (.add (.mulS ⟨.x, false, -1⟩ (.fld .ey (false, -1) (true, 0) (false, 0))) (.mulS ⟨.x, false, 0⟩ (.fld .ey (false, 0) (true, 0) (false, 0)))) (.mulS ⟨.x, false, 1⟩ (.fld .ey (false, 1) (true, 0) (false, 0)))) (.mulS ⟨.x, false, 2⟩ (.fld .ey (false, 2) (true, 0) (false, 0)))))),
  .seta (.add .a (.mulS ⟨.y, true, 1⟩ (.add (.add (.add (.mulS ⟨.x, false, -1⟩ (.fld .ey (false, -1) (true, 1) (false, 0))) (.mulS ⟨.x, false, 0⟩ (.fld .ey (false, 0) (true, 1) (false, 0)))) (.mulS ⟨.x, false, 1⟩ (.fld .ey (false, 1) (true, 1) (false, 0)))) (.mulS ⟨.x, false, 2⟩ (.fld .ey (false, 2) (true, 1) (false, 0)))))),
  .acc .ey (.mulS ⟨.z, false, 0⟩ .a),
  .seta (.mulS ⟨.y, true, -1⟩ (.add (.add (.add (.mulS ⟨.x, false, -1⟩ (.fld .ey (false, -1) (true, -1) (false, 1))) (.mulS ⟨.x, false, 0⟩ (.fld .ey (false, 0) (true, -1) (false, 1)))) (.mulS ⟨.x, false, 1⟩ (.fld .ey (false, 1) (true, -1) (false, 1)))) (.mulS ⟨.x, false, 2⟩ (.fld .ey (false, 2) (true, -1) (false, 1))))),
  .seta (.add .a (.mulS ⟨.y, true, 0⟩ (.add (.add (.add (.mulS ⟨.x, false, -1⟩ (.fld .ey (false, -1) (true, 0) (false, 1))) (.mulS ⟨.x, false, 0⟩ (.fld .ey (false, 0) (true, 0) (false, 1)))) (.mulS ⟨.x, false, 1⟩ (.fld .ey (false, 1) (true, 0) (false, 1)))) (.mulS ⟨.x, false, 2⟩ (.fld .ey (false, 2) (true, 0) (false, 1)))))),
  .seta (.add .a (.mulS ⟨.y, true, 1⟩ (.add (.add (.add (.mulS ⟨.x, false, -1⟩ (.fld .ey (false, -1) (true, 1) (false, 1))) (.mulS ⟨.x, false, 0⟩ (.fld .ey (false, 0) (true, 1) (false, 1)))) (.mulS ⟨.x, false, 1⟩ (.fld .ey (false, 1) (true, 1) (false, 1)))) (.mulS ⟨.x, false, 2⟩ (.fld .ey (false, 2) (true, 1) (false, 1)))))),
  .acc .ey (.mulS ⟨.z, false, 1⟩ .a),
  .seta (.mulS ⟨.y, true, -1⟩ (.add (.add (.add (.mulS ⟨.x, false, -1⟩ (.fld .ey (false, -1) (true, -1) (false, 2))) (.mulS ⟨.x, false, 0⟩ (.fld .ey (false, 0) (true, -1) (false, 2)))) (.mulS ⟨.x, false, 1⟩ (.fld .ey (false, 1) (true, -1) (false, 2)))) (.mulS ⟨.x, false, 2⟩ (.fld .ey (false, 2) (true, -1) (false, 2))))),
  .seta (.add .a (.mulS ⟨.y, true, 0⟩ (.add (.add (.add (.mulS ⟨.x, false, -1⟩ (.fld .ey (false, -1) (true, 0) (false, 2))) (.mulS ⟨.x, false, 0⟩ (.fld .ey (false, 0) (true, 0) (false, 2)))) (.mulS ⟨.x, false, 1⟩ (.fld .ey (false, 1) (true, 0) (false, 2)))) (.mulS ⟨.x, false, 2⟩ (.fld .ey (false, 2) (true, 0) (false, 2)))))),
  .seta (.add .a (.mulS ⟨.y, true, 1⟩ (.add (.add (.add (.mulS ⟨.x, false, -1⟩ (.fld .ey (false, -1) (true, 1) (false, 2))) (.mulS ⟨.x, false, 0⟩ (.fld .ey (false, 0) (true, 1) (false, 2)))) (.mulS ⟨.x, false, 1⟩ (.fld .ey (false, 1) (true, 1) (false, 2)))) (.mulS ⟨.x, false, 2⟩ (.fld .ey (false, 2) (true, 1) (false, 2)))))),
  .acc .ey (.mulS ⟨.z, false, 2⟩ .a),
  .seta (.mulS ⟨.y, false, -1⟩ (.add (.add (.add (.mulS ⟨.x, false, -1⟩ (.fld .ez (false, -1) (false, -1) (true, -1))) (.mulS ⟨.x, false, 0⟩ (.fld .ez (false, 0) (false, -1) (true, -1)))) (.mulS ⟨.x, false, 1⟩ (.fld .ez (false, 1) (false, -1) (true, -1)))) (.mulS ⟨.x, false, 2⟩ (.fld .ez (false, 2) (false, -1) (true, -1))))),
  .seta (.add .a (.mulS ⟨.y, false, 0⟩ (.add (.add (.add (.mulS ⟨.x, false, -1⟩ (.fld .ez (false, -1) (false, 0) (true, -1))) (.mulS ⟨.x, false, 0⟩ (.fld .ez (false, 0) (false, 0) (true, -1)))) (.mulS ⟨.x, false, 1⟩ (.fld .ez (false, 1) (false, 0) (true, -1)))) (.mulS ⟨.x, false, 2⟩ (.fld .ez (false, 2) (false, 0) (true, -1)))))),
  .seta (.add .a (.mulS ⟨.y, false, 1⟩ (.add (.add (.add (.mulS ⟨.x, false, -1⟩ (.fld .ez (false, -1) (false, 1) (true, -1))) (.mulS ⟨.x, false, 0⟩ (.fld .ez (false, 0) (false, 1) (true, -1)))) (.mulS ⟨.x, false, 1⟩ (.fld .ez (false, 1) (false, 1) (true, -1)))) (.mulS ⟨.x, false, 2⟩ (.fld .ez (false, 2) (false, 1) (true, -1)))))),
  .seta (.add .a (.mulS ⟨.y, false, 2⟩ (.add (.add (.add (.mulS ⟨.x, false, -1⟩ (.fld .ez (false, -1) (false, 2) (true, -1))) (.mulS ⟨.x, false, 0⟩ (.fld .ez (false, 0) (false, 2) (true, -1)))) (.mulS ⟨.x, false, 1⟩ (.fld .ez (false, 1) (false, 2) (true, -1)))) (.mulS ⟨.x, false, 2⟩ (.fld .ez (false, 2) (false, 2) (true, -1)))))),
  .acc .ez (.mulS ⟨.z, true, -1⟩ .a),
  .seta (.mulS ⟨.y, false, -1⟩ (.add (.add (.add (.mulS ⟨.x, false, -1⟩ (.fld .ez (false, -1) (false, -1) (true, 0))) (.mulS ⟨.x, false, 0⟩ (.fld .ez (false, 0) (false, -1) (true, 0)))) (.mulS ⟨.x, false, 1⟩ (.fld .ez (false, 1) (false, -1) (true, 0)))) (.mulS ⟨.x, false, 2⟩ (.fld .ez (false, 2) (false, -1) (true, 0))))),
  .seta (.add .a (.mulS ⟨.y, false, 0⟩ (.add (.add (.add (.mulS ⟨.x, false, -1⟩ (.fld .ez (false, -1) (false, 0) (true, 0))) (.mulS ⟨.x, false, 0⟩ (.fld .ez (false, 0) (false, 0) (true, 0)))) (.mulS ⟨.x, false, 1⟩ (.fld .ez (false, 1) (false, 0) (true, 0)))) (.mulS ⟨.x, false, 2⟩ (.fld .ez (false, 2) (false, 0) (true, 0)))))),
  .seta (.add .a (.mulS ⟨.y, false, 1⟩ (.add (.add (.add (.mulS ⟨.x, false, -1⟩ (.fld .ez (false, -1) (false, 1) (true, 0))) (.mulS ⟨.x, false, 0⟩ (.fld .ez (false, 0) (false, 1) (true, 0)))) (.mulS ⟨.x, false, 1⟩ (.fld .ez (false, 1) (false, 1) (true, 0)))) (.mulS ⟨.x, false, 2⟩ (.fld .ez (false, 2) (false, 1) (true, 0)))))),
  .seta (.add .a (.mulS ⟨.y, false, 2⟩ (.add (.add (.add (.mulS ⟨.x, false, -1⟩ (.fld .ez (false, -1) (false, 2) (true, 0))) (.mulS ⟨.x, false, 0⟩ (.fld .ez (false, 0) (false, 2) (true, 0)))) (.mulS ⟨.x, false, 1⟩ (.fld .ez (false, 1) (false, 2) (true, 0)))) (.mulS ⟨.x, false, 2⟩ (.fld .ez (false, 2) (false, 2) (true, 0)))))),
  .acc .ez (.mulS ⟨.z, true, 0⟩ .a),
  .seta (.mulS ⟨.y, false, -1⟩ (.add (.add (.add (.mulS ⟨.x, false, -1⟩ (.fld .ez (false, -1) (false, -1) (true, 1))) (.mulS ⟨.x, false, 0⟩ (.fld .ez (false, 0) (false, -1) (true, 1)))) (.mulS ⟨.x, false, 1⟩ (.fld .ez (false, 1) (false, -1) (true, 1)))) (.mulS ⟨.x, false, 2⟩ (.fld .ez (false, 2) (false, -1) (true, 1))))),
  .seta (.add .a (.mulS ⟨.y, false, 0⟩ (.add (.add (.add (.mulS ⟨.x, false, -1⟩ (.fld .ez (false, -1) (false, 0) (true, 1))) (.mulS ⟨.x, false, 0⟩ (.fld .ez (false, 0) (false, 0) (true, 1)))) (.mulS ⟨.x, false, 1⟩ (.fld .ez (false, 1) (false, 0) (true, 1)))) (.mulS ⟨.x, false, 2⟩ (.fld .ez (false, 2) (false, 0) (true, 1)))))),
  .seta (.add .a (.mulS ⟨.y, false, 1⟩ (.add (.add (.add (.mulS ⟨.x, false, -1⟩ (.fld .ez (false, -1) (false, 1) (true, 1))) (.mulS ⟨.x, false, 0⟩ (.fld .ez (false, 0) (false, 1) (true, 1)))) (.mulS ⟨.x, false, 1⟩ (.fld .ez (false, 1) (false, 1) (true, 1)))) (.mulS ⟨.x, false, 2⟩ (.fld .ez (false, 2) (false, 1) (true, 1)))))),
  .seta (.add .a (.mulS ⟨.y, false, 2⟩ (.add (.add (.add (.mulS ⟨.x, false, -1⟩ (.fld .ez (false, -1) (false, 2) (true, 1))) (.mulS ⟨.x, false, 0⟩ (.fld .ez (false, 0) (false, 2) (true, 1)))) (.mulS ⟨.x, false, 1⟩ (.fld .ez (false, 1) (false, 2) (true, 1)))) (.mulS ⟨.x, false, 2⟩ (.fld .ez (false, 2) (false, 2) (true, 1)))))),
  .acc .ez (.mulS ⟨.z, true, 1⟩ .a),
  .seta (.mulS ⟨.y, true, -1⟩ (.add (.add (.add (.mulS ⟨.x, false, -1⟩ (.fld .bx (false, -1) (true, -1) (true, -1))) (.mulS ⟨.x, false, 0⟩ (.fld .bx (false, 0) (true, -1) (true, -1)))) (.mulS ⟨.x, false, 1⟩ (.fld .bx (false, 1) (true, -1) (true, -1)))) (.mulS ⟨.x, false, 2⟩ (.fld .bx (false, 2) (true, -1) (true, -1))))),
  .seta (.add .a (.mulS ⟨.y, true, 0⟩ (.add (.add (.add (.mulS ⟨.x, false, -1⟩ (.fld .bx (false, -1) (true, 0) (true, -1))) (.mulS ⟨.x, false, 0⟩ (.fld .bx (false, 0) (true, 0) (true, -1)))) (.mulS ⟨.x, false, 1⟩ (.fld .bx (false, 1) (true, 0) (true, -1)))) (.mulS ⟨.x, false, 2⟩ (.fld .bx (false, 2) (true, 0) (true, -1)))))),
  .seta (.add .a (.mulS ⟨.y, true, 1⟩ (.add (.add (.add (.mulS ⟨.x, false, -1⟩ (.fld .bx (false, -1) (true, 1) (true, -1))) (.mulS ⟨.x, false, 0⟩ (.fld .bx (false, 0) (true, 1) (true, -1)))) (.mulS ⟨.x, false, 1⟩ (.fld .bx (false, 1) (true, 1) (true, -1)))) (.mulS ⟨.x, false, 2⟩ (.fld .bx (false, 2) (true, 1) (true, -1)))))),
  .acc .bx (.mulS ⟨.z, true, -1⟩ .a),
  .seta (.mulS ⟨.y, true, -1⟩ (.add (.add (.add (.mulS ⟨.x, false, -1⟩ (.fld .bx (false, -1) (true, -1) (true, 0))) (.mulS ⟨.x, false, 0⟩ (.fld .bx (false, 0) (true, -1) (true, 0)))) (.mulS ⟨.x, false, 1⟩ (.fld .bx (false, 1) (true, -1) (true, 0)))) (.mulS ⟨.x, false, 2⟩ (.fld .bx (false, 2) (true, -1) (true, 0))))),
  .seta (.add .a (.mulS ⟨.y, true, 0⟩ (.add (.add (.add (.mulS ⟨.x, false, -1⟩ (.fld .bx (false, -1) (true, 0) (true, 0))) (.mulS ⟨.x, false, 0⟩ (.fld .bx (false, 0) (true, 0) (true, 0)))) (.mulS ⟨.x, false, 1⟩ (.fld .bx (false, 1) (true, 0) (true, 0)))) (.mulS ⟨.x, false, 2⟩ (.fld .bx (false, 2) (true, 0) (true, 0)))))),
  .seta (.add .a (.mulS ⟨.y, true, 1⟩ (.add (.add (.add (.mulS ⟨.x, false, -1⟩ (.fld .bx (false, -1) (true, 1) (true, 0))) (.mulS ⟨.x, false, 0⟩ (.fld .bx (false, 0) (true, 1) (true, 0)))) (.mulS ⟨.x, false, 1⟩ (.fld .bx (false, 1) (true, 1) (true, 0)))) (.mulS ⟨.x, false, 2⟩ (.fld .bx (false, 2) (true, 1) (true, 0)))))),
  .acc .bx (.mulS ⟨.z, true, 0⟩ .a),
  .seta (.mulS ⟨.y, true, -1⟩ (.add (.add (.add (.mulS ⟨.x, false, -1⟩ (.fld .bx (false, -1) (true, -1) (true, 1))) (.mulS ⟨.x, false, 0⟩ (.fld .bx (false, 0) (true, -1) (true, 1)))) (.mulS ⟨.x, false, 1⟩ (.fld .bx (false, 1) (true, -1) (true, 1)))) (.mulS ⟨.x, false, 2⟩ (.fld .bx (false, 2) (true, -1) (true, 1))))),
  .seta (.add .a (.mulS ⟨.y, true, 0⟩ (.add (.add (.add (.mulS ⟨.x, false, -1⟩ (.fld .bx (false, -1) (true, 0) (true, 1))) (.mulS ⟨.x, false, 0⟩ (.fld .bx (false, 0) (true, 0) (true, 1)))) (.mulS ⟨.x, false, 1⟩ (.fld .bx (false, 1) (true, 0) (true, 1)))) (.mulS ⟨.x, false, 2⟩ (.fld .bx (false, 2) (true, 0) (true, 1)))))),
  .seta (.add .a (.mulS ⟨.y, true, 1⟩ (.add (.add (.add (.mulS ⟨.x, false, -1⟩ (.fld .bx (false, -1) (true, 1) (true, 1))) (.mulS ⟨.x, false, 0⟩ (.fld .bx (false, 0) (true, 1) (true, 1)))) (.mulS ⟨.x, false, 1⟩ (.fld .bx (false, 1) (true, 1) (true, 1)))) (.mulS ⟨.x, false, 2⟩ (.fld .bx (false, 2) (true, 1) (true, 1)))))),
  .acc .bx (.mulS ⟨.z, true, 1⟩ .a),
  .seta (.mulS ⟨.y, false, -1⟩ (.add (.add (.mulS ⟨.x, true, -1⟩ (.fld .by' (true, -1) (false, -1) (true, -1))) (.mulS ⟨.x, true, 0⟩ (.fld .by' (true, 0) (false, -1) (true, -1)))) (.mulS ⟨.x, true, 1⟩ (.fld .by' (true, 1) (false, -1) (true, -1))))),
  .seta (.add .a (.mulS ⟨.y, false, 0⟩ (.add (.add (.mulS ⟨.x, true, -1⟩ (.fld .by' (true, -1) (false, 0) (true, -1))) (.mulS ⟨.x, true, 0⟩ (.fld .by' (true, 0) (false, 0) (true, -1)))) (.mulS ⟨.x, true, 1⟩ (.fld .by' (true, 1) (false, 0) (true, -1)))))),
  .seta (.add .a (.mulS ⟨.y, false, 1⟩ (.add (.add (.mulS ⟨.x, true, -1⟩ (.fld .by' (true, -1) (false, 1) (true, -1))) (.mulS ⟨.x, true, 0⟩ (.fld .by' (true, 0) (false, 1) (true, -1)))) (.mulS ⟨.x, true, 1⟩ (.fld .by' (true, 1) (false, 1) (true, -1)))))),
  .seta (.add .a (.mulS ⟨.y, false, 2⟩ (.add (.add (.mulS ⟨.x, true, -1⟩ (.fld .by' (true, -1) (false, 2) (true, -1))) (.mulS ⟨.x, true, 0⟩ (.fld .by' (true, 0) (false, 2) (true, -1)))) (.mulS ⟨.x, true, 1⟩ (.fld .by' (true, 1) (false, 2) (true, -1)))))),
  .acc .by' (.mulS ⟨.z, true, -1⟩ .a),
  .seta (.mulS ⟨.y, false, -1⟩ (.add (.add (.mulS ⟨.x, true, -1⟩ (.fld .by' (true, -1) (false, -1) (true, 0))) (.mulS ⟨.x, true, 0⟩ (.fld .by' (true, 0) (false, -1) (true, 0)))) (.mulS ⟨.x, true, 1⟩ (.fld .by' (true, 1) (false, -1) (true, 0))))),
  .seta (.add .a (.mulS ⟨.y, false, 0⟩ (.add (.add (.mulS ⟨.x, true, -1⟩ (.fld .by' (true, -1) (false, 0) (true, 0))) (.mulS ⟨.x, true, 0⟩ (.fld .by' (true, 0) (false, 0) (true, 0)))) (.mulS ⟨.x, true, 1⟩ (.fld .by' (true, 1) (false, 0) (true, 0)))))),
  .seta (.add .a (.mulS ⟨.y, false, 1⟩ (.add (.add (.mulS ⟨.x, true, -1⟩ (.fld .by' (true, -1) (false, 1) (true, 0))) (.mulS ⟨.x, true, 0⟩ (.fld .by' (true, 0) (false, 1) (true, 0)))) (.mulS ⟨.x, true, 1⟩ (.fld .by' (true, 1) (false, 1) (true, 0)))))),
  .seta (.add .a (.mulS ⟨.y, false, 2⟩ (.add (.add (.mulS ⟨.x, true, -1⟩ (.fld .by' (true, -1) (false, 2) (true, 0))) (.mulS ⟨.x, true, 0⟩ (.fld .by' (true, 0) (false, 2) (true, 0)))) (.mulS ⟨.x, true, 1⟩ (.fld .by' (true, 1) (false, 2) (true, 0)))))),
  .acc .by' (.mulS ⟨.z, true, 0⟩ .a),
  .seta (.mulS ⟨.y, false, -1⟩ (.add (.add (.mulS ⟨.x, true, -1⟩ (.fld .by' (true, -1) (false, -1) (true, 1))) (.mulS ⟨.x, true, 0⟩ (.fld .by' (true, 0) (false, -1) (true, 1)))) (.mulS ⟨.x, true, 1⟩ (.fld .by' (true, 1) (false, -1) (true, 1))))),
  .seta (.add .a (.mulS ⟨.y, false, 0⟩ (.add (.add (.mulS ⟨.x, true, -1⟩ (.fld .by' (true, -1) (false, 0) (true, 1))) (.mulS ⟨.x, true, 0⟩ (.fld .by' (true, 0) (false, 0) (true, 1)))) (.mulS ⟨.x, true, 1⟩ (.fld .by' (true, 1) (false, 0) (true, 1)))))),
  .seta (.add .a (.mulS ⟨.y, false, 1⟩ (.add (.add (.mulS ⟨.x, true, -1⟩ (.fld .by' (true, -1) (false, 1) (true, 1))) (.mulS ⟨.x, true, 0⟩ (.fld .by' (true, 0) (false, 1) (true, 1)))) (.mulS ⟨.x, true, 1⟩ (.fld .by' (true, 1) (false, 1) (true, 1)))))),
  .seta (.add .a (.mulS ⟨.y, false, 2⟩ (.add (.add (.mulS ⟨.x, true, -1⟩ (.fld .by' (true, -1) (false, 2) (true, 1))) (.mulS ⟨.x, true, 0⟩ (.fld .by' (true, 0) (false, 2) (true, 1)))) (.mulS ⟨.x, true, 1⟩ (.fld .by' (true, 1) (false, 2) (true, 1)))))),
  .acc .by' (.mulS ⟨.z, true, 1⟩ .a),
  .seta (.mulS ⟨.y, true, -1⟩ (.add (.add (.mulS ⟨.x, true, -1⟩ (.fld .bz (true, -1) (true, -1) (false, -1))) (.mulS ⟨.x, true, 0⟩ (.fld .bz (true, 0) (true, -1) (false, -1)))) (.mulS ⟨.x, true, 1⟩ (.fld .bz (true, 1) (true, -1) (false, -1))))),
  .seta (.add .a (.mulS ⟨.y, true, 0⟩ (.add (.add (.mulS ⟨.x, true, -1⟩ (.fld .bz (true, -1) (true, 0) (false, -1))) (.mulS ⟨.x, true, 0⟩ (.fld .bz (true, 0) (true, 0) (false, -1)))) (.mulS ⟨.x, true, 1⟩ (.fld .bz (true, 1) (true, 0) (false, -1)))))),
  .seta (.add .a (.mulS ⟨.y, true, 1⟩ (.add (.add (.mulS ⟨.x, true, -1⟩ (.fld .bz (true, -1) (true, 1) (false, -1))) (.mulS ⟨.x, true, 0⟩ (.fld .bz (true, 0) (true, 1) (false, -1)))) (.mulS ⟨.x, true, 1⟩ (.fld .bz (true, 1) (true, 1) (false, -1)))))),
  .acc .bz (.mulS ⟨.z, false, -1⟩ .a),
  .seta (.mulS ⟨.y, true, -1⟩ (.add (.add (.mulS ⟨.x, true, -1⟩ (.fld .bz (true, -1) (true, -1) (false, 0))) (.mulS ⟨.x, true, 0⟩ (.fld .bz (true, 0) (true, -1) (false, 0)))) (.mulS ⟨.x, true, 1⟩ (.fld .bz (true, 1) (true, -1) (false, 0))))),
  .seta (.add .a (.mulS ⟨.y, true, 0⟩ (.add (.add (.mulS ⟨.x, true, -1⟩ (.fld .bz (true, -1) (true, 0) (false, 0))) (.mulS ⟨.x, true, 0⟩ (.fld .bz (true, 0) (true, 0) (false, 0)))) (.mulS ⟨.x, true, 1⟩ (.fld .bz (true, 1) (true, 0) (false, 0)))))),
  .seta (.add .a (.mulS ⟨.y, true, 1⟩ (.add (.add (.mulS ⟨.x, true, -1⟩ (.fld .bz (true, -1) (true, 1) (false, 0))) (.mulS ⟨.x, true, 0⟩ (.fld .bz (true, 0) (true, 1) (false, 0)))) (.mulS ⟨.x, true, 1⟩ (.fld .bz (true, 1) (true, 1) (false, 0)))))),
  .acc .bz (.mulS ⟨.z, false, 0⟩ .a),
  .seta (.mulS ⟨.y, true, -1⟩ (.add (.add (.mulS ⟨.x, true, -1⟩ (.fld .bz (true, -1) (true, -1) (false, 1))) (.mulS ⟨.x, true, 0⟩ (.fld .bz (true, 0) (true, -1) (false, 1)))) (.mulS ⟨.x, true, 1⟩ (.fld .bz (true, 1) (true, -1) (false, 1))))),
  .seta (.add .a (.mulS ⟨.y, true, 0⟩ (.add (.add (.mulS ⟨.x, true, -1⟩ (.fld .bz (true, -1) (true, 0) (false, 1))) (.mulS ⟨.x, true, 0⟩ (.fld .bz (true, 0) (true, 0) (false, 1)))) (.mulS ⟨.x, true, 1⟩ (.fld .bz (true, 1) (true, 0) (false, 1)))))),
  .seta (.add .a (.mulS ⟨.y, true, 1⟩ (.add (.add (.mulS ⟨.x, true, -1⟩ (.fld .bz (true, -1) (true, 1) (false, 1))) (.mulS ⟨.x, true, 0⟩ (.fld .bz (true, 0) (true, 1) (false, 1)))) (.mulS ⟨.x, true, 1⟩ (.fld .bz (true, 1) (true, 1) (false, 1)))))),
  .acc .bz (.mulS ⟨.z, false, 1⟩ .a),
  .seta (.mulS ⟨.y, true, -1⟩ (.add (.add (.mulS ⟨.x, true, -1⟩ (.fld .bz (true, -1) (true, -1) (false, 2))) (.mulS ⟨.x, true, 0⟩ (.fld .bz (true, 0) (true, -1) (false, 2)))) (.mulS ⟨.x, true, 1⟩ (.fld .bz (true, 1) (true, -1) (false, 2))))),
  .seta (.add .a (.mulS ⟨.y, true, 0⟩ (.add (.add (.mulS ⟨.x, true, -1⟩ (.fld .bz (true, -1) (true, 0) (false, 2))) (.mulS ⟨.x, true, 0⟩ (.fld .bz (true, 0) (true, 0) (false, 2)))) (.mulS ⟨.x, true, 1⟩ (.fld .bz (true, 1) (true, 0) (false, 2)))))),
  .seta (.add .a (.mulS ⟨.y, true, 1⟩ (.add (.add (.mulS ⟨.x, true, -1⟩ (.fld .bz (true, -1) (true, 1) (false, 2))) (.mulS ⟨.x, true, 0⟩ (.fld .bz (true, 0) (true, 1) (false, 2)))) (.mulS ⟨.x, true, 1⟩ (.fld .bz (true, 1) (true, 1) (false, 2)))))),
  .acc .bz (.mulS ⟨.z, false, 2⟩ .a)]

end Picsar.PushMgr
