import Mathlib.Analysis.Real.Sqrt
import Mathlib.Tactic.Ring

/-
Model of src/multi_physics/QED/src/vec_functions.hpp (3-vectors), over ℝ.
-/
namespace Picsar

/-- vec_functions.hpp / picsar_array.hpp: `vec3<_REAL>` = `picsar_array<_REAL,3>`. -/
@[ext] structure V3 where
  x : ℝ
  y : ℝ
  z : ℝ

namespace V3

/-- The zero vector. -/
def zero : V3 := ⟨0, 0, 0⟩

/-- vec_functions.hpp:75-80 `norm2`. -/
def norm2 (v : V3) : ℝ := v.x * v.x + v.y * v.y + v.z * v.z

/-- vec_functions.hpp:82-88 `norm`. -/
noncomputable def norm (v : V3) : ℝ := Real.sqrt v.norm2

/-- vec_functions.hpp:90-96 `dot`. -/
def dot (a b : V3) : ℝ := a.x * b.x + a.y * b.y + a.z * b.z

/-- vec_functions.hpp:98-109 `cross`. -/
def cross (a b : V3) : V3 :=
  ⟨a.y * b.z - a.z * b.y, a.z * b.x - a.x * b.z, a.x * b.y - a.y * b.x⟩

/-- vec_functions.hpp:111-137, vector times scalar (both orders). -/
def smul (s : ℝ) (v : V3) : V3 := ⟨v.x * s, v.y * s, v.z * s⟩

/-- vec_functions.hpp:139-150, vector divided by scalar (callers guarantee or check `s ≠ 0`). -/
noncomputable def sdiv (v : V3) (s : ℝ) : V3 := ⟨v.x / s, v.y / s, v.z / s⟩

/-- vec_functions.hpp:152-162. -/
def add (a b : V3) : V3 := ⟨a.x + b.x, a.y + b.y, a.z + b.z⟩

/-- vec_functions.hpp:164-174. -/
def sub (a b : V3) : V3 := ⟨a.x - b.x, a.y - b.y, a.z - b.z⟩

end V3

end Picsar
