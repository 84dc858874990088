import Verif.Model.Gather
import Mathlib.Analysis.Complex.Trigonometric
import Mathlib.Analysis.Real.Sqrt

/-
Field gathering in cylindrical geometry with azimuthal modes:
src/field_gathering/energy_conserving/field_gathering_on_circ.F90 (pxr_gete2drz_n_energy_conserving, pxr_getb2drz_n_energy_conserving) and
src/field_gathering/field_gathering_manager_circ.F90 (geteb2dcirc_energy_conserving, geteb2dcirc_energy_conserving_generic).
Reals for floating point, `ℤ` for indices; every read of a grid array is checked against its declared bounds. Simplification: the phase
`xy0 = cmplx(costheta, -sintheta)` is exact (the program computes it in single precision: `cmplx` without a kind). Orders 1, 2, 3: other orders
leave the local arrays of weights unset.
-/
namespace Picsar.CircGather
open Picsar Picsar.Grid Picsar.Deposition Picsar.Gather

/-- `complex(num) :: a(jlo:jhi, llo:lhi, 0:nm-1)` (field_gathering_on_circ.F90:81-86, 371-376). -/
structure CArr where
  jlo : ℤ
  jhi : ℤ
  llo : ℤ
  lhi : ℤ
  nm : ℕ
  val : ℤ → ℤ → ℕ → ℂ

/-- Declared element. -/
def CArr.Has (a : CArr) (j l : ℤ) (m : ℕ) : Prop := a.jlo ≤ j ∧ j ≤ a.jhi ∧ a.llo ≤ l ∧ l ≤ a.lhi ∧ m < a.nm

instance (a : CArr) (j l : ℤ) (m : ℕ) : Decidable (a.Has j l m) := by unfold CArr.Has; infer_instance

/-- Read of an element; outside the declared bounds it is undefined behaviour. -/
noncomputable def CArr.get (a : CArr) (j l : ℤ) (m : ℕ) : Res ℂ := if a.Has j l m then .ok (a.val j l m) else .error .outOfBounds

/-- `nox`, `noz`, `l_lower_order_in_v`, `l_nodal`. -/
structure Opt where
  nr : ℕ
  nz : ℕ
  lower : Bool
  nodal : Bool

/-- Along r. -/
def Opt.cr (o : Opt) : Cfg := ⟨o.nr, o.lower, o.nodal⟩
/-- Along z. -/
def Opt.cz (o : Opt) : Cfg := ⟨o.nz, o.lower, o.nodal⟩

/-- The field of one particle: `ex(ip), ey(ip), ez(ip)`. -/
abbrev Out := ℝ × ℝ × ℝ

/-- `costheta`, `sintheta` (field_gathering_on_circ.F90:136-143, 431-438). -/
noncomputable def cosSin (dxi x y : ℝ) : ℝ × ℝ :=
  let r := √(x * x + y * y)
  if r * dxi > 1 / 10 ^ 20 then (x / r, y / r) else (1, 0)

/-- Mode 0 of the two transverse components, staggered along r if `sr` and along z if `sz`: both arrays are read with the same stencil
(field_gathering_on_circ.F90:283-288 for E, 579-584 for B; stencils: 150-192, 194-281). -/
noncomputable def vec0 (o : Opt) (sr sz : Bool) (a b : CArr) (c s R Z : ℝ) (v : Out) : Res Out :=
  (axisWts o.cz sz Z).foldlM (fun (v : Out) wz => (axisWts o.cr sr R).foldlM (fun (v : Out) wr => do
    let p ← a.get (base o.cr sr R + wr.1) (base o.cz sz Z + wz.1) 0
    let q ← b.get (base o.cr sr R + wr.1) (base o.cz sz Z + wz.1) 0
    pure (v.1 + wz.2 * wr.2 * (p * c - q * s).re, v.2.1 + wz.2 * wr.2 * (p * s + q * c).re, v.2.2)) v) v

/-- Mode 0 of the longitudinal component (field_gathering_on_circ.F90:290-294, 586-590). -/
noncomputable def scal0 (o : Opt) (sr sz : Bool) (a : CArr) (R Z : ℝ) (v : Out) : Res Out :=
  (axisWts o.cz sz Z).foldlM (fun (v : Out) wz => (axisWts o.cr sr R).foldlM (fun (v : Out) wr => do
    let p ← a.get (base o.cr sr R + wr.1) (base o.cz sz Z + wz.1) 0
    pure (v.1, v.2.1, v.2.2 + wr.2 * wz.2 * p.re)) v) v

/-- Modes above 0 of the two transverse components: the weights are those of the component, the indices are `j+jj, l+ll` with the nodes `j`, `l`
of the unstaggered stencil (field_gathering_on_circ.F90:300-307, 596-603). -/
noncomputable def vecM (o : Opt) (sr sz : Bool) (a b : CArr) (m : ℕ) (xy : ℂ) (c s R Z : ℝ) (v : Out) : Res Out :=
  (axisWts o.cz sz Z).foldlM (fun (v : Out) wz => (axisWts o.cr sr R).foldlM (fun (v : Out) wr => do
    let p ← a.get (base o.cr false R + wr.1) (base o.cz false Z + wz.1) m
    let q ← b.get (base o.cr false R + wr.1) (base o.cz false Z + wz.1) m
    let exc := (p * xy).re
    let eyc := (q * xy).re
    pure (v.1 + wr.2 * wz.2 * (exc * c - eyc * s), v.2.1 + wr.2 * wz.2 * (exc * s + eyc * c), v.2.2)) v) v

/-- Modes above 0 of the longitudinal component (field_gathering_on_circ.F90:309-314, 604-609). -/
noncomputable def scalM (o : Opt) (sr sz : Bool) (a : CArr) (m : ℕ) (xy : ℂ) (R Z : ℝ) (v : Out) : Res Out :=
  (axisWts o.cz sz Z).foldlM (fun (v : Out) wz => (axisWts o.cr sr R).foldlM (fun (v : Out) wr => do
    let p ← a.get (base o.cr false R + wr.1) (base o.cz false Z + wz.1) m
    pure (v.1, v.2.1, v.2.2 + wr.2 * wz.2 * (p * xy).re)) v) v

/-- The three arrays of a field and the number of modes passed with them. -/
structure Fld where
  r : CArr
  t : CArr
  z : CArr

/-- `xmin`, `zmin`, `dx`, `dz`. -/
structure RzGeo where
  rmin : ℝ
  zmin : ℝ
  dr : ℝ
  dz : ℝ

/-- Body of the loop over the particles, for the particle at `x, y, z` with the field `v` gathered so far
(field_gathering_on_circ.F90:131-317 and 426-613). `vr, vz` and `lr, lz` say in which directions the stencils of the transverse and of the
longitudinal components are staggered. -/
noncomputable def gatherOne (o : Opt) (vr vz lr lz : Bool) (nmodes : ℕ) (g : RzGeo) (F : Fld) (x y z : ℝ) (v : Out) : Res Out := do
  let dxi := 1 / g.dr
  let dzi := 1 / g.dz
  let cs := cosSin dxi x y
  let R := (√(x * x + y * y) - g.rmin) * dxi
  let xy0 : ℂ := ⟨cs.1, -cs.2⟩
  let Z := (z - g.zmin) * dzi
  let v ← vec0 o vr vz F.r F.t cs.1 cs.2 R Z v
  let v ← scal0 o lr lz F.z R Z v
  let e ← (List.range' 1 (nmodes - 1)).foldlM (fun (st : ℂ × Out) m => do
    let xy := st.1 * xy0
    let v ← vecM o vr vz F.r F.t m xy cs.1 cs.2 R Z st.2
    let v ← scalM o lr lz F.z m xy R Z v
    pure (xy, v)) (1, v)
  pure e.2

/-- A particle's position. -/
abbrev Pt := ℝ × ℝ × ℝ

/-- `do ip=1, np` (field_gathering_on_circ.F90:130, 425). -/
noncomputable def gatherAll (o : Opt) (vr vz lr lz : Bool) (nmodes : ℕ) (g : RzGeo) (F : Fld) : List (Pt × Out) → Res (List Out)
  | [] => .ok []
  | p :: ps => do
    let v ← gatherOne o vr vz lr lz nmodes g F p.1.1 p.1.2.1 p.1.2.2 p.2
    let vs ← gatherAll o vr vz lr lz nmodes g F ps
    pure (v :: vs)

/-- `pxr_gete2drz_n_energy_conserving` (field_gathering_on_circ.F90:66-323): transverse components staggered along r, longitudinal along z. -/
noncomputable def gatherE := fun (o : Opt) => gatherAll o true false false true

/-- `pxr_getb2drz_n_energy_conserving` (field_gathering_on_circ.F90:356-617): transverse components staggered along z, longitudinal along r. -/
noncomputable def gatherB := fun (o : Opt) => gatherAll o false true true false

/-- `geteb2dcirc_energy_conserving_generic` (field_gathering_manager_circ.F90:110-167): E, then B. `geteb2dcirc_energy_conserving` (59-87) is the
same with six arrays of one size. -/
noncomputable def getEB (o : Opt) (nmodes : ℕ) (g : RzGeo) (E B : Fld) (ps : List (Pt × Out × Out)) : Res (List Out × List Out) := do
  let e ← gatherE o nmodes g E (ps.map fun p => (p.1, p.2.1))
  let b ← gatherB o nmodes g B (ps.map fun p => (p.1, p.2.2))
  pure (e, b)

end Picsar.CircGather
