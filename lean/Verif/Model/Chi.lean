import Verif.Model.Vec3
import Mathlib.Analysis.SpecialFunctions.Trigonometric.Basic

/-
Model of src/multi_physics/QED/src/chi_functions.hpp and of the constants of qed_commons.h it uses.
-/
namespace Picsar

/-- qed_commons.h:139-156: the constants that depend on the unit system, and whether
`PXRMP_WITH_SI_UNITS` is defined. -/
structure Units where
  si : Bool
  c : ℝ
  emass : ℝ
  schwinger : ℝ
  pairCoeff : ℝ
  qsCoeff : ℝ
  schwCoeff : ℝ

/-- All constants are positive. -/
structure Units.Pos (U : Units) : Prop where
  c : 0 < U.c
  emass : 0 < U.emass
  schwinger : 0 < U.schwinger
  pairCoeff : 0 < U.pairCoeff
  qsCoeff : 0 < U.qsCoeff
  schwCoeff : 0 < U.schwCoeff

section Constants
/-- qed_commons.h:74 (`pi` is the real π in the model). -/
noncomputable def cPi : ℝ := Real.pi
/-- qed_commons.h:76-81. -/
noncomputable def cMe : ℝ := 9.10938356e-31
noncomputable def cQe : ℝ := 1.6021766208e-19
noncomputable def cC : ℝ := 299792458
noncomputable def cHbar : ℝ := 1.054571800e-34
noncomputable def cEps0 : ℝ := 8.854187817e-12
noncomputable def cAlpha : ℝ := 0.0072973525664
/-- qed_commons.h:83-85. -/
noncomputable def cRe : ℝ := cQe * cQe / (4 * cPi * cEps0 * cMe * cC * cC)
/-- qed_commons.h:87-89. -/
noncomputable def cSchwinger : ℝ := cMe * cMe * (cC * cC * cC) / (cQe * cHbar)
/-- qed_commons.h:91-93. -/
noncomputable def cPairRate : ℝ := cAlpha * cMe * cC * cC / cHbar
/-- qed_commons.h:95. -/
noncomputable def cTauE : ℝ := cRe / cC
/-- qed_commons.h:97-98. -/
noncomputable def cQsRate : ℝ := cAlpha * cAlpha / cTauE
/-- qed_commons.h:100-103. -/
noncomputable def cSchwRate : ℝ :=
  cQe * cQe * cSchwinger * cSchwinger / (4 * cPi * cPi * cHbar * cHbar * cC)

/-- qed_commons.h:140-147, SI units (the default). -/
noncomputable def siUnits : Units :=
  ⟨true, cC, cMe, cSchwinger, cPairRate * cMe * cC * cC, cQsRate * cMe * cC * cC, cSchwRate⟩

/-- qed_commons.h:148-156, normalised units. -/
noncomputable def normUnits : Units :=
  ⟨false, 1, 1, cMe * cC / (cHbar * 2 * cPi), cPairRate / (2 * cPi * cC), cQsRate / (2 * cPi * cC),
    cSchwRate / (16 * cPi * cPi * cPi * cPi * cC)⟩
end Constants

/-- chi_functions.hpp:61-63 (also breit_wheeler_engine.hpp:322-324, quantum_sync_engine.hpp:370-372,
schwinger_pair_engine.hpp:243-245): in SI units `lambda` is forced to 1. -/
def Units.lam (U : Units) (lambda : ℝ) : ℝ := if U.si then 1 else lambda

/-- chi_functions.hpp:51-81 `chi_photon`. -/
noncomputable def chiPhoton (U : Units) (p e b : V3) (lambda : ℝ) : ℝ :=
  let lam := U.lam lambda
  let normP := p.norm
  if normP = 0 then 0
  else
    let pUnit := p.sdiv normP
    let eperp := e.sub (V3.smul (pUnit.dot e) pUnit)
    let mod := (eperp.add ((V3.smul U.c pUnit).cross b)).norm
    let coeff := 1 / (U.emass * U.c * U.schwinger * lam)
    mod * normP * coeff

/-- chi_functions.hpp:86-133 `chi_lepton`. -/
noncomputable def chiLepton (U : Units) (p e b : V3) (lambda : ℝ) : ℝ :=
  let lam := U.lam lambda
  let normP2 := p.norm2
  if normP2 = 0 then 0
  else
    let normP := Real.sqrt normP2
    let pUnit := p.sdiv normP
    let gamma2 := 1 + (normP / (U.emass * U.c)) * (normP / (U.emass * U.c))
    let gamma := Real.sqrt gamma2
    let beta := Real.sqrt (1 - 1 / gamma2)
    let betaVec := V3.smul beta pUnit
    let betaDotE := betaVec.dot e
    let betaDotE2 := betaDotE * betaDotE
    let ePlusVxB2 := (e.add ((V3.smul U.c betaVec).cross b)).norm2
    let coeff := 1 / (U.schwinger * lam)
    gamma * Real.sqrt |betaDotE2 - ePlusVxB2| * coeff

end Picsar
