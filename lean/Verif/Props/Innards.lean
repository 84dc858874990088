import Verif.Model.Innards
import Verif.Model.OmpTables
import Verif.Props.OpticalDepth

/-
C33: an engine rebuilt from the exported innards.
-/
namespace Picsar.Props
open Picsar

/-- Both tables of the engine have been generated (or read) and their arrays have matching sizes. -/
structure TablesReady {C R : Type} (e : Engine C R) : Prop where
  rateInit : e.rate.init = true
  rateSize : e.rate.data.length = e.rate.coords.length
  cumInit : e.cumInit = true
  cumSize : e.cum.data.length = e.cum.coords0.length * e.cum.coords1.length

theorem C33_same_state {C R : Type} (e : Engine C R) (h : TablesReady e) : Engine.ofInnards e.exportInnards = e := by
  obtain ⟨ctrl, lambda, rng, ⟨rc, rdat, ri⟩, ⟨c0, c1, d⟩, ci⟩ := e
  obtain ⟨h1, h2, h3, h4⟩ := h
  simp only at h1 h2 h3 h4
  subst h1 h3
  simp only [Engine.ofInnards, Engine.exportInnards, List.take_length]
  rw [← h2, ← h4, List.take_length, List.take_length]

/-- C33 (Breit-Wheeler), engines whose tables are ready: every history of calls on the rebuilt engine gives the same
answers, draw by draw, as on the original. -/
theorem C33_pair_engine_partial {R : Type} (U : Units) (TT : ℝ → ℝ) (g : Rng R) (e : Engine BWCtrl R) (h : TablesReady e)
    (calls : List EngineCall) :
    history (BW.call U TT g) calls (Engine.ofInnards e.exportInnards) = history (BW.call U TT g) calls e := by
  rw [C33_same_state e h]

/-- C33 (quantum synchrotron), engines whose tables are ready. -/
theorem C33_photon_engine_partial {R : Type} (U : Units) (KK : ℝ → ℝ) (g : Rng R) (e : Engine QSCtrl R) (h : TablesReady e)
    (calls : List EngineCall) :
    history (QS.call U KK g) calls (Engine.ofInnards e.exportInnards) = history (QS.call U KK g) calls e := by
  rw [C33_same_state e h]

/-- C33 fails for an engine whose rate table was not generated: the rebuilt engine claims to be ready. -/
theorem C33_flag_refuted {R : Type} (U : Units) (TT : ℝ → ℝ) (g : Rng R) (ctrl : BWCtrl) (lambda : ℝ) (r : R) :
    history (BW.call U TT g) [.tablesReady] (Engine.fresh ctrl lambda r) = [.ok (.ready false false)] ∧
    history (BW.call U TT g) [.tablesReady] (Engine.ofInnards (Engine.fresh ctrl lambda r).exportInnards) =
      [.ok (.ready true true)] := by
  constructor <;> rfl

theorem empty_interp (d : List ℝ) (w : ℝ) : (⟨[], d, true⟩ : Lookup1d).interpLinearEquispaced w = .error .outOfBounds := by
  simp [Lookup1d.interpLinearEquispaced, equispacedIndex, rd_oob]

/-- C33 fails for such an engine (quantum synchrotron): for every lepton above the threshold, not at rest, the original
computes the rate from the integral, while the rebuilt engine reads past the end of an empty table. -/
theorem C33_evolve_refuted {R : Type} (U : Units) (KK : ℝ → ℝ) (g : Rng R) (ctrl : QSCtrl) (lambda : ℝ) (r : R)
    (p ef b : V3) (dt depth : ℝ) (hchi : ctrl.chiPartMin < chiLepton U p ef b (U.lam lambda)) (hmin : 0 ≤ ctrl.chiPartMin)
    (hp : p.norm * U.c ≠ 0) :
    history (QS.call U KK g) [.evolve p ef b dt depth] (Engine.fresh ctrl lambda r) =
      [(stepDepth (QS.computeDnDt U KK lambda (p.norm * U.c) (chiLepton U p ef b lambda)) dt depth).map .evolved] ∧
    history (QS.call U KK g) [.evolve p ef b dt depth] (Engine.ofInnards (Engine.fresh ctrl lambda r).exportInnards) =
      [.error .outOfBounds] := by
  have hn : ¬ chiLepton U p ef b (U.lam lambda) ≤ ctrl.chiPartMin := not_le.mpr hchi
  constructor
  · simp only [history, QS.call, QS.evolve, QS.evolveInternal, Engine.fresh, hn, if_false, Lookup1d.empty,
      except_bind_ok, Bool.false_eq_true]
    cases h : stepDepth (QS.computeDnDt U KK lambda (p.norm * U.c) (chiLepton U p ef b lambda)) dt depth <;>
      simp [Except.map, pure, Except.pure, bind, Except.bind]
  · have h0 : ¬ (p.norm * U.c = 0 ∨ chiLepton U p ef b (U.lam lambda) = 0) := by
      push Not
      exact ⟨hp, by linarith⟩
    have hemp : (⟨List.take ([] : List ℝ).length [], List.take ([] : List ℝ).length [], true⟩ : Lookup1d) = ⟨[], [], true⟩ := rfl
    simp only [history, QS.call, QS.evolve, QS.evolveInternal, Engine.ofInnards, Engine.exportInnards, Engine.fresh, hn,
      if_false, Lookup1d.empty, QS.interpDnDt, h0, hemp, empty_interp, except_bind_error, if_true]

/-- Non-vacuity: an engine with generated tables is ready (two columns at least). -/
example : TablesReady (R := ℕ) ⟨(⟨1, 1, 16, 3, 1, 16, 3, 3⟩ : BWCtrl), 1, 0,
    BW.dnDtTable ⟨1, 1, 16, 3, 1, 16, 3, 3⟩ (fun _ => 1), BW.pairTable ⟨1, 1, 16, 3, 1, 16, 3, 3⟩ (fun _ _ => 1 / 4), true⟩ := by
  refine ⟨rfl, ?_, rfl, ?_⟩
  · simp [BW.dnDtTable, Lookup1d.mk']
  · simp [BW.pairTable, List.length_flatMap]

/-- Non-vacuity of the refuted case: a lepton in a transverse electric field with chi above a threshold of zero. -/
example : ∃ (p ef b : V3), 0 < chiLepton exUnits p ef b (exUnits.lam 1) ∧ p.norm * exUnits.c ≠ 0 := by
  have hn : (⟨1, 0, 0⟩ : V3).norm = 1 := by simp [V3.norm, V3.norm2]
  refine ⟨⟨1, 0, 0⟩, ⟨0, 1, 0⟩, V3.zero, ?_, by simp [hn, exUnits]⟩
  simp only [chiLepton, V3.norm2, V3.sdiv, V3.smul, V3.dot, V3.add, V3.cross, V3.zero, exUnits, Units.lam]
  norm_num

end Picsar.Props
