import Verif.Lemmas.OmpTables

/-
C32: the tables filled by the OpenMP loops do not depend on the schedule.
-/
namespace Picsar.Props
open Picsar

/-- A schedule (which of the `n` iterations makes the next step) that lets every iteration of `nc` steps finish. -/
def Complete (n nc : ℕ) (sched : List ℕ) : Prop :=
  (∀ i ∈ sched, i < n) ∧ ∀ i, i < n → nc ≤ sched.count i

/-- C32 (pair table). Whatever the interleaving of the rows, the loop writes only inside the array, leaves no element
unwritten, and the table is the one computed sequentially. -/
theorem C32_pair_table_any_schedule (ctrl : BWCtrl) (cum : ℝ → ℝ → ℝ) (sched : List ℕ)
    (hnf : 2 ≤ (generateLinSpacedVec 0 (1 / 2) ctrl.fracHowMany).length)
    (hsz : (generateLinSpacedVec 0 (1 / 2) ctrl.fracHowMany).length < 2 ^ 64)
    (hc : Complete ((generateLogSpacedVec ctrl.tpairMin ctrl.tpairMax ctrl.tpairHowMany).filterMap id).length
      (generateLinSpacedVec 0 (1 / 2) ctrl.fracHowMany).length sched) :
    bwTableOmp ctrl cum sched =
      .ok ((BW.pairTable ctrl cum).coords0, (BW.pairTable ctrl cum).coords1, (BW.pairTable ctrl cum).data.map some) := by
  unfold bwTableOmp BW.pairTable
  generalize ((generateLogSpacedVec ctrl.tpairMin ctrl.tpairMax ctrl.tpairHowMany).filterMap id) = chis at *
  generalize (generateLinSpacedVec 0 (1 / 2) ctrl.fracHowMany) = fracs at *
  have hmod : (fracs.length + (2 ^ 64 - 1)) % 2 ^ 64 = fracs.length - 1 := by omega
  obtain ⟨s', h1, h2, h3⟩ := RowProg.run_spec (bwRow cum chis fracs) chis.length fracs.length
    (fun i k => (i * fracs.length + k, if k = 0 then .first else if k < fracs.length then .inner k else .done))
    (fun i k => BW.pairVal cum (chis[i]?.getD 0) fracs k)
    (by
      intro i k hi hk
      by_cases hk0 : k = 0
      · subst hk0
        simp [bwRow, BW.pairVal, show 1 < fracs.length by omega]
      · by_cases hkl : k = fracs.length - 1
        · have h1 : ¬ k < (fracs.length + (2 ^ 64 - 1)) % 2 ^ 64 := by rw [hmod]; omega
          have h2 : ¬ k + 1 < fracs.length := by omega
          simp only [bwRow, hk0, hk, if_false, if_true, h1, h2, BW.pairVal]
          simp [hkl, show fracs.length - 1 ≠ 0 by omega, add_assoc]
        · have h1 : k < (fracs.length + (2 ^ 64 - 1)) % 2 ^ 64 := by rw [hmod]; omega
          have h2 : k + 1 < fracs.length := by omega
          simp only [bwRow, hk0, hk, if_false, if_true, h1, h2, BW.pairVal, hkl, List.getElem?_eq_getElem hk]
          simp [add_assoc])
    (by
      intro i hi
      have : fracs.length ≠ 0 := by omega
      simp [bwRow, this])
    sched hc.1 ⟨(bwRow cum chis fracs).init, List.replicate (chis.length * fracs.length) none⟩ (fun _ => 0)
    (by intro i _; simp [bwRow]) (by simp) (by intro i k _ hk; omega)
  have h4 := rows_eq _ h2 (fun i k hi hk => h3 i k hi hk (by have := hc.2 i hi; omega))
  simp only [h1, except_bind_ok, h4]
  simp only [pure, Except.pure, Except.ok.injEq, Prod.mk.injEq, true_and]
  rw [flatMap_eq_range chis, List.map_flatMap, List.map_flatMap]
  simp [List.map_map, Function.comp_def]

/-- C32 (photon table), for any root finder `solve` (a function of the row's parameter, the probability, the current guess
and the previous root). -/
theorem C32_photon_table_any_schedule (ctrl : QSCtrl) (solve : ℝ → ℝ → ℝ → Option ℝ → ℝ) (sched : List ℕ)
    (hc : Complete ((generateLogSpacedVec ctrl.temMin ctrl.temMax ctrl.temHowMany).filterMap id).length
      (generateLinSpacedVec 0 1 ctrl.probHowMany).length sched) :
    qsTableOmp ctrl solve sched =
      .ok ((QS.photTable ctrl solve).coords0, (QS.photTable ctrl solve).coords1,
        (QS.photTable ctrl solve).data.map some) := by
  unfold qsTableOmp QS.photTable
  generalize ((generateLogSpacedVec ctrl.temMin ctrl.temMax ctrl.temHowMany).filterMap id) = chis at *
  generalize (generateLinSpacedVec 0 1 ctrl.probHowMany) = probs at *
  have hlen : (QS.rowProbs probs).length = probs.length := by simp [QS.rowProbs]
  obtain ⟨s', h1, h2, h3⟩ := RowProg.run_spec (qsRow solve chis probs) chis.length probs.length
    (fun i k => ⟨i * probs.length + k, k,
      (qsAfter solve (chis[i]?.getD 0) (-10) none (QS.rowProbs probs) k).1,
      (qsAfter solve (chis[i]?.getD 0) (-10) none (QS.rowProbs probs) k).2⟩)
    (fun i k => Real.exp (qsAfter solve (chis[i]?.getD 0) (-10) none (QS.rowProbs probs) (k + 1)).1)
    (by
      intro i k hi hk
      rw [qsAfter_succ (by omega)]
      simp only [qsRow, hk, if_true, QS.rowProbs, List.getElem_map, List.getElem_range]
      rfl)
    (by intro i hi; simp [qsRow])
    sched hc.1 ⟨(qsRow solve chis probs).init, List.replicate (chis.length * probs.length) none⟩ (fun _ => 0)
    (by intro i _; simp [qsRow, qsAfter]) (by simp) (by intro i k _ hk; omega)
  have h4 := rows_eq _ h2 (fun i k hi hk => h3 i k hi hk (by have := hc.2 i hi; omega))
  simp only [h1, except_bind_ok, h4]
  simp only [pure, Except.pure, Except.ok.injEq, Prod.mk.injEq, true_and]
  rw [flatMap_eq_range chis, List.map_flatMap, List.map_flatMap]
  simp [List.map_map, Function.comp_def, rowFrom_eq, hlen]

/-- Non-vacuity: two complete schedules of a 2×3 table, one sequential and one interleaved. -/
example : Complete 2 3 [0, 0, 0, 1, 1, 1] ∧ Complete 2 3 [1, 0, 1, 0, 0, 1] := by
  unfold Complete
  refine ⟨⟨by decide, ?_⟩, ⟨by decide, ?_⟩⟩ <;>
  · intro i hi
    interval_cases i <;> decide

/-- C32, the excluded sizes: with a single column the loop writes two elements per row and runs past the end of the array. -/
theorem C32_single_column_overruns (cum : ℝ → ℝ → ℝ) (chi frac : ℝ) :
    (bwRow cum [chi] [frac]).run [0, 0] ⟨(bwRow cum [chi] [frac]).init, [none]⟩ = .error .outOfBounds := by
  simp [RowProg.run, RowProg.exec, bwRow, wr, Function.update]

end Picsar.Props
