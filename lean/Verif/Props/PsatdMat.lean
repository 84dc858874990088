import Verif.Lemmas.PsatdMat
import Verif.Props.Psatd

/-
Properties C108 and C109: the pseudo-spectral push by block matrices and with split fields.
-/
namespace Picsar.Props
open Picsar Picsar.Psatd Complex

section
variable {nx ny nz : ℕ} [NeZero nx] [NeZero ny] [NeZero nz]

/-- C108: whenever the coefficients can be computed, the block matrix is built without fault, and a step by multiplication with it stays within
its arrays and gives the same fields as the step by explicit formulas, in two dimensions and in three, for every order, staggered or not,
whatever the arrays of results contained before. -/
theorem C108_matrix (P : Par) (m : ℕ → ℕ → ℕ → ℕ → ℕ → ℂ) (hm : initGpstd P nx ny nz = .ok m) :
    ∃ cc, initBlocks P false nx ny nz = .ok cc ∧ ∀ last (F : EB nx ny nz) J rho rhoold,
      stepMat cc last F J rho rhoold = .ok (step P m F J rho rhoold) :=
  ⟨_, initBlocks_ok P false m hm, fun last F J rho rhoold => stepMat_eq P m hm last F J rho rhoold⟩

/-- C108: with consistent parameters the step by multiplication gives the solution of Maxwell's equations (as in C106). -/
theorem C108_exact (P : Par) (N : Fin 3 → ℕ) (h : PsatdRun P N ny) :
    ∃ cc, initBlocks P false nx ny nz = .ok cc ∧ ∀ last (F : EB nx ny nz) J rho rhoold, PsatdFields P N F J rho rhoold →
      ∀ E B, Maxwell P.c P.eps0 (gridF N P.d) (gridB N P.d) J E B → E 0 = F.E → B 0 = F.B →
        stepMat cc last F J rho rhoold = .ok ⟨E P.dt, B P.dt⟩ := by
  obtain ⟨m, hm, hx⟩ := C106_exact (nx := nx) (ny := ny) (nz := nz) P N h
  obtain ⟨cc, hc, hs⟩ := C108_matrix P m hm
  refine ⟨cc, hc, fun last F J rho rhoold hf E B hM hE hB => ?_⟩
  rw [hs, (hx F J rho rhoold hf).2 E B hM hE hB]

/-- C109: whenever the coefficients for merged fields can be computed, so can those for split fields; a step with split fields stays within its
arrays, and the sums of the parts after it are the merged fields after a step from the sums of the parts before, however the fields are split. -/
theorem C109_split (P : Par) (m : ℕ → ℕ → ℕ → ℕ → ℕ → ℂ) (hm : initGpstd P nx ny nz = .ok m) :
    ∃ cc, initBlocks P true nx ny nz = .ok cc ∧ ∀ last (F : SplitEB nx ny nz) J rho rhoold, ∃ F', stepSplit cc last F J rho rhoold = .ok F' ∧
      step P m ⟨fun i p => F.E i 0 p + F.E i 1 p, fun i p => F.B i 0 p + F.B i 1 p⟩ J rho rhoold =
        ⟨fun i p => F'.E i 0 p + F'.E i 1 p, fun i p => F'.B i 0 p + F'.B i 1 p⟩ := by
  obtain ⟨ms, hs, hk⟩ := init_both P m hm
  refine ⟨_, initBlocks_ok P true ms hs, fun last F J rho rhoold => ?_⟩
  obtain ⟨F', e, h⟩ := stepSplit_eq P m hm ms (fun kx ky kz a1 a2 a3 => by
    obtain ⟨k, o, h1, h2, _⟩ := hk kx ky kz a1 a2 a3
    exact ⟨k, o, h1, h2⟩) last F J rho rhoold
  exact ⟨F', e, h.symm⟩

/-- C109: a run with split fields of any number of steps, in which nothing is damped, has no fault, and the sums of the parts are exact: with a
constant current and a charge density that is linear in time they are the solution of Maxwell's equations after `n` time steps. -/
theorem C109_run (P : Par) (N : Fin 3 → ℕ) (h : PsatdRun P N ny) :
    ∃ cc, initBlocks P true nx ny nz = .ok cc ∧ ∀ (F0 : SplitEB nx ny nz) (last : ℕ → ℕ → ℕ → ℕ → ℕ → ℂ) (J : Fin 3 → Grid nx ny nz → ℝ)
      (rho : ℕ → Grid nx ny nz → ℝ), (∀ k p, (rho (k + 1) p - rho k p) / P.dt + divg (gridB N P.d) J p = 0) →
      (∀ p, divg (gridB N P.d) (fun i p => F0.E i 0 p + F0.E i 1 p) p = rho 0 p / P.eps0) →
      (∀ p, divg (gridF N P.d) (fun i p => F0.B i 0 p + F0.B i 1 p) p = 0) →
      ∀ E B, Maxwell P.c P.eps0 (gridF N P.d) (gridB N P.d) J E B → (∀ i p, E 0 i p = F0.E i 0 p + F0.E i 1 p) →
        (∀ i p, B 0 i p = F0.B i 0 p + F0.B i 1 p) →
      ∃ F : ℕ → SplitEB nx ny nz, F 0 = F0 ∧ (∀ k, stepSplit cc (last k) (F k) J (rho (k + 1)) (rho k) = .ok (F (k + 1))) ∧
        ∀ k i p, (F k).E i 0 p + (F k).E i 1 p = E (k * P.dt) i p ∧ (F k).B i 0 p + (F k).B i 1 p = B (k * P.dt) i p := by
  obtain ⟨m, hm, _⟩ := C106_exact (nx := nx) (ny := ny) (nz := nz) P N h
  obtain ⟨cc, hc, hs⟩ := C109_split P m hm
  refine ⟨cc, hc, fun F0 last J rho hJ g0 b0 E B hM hE hB => ?_⟩
  choose nxt hn1 hn2 using hs
  let F : ℕ → SplitEB nx ny nz := fun k => Nat.rec F0 (fun k Fk => nxt (last k) Fk J (rho (k + 1)) (rho k)) k
  refine ⟨F, rfl, fun k => hn1 (last k) (F k) J (rho (k + 1)) (rho k), ?_⟩
  have key := C107_steps P N h m hm (fun k => ⟨fun i p => (F k).E i 0 p + (F k).E i 1 p, fun i p => (F k).B i 0 p + (F k).B i 1 p⟩) J rho
    (fun k => (hn2 (last k) (F k) J (rho (k + 1)) (rho k)).symm) hJ g0 b0 E B hM (by funext i p; exact hE i p) (by funext i p; exact hB i p)
  intro k i p
  have := key k
  rw [EB.mk.injEq] at this
  exact ⟨congrFun (congrFun this.1 i) p, congrFun (congrFun this.2 i) p⟩

/-- Fields that are split unevenly, with a current: C109 applies whatever the parts. -/
example (E : Fin 3 → Grid 8 4 4 → ℝ) (J : Fin 3 → Grid 8 4 4 → ℝ) (rho : Grid 8 4 4 → ℝ) :
    ∃ cc F', initBlocks psatdP true 8 4 4 = .ok cc ∧
      stepSplit cc (fun _ _ _ _ => 0) ⟨fun i s p => if s = 0 then 3 * E i p else -2 * E i p, fun _ _ _ => 0⟩ J rho rho = .ok F' := by
  obtain ⟨m, hm, _⟩ := C106_exact (nx := 8) (ny := 4) (nz := 4) psatdP ![2, 4, 8] (by
    refine ⟨rfl, fun i => ?_, fun i => ?_, ?_, ?_, ?_, ?_⟩
    · fin_cases i <;> simp [psatdP]
    · fin_cases i <;> simp [psatdP]
    all_goals simp [psatdP])
  obtain ⟨cc, hc, hs⟩ := C109_split psatdP m hm
  obtain ⟨F', h, _⟩ := hs (fun _ _ _ _ => 0) ⟨fun i s p => if s = 0 then 3 * E i p else -2 * E i p, fun _ _ _ => 0⟩ J rho rho
  exact ⟨cc, F', hc, h⟩

end
end Picsar.Props
