import Verif.Lemmas.Remap2d
import Verif.Props.Remap
/-
C178: remapping of the fields of a plane to a new decomposition.
-/
namespace Picsar.Props
open Picsar Picsar.Grid Picsar.Mpi Picsar.Exchange Picsar.Remap

/-- C178. Any number `n` of processes, any number `nf` of components, any old (`L1`) and new (`L2`) limits in the plane such that the old subdomains
cover the new ones. Under every schedule, when nothing can move any more all processes have finished, no message is left over, the old arrays are as
they were, every node of every new subdomain holds the value that a process whose old subdomain contained that node had for it, and the other elements
(guard cells) are as they were. -/
theorem C178_remap (n nf : ℕ) (L1 L2 : Fin n → Lim2) (h1 : ∀ r, (L1 r).Ok) (h2 : ∀ r, (L2 r).Ok)
    (hcov : ∀ r x z, (L2 r).Has x z → ∃ s, (L1 s).Has x z) (m0 : Fin n → Remap.Mem) (k : ℕ) (b : Conf (Fin n) Remap.Mem (List ℝ))
    (e : Exec (remap2 n nf L1 L2) k (start m0) b) (hst : Stuck (remap2 n nf L1 L2) b) :
    (∀ r, b.g r = nf) ∧ (∀ s d, b.ch s d = []) ∧ ∀ r,
      (b.mem r).old = (m0 r).old ∧
      (∀ f, f < nf → ∀ x z, (L2 r).Has x z →
        ∃ s, (L1 s).Has x z ∧ (b.mem r).new f ((L2 r).loc x z) = (m0 s).old f ((L1 s).loc x z)) ∧
      ∀ f i, (∀ x z, (L2 r).Has x z → i ≠ (L2 r).loc x z) → (b.mem r).new f i = (m0 r).new f i := by
  rw [remap2_eq] at e hst
  have hcov' : ∀ r p, (lim3 (L2 r)).Has p → ∃ s, (lim3 (L1 s)).Has p := fun r p hp => by
    obtain ⟨x, z, rfl, hz⟩ := lim3_has_plane hp
    obtain ⟨s, hs⟩ := hcov r x z hz
    exact ⟨s, lim3_has.mpr hs⟩
  obtain ⟨a, c, d⟩ := C68_remap n nf _ _ (fun r => lim3_ok (h1 r)) (fun r => lim3_ok (h2 r)) hcov' m0 k b e hst
  refine ⟨a, c, fun r => ⟨(d r).1, fun f hf x z hx => ?_, fun f i hi => (d r).2.2 f i fun p hp => ?_⟩⟩
  · obtain ⟨s, hs, es⟩ := (d r).2.1 f hf ⟨x, 0, z⟩ (lim3_has.mpr hx)
    refine ⟨s, lim3_has.mp hs, ?_⟩
    rw [lim3_loc, lim3_loc] at es
    exact es
  · obtain ⟨x, z, rfl, hz⟩ := lim3_has_plane hp
    rw [lim3_loc]
    exact hi x z hz

/-- C178, liveness: no schedule deadlocks or runs forever. -/
theorem C178_terminates (n nf : ℕ) (L1 L2 : Fin n → Lim2) (h1 : ∀ r, (L1 r).Ok) (h2 : ∀ r, (L2 r).Ok) :
    (∃ B, ∀ (m0 : Fin n → Remap.Mem) (k : ℕ) (b : Conf (Fin n) Remap.Mem (List ℝ)),
      Exec (remap2 n nf L1 L2) k (start m0) b → k ≤ B) ∧
    ∀ m0 : Fin n → Remap.Mem, ∃ k b, Exec (remap2 n nf L1 L2) k (start m0) b ∧ Stuck (remap2 n nf L1 L2) b := by
  rw [remap2_eq]
  exact C68_terminates n nf _ _ (fun r => lim3_ok (h1 r)) (fun r => lim3_ok (h2 r))

/-- Two processes in x: nodes 0..4 and 4..8, and nodes 0..3 in z. -/
def exOldPlane (r : Fin 2) : Lim2 := if r = 0 then ⟨0, 4, 0, 3⟩ else ⟨4, 8, 0, 3⟩
/-- After balancing: nodes 0..2 and 2..8. -/
def exNewPlane (r : Fin 2) : Lim2 := if r = 0 then ⟨0, 2, 0, 3⟩ else ⟨2, 8, 0, 3⟩

/-- The hypotheses are met, and nodes change hands: node (3, 2) moves from process 0 to process 1. -/
example (m0 : Fin 2 → Remap.Mem) : ∃ k b, Exec (remap2 2 6 exOldPlane exNewPlane) k (start m0) b ∧
    (b.mem 1).new 5 ⟨1, 0, 2⟩ = (m0 0).old 5 ⟨3, 0, 2⟩ := by
  have o1 : ∀ r, (exOldPlane r).Ok := fun r => by fin_cases r <;> simp [exOldPlane, Lim2.Ok]
  have o2 : ∀ r, (exNewPlane r).Ok := fun r => by fin_cases r <;> simp [exNewPlane, Lim2.Ok]
  have cov : ∀ r x z, (exNewPlane r).Has x z → ∃ s, (exOldPlane s).Has x z := fun r x z h => by
    by_cases hp : x ≤ 4
    · refine ⟨0, ?_⟩
      fin_cases r <;> simp [exNewPlane, exOldPlane, Lim2.Has] at h ⊢ <;> omega
    · refine ⟨1, ?_⟩
      fin_cases r <;> simp [exNewPlane, exOldPlane, Lim2.Has] at h ⊢ <;> omega
  obtain ⟨k, b, e, hst⟩ := (C178_terminates 2 6 exOldPlane exNewPlane o1 o2).2 m0
  refine ⟨k, b, e, ?_⟩
  obtain ⟨-, -, h⟩ := C178_remap 2 6 exOldPlane exNewPlane o1 o2 cov m0 k b e hst
  obtain ⟨s, hs, es⟩ := (h 1).2.1 5 (by norm_num) 3 2 (by simp [exNewPlane, Lim2.Has])
  have hs0 : s = 0 := by
    fin_cases s
    · rfl
    · simp [exOldPlane, Lim2.Has] at hs
  subst hs0
  simpa [exNewPlane, exOldPlane, Lim2.loc] using es

end Picsar.Props
