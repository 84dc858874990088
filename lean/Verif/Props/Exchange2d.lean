import Verif.Lemmas.Exchange2d
import Verif.Props.FieldExchange

/-
C175: exchange and summation in two dimensions; C176: with blocking communication.
-/
namespace Picsar.Props
open Picsar Picsar.Grid Picsar.Mpi Picsar.Exchange

/-- C175, summation: whatever the schedule, the two-dimensional summation ends with all messages delivered, and in each plane every copy
of a node on every process holds the sum of the contributions of all processes to that node of the plane, each counted once. -/
theorem C175_summation (D : Dom) (h : D.Ok) (hp : Planar D) (m0 : Proc D → Loc) (h0 : ∀ c, (m0 c).t1 = [] ∧ (m0 c).t2 = []) (n : ℕ)
    (b : Conf (Proc D) Loc (List ℝ)) (e : Exec (summationNonblocking2 D) n (start m0) b) (hst : Stuck (summationNonblocking2 D) b) :
    (∀ s d, b.ch s d = []) ∧ ∀ (c : Proc D) (i : I3), InArr D c.1 i → (b.mem c).f i = planeSum m0 c.1 i := by
  have o1 := sumNonblocking2_ok D
  have o2 := exchNonblocking2_ok h
  obtain ⟨r1, r2, -⟩ := exec_result (seq_ok o1 o2) e hst
  refine ⟨r2, fun c i hi => ?_⟩
  obtain ⟨o, i', h1, h2, h3⟩ := owner_exists h c i hi
  have e1 : sync ((sumNonblocking2 D).seq (exchNonblocking2 D)) m0 ((sumNonblocking2 D).seq (exchNonblocking2 D)).G =
    sync (exchNonblocking2 D) (sync (sumNonblocking2 D) m0 2) 4 := sync_seq o1 o2 m0 4
  rw [r1 c, e1, exch2_sync h hp, sum2_sync hp]
  have e2 := exch_all h (F := fun k c => (sync (exchNonblocking D) (sync (sumNonblocking D) m0 3) k c).f)
    (fun k _ c => exchNonblocking_step D _ k c) c i hi o i' h1 h2 h3
  have e3 := sumNonblocking_result h m0 h0 o i' h1 h2
  rw [← nodeSum_planar hp m0 c hi, nodeSum_same m0 h3, ← e3]
  exact e2

/-- C175, exchange: after the two-dimensional exchange every element of every plane holds the value that the owner of the node had. -/
theorem C175_exchange (D : Dom) (h : D.Ok) (hp : Planar D) (m0 : Proc D → Loc) (n : ℕ) (b : Conf (Proc D) Loc (List ℝ))
    (e : Exec (exchNonblocking2 D) n (start m0) b) (hst : Stuck (exchNonblocking2 D) b) :
    (∀ s d, b.ch s d = []) ∧ ∀ (c : Proc D) (i : I3), InArr D c.1 i → ∀ (o : Proc D) (i' : I3), InArr D o.1 i' → Owns D o.1 i' →
      SameNode D c.1 i o.1 i' → (b.mem c).f i = (m0 o).f i' := by
  obtain ⟨r1, r2, -⟩ := exec_result (exchNonblocking2_ok h) e hst
  refine ⟨r2, fun c i hi o i' h1 h2 h3 => ?_⟩
  rw [r1 c, show (exchNonblocking2 D).G = 4 from rfl, exch2_sync h hp]
  exact exch_all h (F := fun k c => (sync (exchNonblocking D) m0 k c).f) (fun k _ c => exchNonblocking_step D _ k c) c i hi o i' h1 h2 h3

/-- C175, liveness: no schedule deadlocks or runs forever; every execution can be completed. -/
theorem C175_terminates (D : Dom) (h : D.Ok) : (∃ B, ∀ (m0 : Proc D → Loc) (n : ℕ) (b : Conf (Proc D) Loc (List ℝ)),
      (Exec (summationNonblocking2 D) n (start m0) b → n ≤ B) ∧ (Exec (exchNonblocking2 D) n (start m0) b → n ≤ B)) ∧
    ∀ m0 : Proc D → Loc, (∃ n b, Exec (summationNonblocking2 D) n (start m0) b ∧ Stuck (summationNonblocking2 D) b) ∧
      ∃ n b, Exec (exchNonblocking2 D) n (start m0) b ∧ Stuck (exchNonblocking2 D) b := by
  have := Fintype.ofFinite (Proc D)
  have o2 := exchNonblocking2_ok h
  have o1 : (summationNonblocking2 D).Ok := seq_ok (sumNonblocking2_ok D) o2
  obtain ⟨B1, h1⟩ := exec_bound o1
  obtain ⟨B2, h2⟩ := exec_bound o2
  exact ⟨⟨max B1 B2, fun m0 n b => ⟨fun e => le_max_of_le_left (h1 m0 n b e), fun e => le_max_of_le_right (h2 m0 n b e)⟩⟩,
    fun m0 => ⟨exec_exists o1 m0, exec_exists o2 m0⟩⟩

/-- Two processes along x, periodic; one cell and no guard cells along y, as the code sets them in two dimensions. -/
def dom212 : Dom where
  P a := match a with | .x => 2 | .y => 1 | .z => 1
  lo a c := match a with | .y => c | _ => 4 * c
  g a := match a with | .y => 0 | _ => 1
  per a := match a with | .y => false | _ => true

theorem dom212_ok : dom212.Ok where
  pos a := by cases a <;> decide
  first a := by cases a <;> rfl
  guard a := by cases a <;> decide
  wide a c _ _ := by
    cases a
    · show (1 : ℤ) < 4 * (c + 1) - 4 * c; omega
    · show (0 : ℤ) < c + 1 - c; omega
    · show (1 : ℤ) < 4 * (c + 1) - 4 * c; omega

example : Planar dom212 := ⟨rfl, rfl⟩
-- executions to the end exist
example (m0 : Proc dom212 → Loc) : ∃ n b, Exec (summationNonblocking2 dom212) n (start m0) b ∧ Stuck (summationNonblocking2 dom212) b :=
  ((C175_terminates dom212 dom212_ok).2 m0).1
-- node 0 of the lower process along x also is node 4 of the upper one, across the periodic boundary
example : copies dom212 .x 0 0 = {(0, 0), (1, 4)} := by decide

/-- C176, proved part: with periodic boundaries, whatever the schedule, after the blocking summation every copy of a node of a plane of
the domain holds the sum of the contributions to that node of the plane. Missing: absorbing boundaries, where it is false. -/
theorem C176_summation_partial (D : Dom) (h : D.Ok) (hone : D.P .y = 1) (hp : ∀ a, D.per a = true) (m0 : Proc D → Loc)
    (h0 : ∀ c, (m0 c).t1 = []) (n : ℕ) (b : Conf (Proc D) Loc (List ℝ)) (e : Exec (summationBlocking2 D) n (start m0) b)
    (hst : Stuck (summationBlocking2 D) b) : (∀ s d, b.ch s d = []) ∧ ∀ (c : Proc D) (i : I3), InArr D c.1 i → 0 ≤ i.k →
      i.k < D.n .y c.1.k → (b.mem c).f i = planeSum m0 c.1 i := by
  obtain ⟨P, lo, g, per⟩ := D
  have hper : per = fun _ => true := funext hp
  subst hper
  obtain ⟨r1, r2⟩ := blocking2_result _ h m0 h0 n b e hst
  refine ⟨r1, fun c i hi hk0 hk1 => ?_⟩
  obtain ⟨o, i', h1, h2, h3⟩ := owner_exists h c i hi
  rw [r2 c i hi o i' h1 h2 h3 (h2 .x) (h2 .z)]
  symm
  have c1 := c.2 .y
  have o1 := o.2 .y
  have hP : P .y = 1 := hone
  simp only [hP] at c1 o1
  have hc : c.1.k = 0 := by have a := c1.1; have b := c1.2; simp only [at_] at a b; omega
  have ho : o.1.k = 0 := by have a := o1.1; have b := o1.2; simp only [at_] at a b; omega
  refine planeSum_same m0 h3 (hc.trans ho.symm) ?_
  have a1 := h3 .y
  have a2 := h2 .y
  unfold SameNode1 at a1
  unfold Owns1 at a2
  simp only [at_, if_true, hc, ho, Dom.total, hP, Bool.true_eq_false, false_and, or_false] at a1 a2
  have f0 : lo .y 0 = 0 := h.first .y
  have hn : Dom.n ⟨P, lo, g, fun _ => true⟩ .y 0 = lo .y 1 := by
    show lo .y (0 + 1) - lo .y 0 = lo .y 1
    rw [f0, sub_zero, zero_add]
  rw [hc, hn] at hk1
  rw [hn] at a2
  obtain ⟨t, ht⟩ := a1
  have : t = 0 := by
    by_contra hne
    rcases lt_or_gt_of_ne hne with hlt | hgt
    · have : lo .y 1 * t ≤ lo .y 1 * (-1) := mul_le_mul_of_nonneg_left (by omega) (by omega)
      omega
    · have : lo .y 1 * 1 ≤ lo .y 1 * t := mul_le_mul_of_nonneg_left (by omega) (by omega)
      omega
  rw [this, mul_zero] at ht
  omega

/-- Two processes along x, absorbing there; periodic otherwise. -/
def dom213 : Dom where
  P a := match a with | .x => 2 | .y => 1 | .z => 1
  lo a c := match a with | .y => c | _ => 4 * c
  g a := match a with | .y => 0 | _ => 1
  per a := match a with | .x => false | _ => true

theorem dom213_ok : dom213.Ok := ⟨dom212_ok.pos, dom212_ok.first, dom212_ok.guard, dom212_ok.wide⟩

/-- The lower of the two processes. -/
def plane0 : Proc dom213 := ⟨⟨0, 0, 0⟩, fun a => by cases a <;> decide⟩
/-- The upper one. -/
def plane1 : Proc dom213 := ⟨⟨1, 0, 0⟩, fun a => by cases a <;> decide⟩

/-- C176, refuted: with an absorbing boundary along x, a contribution beyond the upper end of the domain is added to a node at the lower
end, in every execution, although no copy of that node has any contribution. -/
theorem C176_absorbing_refuted : ∃ (D : Dom) (m0 : Proc D → Loc) (c : Proc D) (i : I3), D.Ok ∧ D.P .y = 1 ∧ D.per .x = false ∧
    (∀ c, (m0 c).t1 = [] ∧ (m0 c).t2 = []) ∧ InArr D c.1 i ∧ planeSum m0 c.1 i = 0 ∧
    (∃ n b, Exec (summationBlocking2 D) n (start m0) b ∧ Stuck (summationBlocking2 D) b) ∧
    ∀ n b, Exec (summationBlocking2 D) n (start m0) b → Stuck (summationBlocking2 D) b → (b.mem c).f i = 1 := by
  classical
  let m0 : Proc dom213 → Loc := fun c => ⟨fun i => if c.1 = ⟨1, 0, 0⟩ ∧ i = ⟨5, 0, 2⟩ then 1 else 0, [], []⟩
  have hin : InArr dom213 plane0.1 ⟨1, 0, 2⟩ := by
    intro a
    cases a <;> (unfold InArr1; decide)
  have hx : copies dom213 .x 0 1 = {(0, 1)} := by decide
  have hz : copies dom213 .z 0 2 = {(0, 2)} := by decide
  have px : copies dom213.peri .x 0 1 = {(0, 1), (1, 5)} := by decide
  have pz : copies dom213.peri .z 0 2 = {(0, 2)} := by decide
  have s0 : ∀ i, stored m0 plane0.1 i = 0 := by
    intro i
    unfold stored
    rw [dif_pos plane0.2]
    show (if (⟨0, 0, 0⟩ : I3) = ⟨1, 0, 0⟩ ∧ i = ⟨5, 0, 2⟩ then (1 : ℝ) else 0) = 0
    rw [if_neg (by simp)]
  have s1 : stored m0 plane1.1 ⟨5, 0, 2⟩ = 1 := by
    unfold stored
    rw [dif_pos plane1.2]
    show (if (⟨1, 0, 0⟩ : I3) = ⟨1, 0, 0⟩ ∧ (⟨5, 0, 2⟩ : I3) = ⟨5, 0, 2⟩ then (1 : ℝ) else 0) = 1
    rw [if_pos ⟨rfl, rfl⟩]
  have := Fintype.ofFinite (Proc dom213)
  refine ⟨dom213, m0, plane0, ⟨1, 0, 2⟩, dom213_ok, rfl, rfl, fun c => ⟨rfl, rfl⟩, hin, ?_, ?_, ?_⟩
  · show ∑ r ∈ copies dom213 .z 0 2, ∑ p ∈ copies dom213 .x 0 1, stored m0 ⟨p.1, 0, r.1⟩ ⟨p.2, 0, r.2⟩ = 0
    rw [hx, hz]
    simp only [Finset.sum_singleton]
    exact s0 _
  · exact exec_exists (seq_ok (sumBlocking2_ok dom213) (exchBlocking_ok dom213)) m0
  · intro n b e hst
    obtain ⟨-, r⟩ := blocking2_result dom213 dom213_ok m0 (fun _ => rfl) n b e hst
    rw [r plane0 ⟨1, 0, 2⟩ hin plane0 ⟨1, 0, 2⟩ hin ?_ ?_ ?_ ?_]
    · show ∑ r ∈ copies dom213.peri .z 0 2, ∑ p ∈ copies dom213.peri .x 0 1,
        stored (D := dom213.peri) m0 ⟨p.1, 0, r.1⟩ ⟨p.2, 0, r.2⟩ = 1
      rw [px, pz]
      simp only [Finset.sum_singleton]
      rw [Finset.sum_pair (by decide)]
      have a0 : stored (D := dom213.peri) m0 ⟨0, 0, 0⟩ ⟨1, 0, 2⟩ = 0 := s0 _
      have a1 : stored (D := dom213.peri) m0 ⟨1, 0, 0⟩ ⟨5, 0, 2⟩ = 1 := s1
      simp only [a0, a1, zero_add]
    · intro a; cases a <;> (unfold Owns1; decide)
    · intro a; exact same_refl _ _ _ _
    · unfold Owns1; decide
    · unfold Owns1; decide

example (m0 : Proc dom213.peri → Loc) : dom213.peri.Ok ∧ dom213.peri.P .y = 1 ∧ (∀ a, dom213.peri.per a = true) ∧
    ∃ n b, Exec (summationBlocking2 dom213.peri) n (start m0) b ∧ Stuck (summationBlocking2 dom213.peri) b := by
  have := Fintype.ofFinite (Proc dom213.peri)
  exact ⟨peri_ok dom213_ok, rfl, fun _ => rfl, exec_exists (seq_ok (sumBlocking2_ok _) (exchBlocking_ok _)) m0⟩

end Picsar.Props
