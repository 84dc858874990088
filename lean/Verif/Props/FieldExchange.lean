import Verif.Lemmas.FieldExchange
import Mathlib.Tactic.NormNum

/-
C49: guard-cell exchange; C50: summation of currents between subdomains.
-/
namespace Picsar.Props
open Picsar Picsar.Grid Picsar.Mpi Picsar.Exchange Picsar.Topology

/-- C49. Whatever the order in which processes run and messages travel, the exchange ends with all messages delivered and, on every
process, every element of the array (all guard cells, edges and corners included) equal to the value that the owner of that grid
node had before the exchange. Blocking version. -/
theorem C49_exchange_blocking (D : Dom) (h : D.Ok) (m0 : Proc D → Loc) (n : ℕ) (b : Conf (Proc D) Loc (List ℝ))
    (e : Exec (exchBlocking D) n (start m0) b) (hst : Stuck (exchBlocking D) b) :
    (∀ r, b.g r = 6) ∧ (∀ s d, b.ch s d = []) ∧ ∀ (c : Proc D) (i : I3), InArr D c.1 i →
      ∀ (o : Proc D) (i' : I3), InArr D o.1 i' → Owns D o.1 i' → SameNode D c.1 i o.1 i' → (b.mem c).f i = (m0 o).f i' := by
  obtain ⟨r1, r2, r3⟩ := exec_result (exchBlocking_ok D) e hst
  refine ⟨r3, r2, fun c i hi o i' h1 h2 h3 => ?_⟩
  rw [r1 c]
  exact exch_all h (F := fun k c => (sync (exchBlocking D) m0 k c).f) (fun k _ c => exchBlocking_step D m0 k c) c i hi o i' h1 h2 h3

/-- C49, nonblocking version. -/
theorem C49_exchange_nonblocking (D : Dom) (h : D.Ok) (m0 : Proc D → Loc) (n : ℕ) (b : Conf (Proc D) Loc (List ℝ))
    (e : Exec (exchNonblocking D) n (start m0) b) (hst : Stuck (exchNonblocking D) b) :
    (∀ r, b.g r = 6) ∧ (∀ s d, b.ch s d = []) ∧ ∀ (c : Proc D) (i : I3), InArr D c.1 i →
      ∀ (o : Proc D) (i' : I3), InArr D o.1 i' → Owns D o.1 i' → SameNode D c.1 i o.1 i' → (b.mem c).f i = (m0 o).f i' := by
  obtain ⟨r1, r2, r3⟩ := exec_result (exchNonblocking_ok h) e hst
  refine ⟨r3, r2, fun c i hi o i' h1 h2 h3 => ?_⟩
  rw [r1 c]
  exact exch_all h (F := fun k c => (sync (exchNonblocking D) m0 k c).f) (fun k _ c => exchNonblocking_step D m0 k c) c i hi o i' h1 h2 h3

/-- C49, owners: every element of every array has exactly one owner. -/
theorem C49_owner (D : Dom) (h : D.Ok) (c : Proc D) (i : I3) (hi : InArr D c.1 i) :
    ∃! oi : Proc D × I3, InArr D oi.1.1 oi.2 ∧ Owns D oi.1.1 oi.2 ∧ SameNode D c.1 i oi.1.1 oi.2 := by
  obtain ⟨o, i', h1, h2, h3⟩ := owner_exists h c i hi
  refine ⟨(o, i'), ⟨h1, h2, h3⟩, ?_⟩
  rintro ⟨p, j⟩ ⟨-, p2, p3⟩
  obtain ⟨e1, e2⟩ := owner_eq h p2 h2 (fun a => same_trans (same_symm (p3 a)) (h3 a))
  exact Prod.ext e1 e2

/-- C49, liveness: no schedule deadlocks or runs forever; every execution can be completed. -/
theorem C49_terminates (D : Dom) (h : D.Ok) : (∃ B, ∀ (m0 : Proc D → Loc) (n : ℕ) (b : Conf (Proc D) Loc (List ℝ)),
      (Exec (exchBlocking D) n (start m0) b → n ≤ B) ∧ (Exec (exchNonblocking D) n (start m0) b → n ≤ B)) ∧
    ∀ m0 : Proc D → Loc, (∃ n b, Exec (exchBlocking D) n (start m0) b ∧ Stuck (exchBlocking D) b) ∧
      ∃ n b, Exec (exchNonblocking D) n (start m0) b ∧ Stuck (exchNonblocking D) b := by
  have := Fintype.ofFinite (Proc D)
  constructor
  · obtain ⟨B1, h1⟩ := exec_bound (exchBlocking_ok D)
    obtain ⟨B2, h2⟩ := exec_bound (exchNonblocking_ok h)
    exact ⟨max B1 B2, fun m0 n b => ⟨fun e => le_max_of_le_left (h1 m0 n b e), fun e => le_max_of_le_right (h2 m0 n b e)⟩⟩
  · exact fun m0 => ⟨exec_exists (exchBlocking_ok D) m0, exec_exists (exchNonblocking_ok h) m0⟩

/-- C49, the hypothesis: the decomposition that the code computes satisfies `Dom.Ok` when every process gets more cells than there are
guard cells. -/
theorem C49_decomposition (N P g : Ax → ℤ) (per : Ax → Bool) (hP : ∀ a, 1 ≤ P a) (hN : ∀ a, 0 ≤ N a) (hg : ∀ a, 0 ≤ g a)
    (hw : ∀ a, g a < N a / P a) : ∃ D : Dom, D.P = P ∧ D.g = g ∧ D.per = per ∧ D.Ok ∧ ∀ a, D.total a = N a ∧
      ∃ s, split (N a) (P a) = .ok s ∧ ∀ c, 0 ≤ c → c < P a → s.cmin.get (c + 1) = .ok (D.lo a c) ∧ localCells s c = .ok (D.n a c) := by
  have H := fun a => split_ok (hP a) (hN a)
  choose s n0 np e I hq h0 h1 h2 hs using H
  refine ⟨⟨P, fun a c => sLo (n0 a) (np a) (c + 1), g, per⟩, rfl, rfl, rfl, ⟨hP, fun a => ?_, hg, fun a c c0 c1 => ?_⟩, fun a => ⟨?_, s a, e a, ?_⟩⟩
  · show sLo (n0 a) (np a) (0 + 1) = 0
    have := h1 a
    unfold sLo; simp; omega
  · show g a < sLo (n0 a) (np a) (c + 1 + 1) - sLo (n0 a) (np a) (c + 1)
    have hsz := sLo_size (n0 := n0 a) (np := np a) (i := c + 1)
    have := hw a
    rw [← hq a] at this
    split_ifs at hsz <;> omega
  · show sLo (n0 a) (np a) (P a + 1) = N a
    have a1 := h1 a
    have a2 := h2 a
    have a3 := hs a
    unfold sLo
    have : (P a + 1 - 1) * n0 a = P a * n0 a := by ring
    omega
  · intro c c0 c1
    obtain ⟨a1, a2⟩ := sget (I a) (show 1 ≤ c + 1 by omega) (show c + 1 ≤ P a by omega)
    refine ⟨a1, ?_⟩
    unfold localCells
    rw [a1, a2]
    show Except.ok _ = Except.ok _
    congr 1
    unfold Dom.n sHi
    simp only
    ring

/-- A decomposition with two processes along x (absorbing) and one along y and z (periodic). -/
def dom211 : Dom where
  P a := match a with | .x => 2 | .y => 1 | .z => 1
  lo _ c := 4 * c
  g _ := 1
  per a := match a with | .x => false | .y => true | .z => true

theorem dom211_ok : dom211.Ok where
  pos a := by cases a <;> decide
  first a := rfl
  guard a := by show (0 : ℤ) ≤ 1; omega
  wide a c _ _ := by show (1 : ℤ) < 4 * (c + 1) - 4 * c; omega

/-- The lower of the two processes. -/
def proc0 : Proc dom211 := ⟨⟨0, 0, 0⟩, fun a => by cases a <;> decide⟩
/-- The upper one. -/
def proc1 : Proc dom211 := ⟨⟨1, 0, 0⟩, fun a => by cases a <;> decide⟩

-- the corner guard cell (5,-1,5) of the lower process belongs to the upper one, where it is (1,3,1)
example : InArr dom211 proc0.1 ⟨5, -1, 5⟩ ∧ InArr dom211 proc1.1 ⟨1, 3, 1⟩ ∧ Owns dom211 proc1.1 ⟨1, 3, 1⟩ ∧
    SameNode dom211 proc0.1 ⟨5, -1, 5⟩ proc1.1 ⟨1, 3, 1⟩ := by
  refine ⟨fun a => ?_, fun a => ?_, fun a => ?_, fun a => ?_⟩
  · cases a <;> (unfold InArr1; decide)
  · cases a <;> (unfold InArr1; decide)
  · cases a <;> (unfold Owns1; decide)
  · cases a <;> (unfold SameNode1; decide)
example (m0 : Proc dom211 → Loc) : ∃ n b, Exec (exchNonblocking dom211) n (start m0) b ∧ Stuck (exchNonblocking dom211) b :=
  ((C49_terminates dom211 dom211_ok).2 m0).2

/-- C50, nonblocking version. Whatever the schedule, after the summation every copy of a node on every process holds the sum of the
contributions that all processes had for that node, each counted once, and nothing is added across an absorbing boundary. -/
theorem C50_summation_nonblocking (D : Dom) (h : D.Ok) (m0 : Proc D → Loc) (h0 : ∀ c, (m0 c).t1 = [] ∧ (m0 c).t2 = []) (n : ℕ)
    (b : Conf (Proc D) Loc (List ℝ)) (e : Exec (summationNonblocking D) n (start m0) b) (hst : Stuck (summationNonblocking D) b) :
    (∀ s d, b.ch s d = []) ∧ ∀ (c : Proc D) (i : I3), InArr D c.1 i → (b.mem c).f i = nodeSum m0 c.1 i := by
  have o1 := sumNonblocking_ok D
  have o2 := exchNonblocking_ok h
  obtain ⟨r1, r2, -⟩ := exec_result (seq_ok o1 o2) e hst
  refine ⟨r2, fun c i hi => ?_⟩
  obtain ⟨o, i', h1, h2, h3⟩ := owner_exists h c i hi
  rw [r1 c]
  have hs := sync_seq o1 o2 m0 6
  have e1 : sync ((sumNonblocking D).seq (exchNonblocking D)) m0 ((sumNonblocking D).seq (exchNonblocking D)).G =
    sync (exchNonblocking D) (sync (sumNonblocking D) m0 3) 6 := hs
  rw [e1]
  have e2 := exch_all h (F := fun k c => (sync (exchNonblocking D) (sync (sumNonblocking D) m0 3) k c).f)
    (fun k _ c => exchNonblocking_step D _ k c) c i hi o i' h1 h2 h3
  have e3 := sumNonblocking_result h m0 h0 o i' h1 h2
  rw [nodeSum_same m0 h3, ← e3]
  exact e2

/-- What the blocking version computes, in every case: the sum as if every direction were periodic, on the nodes inside the
subdomains. -/
theorem blocking_result (D : Dom) (h : D.Ok) (m0 : Proc D → Loc) (h0 : ∀ c, (m0 c).t1 = []) (n : ℕ)
    (b : Conf (Proc D) Loc (List ℝ)) (e : Exec (summationBlocking D) n (start m0) b) (hst : Stuck (summationBlocking D) b) :
    (∀ s d, b.ch s d = []) ∧ ∀ (c : Proc D) (i : I3), InArr D c.1 i → ∀ (o : Proc D) (i' : I3), InArr D o.1 i' → Owns D o.1 i' →
      SameNode D c.1 i o.1 i' → Owns D.peri o.1 i' → (b.mem c).f i = nodeSum (D := D.peri) m0 o.1 i' := by
  have o1 := sumBlocking_ok D
  have o2 := exchBlocking_ok D
  obtain ⟨r1, r2, -⟩ := exec_result (seq_ok o1 o2) e hst
  refine ⟨r2, fun c i hi o i' h1 h2 h3 h4 => ?_⟩
  rw [r1 c]
  have hs := sync_seq o1 o2 m0 6
  have e1 : sync ((sumBlocking D).seq (exchBlocking D)) m0 ((sumBlocking D).seq (exchBlocking D)).G =
    sync (exchBlocking D) (sync (sumBlocking D) m0 6) 6 := hs
  rw [e1]
  have e2 := exch_all h (F := fun k c => (sync (exchBlocking D) (sync (sumBlocking D) m0 6) k c).f)
    (fun k _ c => exchBlocking_step D _ k c) c i hi o i' h1 h2 h3
  rw [← sumBlocking_result h m0 h0 o i' h1 h4]
  exact e2

/-- C50, blocking version, proved part: when every direction is periodic. Missing: absorbing directions, where it is false. -/
theorem C50_summation_blocking_partial (D : Dom) (h : D.Ok) (hp : ∀ a, D.per a = true) (m0 : Proc D → Loc)
    (h0 : ∀ c, (m0 c).t1 = []) (n : ℕ) (b : Conf (Proc D) Loc (List ℝ)) (e : Exec (summationBlocking D) n (start m0) b)
    (hst : Stuck (summationBlocking D) b) :
    (∀ s d, b.ch s d = []) ∧ ∀ (c : Proc D) (i : I3), InArr D c.1 i → (b.mem c).f i = nodeSum m0 c.1 i := by
  obtain ⟨P, lo, g, per⟩ := D
  have hper : per = fun _ => true := funext hp
  subst hper
  obtain ⟨r1, r2⟩ := blocking_result _ h m0 h0 n b e hst
  refine ⟨r1, fun c i hi => ?_⟩
  obtain ⟨o, i', h1, h2, h3⟩ := owner_exists h c i hi
  rw [nodeSum_same m0 h3]
  exact r2 c i hi o i' h1 h2 h3 h2

/-- C50, refuted for the blocking version: with an absorbing boundary along x, a contribution that lies beyond the upper end of the
domain is added to a node at the lower end, in every execution, although no copy of that node has any contribution. -/
theorem C50_summation_blocking_refuted : ∃ (D : Dom) (m0 : Proc D → Loc) (c : Proc D) (i : I3), D.Ok ∧ D.per .x = false ∧
    (∀ c, (m0 c).t1 = [] ∧ (m0 c).t2 = []) ∧ InArr D c.1 i ∧ nodeSum m0 c.1 i = 0 ∧
    (∃ n b, Exec (summationBlocking D) n (start m0) b ∧ Stuck (summationBlocking D) b) ∧
    ∀ n b, Exec (summationBlocking D) n (start m0) b → Stuck (summationBlocking D) b → (b.mem c).f i = 1 := by
  classical
  let m0 : Proc dom211 → Loc := fun c => ⟨fun i => if c.1 = ⟨1, 0, 0⟩ ∧ i = ⟨5, 2, 2⟩ then 1 else 0, [], []⟩
  have hin : InArr dom211 proc0.1 ⟨1, 2, 2⟩ := by
    intro a
    cases a <;> (unfold InArr1; decide)
  have hx : copies dom211 .x 0 1 = {(0, 1)} := by decide
  have hy : copies dom211 .y 0 2 = {(0, 2)} := by decide
  have hz : copies dom211 .z 0 2 = {(0, 2)} := by decide
  have px : copies dom211.peri .x 0 1 = {(0, 1), (1, 5)} := by decide
  have py : copies dom211.peri .y 0 2 = {(0, 2)} := by decide
  have pz : copies dom211.peri .z 0 2 = {(0, 2)} := by decide
  have s0 : ∀ i, stored m0 proc0.1 i = 0 := by
    intro i
    unfold stored
    rw [dif_pos proc0.2]
    show (if (⟨0, 0, 0⟩ : I3) = ⟨1, 0, 0⟩ ∧ i = ⟨5, 2, 2⟩ then (1 : ℝ) else 0) = 0
    rw [if_neg (by simp)]
  have s1 : stored m0 proc1.1 ⟨5, 2, 2⟩ = 1 := by
    unfold stored
    rw [dif_pos proc1.2]
    show (if (⟨1, 0, 0⟩ : I3) = ⟨1, 0, 0⟩ ∧ (⟨5, 2, 2⟩ : I3) = ⟨5, 2, 2⟩ then (1 : ℝ) else 0) = 1
    rw [if_pos ⟨rfl, rfl⟩]
  have := Fintype.ofFinite (Proc dom211)
  refine ⟨dom211, m0, proc0, ⟨1, 2, 2⟩, dom211_ok, rfl, fun c => ⟨rfl, rfl⟩, hin, ?_, ?_, ?_⟩
  · show ∑ r ∈ copies dom211 .z 0 2, ∑ q ∈ copies dom211 .y 0 2, ∑ p ∈ copies dom211 .x 0 1,
      stored m0 ⟨p.1, q.1, r.1⟩ ⟨p.2, q.2, r.2⟩ = 0
    rw [hx, hy, hz]
    simp only [Finset.sum_singleton]
    exact s0 _
  · exact exec_exists (seq_ok (sumBlocking_ok dom211) (exchBlocking_ok dom211)) m0
  · intro n b e hst
    obtain ⟨-, r⟩ := blocking_result dom211 dom211_ok m0 (fun _ => rfl) n b e hst
    rw [r proc0 ⟨1, 2, 2⟩ hin proc0 ⟨1, 2, 2⟩ hin ?_ ?_ ?_]
    · show ∑ r ∈ copies dom211.peri .z 0 2, ∑ q ∈ copies dom211.peri .y 0 2, ∑ p ∈ copies dom211.peri .x 0 1,
        stored (D := dom211.peri) m0 ⟨p.1, q.1, r.1⟩ ⟨p.2, q.2, r.2⟩ = 1
      rw [px, py, pz]
      simp only [Finset.sum_singleton]
      rw [Finset.sum_pair (by decide)]
      have a0 : stored (D := dom211.peri) m0 ⟨0, 0, 0⟩ ⟨1, 2, 2⟩ = 0 := s0 _
      have a1 : stored (D := dom211.peri) m0 ⟨1, 0, 0⟩ ⟨5, 2, 2⟩ = 1 := s1
      simp only [a0, a1, zero_add]
    · intro a; cases a <;> (unfold Owns1; decide)
    · intro a; exact same_refl _ _ _ _
    · intro a; cases a <;> (unfold Owns1; decide)

-- the node (4,2,2) shared by the two processes has contributions from both: indices 4 of the lower and 0 of the upper process
example : copies dom211 .x 0 4 = {(0, 4), (1, 0)} ∧ copies dom211 .y 0 0 = {(0, 0), (0, 4)} := by decide
example (m0 : Proc dom211 → Loc) : ∃ n b, Exec (summationNonblocking dom211) n (start m0) b ∧ Stuck (summationNonblocking dom211) b := by
  have := Fintype.ofFinite (Proc dom211)
  exact exec_exists (seq_ok (sumNonblocking_ok dom211) (exchNonblocking_ok dom211_ok)) m0
example (m0 : Proc dom211.peri → Loc) : ∃ n b, Exec (summationBlocking dom211.peri) n (start m0) b ∧ Stuck (summationBlocking dom211.peri) b := by
  have := Fintype.ofFinite (Proc dom211.peri)
  exact exec_exists (seq_ok (sumBlocking_ok _) (exchBlocking_ok _)) m0

end Picsar.Props
