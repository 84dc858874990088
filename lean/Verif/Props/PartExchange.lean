import Verif.Lemmas.PartNonBlocking
import Verif.Lemmas.PartBlocking
import Verif.Props.Topology
import Verif.Props.ParticleBcs
import Verif.Props.Tiling
/-
C57: the exchange of particles between processes.
-/
namespace Picsar.Props
open Picsar Picsar.Grid Picsar.Tiling Picsar.ParticleBcs Picsar.PartExchange

variable {n : ℕ} {R : Type} [DecidableEq R]

/-- C57, non-blocking version: for every number of species, every content of the tiles and every schedule, when no process can make a step any
more all messages have been received, no process has faulted, and every process holds the particles it kept and those that its neighbours
handed over, each once, with all attributes. Several directions may lead to the same process, or to the process itself. -/
theorem C57_non_blocking (K : ℕ) (nb : R → I3 → R) (P : R → PartExchange.Proc n) (sp : R → ℕ → Species n) (L : R → ℕ → I3 → List (Part n)) (hm : Mutual nb)
    (h : ∀ r is, is < K → HoldsAll (sp r is) (L r is)) (hl : ∀ is, is < K → Land .nonBlocking nb P (fun r => (sp r is).nt) fun r => L r is)
    (t : ℕ) (c : Mpi.Conf R (Res (NMem n)) Msg) (e : MpiLists.Exec (nonBlocking K nb P) t (Mpi.start fun r => nstart K (P r) (sp r)) c)
    (hst : MpiLists.Stuck (nonBlocking K nb P) c) :
    (∀ s d, c.ch s d = []) ∧ ∀ r, ∃ s, c.mem r = .ok s ∧ ∀ is, is < K → Delivered .nonBlocking nb P (fun r => sp r is) (fun r => L r is) r (s.sp is) := by
  obtain ⟨T, hT⟩ := nb_trace hm h hl
  obtain ⟨h1, h2⟩ := MpiLists.exec_result T e hst
  refine ⟨h2, fun r => ?_⟩
  obtain ⟨s, hs, hd⟩ := hT r
  exact ⟨s, by rw [(h1 r).2]; exact hs, hd⟩

/-- C57, blocking version (`m0` is the memory before the call). -/
theorem C57_blocking (K : ℕ) (nb : R → I3 → R) (P : R → PartExchange.Proc n) (sp : R → ℕ → Species n) (L : R → ℕ → I3 → List (Part n)) (hm : Mutual nb)
    (h : ∀ r is, is < K → HoldsAll (sp r is) (L r is)) (hl : ∀ is, is < K → Land .blocking nb P (fun r => (sp r is).nt) fun r => L r is)
    (m0 : R → Res (BMem n)) (h0 : ∀ r, ∃ s, m0 r = .ok s ∧ s.sp = sp r)
    (t : ℕ) (c : Mpi.Conf R (Res (BMem n)) Msg) (e : Mpi.Exec (blocking K nb P) t (Mpi.start m0) c) (hst : Mpi.Stuck (blocking K nb P) c) :
    (∀ s d, c.ch s d = []) ∧ ∀ r, ∃ s, c.mem r = .ok s ∧ ∀ is, is < K → Delivered .blocking nb P (fun r => sp r is) (fun r => L r is) r (s.sp is) := by
  obtain ⟨h1, h2, -⟩ := Mpi.exec_result (b_ok K P hm) e hst
  refine ⟨h2, fun r => ?_⟩
  obtain ⟨s, hs, B⟩ := b_sync hm h hl h0 K le_rfl r
  exact ⟨s, by rw [h1 r]; exact hs, B.done⟩

/-- C57, liveness: no schedule runs forever, and every program can be completed. -/
theorem C57_terminates [Fintype R] (K : ℕ) (nb : R → I3 → R) (P : R → PartExchange.Proc n) (sp : R → ℕ → Species n) (L : R → ℕ → I3 → List (Part n)) (hm : Mutual nb)
    (h : ∀ r is, is < K → HoldsAll (sp r is) (L r is)) (hl : ∀ is, is < K → Land .nonBlocking nb P (fun r => (sp r is).nt) fun r => L r is) (m0 : R → Res (BMem n)) :
    (∃ B, ∀ t c, MpiLists.Exec (nonBlocking K nb P) t (Mpi.start fun r => nstart K (P r) (sp r)) c → t ≤ B) ∧
    (∃ t c, MpiLists.Exec (nonBlocking K nb P) t (Mpi.start fun r => nstart K (P r) (sp r)) c ∧ MpiLists.Stuck (nonBlocking K nb P) c) ∧
    (∃ B, ∀ t c, Mpi.Exec (blocking K nb P) t (Mpi.start m0) c → t ≤ B) ∧ ∃ t c, Mpi.Exec (blocking K nb P) t (Mpi.start m0) c ∧ Mpi.Stuck (blocking K nb P) c := by
  obtain ⟨T, -⟩ := nb_trace hm h hl
  exact ⟨⟨_, fun t c e => MpiLists.exec_bounded T e⟩, MpiLists.exec_exists T, ⟨_, fun t c e => Mpi.exec_bounded (b_ok K P hm) e⟩, Mpi.exec_exists (b_ok K P hm) m0⟩

/-- C57, nothing is handed over in any other direction than the 26 in which messages are sent. -/
theorem C57_directions (m : Mode) (hm : m ≠ .combined) (P : PartExchange.Proc n) (nt : I3) (L : I3 → List (Part n)) (d : I3) (h : handed m P nt L d ≠ 0) :
    d ≠ ⟨0, 0, 0⟩ ∧ Topology.Dir d ∧ d ∈ dirs := by
  obtain ⟨q, hq⟩ := Multiset.exists_mem_of_ne_zero h
  have hd := handed_dirs hm hq
  obtain ⟨h1, h2⟩ := mem_dirs.mp hd
  exact ⟨by rintro rfl; exact h2 (by decide), h1, hd⟩

omit [DecidableEq R] in
/-- C57, conservation: over all processes together, what is there afterwards is what stayed and what was handed over. -/
theorem C57_conserved [Fintype R] (m : Mode) (nb : R → I3 → R) (P : R → PartExchange.Proc n) (S S' : R → Species n) (L : R → I3 → List (Part n)) (hm : Mutual nb)
    (h : ∀ r, Delivered m nb P S L r (S' r)) : ∃ L' : R → I3 → List (Part n), (∀ r, HoldsAll (S' r) (L' r)) ∧
      ∑ r, total (S' r).nt (L' r) = ∑ r, (stays m (P r) (S r).nt (L r) + (dirs.map fun d => handed m (P r) (S r).nt (L r) d).sum) := by
  choose L' h1 h2 h3 h4 using h
  refine ⟨L', h1, ?_⟩
  have key : ∀ l : List I3, (∀ d ∈ l, d ∈ dirs) → ∑ r, (l.map fun d => handed m (P (nb r (neg d))) (S (nb r (neg d))).nt (L (nb r (neg d))) d).sum =
      ∑ r, (l.map fun d => handed m (P r) (S r).nt (L r) d).sum := by
    intro l
    induction l with
    | nil => intro _; rfl
    | cons d l ih =>
      intro hl
      have hd := hl d (by simp)
      simp only [List.map_cons, List.sum_cons, Finset.sum_add_distrib]
      rw [ih fun e he => hl e (by simp [he])]
      congr 1
      refine Fintype.sum_bijective (fun r => nb r (neg d)) ?_ _ _ fun r => rfl
      refine Function.bijective_iff_has_inverse.mpr ⟨fun r => nb r d, fun r => ?_, fun r => hm r d hd⟩
      simpa [neg_neg'] using hm r (neg d) (neg_mem hd)
  simp only [h2, h3]
  rw [Finset.sum_add_distrib, Finset.sum_add_distrib, key dirs fun d hd => hd]

/-- C57, hypothesis `Mutual`: the neighbour tables of every processor grid (ordered, Cartesian and random topology: C53, C54) satisfy it. -/
theorem C57_neighbours (G : Topology.PGrid) (crd : ℤ → I3) (nb : ℤ → I3 → ℤ) (h : Topology.Neighbours G crd nb) :
    ∃ nb' : {r : ℤ // G.Rank r} → I3 → {r : ℤ // G.Rank r}, (∀ r d, Topology.Dir d → (nb' r d).1 = nb r.1 d) ∧ Mutual nb' := by
  classical
  refine ⟨fun r d => if hd : Topology.Dir d then ⟨nb r.1 d, (h r.1 d r.2 hd).1⟩ else r, fun r d hd => by beta_reduce; rw [dif_pos hd], fun r d hd => ?_⟩
  have h1 : Topology.Dir d := (mem_dirs.mp hd).1
  have h2 : Topology.Dir (neg d) := (mem_dirs.mp (neg_mem hd)).1
  dsimp only
  rw [dif_pos h2]
  apply Subtype.ext
  dsimp only
  rw [dif_pos h1]
  exact (h r.1 d r.2 h1).2.2

omit [DecidableEq R] in
/-- C57, hypothesis `Land`: it holds when every particle that is handed over lies in the particle domain of the process that gets it. -/
theorem C57_land (m : Mode) (nb : R → I3 → R) (P : R → PartExchange.Proc n) (g : R → Geo) (nt : R → I3) (L : R → I3 → List (Part n)) (hf : ∀ r, Fits (g r) (nt r))
    (hi : ∀ r, (P r).idx = (g r).idx) (hd : ∀ r d, d ∈ dirs → ∀ q ∈ handed m (P r) (nt r) (L r) d, (g (nb r d)).inDom q) : Land m nb P nt L := by
  intro r d h q hq
  rw [hi]
  exact (sorts3 (hf (nb r d))).1 q (hd r d h q hq)

/-! ### A concrete case -/

/-- Two processes along x, periodic; y and z lead back to the process itself. -/
def exNb (r : Bool) (d : I3) : Bool := if d.j = 0 then r else !r

theorem exNb_mutual : Mutual exNb := by
  intro r d _
  unfold exNb neg
  by_cases h : d.j = 0
  · simp [h]
  · simp [h]

/-- Subdomain [0,1)³, no face at the boundary of the domain. -/
noncomputable def exAxis : Ax → Axis := fun _ => ⟨0, 1, 0, 2, 2, 1 / 10, false, false, 0, 0⟩

noncomputable def exProc : PartExchange.Proc 1 := ⟨exAxis, fun _ => exLim, fun _ => true, fun _ => ⟨1, 1, 1⟩⟩

/-- A particle that left through the upper x face. -/
noncomputable def exOut : Part 1 := ⟨5 / 4, 1 / 2, 1 / 2, 3, 4, 5, 6, fun _ => 7⟩

theorem exScan (m : Mode) (hm : m = .blocking ∨ m = .nonBlocking) : scan m exAxis exLim exOut = .sent ⟨1, 0, 0⟩ exOut := by
  have hx : axis m exAxis exLim .x exOut ⟨0, 0, 0⟩ false = .go exOut ⟨1, 0, 0⟩ false := by
    unfold axis
    dsimp only
    rw [if_neg (by rintro ⟨h, -⟩; cases h), if_neg (by rcases hm with rfl | rfl <;> simp), if_neg (by norm_num [pos, exOut, exAxis])]
    show (if pos exOut .x ≥ (exAxis .x).hi then _ else _) = _
    rw [if_pos (by norm_num [pos, exOut, exAxis])]
    simp [face, exAxis, setDir]
  have ho : ∀ a, a ≠ .x → ∀ d, axis m exAxis exLim a exOut d false = .go exOut d false := by
    intro a ha d
    unfold axis
    dsimp only
    have h1 : pos exOut a = 1 / 2 := by cases a <;> simp_all [pos, exOut]
    rw [if_neg (by rintro ⟨-, h⟩; rcases hm with rfl | rfl <;> simp at h), if_neg (by rcases hm with rfl | rfl <;> simp), if_neg (by rw [h1]; norm_num [exAxis])]
    show (if pos exOut a ≥ (exAxis a).hi then _ else _) = _
    rw [if_neg (by rw [h1]; norm_num [exAxis])]
  unfold scan
  rw [if_neg (by rcases hm with rfl | rfl <;> simp), hx]
  show finish m (((axis m exAxis exLim .y exOut ⟨1, 0, 0⟩ false)).andThen _) = _
  rw [ho .y (by simp)]
  show finish m (axis m exAxis exLim .z exOut ⟨1, 0, 0⟩ false) = _
  rw [ho .z (by simp)]
  rcases hm with rfl | rfl <;> simp [finish]

/-- One tile per process; `exOut` is on process `false`. -/
noncomputable def exL (r : Bool) (_ : ℕ) (u : I3) : List (Part 1) := if u = ⟨1, 1, 1⟩ ∧ r = false then [exOut] else []

theorem exHanded (m : Mode) (hm : m = .blocking ∨ m = .nonBlocking) (r : Bool) (is : ℕ) (d : I3) :
    handed m exProc ⟨1, 1, 1⟩ (exL r is) d = if r = false ∧ d = ⟨1, 0, 0⟩ then {exOut} else 0 := by
  have hb : box ⟨1, 1, 1⟩ ⟨1, 1, 1⟩ = [⟨1, 1, 1⟩] := by decide
  unfold handed
  rw [hb]
  simp only [List.map_cons, List.map_nil, List.sum_cons, List.sum_nil, add_zero, exProc, if_true]
  cases r with
  | true => simp [exL]
  | false =>
    simp only [exL, and_self, if_true, List.filterMap_cons, List.filterMap_nil, exScan m hm, sends, true_and]
    by_cases hd : (⟨1, 0, 0⟩ : I3) = d
    · subst hd; simp
    · simp [hd, Ne.symm hd]

theorem exLand (m : Mode) (is : ℕ) : Land m exNb (fun _ => exProc) (fun _ => ⟨1, 1, 1⟩) fun r => exL r is := by
  intro r d _ q _
  show InBox ⟨1, 1, 1⟩ ⟨1, 1, 1⟩ ⟨1, 1, 1⟩
  unfold InBox
  decide

/-- The hypotheses are met by one species with one particle on one of two processes, and after every complete execution of either version the
particle is on the other process and not on the first. -/
example : ∃ sp : Bool → ℕ → Species 1, (∀ r is, HoldsAll (sp r is) (exL r is)) ∧
    (∀ t c, MpiLists.Exec (nonBlocking 1 exNb fun _ => exProc) t (Mpi.start fun r => nstart 1 exProc (sp r)) c → MpiLists.Stuck (nonBlocking 1 exNb fun _ => exProc) c →
      ∃ s, c.mem true = .ok s ∧ ∃ L', HoldsAll (s.sp 0) L' ∧ total ⟨1, 1, 1⟩ L' = {exOut}) ∧
    ∃ t c, MpiLists.Exec (nonBlocking 1 exNb fun _ => exProc) t (Mpi.start fun r => nstart 1 exProc (sp r)) c ∧ MpiLists.Stuck (nonBlocking 1 exNb fun _ => exProc) c := by
  have h0 : Holds (newTile (n := 1) 1) [] := ⟨rfl, by simp [newTile, allocArrays], fun _ _ => rfl, fun _ => rfl, fun _ _ i hi => absurd hi (Nat.not_lt_zero i)⟩
  obtain ⟨t1, -, h1⟩ := (C59_operations 1 _ _ h0).1 exOut
  have hh : ∀ (r : Bool) (is : ℕ), HoldsAll (⟨⟨1, 1, 1⟩, fun u => if u = ⟨1, 1, 1⟩ ∧ r = false then t1 else newTile 1, if r then 0 else 1⟩ : Species 1) (exL r is) := by
    intro r is u _
    dsimp only
    unfold exL
    by_cases hc : u = ⟨1, 1, 1⟩ ∧ r = false
    · rw [if_pos hc, if_pos hc]; exact h1
    · rw [if_neg hc, if_neg hc]; exact h0
  refine ⟨fun r _ => ⟨⟨1, 1, 1⟩, fun u => if u = ⟨1, 1, 1⟩ ∧ r = false then t1 else newTile 1, if r then 0 else 1⟩, hh, fun t c e hst => ?_, ?_⟩
  · obtain ⟨-, h2⟩ := C57_non_blocking 1 exNb (fun _ => exProc) _ exL exNb_mutual (fun r is _ => hh r is) (fun is _ => exLand _ is) t c e hst
    obtain ⟨s, hs, hd⟩ := h2 true
    obtain ⟨L', a1, a2, a3, -⟩ := hd 0 (by decide)
    refine ⟨s, hs, L', a1, ?_⟩
    dsimp only at a3
    rw [a3]
    simp only [exHanded _ (.inr rfl)]
    have hs0 : stays .nonBlocking exProc ⟨1, 1, 1⟩ (exL true 0) = 0 := by
      have hb : box ⟨1, 1, 1⟩ ⟨1, 1, 1⟩ = [⟨1, 1, 1⟩] := by decide
      unfold stays
      rw [hb]
      simp [exL]
    rw [hs0, zero_add]
    have hz : ∀ l : List I3, l.Nodup → (l.map fun d => if exNb true (neg d) = false ∧ d = ⟨1, 0, 0⟩ then ({exOut} : Multiset (Part 1)) else 0).sum =
        if (⟨1, 0, 0⟩ : I3) ∈ l then {exOut} else 0 := by
      intro l
      induction l with
      | nil => intro _; rfl
      | cons a l ih =>
        intro hn
        rw [List.nodup_cons] at hn
        rw [List.map_cons, List.sum_cons, ih hn.2]
        by_cases ha : a = ⟨1, 0, 0⟩
        · subst ha
          rw [if_pos ⟨by decide, rfl⟩, if_neg hn.1, if_pos (by simp), add_zero]
        · rw [if_neg (fun h => ha h.2), zero_add]
          simp [Ne.symm ha]
    rw [hz dirs nodup_dirs, if_pos (by decide)]
  · exact (C57_terminates 1 exNb (fun _ => exProc) _ exL exNb_mutual (fun r is _ => hh r is) (fun is _ => exLand _ is) fun _ => .error .badFree).2.1

/-- `Mutual` for a 3×2×1 grid of processes. -/
example : ∃ nb' : {r : ℤ // (⟨3, 2, 1⟩ : Topology.PGrid).Rank r} → I3 → {r : ℤ // (⟨3, 2, 1⟩ : Topology.PGrid).Rank r}, Mutual nb' := by
  obtain ⟨nb', -, h⟩ := C57_neighbours ⟨3, 2, 1⟩ _ _ (C53_ordered ⟨3, 2, 1⟩ (by unfold Topology.PGrid.Ok; decide)).2
  exact ⟨nb', h⟩

end Picsar.Props
