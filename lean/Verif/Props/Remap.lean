import Verif.Lemmas.Remap
import Verif.Props.LoadBalance
import Mathlib.Tactic.FinCases
import Mathlib.Tactic.NormNum

/-
C68: remapping of fields to a new decomposition.
-/
namespace Picsar.Props
open Picsar Picsar.Grid Picsar.Mpi Picsar.Exchange Picsar.Remap Picsar.LoadBalance

/-- C68. Any number `n` of processes, any number `nf` of components, any old (`L1`) and new (`L2`) limits such that the old
subdomains cover the new ones. Whatever the order in which processes run and messages travel, when nothing can move any more all
processes have finished, no message is left over, the old arrays are as they were, every node of every new subdomain holds the value
that a process whose old subdomain contained that node had for it, and elements outside the new subdomain (guard cells) are as they
were. -/
theorem C68_remap (n nf : ℕ) (L1 L2 : Fin n → Lim) (h1 : ∀ r, (L1 r).Ok) (h2 : ∀ r, (L2 r).Ok)
    (hcov : ∀ r p, (L2 r).Has p → ∃ s, (L1 s).Has p) (m0 : Fin n → Remap.Mem) (k : ℕ) (b : Conf (Fin n) Remap.Mem (List ℝ))
    (e : Exec (remap n nf L1 L2) k (start m0) b) (hst : Stuck (remap n nf L1 L2) b) :
    (∀ r, b.g r = nf) ∧ (∀ s d, b.ch s d = []) ∧ ∀ r,
      (b.mem r).old = (m0 r).old ∧
      (∀ f, f < nf → ∀ p, (L2 r).Has p →
        ∃ s, (L1 s).Has p ∧ (b.mem r).new f ((L2 r).loc p) = (m0 s).old f ((L1 s).loc p)) ∧
      ∀ f i, (∀ p, (L2 r).Has p → i ≠ (L2 r).loc p) → (b.mem r).new f i = (m0 r).new f i := by
  obtain ⟨r1, r2, r3⟩ := exec_result (remap_ok (nf := nf) h1 h2) e hst
  refine ⟨r3, r2, fun r => ?_⟩
  obtain ⟨s1, s2, s3⟩ := sync_inv (nf := nf) h1 h2 hcov m0 nf r
  have hm : b.mem r = sync (remap n nf L1 L2) m0 nf r := r1 r
  rw [hm]
  exact ⟨s1, s3, fun f i hi => s2 f i (fun h => hi _ h.2 (sub_add3 i _).symm)⟩

/-- C68, for consistent fields: if the old arrays hold the values of global fields `F`, so do the new ones. -/
theorem C68_global_field (n nf : ℕ) (L1 L2 : Fin n → Lim) (h1 : ∀ r, (L1 r).Ok) (h2 : ∀ r, (L2 r).Ok)
    (hcov : ∀ r p, (L2 r).Has p → ∃ s, (L1 s).Has p) (F : ℕ → I3 → ℝ) (m0 : Fin n → Remap.Mem)
    (hF : ∀ s f p, (L1 s).Has p → (m0 s).old f ((L1 s).loc p) = F f p) (k : ℕ) (b : Conf (Fin n) Remap.Mem (List ℝ))
    (e : Exec (remap n nf L1 L2) k (start m0) b) (hst : Stuck (remap n nf L1 L2) b) :
    ∀ r f, f < nf → ∀ p, (L2 r).Has p → (b.mem r).new f ((L2 r).loc p) = F f p := by
  intro r f hf p hp
  obtain ⟨-, -, h⟩ := C68_remap n nf L1 L2 h1 h2 hcov m0 k b e hst
  obtain ⟨s, hs, es⟩ := (h r).2.1 f hf p hp
  rw [es, hF s f p hs]

/-- C68, liveness: no schedule deadlocks or runs forever. -/
theorem C68_terminates (n nf : ℕ) (L1 L2 : Fin n → Lim) (h1 : ∀ r, (L1 r).Ok) (h2 : ∀ r, (L2 r).Ok) :
    (∃ B, ∀ (m0 : Fin n → Remap.Mem) (k : ℕ) (b : Conf (Fin n) Remap.Mem (List ℝ)),
      Exec (remap n nf L1 L2) k (start m0) b → k ≤ B) ∧
    ∀ m0 : Fin n → Remap.Mem, ∃ k b, Exec (remap n nf L1 L2) k (start m0) b ∧ Stuck (remap n nf L1 L2) b :=
  ⟨⟨_, fun _ _ _ e => exec_bounded (remap_ok h1 h2) e⟩, fun m0 => exec_exists (remap_ok h1 h2) m0⟩

/-- C68, the message lists match: a process sends to `d` exactly when `d` expects something from it, namely when they share a node, and
what is sent and received is the same list of nodes, all inside both subdomains. -/
theorem C68_lists_match (n : ℕ) (L1 L2 : Fin n → Lim) (h1 : ∀ r, (L1 r).Ok) (h2 : ∀ r, (L2 r).Ok) (s d : Fin n) :
    ((inter3 (L1 s) (L2 d)).1 = true ↔ ∃ p, (L1 s).Has p ∧ (L2 d).Has p) ∧
    inter3 (L1 s) (L2 d) = inter3 (L2 d) (L1 s) ∧
    ((inter3 (L1 s) (L2 d)).1 = true → ∀ p, (inter3 (L1 s) (L2 d)).2.Has p ↔ (L1 s).Has p ∧ (L2 d).Has p) := by
  refine ⟨⟨fun h => ?_, fun ⟨p, a, b⟩ => inter3_flag (h1 s) (h2 d) a b⟩, inter3_symm (h1 s) (h2 d), fun h p => inter3_mem h p⟩
  have m := inter3_mem h (inter3 (L1 s) (L2 d)).2.lo
  refine ⟨_, m.mp ?_⟩
  obtain ⟨a1, a2, a3⟩ := h1 s
  obtain ⟨b1, b2, b3⟩ := h2 d
  have hx := h
  unfold inter3 at hx
  simp only [Bool.and_eq_true] at hx
  have key : ∀ {a b c d : ℤ}, a ≤ b → c ≤ d → (inter1 a b c d).1 = true → (inter1 a b c d).2.1 ≤ (inter1 a b c d).2.2 := by
    intro a b c d h1 h2 h
    unfold inter1 at *
    split_ifs at * <;> simp at * <;> omega
  exact ⟨le_rfl, key a1 b1 hx.1.1, le_rfl, key a2 b2 hx.1.2, le_rfl, key a3 b3 hx.2⟩

/-- Two processes in x: nodes 0..4 and 4..8. -/
def exOld (r : Fin 2) : Lim := if r = 0 then ⟨⟨0, 0, 0⟩, ⟨4, 4, 4⟩⟩ else ⟨⟨4, 0, 0⟩, ⟨8, 4, 4⟩⟩
/-- After balancing: nodes 0..2 and 2..8. -/
def exNew (r : Fin 2) : Lim := if r = 0 then ⟨⟨0, 0, 0⟩, ⟨2, 4, 4⟩⟩ else ⟨⟨2, 0, 0⟩, ⟨8, 4, 4⟩⟩

theorem exOld_ok (r : Fin 2) : (exOld r).Ok := by
  fin_cases r <;> simp [exOld, Lim.Ok]

theorem exNew_ok (r : Fin 2) : (exNew r).Ok := by
  fin_cases r <;> simp [exNew, Lim.Ok]

theorem ex_cover (r : Fin 2) (p : I3) (h : (exNew r).Has p) : ∃ s, (exOld s).Has p := by
  by_cases hp : p.j ≤ 4
  · refine ⟨0, ?_⟩
    fin_cases r <;> simp [exNew, exOld, Lim.Has, InBox] at h ⊢ <;> omega
  · refine ⟨1, ?_⟩
    fin_cases r <;> simp [exNew, exOld, Lim.Has, InBox] at h ⊢ <;> omega

/-- The hypotheses are met, and nodes really change hands: node 3 moves from process 0 to process 1. -/
example (m0 : Fin 2 → Remap.Mem) : ∃ k b, Exec (remap 2 6 exOld exNew) k (start m0) b ∧
    (b.mem 1).new 5 ⟨1, 0, 0⟩ = (m0 0).old 5 ⟨3, 0, 0⟩ := by
  obtain ⟨k, b, e, hst⟩ := (C68_terminates 2 6 exOld exNew exOld_ok exNew_ok).2 m0
  refine ⟨k, b, e, ?_⟩
  obtain ⟨-, -, h⟩ := C68_remap 2 6 exOld exNew exOld_ok exNew_ok ex_cover m0 k b e hst
  obtain ⟨s, hs, es⟩ := (h 1).2.1 5 (by norm_num) ⟨3, 0, 0⟩ (by simp [exNew, Lim.Has, InBox])
  have hs0 : s = 0 := by
    fin_cases s
    · rfl
    · simp [exOld, Lim.Has, InBox] at hs
  subst hs0
  simpa [exNew, exOld, Lim.loc, sub3] using es

/-- The limits table that the remap routines use: when the processor numbering is injective on the processor grid, every process gets
the limits of its own block. -/
theorem C68_limits_table (conv : ℤ → ℤ → ℤ → ℤ) (npx npy npz : ℤ) (cxmin cxmax cymin cymax czmin czmax : ℤ → ℤ)
    (hinj : ∀ ix iy iz jx jy jz, ProcIndex npx npy npz ix iy iz → ProcIndex npx npy npz jx jy jz →
      conv ix iy iz = conv jx jy jz → ix = jx ∧ iy = jy ∧ iz = jz) (ix iy iz : ℤ) (h : ProcIndex npx npy npz ix iy iz) :
    procLimits conv npx npy npz cxmin cxmax cymin cymax czmin czmax (conv ix iy iz) =
      some ⟨⟨cxmin ix, cymin iy, czmin iz⟩, ⟨cxmax ix + 1, cymax iy + 1, czmax iz + 1⟩⟩ := by
  have key : ∀ (l : List I3) (A : ℤ → Option Lim), (∀ i ∈ l, ProcIndex npx npy npz i.j i.k i.l) →
      (⟨ix, iy, iz⟩ ∈ l ∨ A (conv ix iy iz) =
        some ⟨⟨cxmin ix, cymin iy, czmin iz⟩, ⟨cxmax ix + 1, cymax iy + 1, czmax iz + 1⟩⟩) →
      l.foldl (fun A i => Function.update A (conv i.j i.k i.l)
        (some ⟨⟨cxmin i.j, cymin i.k, czmin i.l⟩, ⟨cxmax i.j + 1, cymax i.k + 1, czmax i.l + 1⟩⟩)) A (conv ix iy iz) =
      some ⟨⟨cxmin ix, cymin iy, czmin iz⟩, ⟨cxmax ix + 1, cymax iy + 1, czmax iz + 1⟩⟩ := by
    intro l
    induction l with
    | nil => rintro A - (h | h)
             · simp at h
             · exact h
    | cons a l ih =>
      intro A hl hm
      rw [List.foldl_cons]
      refine ih _ (fun i hi => hl i (List.mem_cons_of_mem _ hi)) ?_
      by_cases hc : conv ix iy iz = conv a.j a.k a.l
      · right
        obtain ⟨e1, e2, e3⟩ := hinj _ _ _ _ _ _ h (hl a List.mem_cons_self) hc
        rw [hc, Function.update_self, e1, e2, e3]
      · rcases hm with hm | hm
        · rcases List.mem_cons.mp hm with rfl | hm
          · exact absurd rfl hc
          · exact Or.inl hm
        · right
          rw [Function.update_of_ne hc, hm]
  refine key _ _ (fun i hi => ?_) (Or.inl ?_)
  · have := mem_box.mp hi
    unfold InBox at this
    unfold ProcIndex
    dsimp only at this
    omega
  · refine mem_box.mpr ?_
    unfold InBox
    unfold ProcIndex at h
    dsimp only
    omega

example : procLimits (convertInd 2 2 1) 2 2 1 (fun i => 4 * i) (fun i => 4 * i + 3) (fun i => 4 * i) (fun i => 4 * i + 3) (fun _ => 0)
    (fun _ => 7) (convertInd 2 2 1 1 1 0) = some ⟨⟨4, 4, 0⟩, ⟨8, 8, 8⟩⟩ := by
  have h := C68_limits_table (convertInd 2 2 1) 2 2 1 (fun i => 4 * i) (fun i => 4 * i + 3) (fun i => 4 * i) (fun i => 4 * i + 3)
    (fun _ => 0) (fun _ => 7) (C69_distinct_ranks_partial 2 2 1 (by norm_num) (by norm_num)).2 1 1 0 (by unfold ProcIndex; omega)
  simpa using h

/-- C68 fails without a Cartesian communicator when there are more processes in y than in x: on a `1 × 2 × 1` processor grid the limits of
process 1 are never set, because both processors are numbered 0. -/
theorem C68_limits_table_refuted (cxmin cxmax cymin cymax czmin czmax : ℤ → ℤ) :
    procLimits (convertInd 1 2 1) 1 2 1 cxmin cxmax cymin cymax czmin czmax 1 = none ∧
    procLimits (convertInd 1 2 1) 1 2 1 cxmin cxmax cymin cymax czmin czmax 0 =
      some ⟨⟨cxmin 0, cymin 1, czmin 0⟩, ⟨cxmax 0 + 1, cymax 1 + 1, czmax 0 + 1⟩⟩ := by
  have hb : box ⟨0, 0, 0⟩ ⟨1 - 1, 2 - 1, 1 - 1⟩ = [⟨0, 0, 0⟩, ⟨0, 1, 0⟩] := by decide
  unfold procLimits
  rw [hb]
  have h0 : convertInd 1 2 1 0 0 0 = 0 := by decide
  have h1 : convertInd 1 2 1 0 1 0 = 0 := by decide
  simp only [List.foldl_cons, List.foldl_nil, h0, h1]
  exact ⟨rfl, rfl⟩

end Picsar.Props
