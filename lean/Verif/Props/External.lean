import Verif.Lemmas.External
import Verif.Props.Stencil

/-
C141-C145: the solver called by other codes through the C interface.
-/
namespace Picsar.Props
open Picsar Picsar.Grid Picsar.Maxwell Picsar.External Finset

/-- A request: 8 x 6 x 4 cells, 2 guard cells, orders 2, 4 and 2. -/
noncomputable def External_q : Request := ⟨8, 6, 4, 1, 1 / 2, 1 / 4, 1 / 8, 2, 2, 2, 2, 4, 2, false⟩

/-- Sequential execution is one of the schedules. -/
def External_seq (r : Ranges) : Orders := ⟨box r.xlo r.xhi, box r.ylo r.yhi, box r.zlo r.zhi⟩

theorem External_sched (q : Request) : Schedules q (External_seq (eRanges (params q))) (External_seq (bRanges (params q))) :=
  ⟨⟨List.Perm.refl _, List.Perm.refl _, List.Perm.refl _⟩, ⟨List.Perm.refl _, List.Perm.refl _, List.Perm.refl _⟩⟩

example : (⟨1, 2, 1⟩ : Halves).For External_q := ⟨rfl, rfl, rfl, by decide, by decide, by decide⟩

/-! ### C141 -/

/-- **C141** When the axes 1, 2, 3 of the caller are left-handed (z, y, x), one call advances Ampère's and Faraday's laws at every
point that is half the order away from the array ends, for every thread schedule, and leaves all other arrays alone. -/
theorem C141_left_handed (q : Request) (h : Halves) (hh : h.For q) (oE oB : Orders) (ho : Schedules q oE oB) (a : Caller) :
    ∃ b, solve q oE oB a = .ok b ∧ (∀ n, n = 0 ∨ 7 ≤ n → b n = a n) ∧
      ∀ i1 i2 i3, FullPoint h q i1 i2 i3 → AmpereAt (-1) h q a b i1 i2 i3 ∧ FaradayAt (-1) h q a b i1 i2 i3 :=
  solve_spec q h hh ho a

theorem External_rev (D : Diff) (hD : ∀ u i, D.D1 (fun x => -u x) i = -D.D1 u i ∧ D.D2 (fun x => -u x) i = -D.D2 u i ∧
    D.D3 (fun x => -u x) i = -D.D3 u i) (a : Caller) (i1 i2 i3 : ℤ) :
    curl1 D (reverseB a 4) (reverseB a 5) (reverseB a 6) i1 i2 i3 = -curl1 D (a 4) (a 5) (a 6) i1 i2 i3 ∧
    curl2 D (reverseB a 4) (reverseB a 5) (reverseB a 6) i1 i2 i3 = -curl2 D (a 4) (a 5) (a 6) i1 i2 i3 ∧
    curl3 D (reverseB a 4) (reverseB a 5) (reverseB a 6) i1 i2 i3 = -curl3 D (a 4) (a 5) (a 6) i1 i2 i3 := by
  have n4 : reverseB a 4 = fun x y z => -a 4 x y z := by funext x y z; simp [reverseB]
  have n5 : reverseB a 5 = fun x y z => -a 5 x y z := by funext x y z; simp [reverseB]
  have n6 : reverseB a 6 = fun x y z => -a 6 x y z := by funext x y z; simp [reverseB]
  rw [n4, n5, n6]
  unfold curl1 curl2 curl3 part1 part2 part3
  refine ⟨?_, ?_, ?_⟩
  · rw [(hD (fun x => a 6 i1 x i3) i2).2.1, (hD (fun x => a 5 i1 i2 x) i3).2.2]; ring
  · rw [(hD (fun x => a 4 i1 i2 x) i3).2.2, (hD (fun x => a 6 x i2 i3) i1).1]; ring
  · rw [(hD (fun x => a 5 x i2 i3) i1).1, (hD (fun x => a 4 i1 x i3) i2).2.1]; ring

theorem External_neg (h : Halves) (D : Diff) (hD : Nice h D) (u : ℤ → ℝ) (i : ℤ) : D.D1 (fun x => -u x) i = -D.D1 u i ∧
    D.D2 (fun x => -u x) i = -D.D2 u i ∧ D.D3 (fun x => -u x) i = -D.D3 u i := by
  have e : (fun x => -u x) = fun x => (-1) * u x + 0 * u x + 0 * u x := by funext x; ring
  refine ⟨?_, ?_, ?_⟩
  · rw [e, hD.lin1]; ring
  · rw [e, hD.lin2]; ring
  · rw [e, hD.lin3]; ring

/-- **C141** When the axes 1, 2, 3 are right-handed (x, y, z), the laws hold for the arrays with the magnetic field reversed.
Missing: the laws for the fields as they are given, which is false. -/
theorem C141_right_handed_partial (q : Request) (h : Halves) (hh : h.For q) (oE oB : Orders) (ho : Schedules q oE oB) (a : Caller) :
    ∃ b, solve q oE oB a = .ok b ∧ ∀ i1 i2 i3, FullPoint h q i1 i2 i3 →
      AmpereAt 1 h q (reverseB a) (reverseB b) i1 i2 i3 ∧ FaradayAt 1 h q (reverseB a) (reverseB b) i1 i2 i3 := by
  obtain ⟨b, e, _, H⟩ := solve_spec q h hh ho a
  refine ⟨b, e, fun i1 i2 i3 hi => ?_⟩
  obtain ⟨⟨A1, A2, A3⟩, F1, F2, F3⟩ := H i1 i2 i3 hi
  obtain ⟨c1, c2, c3⟩ := External_rev (aheads h q) (External_neg h _ (nice_aheads h q)) a i1 i2 i3
  have keep : ∀ (a : Caller) n, n ≠ 4 → n ≠ 5 → n ≠ 6 → reverseB a n = a n := by
    intro a n h1 h2 h3
    funext x y z
    simp [reverseB, h1, h2, h3]
  have flip4 : ∀ (a : Caller) x y z, reverseB a 4 x y z = -a 4 x y z := fun a x y z => by simp [reverseB]
  have flip5 : ∀ (a : Caller) x y z, reverseB a 5 x y z = -a 5 x y z := fun a x y z => by simp [reverseB]
  have flip6 : ∀ (a : Caller) x y z, reverseB a 6 x y z = -a 6 x y z := fun a x y z => by simp [reverseB]
  refine ⟨⟨?_, ?_, ?_⟩, ?_, ?_, ?_⟩
  · rw [c1, keep b 1, keep a 1, keep a 7, A1] <;> first | decide | ring
  · rw [c2, keep b 2, keep a 2, keep a 8, A2] <;> first | decide | ring
  · rw [c3, keep b 3, keep a 3, keep a 9, A3] <;> first | decide | ring
  · rw [flip4, flip4, keep b 1, keep b 2, keep b 3, F1] <;> first | decide | ring
  · rw [flip5, flip5, keep b 1, keep b 2, keep b 3, F2] <;> first | decide | ring
  · rw [flip6, flip6, keep b 1, keep b 2, keep b 3, F3] <;> first | decide | ring

/-- **C141**, refuted for right-handed axes: wherever the curl of the magnetic field is not zero, the electric field is advanced
with the opposite sign. -/
theorem C141_right_handed_refuted (q : Request) (h : Halves) (hh : h.For q) (hdt : q.dt ≠ 0) (oE oB : Orders) (ho : Schedules q oE oB)
    (a : Caller) (i1 i2 i3 : ℤ) (hi : FullPoint h q i1 i2 i3) (hc : curl1 (aheads h q) (a 4) (a 5) (a 6) i1 i2 i3 ≠ 0) :
    ∃ b, solve q oE oB a = .ok b ∧ ¬ AmpereAt 1 h q a b i1 i2 i3 := by
  obtain ⟨b, e, _, H⟩ := solve_spec q h hh ho a
  refine ⟨b, e, fun hA => ?_⟩
  have h1 := (H i1 i2 i3 hi).1.1
  have h2 := hA.1
  rw [h1] at h2
  apply hc
  have : q.dt * curl1 (aheads h q) (a 4) (a 5) (a 6) i1 i2 i3 = 0 := by linarith
  exact (mul_eq_zero.mp this).resolve_left hdt

/-- A magnetic field with a curl: `B3 = x2`. -/
example : FullPoint ⟨1, 2, 1⟩ External_q 3 2 1 ∧
    curl1 (aheads ⟨1, 2, 1⟩ External_q) (fun _ _ _ => 0) (fun _ _ _ => 0) (fun _ i2 _ => i2) 3 2 1 = 2 := by
  constructor
  · unfold FullPoint External_q
    norm_num
  · unfold curl1 part2 part3 aheads External_q ahead
    simp only [sub_self, mul_zero, zero_div, sum_const_zero, sub_zero]
    rw [show Icc 1 2 = {1, 2} from rfl, sum_insert (by simp), sum_singleton]
    unfold pairWeight
    norm_num [Nat.factorial]

/-- **C141** The differences in these laws have the order that was asked for: they give the derivative of every polynomial of degree
up to the order, from values on points displaced by half a cell backwards (`ahead`) or forwards (`behind`). -/
theorem C141_order (h : ℕ) (hh : 1 ≤ h) (d : ℝ) (hd : d ≠ 0) (f : Polynomial ℝ) (hf : f.natDegree ≤ 2 * h) (i : ℤ) :
    ahead h d (fun k => f.eval ((k - 1 / 2) * d)) i = f.derivative.eval (i * d) ∧
    behind h d (fun k => f.eval ((k + 1 / 2) * d)) i = f.derivative.eval (i * d) := by
  have key := C104_staggered h hh d f (i * d) hd hf
  unfold Stencil.staggeredDiff at key
  constructor
  · rw [← key]
    unfold ahead
    refine sum_congr rfl fun l hl => ?_
    rw [mem_Icc] at hl
    rw [Stencil.weight_staggered h l hl.1 hl.2, ← pairWeight]
    push_cast
    rw [show ((i : ℝ) + l - 1 / 2) * d = i * d + (l - 1 / 2) * d by ring, show ((i : ℝ) - l + 1 - 1 / 2) * d = i * d - (l - 1 / 2) * d by ring]
  · rw [← key]
    unfold behind
    refine sum_congr rfl fun l hl => ?_
    rw [mem_Icc] at hl
    rw [Stencil.weight_staggered h l hl.1 hl.2, ← pairWeight]
    push_cast
    rw [show ((i : ℝ) + l - 1 + 1 / 2) * d = i * d + (l - 1 / 2) * d by ring, show ((i : ℝ) - l + 1 / 2) * d = i * d - (l - 1 / 2) * d by ring]

/-! ### C142 -/

/-- A point of the arrays, guard points included. -/
def External_inArrays (q : Request) (i1 i2 i3 : ℤ) : Prop :=
  (-q.g1 ≤ i1 ∧ i1 ≤ q.n1 + q.g1) ∧ (-q.g2 ≤ i2 ∧ i2 ≤ q.n2 + q.g2) ∧ (-q.g3 ≤ i3 ∧ i3 ≤ q.n3 + q.g3)

theorem External_release (q : Request) (a : Caller) {σ τ σ' τ' : Mem} {rx ry rz tx ty tz : Ex} {r s : Ranges}
    (r1 : ThreeRes .ex .ey .ez rx ry rz r (view q a) σ) (r2 : ThreeRes .bx .by' .bz tx ty tz s σ τ)
    (r1' : ThreeRes .ex .ey .ez rx ry rz r (view q a) σ') (r2' : ThreeRes .bx .by' .bz tx ty tz s σ' τ') : release τ a = release τ' a := by
  have hσ : σ = σ' := by
    funext c
    by_cases hc : c = .ex ∨ c = .ey ∨ c = .ez
    · have hb : (σ c).lo = (σ' c).lo ∧ (σ c).hi = (σ' c).hi :=
        ⟨(r1.bounds c).1.trans (r1'.bounds c).1.symm, (r1.bounds c).2.trans (r1'.bounds c).2.symm⟩
      have hv : (σ c).val = (σ' c).val := by
        funext i
        rcases hc with rfl | rfl | rfl
        · rw [r1.x, r1'.x]
        · rw [r1.y, r1'.y]
        · rw [r1.z, r1'.z]
      calc σ c = ⟨(σ c).lo, (σ c).hi, (σ c).val⟩ := rfl
        _ = ⟨(σ' c).lo, (σ' c).hi, (σ' c).val⟩ := by rw [hb.1, hb.2, hv]
        _ = σ' c := rfl
    · simp only [not_or] at hc
      rw [r1.other c hc.1 hc.2.1 hc.2.2, r1'.other c hc.1 hc.2.1 hc.2.2]
  subst hσ
  have hv : ∀ c i, (τ c).val i = (τ' c).val i := by
    intro c i
    by_cases hc : c = .bx ∨ c = .by' ∨ c = .bz
    · rcases hc with rfl | rfl | rfl
      · rw [r2.x, r2'.x]
      · rw [r2.y, r2'.y]
      · rw [r2.z, r2'.z]
    · simp only [not_or] at hc
      rw [r2.other c hc.1 hc.2.1 hc.2.2, r2'.other c hc.1 hc.2.1 hc.2.2]
  funext n i1 i2 i3
  unfold release
  split <;> first | exact hv _ _ | rfl

/-- **C142** For every size, guard width and order (also odd or zero), one call reads and writes inside the arrays only, gives the same
fields for all thread schedules, and changes nothing outside the arrays. -/
theorem C142_safe (q : Request) (oE oB oE' oB' : Orders) (ho : Schedules q oE oB) (ho' : Schedules q oE' oB') (a : Caller) :
    ∃ b, solve q oE oB a = .ok b ∧ solve q oE' oB' a = .ok b ∧
      ∀ n i1 i2 i3, ¬ External_inArrays q i1 i2 i3 → b n i1 i2 i3 = a n i1 i2 i3 := by
  obtain ⟨σ, τ, e, r1, r2⟩ := solve_ok q ho a
  obtain ⟨σ', τ', e', r1', r2'⟩ := solve_ok q ho' a
  refine ⟨release τ a, e, ?_, ?_⟩
  · rw [e', External_release q a r1 r2 r1' r2']
  · intro n i1 i2 i3 hi
    have nE : ∀ (P : Prop), (P → InArr (params q) ⟨i3, i2, i1⟩) → ¬ P := by
      intro P hP hp
      have := hP hp
      apply hi
      unfold InArr InBox params at this
      unfold External_inArrays
      simp only at this
      omega
    have out : ∀ c, (τ c).val ⟨i3, i2, i1⟩ = (view q a c).val ⟨i3, i2, i1⟩ := by
      intro c
      have h1 : (τ c).val ⟨i3, i2, i1⟩ = (σ c).val ⟨i3, i2, i1⟩ := by
        by_cases hc : c = .bx ∨ c = .by' ∨ c = .bz
        · rcases hc with rfl | rfl | rfl
          · rw [r2.x, if_neg (nE _ fun hp => bRanges_in _ _ (Or.inl hp))]
          · rw [r2.y, if_neg (nE _ fun hp => bRanges_in _ _ (Or.inr (Or.inl hp)))]
          · rw [r2.z, if_neg (nE _ fun hp => bRanges_in _ _ (Or.inr (Or.inr hp)))]
        · simp only [not_or] at hc
          rw [r2.other c hc.1 hc.2.1 hc.2.2]
      rw [h1]
      by_cases hc : c = .ex ∨ c = .ey ∨ c = .ez
      · rcases hc with rfl | rfl | rfl
        · rw [r1.x, if_neg (nE _ fun hp => eRanges_in _ _ (Or.inl hp))]
        · rw [r1.y, if_neg (nE _ fun hp => eRanges_in _ _ (Or.inr (Or.inl hp)))]
        · rw [r1.z, if_neg (nE _ fun hp => eRanges_in _ _ (Or.inr (Or.inr hp)))]
      · simp only [not_or] at hc
        rw [r1.other c hc.1 hc.2.1 hc.2.2]
    unfold release
    split <;> first | exact out _ | rfl

/-- Order 5 with one guard cell, fewer than the stencil needs. -/
example : ∃ q : Request, q.o1 = 5 ∧ q.g1 = 1 ∧ Schedules q (External_seq (eRanges (params q))) (External_seq (bRanges (params q))) :=
  ⟨{ External_q with o1 := 5, g1 := 1 }, rfl, rfl, External_sched _⟩

/-! ### C143 -/

/-- **C143** The axes are treated alike: a caller that numbers its axes 2, 3, 1 gets the same fields, the electric field at every point
half the order away from the array ends and the magnetic field at every point the order away from them. Missing: the points nearer
to the ends, where it is false. -/
theorem C143_rotation_partial (q : Request) (h : Halves) (hh : h.For q) (oE oB oE' oB' : Orders) (ho : Schedules q oE oB)
    (ho' : Schedules (rotateRequest q) oE' oB') (a : Caller) :
    ∃ b b', solve q oE oB a = .ok b ∧ solve (rotateRequest q) oE' oB' (rotate a) = .ok b' ∧ ∀ i1 i2 i3, FullPoint h q i1 i2 i3 →
      (∀ n, 1 ≤ n → n ≤ 3 → b' n i2 i3 i1 = rotate b n i2 i3 i1) ∧
      (FullPoint h.double q i1 i2 i3 → ∀ n, 4 ≤ n → n ≤ 6 → b' n i2 i3 i1 = rotate b n i2 i3 i1) := by
  obtain ⟨b, e, _, H⟩ := solve_spec q h hh ho a
  have hh' : h.rotate.For (rotateRequest q) := ⟨hh.2.1, hh.2.2.1, hh.1, hh.2.2.2.2.1, hh.2.2.2.2.2, hh.2.2.2.1⟩
  obtain ⟨b', e', _, H'⟩ := solve_spec (rotateRequest q) h.rotate hh' ho' (rotate a)
  have rot : ∀ {i1 i2 i3}, FullPoint h q i1 i2 i3 → FullPoint h.rotate (rotateRequest q) i2 i3 i1 := by
    intro i1 i2 i3 hi
    exact ⟨hi.2.1, hi.2.2, hi.1⟩
  have E : ∀ i1 i2 i3, FullPoint h q i1 i2 i3 → b' 1 i2 i3 i1 = b 2 i1 i2 i3 ∧ b' 2 i2 i3 i1 = b 3 i1 i2 i3 ∧ b' 3 i2 i3 i1 = b 1 i1 i2 i3 := by
    intro i1 i2 i3 hi
    obtain ⟨A1, A2, A3⟩ := (H i1 i2 i3 hi).1
    obtain ⟨B1, B2, B3⟩ := (H' i2 i3 i1 (rot hi)).1
    refine ⟨?_, ?_, ?_⟩
    · rw [B1, A2]; rfl
    · rw [B2, A3]; rfl
    · rw [B3, A1]; rfl
  refine ⟨b, b', e, e', fun i1 i2 i3 hi => ⟨?_, ?_⟩⟩
  · obtain ⟨E1, E2, E3⟩ := E i1 i2 i3 hi
    intro n hn1 hn3
    obtain rfl | rfl | rfl : n = 1 ∨ n = 2 ∨ n = 3 := by omega
    · exact E1
    · exact E2
    · exact E3
  · intro hd
    have near1 : ∀ d : ℤ, |d| ≤ h.h1 → FullPoint h q (i1 + d) i2 i3 := by
      intro d hd'
      rw [abs_le] at hd'
      unfold FullPoint Halves.double at hd
      unfold FullPoint
      push_cast at hd
      omega
    have near2 : ∀ d : ℤ, |d| ≤ h.h2 → FullPoint h q i1 (i2 + d) i3 := by
      intro d hd'
      rw [abs_le] at hd'
      unfold FullPoint Halves.double at hd
      unfold FullPoint
      push_cast at hd
      omega
    have near3 : ∀ d : ℤ, |d| ≤ h.h3 → FullPoint h q i1 i2 (i3 + d) := by
      intro d hd'
      rw [abs_le] at hd'
      unfold FullPoint Halves.double at hd
      unfold FullPoint
      push_cast at hd
      omega
    obtain ⟨A1, A2, A3⟩ := (H i1 i2 i3 hi).2
    obtain ⟨B1, B2, B3⟩ := (H' i2 i3 i1 (rot hi)).2
    have N := nice_behinds h q
    have q1 : part1 (behinds h.rotate (rotateRequest q)) (b' 2) i2 i3 i1 = part2 (behinds h q) (b 3) i1 i2 i3 :=
      N.loc2 _ (fun x => b 3 i1 x i3) i2 fun d hd' => (E i1 (i2 + d) i3 (near2 d hd')).2.1
    have q2 : part1 (behinds h.rotate (rotateRequest q)) (b' 3) i2 i3 i1 = part2 (behinds h q) (b 1) i1 i2 i3 :=
      N.loc2 _ (fun x => b 1 i1 x i3) i2 fun d hd' => (E i1 (i2 + d) i3 (near2 d hd')).2.2
    have q3 : part2 (behinds h.rotate (rotateRequest q)) (b' 1) i2 i3 i1 = part3 (behinds h q) (b 2) i1 i2 i3 :=
      N.loc3 _ (fun x => b 2 i1 i2 x) i3 fun d hd' => (E i1 i2 (i3 + d) (near3 d hd')).1
    have q4 : part2 (behinds h.rotate (rotateRequest q)) (b' 3) i2 i3 i1 = part3 (behinds h q) (b 1) i1 i2 i3 :=
      N.loc3 _ (fun x => b 1 i1 i2 x) i3 fun d hd' => (E i1 i2 (i3 + d) (near3 d hd')).2.2
    have q5 : part3 (behinds h.rotate (rotateRequest q)) (b' 1) i2 i3 i1 = part1 (behinds h q) (b 2) i1 i2 i3 :=
      N.loc1 _ (fun x => b 2 x i2 i3) i1 fun d hd' => (E (i1 + d) i2 i3 (near1 d hd')).1
    have q6 : part3 (behinds h.rotate (rotateRequest q)) (b' 2) i2 i3 i1 = part1 (behinds h q) (b 3) i1 i2 i3 :=
      N.loc1 _ (fun x => b 3 x i2 i3) i1 fun d hd' => (E (i1 + d) i2 i3 (near1 d hd')).2.1
    intro n hn1 hn3
    obtain rfl | rfl | rfl : n = 4 ∨ n = 5 ∨ n = 6 := by omega
    · change b' 4 i2 i3 i1 = b 5 i1 i2 i3
      rw [B1, A2]
      unfold curl1 curl2
      rw [q4, q6]
      rfl
    · change b' 5 i2 i3 i1 = b 6 i1 i2 i3
      rw [B2, A3]
      unfold curl2 curl3
      rw [q5, q2]
      rfl
    · change b' 6 i2 i3 i1 = b 4 i1 i2 i3
      rw [B3, A1]
      unfold curl3 curl1
      rw [q1, q3]
      rfl

/-- Arrays that vanish except `B1 = x2`. -/
def External_shear : Caller := fun n _ i2 _ => if n = 4 then i2 else 0

/-- **C143**, refuted at the ends of the arrays: on the first guard points of axis 2 the third component of the electric field is
advanced with the curl of the magnetic field; the same component of the caller that numbers its axes 2, 3, 1 is not. -/
theorem C143_rotation_refuted (oE oB oE' oB' : Orders) (ho : Schedules External_q oE oB) (ho' : Schedules (rotateRequest External_q) oE' oB') :
    ∃ b b', solve External_q oE oB External_shear = .ok b ∧
      solve (rotateRequest External_q) oE' oB' (rotate External_shear) = .ok b' ∧
      b 3 0 (-2) 0 ≠ 0 ∧ b' 2 (-2) 0 0 = 0 ∧ b' 2 (-2) 0 0 ≠ rotate b 2 (-2) 0 0 := by
  obtain ⟨σ, τ, e, r1, r2⟩ := solve_ok External_q ho External_shear
  obtain ⟨σ', τ', e', r1', r2'⟩ := solve_ok (rotateRequest External_q) ho' (rotate External_shear)
  have hb : (τ .ex).val ⟨0, -2, 0⟩ = 9 / 32 := by
    rw [r2.other .ex (by decide) (by decide) (by decide), r1.x, if_pos (by simp [eRanges, InBox, params, External_q])]
    simp only [add_den, sub_den, mul_den, cst_den, rd_den, I3.sh, dyB_den, dzB_den]
    have c1 : min ((params External_q).oy / 2) (reachE (params External_q).ny (params External_q).gy (-2)) = 1 := by
      simp [params, External_q, reachE]
    have c2 : min ((params External_q).oz / 2) (reachE (params External_q).nz (params External_q).gz 0) = 1 := by
      simp [params, External_q, reachE]
    rw [c1, c2]
    have w : (params External_q).cy 1 = 9 / 32 := by
      simp only [params, External_q]
      rw [show 4 = 2 * 2 by rfl, Stencil.weight_staggered 2 1 (by norm_num) (by norm_num)]
      norm_num [Nat.factorial]
    unfold Spec.fwdN
    rw [Icc_self, sum_singleton, sum_singleton, w]
    simp only [Spec.at', view, source, External_shear]
    norm_num [params]
  have hb' : (τ' .ey).val ⟨0, 0, -2⟩ = 0 := by
    rw [r2'.other .ey (by decide) (by decide) (by decide), r1'.y, if_pos (by simp [eRanges, InBox, params, External_q, rotateRequest])]
    simp only [add_den, sub_den, mul_den, cst_den, rd_den, I3.sh, dxB_den, dzB_den]
    have c2 : nterms (params (rotateRequest External_q)).oz (params (rotateRequest External_q)).nz (params (rotateRequest External_q)).gz (-2) = 0 := by
      simp [params, External_q, rotateRequest, nterms]
    rw [c2]
    simp only [Spec.fwdN, Spec.at', view, source, External_shear, rotate, oldNumber]
    norm_num
  refine ⟨release τ _, release τ' _, e, e', ?_, hb', ?_⟩
  · change (τ .ex).val ⟨0, -2, 0⟩ ≠ 0
    rw [hb]
    norm_num
  · change (τ' .ey).val ⟨0, 0, -2⟩ ≠ (τ .ex).val ⟨0, -2, 0⟩
    rw [hb, hb']
    norm_num

/-! ### C144 -/

theorem External_step (q : Request) (h : Halves) (hh : h.For q) (hg : EnoughGuards h q) (oE oB : Orders) (ho : Schedules q oE oB)
    (i1 i2 i3 : ℤ) (hi : InnerPoint h q i1 i2 i3) (a : Caller) : ∃ b, solve q oE oB a = .ok b ∧
      div3 (behinds h q) (b 4) (b 5) (b 6) i1 i2 i3 = div3 (behinds h q) (a 4) (a 5) (a 6) i1 i2 i3 ∧
      div3 (aheads h q) (b 1) (b 2) (b 3) i1 i2 i3 =
        div3 (aheads h q) (a 1) (a 2) (a 3) i1 i2 i3 - q.dt * div3 (aheads h q) (a 7) (a 8) (a 9) i1 i2 i3 := by
  obtain ⟨b, e, _, H⟩ := solve_spec q h hh ho a
  obtain ⟨k1, k2, k3⟩ := inner_cross hi
  refine ⟨b, e, ?_, ?_⟩
  · rw [div3_update (nice_behinds h q) (b 4) (b 5) (b 6) (a 4) (a 5) (a 6) (a 4) (a 5) (a 6) (b 1) (b 2) (b 3) 0 q.dt i1 i2 i3
      ⟨fun d hd => ?_, fun d hd => ?_, fun d hd => ?_⟩]
    · ring
    · beta_reduce; rw [(H _ _ _ (interior_full hg (k1 d hd))).2.1]; ring
    · beta_reduce; rw [(H _ _ _ (interior_full hg (k2 d hd))).2.2.1]; ring
    · beta_reduce; rw [(H _ _ _ (interior_full hg (k3 d hd))).2.2.2]; ring
  · rw [div3_update (nice_aheads h q) (b 1) (b 2) (b 3) (a 1) (a 2) (a 3) (a 7) (a 8) (a 9) (a 4) (a 5) (a 6) (-q.dt) (-q.dt) i1 i2 i3
      ⟨fun d hd => ?_, fun d hd => ?_, fun d hd => ?_⟩]
    · ring
    · beta_reduce; rw [(H _ _ _ (interior_full hg (k1 d hd))).1.1]; ring
    · beta_reduce; rw [(H _ _ _ (interior_full hg (k2 d hd))).1.2.1]; ring
    · beta_reduce; rw [(H _ _ _ (interior_full hg (k3 d hd))).1.2.2]; ring

/-- **C144** Over any number of calls, whatever the caller does to the currents and the guard points in between and for all thread
schedules: the divergence of B does not change, and `div E - rho` does not change when the charge follows the continuity equation. -/
theorem C144_divergences (q : Request) (h : Halves) (hh : h.For q) (hg : EnoughGuards h q) (i1 i2 i3 : ℤ) (hi : InnerPoint h q i1 i2 i3)
    (acts : List Act) (hl : ∀ s ∈ acts, s.Legal q) (rho : ℝ) (a : Caller) :
    ∃ rho' b, history h q i1 i2 i3 acts rho a = .ok (rho', b) ∧
      div3 (behinds h q) (b 4) (b 5) (b 6) i1 i2 i3 = div3 (behinds h q) (a 4) (a 5) (a 6) i1 i2 i3 ∧
      div3 (aheads h q) (b 1) (b 2) (b 3) i1 i2 i3 - rho' = div3 (aheads h q) (a 1) (a 2) (a 3) i1 i2 i3 - rho := by
  induction acts generalizing rho a with
  | nil => exact ⟨rho, a, rfl, rfl, rfl⟩
  | cons s ss ih =>
    obtain ⟨ho, hk⟩ := hl s (List.mem_cons_self ..)
    obtain ⟨b, e, dB, dE⟩ := External_step q h hh hg s.oE s.oB ho i1 i2 i3 hi (s.change a)
    obtain ⟨rho', c, e', dB', dE'⟩ := ih (fun t ht => hl t (List.mem_cons_of_mem _ ht))
      (rho - q.dt * div3 (aheads h q) (s.change a 7) (s.change a 8) (s.change a 9) i1 i2 i3) b
    obtain ⟨k1, k2, k3⟩ := inner_cross hi
    have cB : div3 (behinds h q) (s.change a 4) (s.change a 5) (s.change a 6) i1 i2 i3 = div3 (behinds h q) (a 4) (a 5) (a 6) i1 i2 i3 :=
      div3_congr (nice_behinds h q) _ _ _ _ _ _ i1 i2 i3 ⟨fun d hd => hk a 4 _ _ _ (by norm_num) (by norm_num) (k1 d hd),
        fun d hd => hk a 5 _ _ _ (by norm_num) (by norm_num) (k2 d hd), fun d hd => hk a 6 _ _ _ (by norm_num) (by norm_num) (k3 d hd)⟩
    have cE : div3 (aheads h q) (s.change a 1) (s.change a 2) (s.change a 3) i1 i2 i3 = div3 (aheads h q) (a 1) (a 2) (a 3) i1 i2 i3 :=
      div3_congr (nice_aheads h q) _ _ _ _ _ _ i1 i2 i3 ⟨fun d hd => hk a 1 _ _ _ (by norm_num) (by norm_num) (k1 d hd),
        fun d hd => hk a 2 _ _ _ (by norm_num) (by norm_num) (k2 d hd), fun d hd => hk a 3 _ _ _ (by norm_num) (by norm_num) (k3 d hd)⟩
    refine ⟨rho', c, ?_, ?_, ?_⟩
    · unfold history
      dsimp only
      rw [e]
      simp only [except_bind_ok]
      exact e'
    · rw [dB', dB, cB]
    · rw [dE', dE, cE]
      ring

/-- A caller that deposits a current, on a grid with an inner point. -/
example : EnoughGuards ⟨1, 2, 1⟩ External_q ∧ InnerPoint ⟨1, 2, 1⟩ External_q 3 2 1 ∧
    (⟨fun a n i1 i2 i3 => if n = 7 then i1 else a n i1 i2 i3, External_seq (eRanges (params External_q)),
      External_seq (bRanges (params External_q))⟩ : Act).Legal External_q := by
  refine ⟨?_, ?_, External_sched _, ?_⟩
  · unfold EnoughGuards External_q
    norm_num
  · unfold InnerPoint External_q
    norm_num
  · intro a n i1 i2 i3 h1 h6 _
    exact if_neg (by omega)

/-! ### C145 -/

/-- Any number of calls of `init_params_picsar`. -/
def External_inits (qs : List Request) : Lib := qs.foldl (fun s q => initLib q s) ⟨none, (0, 0, 0)⟩

theorem External_kept (qs : List Request) (d : ℤ × ℤ × ℤ) (s : Lib) (hs : s.fourier = some d) :
    (qs.foldl (fun s q => initLib q s) s).fourier = some d := by
  induction qs generalizing s with
  | nil => exact hs
  | cons q qs ih =>
    apply ih
    unfold initLib
    simp only [hs]
    split <;> rfl

/-- **C145** The pseudo-spectral solver: after one initialisation, and after any number of them for the same grid, the transforms fit into
the Fourier arrays. Missing: initialisations for different grids, where it is false. -/
theorem C145_transforms_partial (q : Request) (hs : q.spectral = true) (qs : List Request)
    (hq : ∀ r ∈ qs, (r.n1, r.n2, r.n3, r.g1, r.g2, r.g3) = (q.n1, q.n2, q.n3, q.g1, q.g2, q.g3)) :
    toFourier (External_inits (q :: qs)) = .ok () := by
  have h1 : (External_inits (q :: qs)).fourier = some (fourierShape q) := by
    refine External_kept qs _ (initLib q ⟨none, (0, 0, 0)⟩) ?_
    unfold initLib
    simp [hs]
  have h2 : ∀ (s : Lib), s.grid = (q.n3 + 2 * q.g3 + 1, q.n2 + 2 * q.g2 + 1, q.n1 + 2 * q.g1 + 1) →
      (qs.foldl (fun s q => initLib q s) s).grid = (q.n3 + 2 * q.g3 + 1, q.n2 + 2 * q.g2 + 1, q.n1 + 2 * q.g1 + 1) := by
    clear h1
    induction qs with
    | nil => exact fun s h => h
    | cons r rs ih =>
      intro s _
      apply ih fun t ht => hq t (List.mem_cons_of_mem _ ht)
      have := hq r (List.mem_cons_self ..)
      simp only [Prod.mk.injEq] at this
      obtain ⟨e1, e2, e3, e4, e5, e6⟩ := this
      unfold initLib
      simp only [e1, e2, e3, e4, e5, e6]
  have h3 : (External_inits (q :: qs)).grid = (q.n3 + 2 * q.g3 + 1, q.n2 + 2 * q.g2 + 1, q.n1 + 2 * q.g1 + 1) :=
    h2 (initLib q ⟨none, (0, 0, 0)⟩) rfl
  unfold toFourier
  rw [h1, h3]
  refine if_pos (?_ : ((q.n3 + 2 * q.g3 + 1) / 2 + 1) * (q.n2 + 2 * q.g2 + 1) * (q.n1 + 2 * q.g1 + 1) ≤
    ((2 * q.g3 + q.n3 + 1) / 2 + 1) * (2 * q.g2 + q.n2 + 1) * (2 * q.g1 + q.n1 + 1))
  rw [show q.n3 + 2 * q.g3 + 1 = 2 * q.g3 + q.n3 + 1 by ring, show q.n2 + 2 * q.g2 + 1 = 2 * q.g2 + q.n2 + 1 by ring,
    show q.n1 + 2 * q.g1 + 1 = 2 * q.g1 + q.n1 + 1 by ring]

/-- **C145**, refuted for a second initialisation with a longer grid: the Fourier arrays keep the size of the first one and the transforms
write beyond their ends. -/
theorem C145_transforms_refuted (q : Request) (hs : q.spectral = true) (hn : 0 ≤ q.n1 ∧ 0 ≤ q.n2 ∧ 0 ≤ q.n3) (hg : 0 ≤ q.g1 ∧ 0 ≤ q.g2 ∧ 0 ≤ q.g3)
    (m : ℤ) (hm : 0 < m) : toFourier (External_inits [q, { q with n1 := q.n1 + m }]) = .error .outOfBounds := by
  unfold External_inits
  simp only [List.foldl_cons, List.foldl_nil, initLib, hs, if_true, fourierShape, toFourier]
  rw [if_neg]
  rw [show q.n3 + 2 * q.g3 + 1 = 2 * q.g3 + q.n3 + 1 by ring, show q.n2 + 2 * q.g2 + 1 = 2 * q.g2 + q.n2 + 1 by ring,
    show q.n1 + m + 2 * q.g1 + 1 = 2 * q.g1 + q.n1 + 1 + m by ring]
  have a1 : 0 < (2 * q.g3 + q.n3 + 1) / 2 + 1 := by omega
  have a2 : 0 < 2 * q.g2 + q.n2 + 1 := by omega
  have := mul_pos (mul_pos a1 a2) hm
  rw [not_le, mul_add]
  linarith

example : toFourier (External_inits [{ External_q with spectral := true }]) = .ok () := C145_transforms_partial _ rfl [] (by simp)

end Picsar.Props
