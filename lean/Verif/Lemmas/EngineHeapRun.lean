import Verif.Lemmas.EngineHeap
import Mathlib.Tactic.SplitIfs
import Mathlib.Tactic.Linarith

namespace Picsar.EH
open Picsar.PV
open Picsar.EHSpec

variable {α : Type}

/-- No vector wraps memory `b`. -/
def NoF (V : Nat → Option (AObj α)) (b : Nat) : Prop := ∀ w c, V w ≠ some ⟨some b, c, false⟩

theorem NoF.update {V : Nat → Option (AObj α)} {b : Nat} (hV : NoF V b) (k : Nat) (x : Option (AObj α))
    (hx : ∀ c, x ≠ some ⟨some b, c, false⟩) : NoF (Function.update V k x) b := by
  intro w c
  rw [Function.update_apply]
  split
  · exact hx c
  · exact hV w c

section
variable {s : State α} {n h : Nat} {V : Nat → Option (AObj α)} {A : ℤ}

theorem Rep.noF (r : Rep s n h V A) {b : Nat} (hb : h ≤ b) : NoF V b := by
  intro w c hw
  have := r.ptr_lt hw
  omega

theorem rep_drop (r : Rep s n h V A) {v b : Nat} {c : List (Option α)} (hv : V v = some ⟨some b, c, true⟩) (hw : NoF V b) :
    ∃ s', dtor s v = .ok s' ∧ Rep s' n h (Function.update V v none) (A - 1) := by
  refine rep_dtor r hv ?_
  intro _ b' hb w c hw'
  simp only [Option.some.injEq] at hb
  subst hb
  exact absurd hw' (hw w c)

theorem Rep.cast (r : Rep s n h V A) {n' h' : Nat} {V' : Nat → Option (AObj α)} {A' : ℤ} (hn : n = n') (hh : h = h')
    (hV : V = V') (hA : A = A') : Rep s n' h' V' A' := by
  subst hn hh hV hA
  exact r

end

/-- Reads a vector through a chain of updates. -/
macro "look" : tactic => `(tactic| ((repeat (rw [Function.update_apply]; first | (rw [if_pos (by omega)]) | (rw [if_neg (by omega)]))); try assumption))

/-- Goes down a chain of updates none of which wraps the memory. -/
macro "nof" r:term : tactic => `(tactic| ((repeat (refine NoF.update ?_ _ _ (by simp))); exact Rep.noF $r (by omega)))

section
variable {β : Type} {m : State α} {n h : Nat} {V : Nat → Option (AObj α)} {A : ℤ}

/-- The memory part of `computeRate`. -/
theorem rep_computeRate (r : Rep m n h V A) {rc rd : Nat} {a b : AObj α} (ha : V rc = some a) (hb : V rd = some b)
    (hne : rc ≠ rd) (xs ys : List α) (K : State α → Res β) :
    ∃ m', Rep m' (n + 6) (h + 8) (Function.update (Function.update V rc (some ⟨some (h + 6), xs.map some, true⟩)) rd
        (some ⟨some (h + 7), ys.map some, true⟩)) (A + 2) ∧
      (do
        let m ← ctorList m xs
        let m ← ctorList m ys
        let m ← ctorCopy m n
        let m ← ctorCopy m (n + 1)
        let m ← ctorCopy m (n + 2)
        let m ← ctorCopy m (n + 3)
        let m ← dtor m (n + 3)
        let m ← dtor m (n + 2)
        let m ← assignCopy m rc (n + 4)
        let m ← assignCopy m rd (n + 5)
        let m ← dtor m (n + 5)
        let m ← dtor m (n + 4)
        let m ← dtor m (n + 1)
        let m ← dtor m n
        K m) = K m' := by
  have l1 := r.lt ha
  have l2 := r.lt hb
  obtain ⟨m1, e1, r1⟩ := rep_list r xs
  obtain ⟨m2, e2, r2⟩ := rep_list r1 ys
  obtain ⟨m3, e3, r3⟩ := rep_copy r2 (v := n) (by look)
  obtain ⟨m4, e4, r4⟩ := rep_copy r3 (v := n + 1) (by look)
  obtain ⟨m5, e5, r5⟩ := rep_copy r4 (v := n + 2) (by look)
  obtain ⟨m6, e6, r6⟩ := rep_copy r5 (v := n + 3) (by look)
  obtain ⟨m7, e7, r7⟩ := rep_drop r6 (v := n + 3) (by look) (by nof r)
  obtain ⟨m8, e8, r8⟩ := rep_drop r7 (v := n + 2) (by look) (by nof r)
  obtain ⟨m9, e9, r9⟩ := rep_assignCopy r8 (t := rc) (v := n + 4) (by omega) (by look) (by look)
  obtain ⟨m10, e10, r10⟩ := rep_assignCopy r9 (t := rd) (v := n + 5) (by omega) (by look) (by look)
  obtain ⟨m11, e11, r11⟩ := rep_drop r10 (v := n + 5) (by look) (by nof r)
  obtain ⟨m12, e12, r12⟩ := rep_drop r11 (v := n + 4) (by look) (by nof r)
  obtain ⟨m13, e13, r13⟩ := rep_drop r12 (v := n + 1) (by look) (by nof r)
  obtain ⟨m14, e14, r14⟩ := rep_drop r13 (v := n) (by look) (by nof r)
  refine ⟨m14, r14.cast rfl rfl ?_ (by ring), ?_⟩
  · funext w
    simp only [Function.update_apply]
    split_ifs <;> first | rfl | (exfalso; omega) | exact (r.ge (by omega)).symm
  · simp only [e1, e2, e3, e4, e5, e6, e7, e8, e9, e10, e11, e12, e13, e14, except_bind_ok]

/-- Decides every condition of a chain of `if`s. -/
macro "ifs" : tactic => `(tactic| (repeat (first | rw [if_pos (by omega)] | rw [if_neg (by omega)])))

/-- First half of `computeCum`: the temporary table is built. -/
theorem rep_cumTable (r : Rep m n h V A) (xs fs vs : List α) (K : State α → Res β) :
    ∃ m', Rep m' (n + 11) (h + 11) (Function.update (Function.update (Function.update (Function.update (Function.update
        (Function.update V
        n (some ⟨some h, xs.map some, true⟩)) (n + 1) (some ⟨some (h + 1), fs.map some, true⟩))
        (n + 2) (some ⟨some (h + 2), vs.map some, true⟩)) (n + 8) (some ⟨some (h + 8), xs.map some, true⟩))
        (n + 9) (some ⟨some (h + 9), fs.map some, true⟩)) (n + 10) (some ⟨some (h + 10), vs.map some, true⟩)) (A + 6) ∧
      (do
        let m ← ctorList m xs
        let m ← ctorList m fs
        let m ← ctorList m vs
        let m ← ctorCopy m n
        let m ← ctorCopy m (n + 1)
        let m ← ctorCopy m (n + 3)
        let m ← ctorCopy m (n + 4)
        let m ← dtor m (n + 4)
        let m ← dtor m (n + 3)
        let m ← ctorCopy m (n + 2)
        let m ← ctorCopy m (n + 5)
        let m ← ctorCopy m (n + 6)
        let m ← ctorCopy m (n + 7)
        let m ← dtor m (n + 7)
        let m ← dtor m (n + 6)
        let m ← dtor m (n + 5)
        K m) = K m' := by
  obtain ⟨m1, e1, r1⟩ := rep_list r xs
  obtain ⟨m2, e2, r2⟩ := rep_list r1 fs
  obtain ⟨m3, e3, r3⟩ := rep_list r2 vs
  obtain ⟨m4, e4, r4⟩ := rep_copy r3 (v := n) (by look)
  obtain ⟨m5, e5, r5⟩ := rep_copy r4 (v := n + 1) (by look)
  obtain ⟨m6, e6, r6⟩ := rep_copy r5 (v := n + 3) (by look)
  obtain ⟨m7, e7, r7⟩ := rep_copy r6 (v := n + 4) (by look)
  obtain ⟨m8, e8, r8⟩ := rep_drop r7 (v := n + 4) (by look) (by nof r)
  obtain ⟨m9, e9, r9⟩ := rep_drop r8 (v := n + 3) (by look) (by nof r)
  obtain ⟨m10, e10, r10⟩ := rep_copy r9 (v := n + 2) (by look)
  obtain ⟨m11, e11, r11⟩ := rep_copy r10 (v := n + 5) (by look)
  obtain ⟨m12, e12, r12⟩ := rep_copy r11 (v := n + 6) (by look)
  obtain ⟨m13, e13, r13⟩ := rep_copy r12 (v := n + 7) (by look)
  obtain ⟨m14, e14, r14⟩ := rep_drop r13 (v := n + 7) (by look) (by nof r)
  obtain ⟨m15, e15, r15⟩ := rep_drop r14 (v := n + 6) (by look) (by nof r)
  obtain ⟨m16, e16, r16⟩ := rep_drop r15 (v := n + 5) (by look) (by nof r)
  refine ⟨m16, r16.cast rfl rfl ?_ (by ring), ?_⟩
  · funext w
    simp only [Function.update_apply]
    rcases (by omega : w < n ∨ (n ≤ w ∧ w < n + 3) ∨ (n + 3 ≤ w ∧ w < n + 8) ∨ (n + 8 ≤ w ∧ w < n + 11) ∨ n + 11 ≤ w)
      with hw | hw | hw | hw | hw
    · ifs
    · rcases (by omega : w = n ∨ w = n + 1 ∨ w = n + 2) with e | e | e <;> ifs
    · rw [r.ge (by omega : n ≤ w)]
      rcases (by omega : w = n + 3 ∨ w = n + 4 ∨ w = n + 5 ∨ w = n + 6 ∨ w = n + 7) with e | e | e | e | e <;> ifs
    · rcases (by omega : w = n + 8 ∨ w = n + 9 ∨ w = n + 10) with e | e | e <;> ifs
    · ifs
  · rw [e1, except_bind_ok, e2, except_bind_ok, e3, except_bind_ok, e4, except_bind_ok, e5, except_bind_ok, e6,
      except_bind_ok, e7, except_bind_ok, e8, except_bind_ok, e9, except_bind_ok, e10, except_bind_ok, e11,
      except_bind_ok, e12, except_bind_ok, e13, except_bind_ok, e14, except_bind_ok, e15, except_bind_ok, e16,
      except_bind_ok]

set_option maxHeartbeats 800000 in
/-- The memory part of `computeCum`. -/
theorem rep_computeCum (r : Rep m n h V A) {c0 c1 cd : Nat} {a b c : AObj α} (ha : V c0 = some a) (hb : V c1 = some b)
    (hc : V cd = some c) (h01 : c0 ≠ c1) (h02 : c0 ≠ cd) (h12 : c1 ≠ cd) (xs fs vs : List α) (K : State α → Res β) :
    ∃ m', Rep m' (n + 11) (h + 14) (Function.update (Function.update (Function.update V
        c0 (some ⟨some (h + 11), xs.map some, true⟩)) c1 (some ⟨some (h + 12), fs.map some, true⟩))
        cd (some ⟨some (h + 13), vs.map some, true⟩)) (A + 3) ∧
      (do
        let m ← ctorList m xs
        let m ← ctorList m fs
        let m ← ctorList m vs
        let m ← ctorCopy m n
        let m ← ctorCopy m (n + 1)
        let m ← ctorCopy m (n + 3)
        let m ← ctorCopy m (n + 4)
        let m ← dtor m (n + 4)
        let m ← dtor m (n + 3)
        let m ← ctorCopy m (n + 2)
        let m ← ctorCopy m (n + 5)
        let m ← ctorCopy m (n + 6)
        let m ← ctorCopy m (n + 7)
        let m ← dtor m (n + 7)
        let m ← dtor m (n + 6)
        let m ← dtor m (n + 5)
        let m ← assignCopy m c0 (n + 8)
        let m ← assignCopy m c1 (n + 9)
        let m ← assignCopy m cd (n + 10)
        let m ← dtor m (n + 10)
        let m ← dtor m (n + 9)
        let m ← dtor m (n + 8)
        let m ← dtor m (n + 2)
        let m ← dtor m (n + 1)
        let m ← dtor m n
        K m) = K m' := by
  have l1 := r.lt ha
  have l2 := r.lt hb
  have l3 := r.lt hc
  obtain ⟨m16, r16, e16⟩ := rep_cumTable r xs fs vs (fun m => do
        let m ← assignCopy m c0 (n + 8)
        let m ← assignCopy m c1 (n + 9)
        let m ← assignCopy m cd (n + 10)
        let m ← dtor m (n + 10)
        let m ← dtor m (n + 9)
        let m ← dtor m (n + 8)
        let m ← dtor m (n + 2)
        let m ← dtor m (n + 1)
        let m ← dtor m n
        K m)
  obtain ⟨m17, e17, r17⟩ := rep_assignCopy r16 (t := c0) (v := n + 8) (by omega) (by look) (by look)
  obtain ⟨m18, e18, r18⟩ := rep_assignCopy r17 (t := c1) (v := n + 9) (by omega) (by look) (by look)
  obtain ⟨m19, e19, r19⟩ := rep_assignCopy r18 (t := cd) (v := n + 10) (by omega) (by look) (by look)
  obtain ⟨m20, e20, r20⟩ := rep_drop r19 (v := n + 10) (by look) (by nof r)
  obtain ⟨m21, e21, r21⟩ := rep_drop r20 (v := n + 9) (by look) (by nof r)
  obtain ⟨m22, e22, r22⟩ := rep_drop r21 (v := n + 8) (by look) (by nof r)
  obtain ⟨m23, e23, r23⟩ := rep_drop r22 (v := n + 2) (by look) (by nof r)
  obtain ⟨m24, e24, r24⟩ := rep_drop r23 (v := n + 1) (by look) (by nof r)
  obtain ⟨m25, e25, r25⟩ := rep_drop r24 (v := n) (by look) (by nof r)
  refine ⟨m25, r25.cast rfl rfl ?_ (by ring), ?_⟩
  · funext w
    simp only [Function.update_apply]
    split_ifs <;> first | rfl | (exfalso; omega) | exact (r.ge (by omega)).symm
  · refine e16.trans ?_
    rw [e17, except_bind_ok, e18, except_bind_ok, e19, except_bind_ok, e20, except_bind_ok, e21, except_bind_ok, e22,
      except_bind_ok, e23, except_bind_ok, e24, except_bind_ok, e25, except_bind_ok]

/-- The memory part of `fromInnards`, after the sizes and pointers are read. -/
theorem rep_innards (r : Rep m n h V A) {rc rd c0 c1 cd : Nat} {a1 a2 a3 a4 a5 : AObj α} (h1 : V rc = some a1)
    (h2 : V rd = some a2) (h3 : V c0 = some a3) (h4 : V c1 = some a4) (h5 : V cd = some a5)
    (k1 : a1.cont.length ≤ a2.cont.length) (k2 : a3.cont.length * a4.cont.length ≤ a5.cont.length)
    (K : State α → Res β) :
    ∃ m' V', Rep m' (n + 7) h V' A ∧ (∀ v, v < n → V' v = V v) ∧
      V' n = some ⟨a1.ptr, a1.cont, false⟩ ∧ V' (n + 1) = some ⟨a2.ptr, a2.cont.take a1.cont.length, false⟩ ∧
      V' (n + 2) = some ⟨a3.ptr, a3.cont, false⟩ ∧ V' (n + 3) = some ⟨a4.ptr, a4.cont, false⟩ ∧
      V' (n + 4) = some ⟨a5.ptr, a5.cont.take (a3.cont.length * a4.cont.length), false⟩ ∧
      (do
        let m ← ctorRaw m a1.cont.length a1.ptr
        let m ← ctorRaw m a1.cont.length a2.ptr
        let m ← ctorEmpty m
        let m ← ctorEmpty m
        let m ← ctorRaw m (a3.cont.length * a4.cont.length) a5.ptr
        let m ← ctorRaw m a3.cont.length a3.ptr
        let m ← assignMove m (n + 2) (n + 5)
        let m ← dtor m (n + 5)
        let m ← ctorRaw m a4.cont.length a4.ptr
        let m ← assignMove m (n + 3) (n + 6)
        let m ← dtor m (n + 6)
        K m) = K m' := by
  have l1 := r.lt h1
  have l2 := r.lt h2
  have l3 := r.lt h3
  have l4 := r.lt h4
  have l5 := r.lt h5
  obtain ⟨m1, e1, r1⟩ := rep_raw r (v := rc) h1 (Nat.le_refl _)
  obtain ⟨m2, e2, r2⟩ := rep_raw r1 (v := rd) (a := a2) (by look) k1
  obtain ⟨m3, e3, r3⟩ := rep_empty r2
  obtain ⟨m4, e4, r4⟩ := rep_empty r3
  obtain ⟨m5, e5, r5⟩ := rep_raw r4 (v := cd) (a := a5) (by look) k2
  obtain ⟨m6, e6, r6⟩ := rep_raw r5 (v := c0) (a := a3) (by look) (Nat.le_refl _)
  obtain ⟨m7, e7, r7⟩ := rep_assignMove r6 (t := n + 2) (v := n + 5) (by look) (by look)
  obtain ⟨m8, e8, r8⟩ := rep_dtor r7 (v := n + 5) (by look) (by intro h; cases h)
  obtain ⟨m9, e9, r9⟩ := rep_raw r8 (v := c1) (a := a4) (by look) (Nat.le_refl _)
  obtain ⟨m10, e10, r10⟩ := rep_assignMove r9 (t := n + 3) (v := n + 6) (by look) (by look)
  obtain ⟨m11, e11, r11⟩ := rep_dtor r10 (v := n + 6) (by look) (by intro h; cases h)
  refine ⟨m11, _, r11.cast rfl rfl rfl (by simp [own1]), ?_, ?_, ?_, ?_, ?_, ?_, ?_⟩
  · intro v hv; look
  · look; simp
  · look
  · look; simp
  · look; simp
  · look
  · simp only [e1, e2, e3, e4, e5, e6, e7, e8, e9, e10, e11, except_bind_ok]

theorem rep_copies (r : Rep m n h V A) {rc rd c0 c1 cd : Nat} {a1 a2 a3 a4 a5 : AObj α} (h1 : V rc = some a1)
    (h2 : V rd = some a2) (h3 : V c0 = some a3) (h4 : V c1 = some a4) (h5 : V cd = some a5) (K : State α → Res β) :
    ∃ m' V', Rep m' (n + 5) (h + 5) V' (A + 5) ∧ (∀ v, v < n → V' v = V v) ∧
      V' n = some ⟨some h, a1.cont, true⟩ ∧ V' (n + 1) = some ⟨some (h + 1), a2.cont, true⟩ ∧
      V' (n + 2) = some ⟨some (h + 2), a3.cont, true⟩ ∧ V' (n + 3) = some ⟨some (h + 3), a4.cont, true⟩ ∧
      V' (n + 4) = some ⟨some (h + 4), a5.cont, true⟩ ∧
      (do
        let m ← ctorCopy m rc
        let m ← ctorCopy m rd
        let m ← ctorCopy m c0
        let m ← ctorCopy m c1
        let m ← ctorCopy m cd
        K m) = K m' := by
  have l1 := r.lt h1
  have l2 := r.lt h2
  have l3 := r.lt h3
  have l4 := r.lt h4
  have l5 := r.lt h5
  obtain ⟨m1, e1, r1⟩ := rep_copy r (v := rc) h1
  obtain ⟨m2, e2, r2⟩ := rep_copy r1 (v := rd) (a := a2) (by look)
  obtain ⟨m3, e3, r3⟩ := rep_copy r2 (v := c0) (a := a3) (by look)
  obtain ⟨m4, e4, r4⟩ := rep_copy r3 (v := c1) (a := a4) (by look)
  obtain ⟨m5, e5, r5⟩ := rep_copy r4 (v := cd) (a := a5) (by look)
  refine ⟨m5, _, r5.cast rfl rfl rfl (by ring), ?_, ?_, ?_, ?_, ?_, ?_, ?_⟩
  · intro v hv; look
  · look
  · look
  · look
  · look
  · look
  · simp only [e1, e2, e3, e4, e5, except_bind_ok]

theorem rep_moves (r : Rep m n h V A) {b : Nat} {a1 a2 a3 a4 a5 : AObj α} (h1 : V b = some a1)
    (h2 : V (b + 1) = some a2) (h3 : V (b + 2) = some a3) (h4 : V (b + 3) = some a4) (h5 : V (b + 4) = some a5)
    (K : State α → Res β) :
    ∃ m' V', Rep m' (n + 5) h V' A ∧ (∀ v, v < n → (v < b ∨ b + 5 ≤ v) → V' v = V v) ∧
      (∀ v, b ≤ v → v < b + 5 → V' v = some ⟨none, [], false⟩) ∧
      V' n = some a1 ∧ V' (n + 1) = some a2 ∧ V' (n + 2) = some a3 ∧ V' (n + 3) = some a4 ∧ V' (n + 4) = some a5 ∧
      (do
        let m ← ctorMove m b
        let m ← ctorMove m (b + 1)
        let m ← ctorMove m (b + 2)
        let m ← ctorMove m (b + 3)
        let m ← ctorMove m (b + 4)
        K m) = K m' := by
  have l5 := r.lt h5
  obtain ⟨m1, e1, r1⟩ := rep_move r (v := b) h1
  obtain ⟨m2, e2, r2⟩ := rep_move r1 (v := b + 1) (a := a2) (by look)
  obtain ⟨m3, e3, r3⟩ := rep_move r2 (v := b + 2) (a := a3) (by look)
  obtain ⟨m4, e4, r4⟩ := rep_move r3 (v := b + 3) (a := a4) (by look)
  obtain ⟨m5, e5, r5⟩ := rep_move r4 (v := b + 4) (a := a5) (by look)
  refine ⟨m5, _, r5.cast rfl rfl rfl rfl, ?_, ?_, ?_, ?_, ?_, ?_, ?_, ?_⟩
  · intro v hv hv'; look
  · intro v hv hv'
    rcases (by omega : v = b ∨ v = b + 1 ∨ v = b + 2 ∨ v = b + 3 ∨ v = b + 4) with e | e | e | e | e <;> subst e <;> look
  · look
  · look
  · look
  · look
  · look
  · simp only [e1, e2, e3, e4, e5, except_bind_ok]

theorem rep_assigns (r : Rep m n h V A) {t b : Nat} (htb : t + 5 ≤ b ∨ b + 5 ≤ t) {a1 a2 a3 a4 a5 d1 d2 d3 d4 d5 : AObj α}
    (h1 : V b = some a1) (h2 : V (b + 1) = some a2) (h3 : V (b + 2) = some a3) (h4 : V (b + 3) = some a4)
    (h5 : V (b + 4) = some a5) (q1 : V t = some d1) (q2 : V (t + 1) = some d2) (q3 : V (t + 2) = some d3)
    (q4 : V (t + 3) = some d4) (q5 : V (t + 4) = some d5) (K : State α → Res β) :
    ∃ m' V', Rep m' n (h + 5) V' (A + 5) ∧ (∀ v, v < n → (v < t ∨ t + 5 ≤ v) → V' v = V v) ∧
      V' t = some ⟨some h, a1.cont, true⟩ ∧ V' (t + 1) = some ⟨some (h + 1), a2.cont, true⟩ ∧
      V' (t + 2) = some ⟨some (h + 2), a3.cont, true⟩ ∧ V' (t + 3) = some ⟨some (h + 3), a4.cont, true⟩ ∧
      V' (t + 4) = some ⟨some (h + 4), a5.cont, true⟩ ∧
      (do
        let m ← assignCopy m t b
        let m ← assignCopy m (t + 1) (b + 1)
        let m ← assignCopy m (t + 2) (b + 2)
        let m ← assignCopy m (t + 3) (b + 3)
        let m ← assignCopy m (t + 4) (b + 4)
        K m) = K m' := by
  obtain ⟨m1, e1, r1⟩ := rep_assignCopy r (t := t) (v := b) (by omega) q1 h1
  obtain ⟨m2, e2, r2⟩ := rep_assignCopy r1 (t := t + 1) (v := b + 1) (a := a2) (b := d2) (by omega) (by look) (by look)
  obtain ⟨m3, e3, r3⟩ := rep_assignCopy r2 (t := t + 2) (v := b + 2) (a := a3) (b := d3) (by omega) (by look) (by look)
  obtain ⟨m4, e4, r4⟩ := rep_assignCopy r3 (t := t + 3) (v := b + 3) (a := a4) (b := d4) (by omega) (by look) (by look)
  obtain ⟨m5, e5, r5⟩ := rep_assignCopy r4 (t := t + 4) (v := b + 4) (a := a5) (b := d5) (by omega) (by look) (by look)
  refine ⟨m5, _, r5.cast rfl rfl rfl (by ring), ?_, ?_, ?_, ?_, ?_, ?_, ?_⟩
  · intro v hv hv'; look
  · look
  · look
  · look
  · look
  · look
  · simp only [e1, e2, e3, e4, e5, except_bind_ok]

theorem NW.mono {V V' : Nat → Option (AObj α)} {v : Nat} {a : AObj α} (hw : NW V v a)
    (h : ∀ w b c, V' w = some ⟨some b, c, false⟩ → V w = some ⟨some b, c, false⟩) : NW V' v a :=
  fun hm b hb w c hc => hw hm b hb w c (h w b c hc)

theorem wr_none {V : Nat → Option (AObj α)} {k : Nat} (w b : Nat) (c : List (Option α))
    (h : Function.update V k none w = some ⟨some b, c, false⟩) : V w = some ⟨some b, c, false⟩ := by
  rw [Function.update_apply] at h
  split at h
  · cases h
  · exact h

theorem wr_true {V : Nat → Option (AObj α)} {k : Nat} {p : Option Nat} {l : List (Option α)} (w b : Nat)
    (c : List (Option α)) (h : Function.update V k (some ⟨p, l, true⟩) w = some ⟨some b, c, false⟩) :
    V w = some ⟨some b, c, false⟩ := by
  rw [Function.update_apply] at h
  split at h
  · cases h
  · exact h

theorem rep_dtors (r : Rep m n h V A) {b : Nat} {a1 a2 a3 a4 a5 : AObj α} (h1 : V b = some a1)
    (h2 : V (b + 1) = some a2) (h3 : V (b + 2) = some a3) (h4 : V (b + 3) = some a4) (h5 : V (b + 4) = some a5)
    (w1 : NW V b a1) (w2 : NW V (b + 1) a2) (w3 : NW V (b + 2) a3) (w4 : NW V (b + 3) a4) (w5 : NW V (b + 4) a5)
    (K : State α → Res β) :
    ∃ m' V', Rep m' n h V' (A - own1 (some a1) - own1 (some a2) - own1 (some a3) - own1 (some a4) - own1 (some a5)) ∧
      (∀ v, (v < b ∨ b + 5 ≤ v) → V' v = V v) ∧ (∀ v, b ≤ v → v < b + 5 → V' v = none) ∧
      (do
        let m ← dtor m (b + 4)
        let m ← dtor m (b + 3)
        let m ← dtor m (b + 2)
        let m ← dtor m (b + 1)
        let m ← dtor m b
        K m) = K m' := by
  obtain ⟨m1, e1, r1⟩ := rep_dtor r (v := b + 4) h5 w5
  obtain ⟨m2, e2, r2⟩ := rep_dtor r1 (v := b + 3) (a := a4) (by look) (w4.mono wr_none)
  obtain ⟨m3, e3, r3⟩ := rep_dtor r2 (v := b + 2) (a := a3) (by look) ((w3.mono wr_none).mono wr_none)
  obtain ⟨m4, e4, r4⟩ := rep_dtor r3 (v := b + 1) (a := a2) (by look) (((w2.mono wr_none).mono wr_none).mono wr_none)
  obtain ⟨m5, e5, r5⟩ := rep_dtor r4 (v := b) (a := a1) (by look)
    ((((w1.mono wr_none).mono wr_none).mono wr_none).mono wr_none)
  refine ⟨m5, _, r5.cast rfl rfl rfl (by ring), ?_, ?_, ?_⟩
  · intro v hv'; look
  · intro v hv hv'
    rcases (by omega : v = b ∨ v = b + 1 ∨ v = b + 2 ∨ v = b + 3 ∨ v = b + 4) with e | e | e | e | e <;> subst e <;> look
  · simp only [e1, e2, e3, e4, e5, except_bind_ok]

theorem rep_creates (r : Rep m n h V A) (K : State α → Res β) :
    ∃ m' V', Rep m' (n + 5) h V' A ∧ (∀ v, v < n → V' v = V v) ∧
      (∀ v, n ≤ v → v < n + 5 → V' v = some ⟨none, [], true⟩) ∧
      (do
        let m ← ctorEmpty m
        let m ← ctorEmpty m
        let m ← ctorEmpty m
        let m ← ctorEmpty m
        let m ← ctorEmpty m
        K m) = K m' := by
  obtain ⟨m1, e1, r1⟩ := rep_empty r
  obtain ⟨m2, e2, r2⟩ := rep_empty r1
  obtain ⟨m3, e3, r3⟩ := rep_empty r2
  obtain ⟨m4, e4, r4⟩ := rep_empty r3
  obtain ⟨m5, e5, r5⟩ := rep_empty r4
  refine ⟨m5, _, r5.cast rfl rfl rfl rfl, ?_, ?_, ?_⟩
  · intro v hv; look
  · intro v hv hv'
    rcases (by omega : v = n ∨ v = n + 1 ∨ v = n + 2 ∨ v = n + 3 ∨ v = n + 4) with e | e | e | e | e <;> subst e <;> look
  · simp only [e1, e2, e3, e4, e5, except_bind_ok]

end

end Picsar.EH
