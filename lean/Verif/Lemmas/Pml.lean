import Verif.Spec.Pml
import Verif.Lemmas.Grid
import Mathlib.Tactic.Linarith
import Mathlib.Tactic.Ring
import Mathlib.Tactic.Push
/-
Helper lemmas for C72.
-/
namespace Picsar.Pml
open Picsar Picsar.Grid

theorem set_eq {a : RArr} {i : ℤ} (v : ℝ) (h1 : a.lo ≤ i) (h2 : i ≤ a.hi) : a.set i v = .ok ⟨a.lo, a.hi, Function.update a.val i v⟩ := by
  unfold RArr.set; rw [if_pos ⟨h1, h2⟩]

theorem c_range {P : Par} (h : P.Ok) : 0 ≤ P.c ∧ P.c ≤ P.guards := by
  unfold Par.c
  have := h.shift; have := h.guards
  split_ifs <;> omega

theorem sigma_ok {P : Par} (h : P.Ok) : ∃ e b : RArr, sigma P = .ok (e, b) ∧ (e.lo = -P.guards ∧ e.hi = P.n + P.guards - 1) ∧
    (b.lo = -P.guards ∧ b.hi = P.n + P.guards - 1) ∧
    (∀ q, e.val q = if P.n - P.pml + P.c ≤ q ∧ q ≤ P.n - 1 + P.c then P.k * ((q - P.c - (P.n - P.pml - 1) : ℤ) : ℝ) ^ 2
      else if -P.c ≤ q ∧ q < P.pml - P.c then P.k * ((P.pml - P.c - q : ℤ) : ℝ) ^ 2 else 0) ∧
    ∀ q, b.val q = if P.n - P.pml + P.c ≤ q + 1 ∧ q + 1 ≤ P.n - 1 + P.c then P.k * (((q + 1 - P.c - (P.n - P.pml - 1) : ℤ) : ℝ) - 1 / 2) ^ 2
      else if -P.c ≤ q ∧ q < P.pml - P.c then P.k * (((P.pml - P.c - q : ℤ) : ℝ) - 1 / 2) ^ 2 else 0 := by
  obtain ⟨c1, c2⟩ := c_range h
  have hg := h.guards; have hp := h.pml; have hf := h.fits; have hn := h.n
  unfold sigma
  dsimp only
  obtain ⟨s1, e1, I1⟩ := foldlM_irange_inv (body := lowStep P) (lo := 0)
    (fun i (s : RArr × RArr) => (s.1.lo = -P.guards ∧ s.1.hi = P.n + P.guards - 1) ∧ (s.2.lo = -P.guards ∧ s.2.hi = P.n + P.guards - 1) ∧
      (∀ q, s.1.val q = if -P.c ≤ q ∧ q < i - P.c then P.k * ((P.pml - P.c - q : ℤ) : ℝ) ^ 2 else 0) ∧
      ∀ q, s.2.val q = if -P.c ≤ q ∧ q < i - P.c then P.k * (((P.pml - P.c - q : ℤ) : ℝ) - 1 / 2) ^ 2 else 0) _ (P.pml - 1) rfl (by omega) (by
      rintro i ⟨e, b⟩ h1 h2 ⟨⟨b1, b2⟩, ⟨b3, b4⟩, v1, v2⟩
      dsimp only at b1 b2 b3 b4 v1 v2
      unfold lowStep
      dsimp only
      rw [set_eq _ (by omega) (by omega)]
      simp only [except_bind_ok]
      rw [set_eq _ (by omega) (by omega)]
      simp only [except_bind_ok]
      refine ⟨_, rfl, ⟨b1, b2⟩, ⟨b3, b4⟩, fun q => ?_, fun q => ?_⟩
      · dsimp only
        by_cases hq : q = i - P.c
        · subst hq
          rw [Function.update_self, if_pos ⟨by omega, by omega⟩]
          congr 2
          push_cast; ring
        · rw [Function.update_of_ne hq, v1]
          exact if_congr (by omega) rfl rfl
      · dsimp only
        by_cases hq : q = i - P.c
        · subst hq
          rw [Function.update_self, if_pos ⟨by omega, by omega⟩]
          congr 2
          push_cast; ring
        · rw [Function.update_of_ne hq, v2]
          exact if_congr (by omega) rfl rfl)
    (⟨-P.guards, P.n + P.guards - 1, fun _ => 0⟩, ⟨-P.guards, P.n + P.guards - 1, fun _ => 0⟩)
    ⟨⟨rfl, rfl⟩, ⟨rfl, rfl⟩, fun q => by rw [if_neg (by omega)], fun q => by rw [if_neg (by omega)]⟩
  rw [e1]
  simp only [except_bind_ok]
  obtain ⟨⟨b1, b2⟩, ⟨b3, b4⟩, v1, v2⟩ := I1
  obtain ⟨⟨e, b⟩, e2, ⟨d1, d2⟩, ⟨d3, d4⟩, w1, w2⟩ := foldlM_irange_inv (body := upStep P) (lo := P.n - P.pml)
    (fun i (s : RArr × RArr) => (s.1.lo = -P.guards ∧ s.1.hi = P.n + P.guards - 1) ∧ (s.2.lo = -P.guards ∧ s.2.hi = P.n + P.guards - 1) ∧
      (∀ q, s.1.val q = if P.n - P.pml + P.c ≤ q ∧ q < i + P.c then P.k * ((q - P.c - (P.n - P.pml - 1) : ℤ) : ℝ) ^ 2 else s1.1.val q) ∧
      ∀ q, s.2.val q = if P.n - P.pml + P.c ≤ q + 1 ∧ q + 1 < i + P.c then P.k * (((q + 1 - P.c - (P.n - P.pml - 1) : ℤ) : ℝ) - 1 / 2) ^ 2 else s1.2.val q)
    _ (P.n - 1) rfl (by omega) (by
      rintro i ⟨e, b⟩ h1 h2 ⟨⟨b1, b2⟩, ⟨b3, b4⟩, v1, v2⟩
      dsimp only at b1 b2 b3 b4 v1 v2
      unfold upStep
      dsimp only
      rw [set_eq _ (by omega) (by omega)]
      simp only [except_bind_ok]
      rw [set_eq _ (by omega) (by omega)]
      simp only [except_bind_ok]
      refine ⟨_, rfl, ⟨b1, b2⟩, ⟨b3, b4⟩, fun q => ?_, fun q => ?_⟩
      · dsimp only
        by_cases hq : q = i + P.c
        · subst hq
          rw [Function.update_self, if_pos ⟨by omega, by omega⟩]
          congr 2
          push_cast; ring
        · rw [Function.update_of_ne hq, v1]
          exact if_congr (by omega) rfl rfl
      · dsimp only
        by_cases hq : q = i - 1 + P.c
        · subst hq
          rw [Function.update_self, if_pos ⟨by omega, by omega⟩]
          congr 2
          push_cast; ring
        · rw [Function.update_of_ne hq, v2]
          exact if_congr (by omega) rfl rfl) s1 ⟨⟨b1, b2⟩, ⟨b3, b4⟩, fun q => by rw [if_neg (by omega)], fun q => by rw [if_neg (by omega)]⟩
  dsimp only at d1 d2 d3 d4 w1 w2
  refine ⟨e, b, e2, ⟨d1, d2⟩, ⟨d3, d4⟩, fun q => ?_, fun q => ?_⟩
  · rw [w1, v1]
    refine if_congr (by omega) rfl (if_congr (by omega) rfl rfl)
  · rw [w2, v2]
    refine if_congr (by omega) rfl (if_congr (by omega) rfl rfl)

theorem depthE {P : Par} (q : ℤ) : (if P.n - P.pml + P.c ≤ q ∧ q ≤ P.n - 1 + P.c then P.k * ((q - P.c - (P.n - P.pml - 1) : ℤ) : ℝ) ^ 2
      else if -P.c ≤ q ∧ q < P.pml - P.c then P.k * ((P.pml - P.c - q : ℤ) : ℝ) ^ 2 else 0) = P.k * P.depth (posE q) ^ 2 := by
  have hc : P.reach = P.c := rfl
  unfold Par.depth posE Par.upEdge Par.lowEdge
  rw [hc]
  have k1 : ((P.n : ℝ) - 1 + P.c - P.pml < q ∧ (q : ℝ) ≤ P.n - 1 + P.c - P.pml + P.pml) ↔ (P.n - P.pml + P.c ≤ q ∧ q ≤ P.n - 1 + P.c) := by
    have a1 : ((P.n : ℝ) - 1 + P.c - P.pml < q) ↔ (P.n - 1 + P.c - P.pml < q) := by exact_mod_cast Iff.rfl
    have a2 : ((q : ℝ) ≤ P.n - 1 + P.c - P.pml + P.pml) ↔ (q ≤ P.n - 1 + P.c - P.pml + P.pml) := by exact_mod_cast Iff.rfl
    rw [a1, a2]; omega
  have k2 : ((P.pml : ℝ) - P.c - P.pml ≤ q ∧ (q : ℝ) < P.pml - P.c) ↔ (-P.c ≤ q ∧ q < P.pml - P.c) := by
    have a1 : ((P.pml : ℝ) - P.c - P.pml ≤ q) ↔ (P.pml - P.c - P.pml ≤ q) := by exact_mod_cast Iff.rfl
    have a2 : ((q : ℝ) < P.pml - P.c) ↔ (q < P.pml - P.c) := by exact_mod_cast Iff.rfl
    rw [a1, a2]; omega
  by_cases h1 : P.n - P.pml + P.c ≤ q ∧ q ≤ P.n - 1 + P.c
  · rw [if_pos h1, if_pos (k1.mpr h1)]; push_cast; ring
  rw [if_neg h1, if_neg (fun h => h1 (k1.mp h))]
  by_cases h2 : -P.c ≤ q ∧ q < P.pml - P.c
  · rw [if_pos h2, if_pos (k2.mpr h2)]; push_cast; ring
  · rw [if_neg h2, if_neg (fun h => h2 (k2.mp h))]; ring

theorem depthB {P : Par} (q : ℤ) : (if P.n - P.pml + P.c ≤ q + 1 ∧ q + 1 ≤ P.n - 1 + P.c then P.k * (((q + 1 - P.c - (P.n - P.pml - 1) : ℤ) : ℝ) - 1 / 2) ^ 2
      else if -P.c ≤ q ∧ q < P.pml - P.c then P.k * (((P.pml - P.c - q : ℤ) : ℝ) - 1 / 2) ^ 2 else 0) = P.k * P.depth (posB q) ^ 2 := by
  have hc : P.reach = P.c := rfl
  unfold Par.depth posB Par.upEdge Par.lowEdge
  rw [hc]
  have key : ∀ a b : ℤ, ((a : ℝ) < b + 1 / 2 ↔ a < b + 1) ∧ ((a : ℝ) ≤ b + 1 / 2 ↔ a < b + 1) ∧ ((b : ℝ) + 1 / 2 < a ↔ b < a) ∧ ((b : ℝ) + 1 / 2 ≤ a ↔ b < a) := by
    intro a b
    refine ⟨⟨fun h => ?_, fun h => ?_⟩, ⟨fun h => ?_, fun h => ?_⟩, ⟨fun h => ?_, fun h => ?_⟩, ⟨fun h => ?_, fun h => ?_⟩⟩
    · have : (a : ℝ) < ((b + 1 : ℤ) : ℝ) := by push_cast; linarith
      exact_mod_cast this
    · have : (a : ℝ) ≤ b := by exact_mod_cast (by omega : a ≤ b)
      linarith
    · have : (a : ℝ) < ((b + 1 : ℤ) : ℝ) := by push_cast; linarith
      exact_mod_cast this
    · have : (a : ℝ) ≤ b := by exact_mod_cast (by omega : a ≤ b)
      linarith
    · have : (b : ℝ) < a := by linarith
      exact_mod_cast this
    · have : ((b + 1 : ℤ) : ℝ) ≤ a := by exact_mod_cast (by omega : b + 1 ≤ a)
      push_cast at this; linarith
    · have : (b : ℝ) < a := by linarith
      exact_mod_cast this
    · have : ((b + 1 : ℤ) : ℝ) ≤ a := by exact_mod_cast (by omega : b + 1 ≤ a)
      push_cast at this; linarith
  have k1 : ((P.n : ℝ) - 1 + P.c - P.pml < q + 1 / 2 ∧ (q : ℝ) + 1 / 2 ≤ P.n - 1 + P.c - P.pml + P.pml) ↔ (P.n - P.pml + P.c ≤ q + 1 ∧ q + 1 ≤ P.n - 1 + P.c) := by
    have a1 : ((P.n : ℝ) - 1 + P.c - P.pml < q + 1 / 2) ↔ (P.n - 1 + P.c - P.pml < q + 1) := by
      have := (key (P.n - 1 + P.c - P.pml) q).1; push_cast at this; exact this
    have a2 : ((q : ℝ) + 1 / 2 ≤ P.n - 1 + P.c - P.pml + P.pml) ↔ (q < P.n - 1 + P.c - P.pml + P.pml) := by
      have := (key (P.n - 1 + P.c - P.pml + P.pml) q).2.2.2; push_cast at this; exact this
    rw [a1, a2]; omega
  have k2 : ((P.pml : ℝ) - P.c - P.pml ≤ q + 1 / 2 ∧ (q : ℝ) + 1 / 2 < P.pml - P.c) ↔ (-P.c ≤ q ∧ q < P.pml - P.c) := by
    have a1 : ((P.pml : ℝ) - P.c - P.pml ≤ q + 1 / 2) ↔ (P.pml - P.c - P.pml < q + 1) := by
      have := (key (P.pml - P.c - P.pml) q).2.1; push_cast at this; exact this
    have a2 : ((q : ℝ) + 1 / 2 < P.pml - P.c) ↔ (q < P.pml - P.c) := by
      have := (key (P.pml - P.c) q).2.2.1; push_cast at this; exact this
    rw [a1, a2]; omega
  by_cases h1 : P.n - P.pml + P.c ≤ q + 1 ∧ q + 1 ≤ P.n - 1 + P.c
  · rw [if_pos h1, if_pos (k1.mpr h1)]; push_cast; ring
  rw [if_neg h1, if_neg (fun h => h1 (k1.mp h))]
  by_cases h2 : -P.c ≤ q ∧ q < P.pml - P.c
  · rw [if_pos h2, if_pos (k2.mpr h2)]; push_cast; ring
  · rw [if_neg h2, if_neg (fun h => h2 (k2.mp h))]; ring

/-! ### Damping -/

theorem dampOne_ok {F : Factors} {i : I3} {m : Sc → Arr} {c : Sc} {s : ℝ} (hs : F.at c i = .ok s) (hb : InBox (m c).lo (m c).hi i) :
    dampOne F i m c = .ok (Function.update m c ⟨(m c).lo, (m c).hi, Function.update (m c).val i (s * (m c).val i)⟩) := by
  unfold dampOne
  rw [hs]
  simp only [except_bind_ok]
  unfold Arr.get
  rw [if_pos hb]
  simp only [except_bind_ok]
  unfold Arr.set
  rw [if_pos hb]
  simp only [except_bind_ok]

theorem dampCell {F : Factors} {i : I3} (s : Sc → ℝ) : ∀ (cs : List Sc) (m : Sc → Arr), cs.Nodup → (∀ c ∈ cs, F.at c i = .ok (s c) ∧ InBox (m c).lo (m c).hi i) →
    cs.foldlM (dampOne F i) m = .ok fun c => if c ∈ cs then ⟨(m c).lo, (m c).hi, Function.update (m c).val i (s c * (m c).val i)⟩ else m c := by
  intro cs
  induction cs with
  | nil => intro m _ _; simp
  | cons a cs ih =>
    intro m hn h
    rw [List.nodup_cons] at hn
    rw [List.foldlM_cons, dampOne_ok (h a (by simp)).1 (h a (by simp)).2]
    simp only [except_bind_ok]
    rw [ih _ hn.2 (by
      intro c hc
      have hca : c ≠ a := fun e => hn.1 (e ▸ hc)
      rw [Function.update_of_ne hca]
      exact h c (by simp [hc]))]
    congr 1
    funext c
    by_cases hca : c = a
    · subst hca
      simp [hn.1]
    · simp [hca]

theorem damp_ok {F : Factors} (s : Sc → I3 → ℝ) (cs : List Sc) (hn : cs.Nodup) : ∀ (o : List I3) (m : Sc → Arr), o.Nodup →
    (∀ i ∈ o, ∀ c ∈ cs, F.at c i = .ok (s c i) ∧ InBox (m c).lo (m c).hi i) →
    ∃ m', damp cs F o m = .ok m' ∧ ∀ c, (m' c).lo = (m c).lo ∧ (m' c).hi = (m c).hi ∧
      ∀ i, (m' c).val i = if c ∈ cs ∧ i ∈ o then s c i * (m c).val i else (m c).val i := by
  intro o
  induction o with
  | nil => intro m _ _; exact ⟨m, rfl, fun c => ⟨rfl, rfl, fun i => by simp⟩⟩
  | cons j o ih =>
    intro m ho h
    rw [List.nodup_cons] at ho
    unfold damp
    rw [List.foldlM_cons, dampCell (fun c => s c j) cs m hn (fun c hc => h j (by simp) c hc)]
    simp only [except_bind_ok]
    set m1 : Sc → Arr := fun c => if c ∈ cs then ⟨(m c).lo, (m c).hi, Function.update (m c).val j (s c j * (m c).val j)⟩ else m c with hm1
    have hb : ∀ c, (m1 c).lo = (m c).lo ∧ (m1 c).hi = (m c).hi := by
      intro c
      rw [hm1]
      dsimp only
      split_ifs <;> exact ⟨rfl, rfl⟩
    obtain ⟨m', e, k⟩ := ih m1 ho.2 (by
      intro i hi c hc
      rw [(hb c).1, (hb c).2]
      exact h i (by simp [hi]) c hc)
    refine ⟨m', e, fun c => ⟨by rw [(k c).1, (hb c).1], by rw [(k c).2.1, (hb c).2], fun i => ?_⟩⟩
    rw [(k c).2.2]
    by_cases hc : c ∈ cs
    · have hv : (m1 c).val = Function.update (m c).val j (s c j * (m c).val j) := by rw [hm1]; dsimp only; rw [if_pos hc]
      rw [hv]
      by_cases hij : i = j
      · subst hij
        simp [hc, ho.1]
      · simp [hc, hij]
    · have hv : (m1 c).val = (m c).val := by rw [hm1]; dsimp only; rw [if_neg hc]
      simp [hc, hv]

end Picsar.Pml
