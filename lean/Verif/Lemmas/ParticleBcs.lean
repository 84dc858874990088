import Verif.Spec.ParticleBcs
import Mathlib.Tactic.Linarith
namespace Picsar.ParticleBcs
open Picsar Picsar.Grid Picsar.Tiling

variable {n : ℕ}

@[simp] theorem pos_setPos (p : Part n) (a b : Ax) (v : ℝ) : pos (setPos p a v) b = if b = a then v else pos p b := by
  cases a <;> cases b <;> simp [pos, setPos]
@[simp] theorem mom_setPos (p : Part n) (a b : Ax) (v : ℝ) : mom (setPos p a v) b = mom p b := by
  cases a <;> cases b <;> rfl
@[simp] theorem pos_negMom (p : Part n) (a b : Ax) : pos (negMom p a) b = pos p b := by
  cases a <;> cases b <;> rfl
@[simp] theorem mom_negMom (p : Part n) (a b : Ax) : mom (negMom p a) b = if b = a then - mom p b else mom p b := by
  cases a <;> cases b <;> simp [mom, negMom]
@[simp] theorem dirOf_setDir (d : I3) (a b : Ax) (v : ℤ) : dirOf (setDir d a v) b = if b = a then v else dirOf d b := by
  cases a <;> cases b <;> simp [dirOf, setDir]
@[simp] theorem gam_setPos (p : Part n) (a : Ax) (v : ℝ) : (setPos p a v).gam = p.gam := by cases a <;> rfl
@[simp] theorem pid_setPos (p : Part n) (a : Ax) (v : ℝ) : (setPos p a v).pid = p.pid := by cases a <;> rfl
@[simp] theorem gam_negMom (p : Part n) (a : Ax) : (negMom p a).gam = p.gam := by cases a <;> rfl
@[simp] theorem pid_negMom (p : Part n) (a : Ax) : (negMom p a).pid = p.pid := by cases a <;> rfl

theorem andThen_go (s : Scan n) : (s.andThen fun p d rm => .go p d rm) = s := by cases s <;> rfl

/-- A direction in which the particle is within the limits changes nothing. -/
theorem axis_within {m : Mode} {A : Ax → Axis} {T : TileLim} {a : Ax} {p : Part n} {d : I3} {rm : Bool} (h : Within A p a) :
    axis m A T a p d rm = .go p d rm := by
  unfold axis
  have h1 : ¬ pos p a < (A a).lo := not_lt.mpr h.1
  have h2 : ¬ pos p a ≥ (A a).hi := not_le.mpr h.2
  dsimp only
  rw [if_neg h1, if_neg h2]
  simp only [Scan.andThen, if_neg h1, if_neg h2, ite_self]

theorem axis_skip {m : Mode} {A : Ax → Axis} {T : TileLim} {a : Ax} {p : Part n} {d : I3} {rm : Bool} (h : ¬ Looks m a) :
    axis m A T a p d rm = .go p d rm := by
  unfold axis Looks at *
  rw [if_pos (not_not.mp h)]

/-- Otherwise one face is treated. -/
theorem axis_cross {m : Mode} {A : Ax → Axis} {T : TileLim} {a : Ax} {p : Part n} {d : I3} {rm : Bool} {s : ℤ} (hw : (A a).lo < (A a).hi) (hl : Looks m a)
    (h : Crosses A p a s) : axis m A T a p d rm = face m A T a s (pos p a) p d rm := by
  unfold axis
  dsimp only
  rw [if_neg hl]
  rcases h with ⟨rfl, h⟩ | ⟨rfl, h⟩
  · have h2 : ¬ pos p a ≥ (A a).hi := not_le.mpr (lt_trans h hw)
    rw [if_pos h]
    simp only [if_neg h2, if_pos h]
    by_cases hm : m = .combined
    · rw [if_pos hm]
    · rw [if_neg hm]
      exact andThen_go _
  · have h1 : ¬ pos p a < (A a).lo := not_lt.mpr (le_trans hw.le h)
    rw [if_neg h1, if_neg h1, if_pos (show pos p a ≥ (A a).hi from h)]
    simp only [Scan.andThen, if_pos (show pos p a ≥ (A a).hi from h), ite_self]

theorem wall_iff {A : Ax → Axis} {a : Ax} {s k : ℤ} (hs : s = -1 ∨ s = 1) :
    Wall A a s k ↔ (if s = -1 then (A a).bmin else (A a).bmax) = true ∧ (if s = -1 then (A a).kmin else (A a).kmax) = k := by
  unfold Wall
  rcases hs with rfl | rfl <;> simp

theorem Crosses.side {A : Ax → Axis} {p : Part n} {a : Ax} {s : ℤ} (h : Crosses A p a s) : s = -1 ∨ s = 1 := by
  rcases h with ⟨h, -⟩ | ⟨h, -⟩
  · exact .inl h
  · exact .inr h

/-- A face without a wall. -/
theorem face_open {m : Mode} {A : Ax → Axis} {T : TileLim} {a : Ax} {s : ℤ} {x0 : ℝ} {p : Part n} {d : I3} {rm : Bool} (hs : s = -1 ∨ s = 1)
    (h : ∀ k, ¬ Wall A a s k) : face m A T a s x0 p d rm = .go p (setDir d a s) rm := by
  unfold face
  rw [if_neg]
  intro hb
  exact h _ ((wall_iff hs).mpr ⟨hb, rfl⟩)

/-- A wall. -/
theorem face_wall {m : Mode} {A : Ax → Axis} {T : TileLim} {a : Ax} {s k : ℤ} {x0 : ℝ} {p : Part n} {d : I3} {rm : Bool} (hs : s = -1 ∨ s = 1)
    (h : Wall A a s k) : ∃ w, face m A T a s x0 p d rm = cases m A T a s k w x0 p (setDir d a s) rm := by
  unfold face
  rw [wall_iff hs] at h
  exact ⟨_, by rw [if_pos h.1, h.2]⟩

/-- The particle `p'` differs from `p` only in direction `a`. -/
def SameBut (a : Ax) (p p' : Part n) (d d' : I3) : Prop :=
  (∀ b, b ≠ a → pos p' b = pos p b ∧ mom p' b = mom p b ∧ dirOf d' b = dirOf d b) ∧ p'.gam = p.gam ∧ p'.pid = p.pid

theorem wall_or {A : Ax → Axis} (hT : Types A) {a : Ax} {s : ℤ} (hs : s = -1 ∨ s = 1) :
    (∀ k, ¬ Wall A a s k) ∨ Wall A a s 0 ∨ Wall A a s 1 ∨ Wall A a s 2 ∨ Wall A a s 3 := by
  by_cases hb : (if s = -1 then (A a).bmin else (A a).bmax) = true
  · have hk : (0 : ℤ) ≤ (if s = -1 then (A a).kmin else (A a).kmax) ∧ (if s = -1 then (A a).kmin else (A a).kmax) ≤ 3 := by
      have := hT a
      split_ifs <;> omega
    simp only [wall_iff hs, hb, true_and]
    right
    omega
  · exact .inl fun k h => hb ((wall_iff hs).mp h).1

theorem wall_uniq {A : Ax → Axis} {a : Ax} {s k k' : ℤ} (h : Wall A a s k) (h' : Wall A a s k') : k = k' := by
  rcases h with ⟨rfl, h⟩ | ⟨rfl, h⟩ <;> rcases h' with ⟨e, h'⟩ | ⟨e, h'⟩
  · rw [← h.2, h'.2]
  · omega
  · omega
  · rw [← h.2, h'.2]

theorem cross_uniq {A : Ax → Axis} {p : Part n} {a : Ax} {s s' : ℤ} (hw : (A a).lo < (A a).hi) (h : Crosses A p a s) (h' : Crosses A p a s') : s = s' := by
  rcases h with ⟨rfl, h⟩ | ⟨rfl, h⟩ <;> rcases h' with ⟨rfl, h'⟩ | ⟨rfl, h'⟩
  · rfl
  · linarith
  · linarith
  · rfl

theorem within_or {A : Ax → Axis} (p : Part n) (a : Ax) : Within A p a ∨ ∃ s, Crosses A p a s := by
  by_cases h1 : pos p a < (A a).lo
  · exact .inr ⟨-1, .inl ⟨rfl, h1⟩⟩
  · by_cases h2 : (A a).hi ≤ pos p a
    · exact .inr ⟨1, .inr ⟨rfl, h2⟩⟩
    · exact .inl ⟨not_lt.mp h1, not_le.mp h2⟩

theorem within_not {A : Ax → Axis} {p : Part n} {a : Ax} {s : ℤ} (h : Within A p a) (hc : Crosses A p a s) : False := by
  rcases hc with ⟨-, h'⟩ | ⟨-, h'⟩ <;> have := h.1 <;> have := h.2 <;> linarith

/-- A direction without absorption and re-injection. -/
theorem axis_treat {m : Mode} {A : Ax → Axis} {T : TileLim} {a : Ax} {p : Part n} {d : I3} {rm : Bool} (hw : Wide A) (hT : Types A) (hl : Looks m a)
    (hd : dirOf d a = 0) (h1 : ∀ s, Crosses A p a s → ¬ Wall A a s 1) (h3 : ∀ s, Crosses A p a s → ¬ Wall A a s 3)
    (h2 : (m = .blocking ∨ m = .nonBlocking) ∨ ∀ s, Crosses A p a s → ¬ Wall A a s 2) :
    ∃ p' d', axis m A T a p d rm = .go p' d' rm ∧ Treated A p p' d' a ∧ SameBut a p p' d d' := by
  rcases within_or p a (A := A) with h | ⟨s, hc⟩
  · refine ⟨p, d, axis_within h, ⟨fun _ => ⟨rfl, rfl, hd⟩, fun s hc => (within_not h hc).elim⟩, fun b _ => ⟨rfl, rfl, rfl⟩, rfl, rfl⟩
  · rw [axis_cross (hw a) hl hc]
    have hnw : ¬ Within A p a := fun h => within_not h hc
    rcases wall_or hT hc.side (a := a) with ho | h0 | hh1 | hh2 | hh3
    · rw [face_open hc.side ho]
      refine ⟨_, _, rfl, ⟨fun h => (hnw h).elim, fun s' hc' => ?_⟩, fun b hb => ⟨rfl, rfl, by simp [hb]⟩, rfl, rfl⟩
      obtain rfl := cross_uniq (hw a) hc hc'
      exact ⟨fun _ => ⟨rfl, rfl, by simp⟩, fun hk => (ho _ hk).elim, fun hk => (ho _ hk).elim⟩
    · obtain ⟨w, hf⟩ := face_wall hc.side h0 (m := m) (T := T) (x0 := pos p a) (p := p) (d := d) (rm := rm)
      rw [hf]
      refine ⟨setPos p a (pos p a - s * (A a).len), setDir d a s, by simp [cases], ⟨fun h => (hnw h).elim, fun s' hc' => ?_⟩, fun b hb => ?_, by simp, by simp⟩
      · obtain rfl := cross_uniq (hw a) hc hc'
        exact ⟨fun hk => (hk _ h0).elim, fun hk => absurd (wall_uniq h0 hk) (by decide), fun _ => by simp⟩
      · simp [hb]
    · exact (h1 s hc hh1).elim
    · obtain ⟨w, hf⟩ := face_wall hc.side hh2 (m := m) (T := T) (x0 := pos p a) (p := p) (d := d) (rm := rm)
      have hm : m = .blocking ∨ m = .nonBlocking := by
        rcases h2 with h | h
        · exact h
        · exact (h s hc hh2).elim
      rw [hf]
      refine ⟨negMom (setPos p a (pos p a - s * (A a).dx)) a, setDir (setDir d a s) a 0, by simp [cases, hm], ⟨fun h => (hnw h).elim, fun s' hc' => ?_⟩,
        fun b hb => ?_, by simp, by simp⟩
      · obtain rfl := cross_uniq (hw a) hc hc'
        exact ⟨fun hk => (hk _ hh2).elim, fun _ => by simp, fun hk => absurd (wall_uniq hh2 hk) (by decide)⟩
      · simp [hb]
    · exact (h3 s hc hh3).elim

/-- Crossing and walls depend on the coordinate in this direction only. -/
theorem cross_congr {A : Ax → Axis} {p q : Part n} {a : Ax} (h : pos q a = pos p a) (s : ℤ) : Crosses A q a s ↔ Crosses A p a s := by
  unfold Crosses; rw [h]

theorem treated_congr {A : Ax → Axis} {p q p' q' : Part n} {d d' : I3} {a : Ax} (h : pos q a = pos p a) (hm : mom q a = mom p a)
    (h' : pos q' a = pos p' a) (hm' : mom q' a = mom p' a) (hd : dirOf d' a = dirOf d a) (ht : Treated A q p' d a) : Treated A p q' d' a := by
  unfold Treated Within Crosses at *
  rw [h', hm', hd, ← h, ← hm]
  exact ht

/-- A direction in which the particle is absorbed or goes on, but is not re-injected. -/
theorem axis_noreinject {m : Mode} {A : Ax → Axis} {T : TileLim} {a : Ax} {p : Part n} {d : I3} {rm : Bool} (hw : Wide A) (hT : Types A) (hl : Looks m a)
    (h3 : ∀ s, Crosses A p a s → ¬ Wall A a s 3) :
    (axis m A T a p d rm = .stop .removed) ∨
    ∃ p' d' rm', axis m A T a p d rm = .go p' d' rm' ∧ (rm = true → rm' = true) ∧ (∀ b, b ≠ a → pos p' b = pos p b ∧ dirOf d' b = dirOf d b) ∧
      ((∃ s, Crosses A p a s ∧ Wall A a s 1) → rm' = true ∧ dirOf d' a ≠ 0) := by
  rcases within_or p a (A := A) with h | ⟨s, hc⟩
  · exact .inr ⟨p, d, rm, axis_within h, id, fun b _ => ⟨rfl, rfl⟩, fun ⟨s, hc, _⟩ => (within_not h hc).elim⟩
  · rw [axis_cross (hw a) hl hc]
    rcases wall_or hT hc.side (a := a) with ho | h0 | hh1 | hh2 | hh3
    · rw [face_open hc.side ho]
      refine .inr ⟨_, _, _, rfl, id, fun b hb => ⟨rfl, by simp [hb]⟩, fun ⟨s', hc', hk⟩ => ?_⟩
      obtain rfl := cross_uniq (hw a) hc hc'
      exact (ho _ hk).elim
    · obtain ⟨w, hf⟩ := face_wall hc.side h0 (m := m) (T := T) (x0 := pos p a) (p := p) (d := d) (rm := rm)
      rw [hf]
      refine .inr ⟨setPos p a (pos p a - s * (A a).len), setDir d a s, rm, by simp [cases], id, fun b hb => by simp [hb], fun ⟨s', hc', hk⟩ => ?_⟩
      obtain rfl := cross_uniq (hw a) hc hc'
      exact absurd (wall_uniq h0 hk) (by decide)
    · obtain ⟨w, hf⟩ := face_wall hc.side hh1 (m := m) (T := T) (x0 := pos p a) (p := p) (d := d) (rm := rm)
      rw [hf]
      by_cases hm : m = .nonBlocking
      · subst hm
        refine .inr ⟨p, setDir d a s, true, by simp [cases], fun _ => rfl, fun b hb => by simp [hb], fun _ => ⟨rfl, ?_⟩⟩
        have := hc.side
        simp
        omega
      · left
        cases m <;> simp_all [cases]
    · obtain ⟨w, hf⟩ := face_wall hc.side hh2 (m := m) (T := T) (x0 := pos p a) (p := p) (d := d) (rm := rm)
      rw [hf]
      by_cases hm : m = .blocking ∨ m = .nonBlocking
      · refine .inr ⟨negMom (setPos p a (pos p a - s * (A a).dx)) a, setDir (setDir d a s) a 0, rm, by simp [cases, hm], id, fun b hb => by simp [hb],
          fun ⟨s', hc', hk⟩ => ?_⟩
        obtain rfl := cross_uniq (hw a) hc hc'
        exact absurd (wall_uniq hh2 hk) (by decide)
      · refine .inr ⟨setPos p a (pos p a - s * (A a).len), setDir d a s, rm, by simp [cases, hm], id, fun b hb => by simp [hb],
          fun ⟨s', hc', hk⟩ => ?_⟩
        obtain rfl := cross_uniq (hw a) hc hc'
        exact absurd (wall_uniq hh2 hk) (by decide)
    · exact (h3 s hc hh3).elim

/-- A direction in which the particle is re-injected or goes on, but is not absorbed. -/
theorem axis_noabsorb {m : Mode} {A : Ax → Axis} {T : TileLim} {a : Ax} {p : Part n} {d : I3} {rm : Bool} (hw : Wide A) (hT : Types A) (hl : Looks m a)
    (h1 : ∀ s, Crosses A p a s → ¬ Wall A a s 1) :
    (∃ q : Part n, axis m A T a p d rm = .stop (.kept (clampAll m A T (stopped q))) ∧ q.gam = p.gam ∧ q.pid = p.pid) ∨
    (∃ p' d', axis m A T a p d rm = .go p' d' rm ∧ (∀ b, b ≠ a → pos p' b = pos p b ∧ dirOf d' b = dirOf d b) ∧ p'.gam = p.gam ∧ p'.pid = p.pid ∧
      ¬ ∃ s, Crosses A p a s ∧ Wall A a s 3) := by
  rcases within_or p a (A := A) with h | ⟨s, hc⟩
  · exact .inr ⟨p, d, axis_within h, fun b _ => ⟨rfl, rfl⟩, rfl, rfl, fun ⟨s, hc, _⟩ => (within_not h hc).elim⟩
  · rw [axis_cross (hw a) hl hc]
    rcases wall_or hT hc.side (a := a) with ho | h0 | hh1 | hh2 | hh3
    · rw [face_open hc.side ho]
      refine .inr ⟨_, _, rfl, fun b hb => ⟨rfl, by simp [hb]⟩, rfl, rfl, fun ⟨s', hc', hk⟩ => ?_⟩
      obtain rfl := cross_uniq (hw a) hc hc'
      exact (ho _ hk).elim
    · obtain ⟨w, hf⟩ := face_wall hc.side h0 (m := m) (T := T) (x0 := pos p a) (p := p) (d := d) (rm := rm)
      rw [hf]
      refine .inr ⟨setPos p a (pos p a - s * (A a).len), setDir d a s, by simp [cases], fun b hb => by simp [hb], by simp, by simp, fun ⟨s', hc', hk⟩ => ?_⟩
      obtain rfl := cross_uniq (hw a) hc hc'
      exact absurd (wall_uniq h0 hk) (by decide)
    · exact (h1 s hc hh1).elim
    · obtain ⟨w, hf⟩ := face_wall hc.side hh2 (m := m) (T := T) (x0 := pos p a) (p := p) (d := d) (rm := rm)
      rw [hf]
      by_cases hm : m = .blocking ∨ m = .nonBlocking
      · refine .inr ⟨negMom (setPos p a (pos p a - s * (A a).dx)) a, setDir (setDir d a s) a 0, by simp [cases, hm], fun b hb => by simp [hb], by simp,
          by simp, fun ⟨s', hc', hk⟩ => ?_⟩
        obtain rfl := cross_uniq (hw a) hc hc'
        exact absurd (wall_uniq hh2 hk) (by decide)
      · refine .inr ⟨setPos p a (pos p a - s * (A a).len), setDir d a s, by simp [cases, hm], fun b hb => by simp [hb], by simp, by simp,
          fun ⟨s', hc', hk⟩ => ?_⟩
        obtain rfl := cross_uniq (hw a) hc hc'
        exact absurd (wall_uniq hh2 hk) (by decide)
    · obtain ⟨w, hf⟩ := face_wall hc.side hh3 (m := m) (T := T) (x0 := pos p a) (p := p) (d := d) (rm := rm)
      rw [hf]
      exact .inl ⟨setPos p a (2 * w - pos p a), by simp [cases], by simp, by simp⟩

end Picsar.ParticleBcs
