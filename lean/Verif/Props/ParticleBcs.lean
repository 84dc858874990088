import Verif.Lemmas.ParticleBcs
import Verif.Props.Topology
import Mathlib.Tactic.FieldSimp
import Mathlib.Tactic.Positivity
/-
C55: boundary conditions of particles; C56: the absorbing upper face.
-/
namespace Picsar.Props
open Picsar Picsar.Grid Picsar.Tiling Picsar.ParticleBcs

variable {n : ℕ}

theorem axis_step {m : Mode} {A : Ax → Axis} {T : TileLim} {p0 p : Part n} {d : I3} {rm : Bool} (a : Ax) (hw : Wide A) (hT : Types A)
    (h1 : ¬ Hits m A p0 1) (h3 : ¬ Hits m A p0 3) (h2 : (m = .blocking ∨ m = .nonBlocking) ∨ ¬ Hits m A p0 2)
    (hp : pos p a = pos p0 a) (hm : mom p a = mom p0 a) (hd : dirOf d a = 0) :
    ∃ p' d', axis m A T a p d rm = .go p' d' rm ∧ (Looks m a → Treated A p0 p' d' a) ∧
      (¬ Looks m a → pos p' a = pos p0 a ∧ mom p' a = mom p0 a ∧ dirOf d' a = 0) ∧ SameBut a p p' d d' := by
  by_cases hl : Looks m a
  · have hk : ∀ k, ¬ Hits m A p0 k → ∀ s, Crosses A p a s → ¬ Wall A a s k := fun k h s hc hwl => h ⟨a, s, hl, (cross_congr hp s).mp hc, hwl⟩
    obtain ⟨p', d', e, ht, hs⟩ := axis_treat (T := T) (rm := rm) hw hT hl hd (hk 1 h1) (hk 3 h3) (h2.imp id (hk 2))
    exact ⟨p', d', e, fun _ => treated_congr hp hm rfl rfl rfl ht, fun h => (h hl).elim, hs⟩
  · exact ⟨p, d, axis_skip hl, fun h => (hl h).elim, fun _ => ⟨hp, hm, hd⟩, fun _ _ => ⟨rfl, rfl, rfl⟩, rfl, rfl⟩

/-- C55, particles that are neither absorbed nor re-injected: in each direction the particle is left alone inside the limits and at faces
between subdomains, moved by one cell with its normal momentum reversed at a reflecting wall, and moved by the length of the domain at a
periodic one; nothing else changes; it stays on the rank if no direction sends it away and is sent to the right neighbour otherwise.
The combined and 2-D versions have no reflecting walls, and the combined version must not take the particle for one inside its tile
(`C55_combined_reflecting_refuted`, `C55_combined_tile_refuted`). -/
theorem C55_pass_reflect_wrap_partial (m : Mode) (A : Ax → Axis) (T : TileLim) (p : Part n) (hw : Wide A) (hT : Types A)
    (h1 : ¬ Hits m A p 1) (h3 : ¬ Hits m A p 3) (h2 : (m = .blocking ∨ m = .nonBlocking) ∨ ¬ Hits m A p 2) (hc : m = .combined → ¬ inTile T p) :
    ∃ (p' : Part n) (d : I3), (∀ a, Looks m a → Treated A p p' d a) ∧
      (∀ a, ¬ Looks m a → pos p' a = pos p a ∧ mom p' a = mom p a ∧ dirOf d a = 0) ∧ p'.gam = p.gam ∧ p'.pid = p.pid ∧
      scan m A T p = if d = ⟨0, 0, 0⟩ then .kept p' else .sent d p' := by
  by_cases hs : m = .combined ∧ (inTile T p ∨ ¬ outDom A p)
  · have hin : ¬ outDom A p := by
      rcases hs.2 with h | h
      · exact (hc hs.1 h).elim
      · exact h
    refine ⟨p, ⟨0, 0, 0⟩, fun a _ => ⟨fun _ => ⟨rfl, rfl, by cases a <;> rfl⟩, fun s hcs => ?_⟩, fun a _ => ⟨rfl, rfl, by cases a <;> rfl⟩, rfl, rfl, ?_⟩
    · refine (hin ⟨a, ?_⟩).elim
      rcases hcs with ⟨-, h⟩ | ⟨-, h⟩
      · exact .inl h
      · exact .inr h
    · unfold scan
      rw [if_pos hs, if_pos rfl]
  · obtain ⟨p1, d1, e1, t1, u1, b1, g1, i1⟩ := axis_step (T := T) (p := p) (d := ⟨0, 0, 0⟩) (rm := false) .x hw hT h1 h3 h2 rfl rfl rfl
    obtain ⟨b1y1, b1y2, b1y3⟩ := b1 .y (by decide)
    obtain ⟨b1z1, b1z2, b1z3⟩ := b1 .z (by decide)
    obtain ⟨p2, d2, e2, t2, u2, b2, g2, i2⟩ := axis_step (T := T) (p := p1) (d := d1) (rm := false) .y hw hT h1 h3 h2 b1y1 b1y2 b1y3
    obtain ⟨b2x1, b2x2, b2x3⟩ := b2 .x (by decide)
    obtain ⟨b2z1, b2z2, b2z3⟩ := b2 .z (by decide)
    obtain ⟨p3, d3, e3, t3, u3, b3, g3, i3⟩ := axis_step (T := T) (p := p2) (d := d2) (rm := false) .z hw hT h1 h3 h2 (b2z1.trans b1z1) (b2z2.trans b1z2)
      (b2z3.trans b1z3)
    obtain ⟨b3x1, b3x2, b3x3⟩ := b3 .x (by decide)
    obtain ⟨b3y1, b3y2, b3y3⟩ := b3 .y (by decide)
    have hall : ∀ a, Looks m a → Treated A p p3 d3 a := by
      intro a ha
      cases a with
      | x => exact treated_congr rfl rfl (b3x1.trans b2x1) (b3x2.trans b2x2) (b3x3.trans b2x3) (t1 ha)
      | y => exact treated_congr rfl rfl b3y1 b3y2 b3y3 (t2 ha)
      | z => exact t3 ha
    refine ⟨p3, d3, hall, ?_, by rw [g3, g2, g1], by rw [i3, i2, i1], ?_⟩
    · intro a ha
      cases a with
      | x => exact (ha (by unfold Looks; simp)).elim
      | y =>
        obtain ⟨v1, v2, v3⟩ := u2 ha
        exact ⟨b3y1.trans v1, b3y2.trans v2, b3y3.trans v3⟩
      | z => exact (ha (by unfold Looks; simp)).elim
    · unfold scan
      rw [if_neg hs, e1]
      simp only [Scan.andThen]
      rw [e2]
      simp only
      rw [e3]
      unfold finish
      simp only
      by_cases hm : m = .combined
      · rw [if_pos hm, if_neg]
        intro hd
        have hout : outDom A p := by
          by_contra h
          exact hs ⟨hm, .inr h⟩
        obtain ⟨a, ha⟩ := hout
        have hl : Looks m a := by unfold Looks; rw [hm]; simp
        obtain ⟨s, hcs⟩ : ∃ s, Crosses A p a s := by
          rcases ha with h | h
          · exact ⟨-1, .inl ⟨rfl, h⟩⟩
          · exact ⟨1, .inr ⟨rfl, h⟩⟩
        have hd0 : dirOf d3 a = 0 := by rw [hd]; cases a <;> rfl
        have hs0 : s ≠ 0 := by have := hcs.side; omega
        have ht := (hall a hl).2 s hcs
        rcases wall_or hT hcs.side (a := a) with ho | h | h | h | h
        · exact hs0 ((ht.1 ho).2.2.symm.trans hd0)
        · exact hs0 ((ht.2.2 h).2.2.symm.trans hd0)
        · exact h1 ⟨a, s, hl, hcs, h⟩
        · rcases h2 with hmm | hmm
          · rw [hm] at hmm; simp at hmm
          · exact hmm ⟨a, s, hl, hcs, h⟩
        · exact h3 ⟨a, s, hl, hcs, h⟩
      · rw [if_neg hm]
        by_cases hd : d3 = ⟨0, 0, 0⟩
        · rw [if_pos hd, if_neg]
          rw [hd]; decide
        · rw [if_neg hd, if_pos]
          · simp
          · rcases d3 with ⟨a, b, c⟩
            simp only [I3.mk.injEq, not_and] at hd
            have h1 := abs_nonneg a
            have h2 := abs_nonneg b
            have h3 := abs_nonneg c
            dsimp only
            by_contra hlt
            have e1 : a = 0 := abs_eq_zero.mp (by omega)
            have e2 : b = 0 := abs_eq_zero.mp (by omega)
            have e3 : c = 0 := abs_eq_zero.mp (by omega)
            exact hd e1 e2 e3

/-- C55, absorption: a particle that crosses an absorbing wall, and no re-injecting one, is removed, in all versions (in the combined one,
unless it is taken for a particle inside its tile, `C55_combined_tile_refuted`). -/
theorem C55_absorbing_partial (m : Mode) (A : Ax → Axis) (T : TileLim) (p : Part n) (hw : Wide A) (hT : Types A) (h1 : Hits m A p 1)
    (h3 : ¬ Hits m A p 3) (hc : m = .combined → ¬ inTile T p) : scan m A T p = .removed := by
  obtain ⟨a, s, hl, hcs, hwl⟩ := h1
  have hs : ¬ (m = .combined ∧ (inTile T p ∨ ¬ outDom A p)) := by
    rintro ⟨hm, h | h⟩
    · exact hc hm h
    · refine h ⟨a, ?_⟩
      rcases hcs with ⟨-, h⟩ | ⟨-, h⟩
      · exact .inl h
      · exact .inr h
  have step : ∀ (b : Ax) (q : Part n) (d : I3) (rm : Bool), pos q b = pos p b →
      axis m A T b q d rm = .stop .removed ∨ ∃ q' d' rm', axis m A T b q d rm = .go q' d' rm' ∧ (rm = true → rm' = true) ∧
        (∀ c, c ≠ b → pos q' c = pos q c ∧ dirOf d' c = dirOf d c) ∧ (b = a → rm' = true ∧ dirOf d' b ≠ 0) := by
    intro b q d rm hq
    by_cases hlb : Looks m b
    · rcases axis_noreinject (T := T) (d := d) (rm := rm) hw hT hlb (fun s' hc' hw' => h3 ⟨b, s', hlb, (cross_congr hq s').mp hc', hw'⟩) with h | ⟨q', d', rm', e, h1, h2, h4⟩
      · exact .inl h
      · refine .inr ⟨q', d', rm', e, h1, h2, ?_⟩
        rintro rfl
        exact h4 ⟨s, (cross_congr hq s).mpr hcs, hwl⟩
    · refine .inr ⟨q, d, rm, axis_skip hlb, id, fun c _ => ⟨rfl, rfl⟩, ?_⟩
      rintro rfl
      exact (hlb hl).elim
  unfold scan
  rw [if_neg hs]
  rcases step .x p ⟨0, 0, 0⟩ false rfl with e | ⟨p1, d1, r1, e1, m1, b1, k1⟩
  · rw [e]; rfl
  rw [e1]
  simp only [Scan.andThen]
  rcases step .y p1 d1 r1 (b1 .y (by decide)).1 with e | ⟨p2, d2, r2, e2, m2, b2, k2⟩
  · rw [e]; rfl
  rw [e2]
  simp only
  rcases step .z p2 d2 r2 ((b2 .z (by decide)).1.trans (b1 .z (by decide)).1) with e | ⟨p3, d3, r3, e3, m3, b3, k3⟩
  · rw [e]; rfl
  rw [e3]
  have hr : r3 = true := by
    cases a with
    | x => exact m3 (m2 (k1 rfl).1)
    | y => exact m3 (k2 rfl).1
    | z => exact (k3 rfl).1
  have hd : dirOf d3 a ≠ 0 := by
    cases a with
    | x => rw [(b3 .x (by decide)).2, (b2 .x (by decide)).2]; exact (k1 rfl).2
    | y => rw [(b3 .y (by decide)).2]; exact (k2 rfl).2
    | z => exact (k3 rfl).2
  have hcomb : m ≠ .combined := by
    intro hm
    -- in the combined version an absorbed particle never gets to the end
    subst hm
    have hface : ∀ (q : Part n) (d : I3) (rm : Bool), pos q a = pos p a → axis .combined A T a q d rm = .stop .removed := by
      intro q d rm hq
      rw [axis_cross (hw a) hl ((cross_congr hq s).mpr hcs)]
      obtain ⟨w, hf⟩ := face_wall hcs.side hwl (m := .combined) (T := T) (x0 := pos q a) (p := q) (d := d) (rm := rm)
      rw [hf]
      simp [cases]
    cases a with
    | x => rw [hface p ⟨0, 0, 0⟩ false rfl] at e1; cases e1
    | y => rw [hface p1 d1 r1 (b1 .y (by decide)).1] at e2; cases e2
    | z => rw [hface p2 d2 r2 ((b2 .z (by decide)).1.trans (b1 .z (by decide)).1)] at e3; cases e3
  unfold finish
  simp only
  rw [if_neg hcomb, if_pos, hr]
  · simp
  · have h1 := abs_nonneg d3.j
    have h2 := abs_nonneg d3.k
    have h4 := abs_nonneg d3.l
    cases a with
    | x => have : 0 < |d3.j| := abs_pos.mpr hd
           omega
    | y => have : 0 < |d3.k| := abs_pos.mpr hd
           omega
    | z => have : 0 < |d3.l| := abs_pos.mpr hd
           omega

theorem clamp_mem {lo hi dx v : ℝ} (h : lo + dx ≤ hi) : lo + dx / 2 ≤ clamp lo hi dx v ∧ clamp lo hi dx v ≤ hi - dx / 2 := by
  unfold clamp
  refine ⟨le_min (le_trans (by linarith) (le_max_right _ _)) (by linarith), le_trans (min_le_right _ _) (by linarith)⟩

/-- C55, re-injection: a particle that crosses a re-injecting wall, and no absorbing one, stays in its tile, at rest, at least half a cell
away from the tile's limits (tiles are at least one cell wide); weight and identity are unchanged. (The stored inverse of the Lorentz factor
is not updated.) -/
theorem C55_reinjecting_partial (m : Mode) (A : Ax → Axis) (T : TileLim) (p : Part n) (hw : Wide A) (hT : Types A) (h3 : Hits m A p 3)
    (h1 : ¬ Hits m A p 1) (hc : m = .combined → ¬ inTile T p) (ht : ∀ a, T.lo a + (A a).dx ≤ T.hi a) :
    ∃ p' : Part n, scan m A T p = .kept p' ∧ (∀ a, mom p' a = 0) ∧
      (∀ a, Looks m a → T.lo a + (A a).dx / 2 ≤ pos p' a ∧ pos p' a ≤ T.hi a - (A a).dx / 2) ∧ p'.pid = p.pid := by
  obtain ⟨a, s, hl, hcs, hwl⟩ := h3
  have hs : ¬ (m = .combined ∧ (inTile T p ∨ ¬ outDom A p)) := by
    rintro ⟨hm, h | h⟩
    · exact hc hm h
    · refine h ⟨a, ?_⟩
      rcases hcs with ⟨-, h⟩ | ⟨-, h⟩
      · exact .inl h
      · exact .inr h
  have fin : ∀ q : Part n, q.pid = p.pid → ∃ p' : Part n, (Outcome.kept (clampAll m A T (stopped q)) : Outcome n) = .kept p' ∧ (∀ a, mom p' a = 0) ∧
      (∀ a, Looks m a → T.lo a + (A a).dx / 2 ≤ pos p' a ∧ pos p' a ≤ T.hi a - (A a).dx / 2) ∧ p'.pid = p.pid := by
    intro q hq
    refine ⟨_, rfl, fun b => ?_, fun b hb => ?_, ?_⟩
    · unfold clampAll
      dsimp only
      split_ifs <;> simp <;> cases b <;> rfl
    · unfold clampAll
      dsimp only
      cases b with
      | x => split_ifs <;> simp <;> exact clamp_mem (ht .x)
      | y =>
        rw [if_neg (fun e => hb ⟨rfl, e⟩)]
        simp only [pos_setPos]
        simp
        exact clamp_mem (ht .y)
      | z => split_ifs <;> simp <;> exact clamp_mem (ht .z)
    · unfold clampAll
      dsimp only
      split_ifs <;> simp <;> exact hq
  have step : ∀ (b : Ax) (q : Part n) (d : I3) (rm : Bool), pos q b = pos p b → q.pid = p.pid →
      (∃ q' : Part n, axis m A T b q d rm = .stop (.kept (clampAll m A T (stopped q'))) ∧ q'.pid = p.pid) ∨
      ∃ q' d', axis m A T b q d rm = .go q' d' rm ∧ (∀ c, c ≠ b → pos q' c = pos q c) ∧ q'.pid = p.pid ∧ b ≠ a := by
    intro b q d rm hq hpid
    by_cases hlb : Looks m b
    · rcases axis_noabsorb (T := T) (d := d) (rm := rm) hw hT hlb (fun s' hc' hw' => h1 ⟨b, s', hlb, (cross_congr hq s').mp hc', hw'⟩) with ⟨q', e, _, hi⟩ | ⟨q', d', e, h2, _, hi, h4⟩
      · exact .inl ⟨q', e, hi.trans hpid⟩
      · refine .inr ⟨q', d', e, fun c hc => (h2 c hc).1, hi.trans hpid, ?_⟩
        rintro rfl
        exact h4 ⟨s, (cross_congr hq s).mpr hcs, hwl⟩
    · refine .inr ⟨q, d, axis_skip hlb, fun c _ => rfl, hpid, ?_⟩
      rintro rfl
      exact (hlb hl).elim
  unfold scan
  rw [if_neg hs]
  rcases step .x p ⟨0, 0, 0⟩ false rfl rfl with ⟨q, e, hi⟩ | ⟨p1, d1, e1, b1, i1, k1⟩
  · rw [e]; exact fin q hi
  rw [e1]
  simp only [Scan.andThen]
  rcases step .y p1 d1 false (b1 .y (by decide)) i1 with ⟨q, e, hi⟩ | ⟨p2, d2, e2, b2, i2, k2⟩
  · rw [e]; exact fin q hi
  rw [e2]
  simp only
  rcases step .z p2 d2 false ((b2 .z (by decide)).trans (b1 .z (by decide))) i2 with ⟨q, e, hi⟩ | ⟨p3, d3, e3, b3, i3, k3⟩
  · rw [e]; exact fin q hi
  cases a <;> simp_all

/-! ### Where the versions differ from the intention -/

/-- The combined version (and the 2-D one) treats a reflecting wall as a periodic one: the particle is sent to the neighbour across the wall,
moved by the length of the domain, and its momentum is not reversed. -/
theorem C55_combined_reflecting_refuted (m : Mode) (hm : m = .combined ∨ m = .nonBlocking2d) (A : Ax → Axis) (T : TileLim) (p : Part n) (hw : Wide A)
    (hc : Crosses A p .x (-1)) (h2 : Wall A .x (-1) 2) (hy : Within A p .y) (hz : Within A p .z) (ht : ¬ inTile T p) :
    scan m A T p = .sent ⟨-1, 0, 0⟩ (setPos p .x (p.x + (A .x).len)) := by
  have hl : Looks m .x := by unfold Looks; simp
  have e1 : axis m A T .x p ⟨0, 0, 0⟩ false = .go (setPos p .x (p.x + (A .x).len)) ⟨-1, 0, 0⟩ false := by
    rw [axis_cross (hw .x) hl hc]
    obtain ⟨w, hf⟩ := face_wall hc.side h2 (m := m) (T := T) (x0 := pos p .x) (p := p) (d := ⟨0, 0, 0⟩) (rm := false)
    rw [hf]
    have : ¬ (m = .blocking ∨ m = .nonBlocking) := by rcases hm with rfl | rfl <;> simp
    simp [cases, this, setDir, pos]
  have hs : ¬ (m = .combined ∧ (inTile T p ∨ ¬ outDom A p)) := by
    rintro ⟨-, h | h⟩
    · exact ht h
    · refine h ⟨.x, ?_⟩
      rcases hc with ⟨-, h⟩ | ⟨-, h⟩
      · exact .inl h
      · exact .inr h
  unfold scan
  rw [if_neg hs, e1]
  simp only [Scan.andThen]
  rw [axis_within (show Within A (setPos p .x (p.x + (A .x).len)) .y from hy)]
  simp only
  rw [axis_within (show Within A (setPos p .x (p.x + (A .x).len)) .z from hz)]
  unfold finish
  simp only
  by_cases h1 : m = .combined
  · rw [if_pos h1]
  · rw [if_neg h1, if_pos (by decide)]
    simp

/-- The combined version leaves a particle alone that has crossed a wall but is still inside the limits of its tile; with one tile in x
these limits start half a cell below the wall, whatever the type of the wall. -/
theorem C55_combined_tile_refuted (A : Ax → Axis) (T : TileLim) (p : Part n) (s : Split1) (xmax : ℝ) (hs : s.nt = 1)
    (hT : T.lo .x = (tileExt s (A .x).lo xmax (A .x).dx 1).lo ∧ T.hi .x = (tileExt s (A .x).lo xmax (A .x).dx 1).hi) (hx : (A .x).lo ≤ xmax)
    (hp : (A .x).lo - (A .x).dx / 2 ≤ p.x ∧ p.x < (A .x).lo) (hr : ∀ a, a ≠ .x → T.lo a ≤ pos p a ∧ pos p a < T.hi a) :
    Crosses A p .x (-1) ∧ scan .combined A T p = .kept p := by
  refine ⟨.inl ⟨rfl, hp.2⟩, ?_⟩
  have hin : inTile T p := by
    intro a
    cases a with
    | x =>
      rw [hT.1, hT.2]
      unfold tileExt
      rw [if_pos hs.symm]
      simp only [pos]
      constructor
      · have : (((1 : ℤ) - 1) * s.n0 : ℤ) = 0 := by ring
        rw [this]
        push_cast
        linarith [hp.1]
      · linarith [hp.2]
    | y => exact hr .y (by decide)
    | z => exact hr .z (by decide)
  unfold scan
  rw [if_pos ⟨rfl, .inl hin⟩]

/-- The versions disagree on a particle that crosses an absorbing wall in x and a re-injecting wall in y in the same step: the blocking
version removes it, the non-blocking one keeps it. -/
theorem C55_corner_refuted (A : Ax → Axis) (T : TileLim) (p : Part n) (hw : Wide A) (sx sy : ℤ) (hx : Crosses A p .x sx) (h1 : Wall A .x sx 1)
    (hy : Crosses A p .y sy) (h3 : Wall A .y sy 3) : scan .blocking A T p = .removed ∧ ∃ p', scan .nonBlocking A T p = .kept p' := by
  constructor
  · unfold scan
    rw [if_neg (by simp), axis_cross (hw .x) (by unfold Looks; simp) hx]
    obtain ⟨w, hf⟩ := face_wall hx.side h1 (m := .blocking) (T := T) (x0 := pos p .x) (p := p) (d := ⟨0, 0, 0⟩) (rm := false)
    rw [hf]
    simp [cases, Scan.andThen, finish]
  · unfold scan
    rw [if_neg (by simp), axis_cross (hw .x) (by unfold Looks; simp) hx]
    obtain ⟨w, hf⟩ := face_wall hx.side h1 (m := .nonBlocking) (T := T) (x0 := pos p .x) (p := p) (d := ⟨0, 0, 0⟩) (rm := false)
    rw [hf]
    have : cases .nonBlocking A T .x sx 1 w (pos p .x) p (setDir ⟨0, 0, 0⟩ .x sx) false = .go p (setDir ⟨0, 0, 0⟩ .x sx) true := by simp [cases]
    rw [this]
    simp only [Scan.andThen]
    rw [axis_cross (hw .y) (by unfold Looks; simp) hy]
    obtain ⟨w', hf'⟩ := face_wall hy.side h3 (m := .nonBlocking) (T := T) (x0 := pos p .y) (p := p) (d := setDir ⟨0, 0, 0⟩ .x sx) (rm := true)
    rw [hf']
    simp [cases, finish]

/-- Reflection moves the particle by one cell only: a particle further than one cell behind the wall stays on the rank, outside the domain. -/
theorem C55_far_reflecting_refuted (A : Ax → Axis) (T : TileLim) (p : Part n) (hw : Wide A) (h2 : Wall A .x (-1) 2) (hx : p.x < (A .x).lo - (A .x).dx)
    (hdx : 0 < (A .x).dx) (hy : Within A p .y) (hz : Within A p .z) : ∃ p', scan .blocking A T p = .kept p' ∧ p'.x < (A .x).lo := by
  have hc : Crosses A p .x (-1) := .inl ⟨rfl, by simp only [pos]; linarith⟩
  have e1 : axis .blocking A T .x p ⟨0, 0, 0⟩ false = .go (negMom (setPos p .x (p.x + (A .x).dx)) .x) ⟨0, 0, 0⟩ false := by
    rw [axis_cross (hw .x) (by unfold Looks; simp) hc]
    obtain ⟨w, hf⟩ := face_wall hc.side h2 (m := .blocking) (T := T) (x0 := pos p .x) (p := p) (d := ⟨0, 0, 0⟩) (rm := false)
    rw [hf]
    simp [cases, setDir, pos]
  refine ⟨negMom (setPos p .x (p.x + (A .x).dx)) .x, ?_, ?_⟩
  · unfold scan
    rw [if_neg (by simp), e1]
    simp only [Scan.andThen]
    rw [axis_within (show Within A (negMom (setPos p .x (p.x + (A .x).dx)) .x) .y from hy)]
    simp only
    rw [axis_within (show Within A (negMom (setPos p .x (p.x + (A .x).dx)) .x) .z from hz)]
    simp [finish]
  · show p.x + (A .x).dx < (A .x).lo
    linarith

/-! ### Decomposition -/

/-- Extents of the subdomains along one direction. -/
theorem extents {ncells nproc : ℤ} (hp : 1 ≤ nproc) (hc : nproc ≤ ncells) {xmin xmax : ℝ} (hx : xmin < xmax) :
    ∃ (s : Topology.Split) (a b : ℤ → ℝ), Topology.split ncells nproc = .ok s ∧
      (∀ c, 0 ≤ c → c < nproc → Topology.localExtent xmin xmax ncells s c = .ok (a c, b c) ∧ xmin ≤ a c ∧ a c < b c ∧ b c ≤ xmax ∧ (0 < c → xmin < a c)) ∧
      a 0 = xmin ∧ b (nproc - 1) = xmax ∧ (∀ c, 0 ≤ c → c < nproc - 1 → a (c + 1) = b c) := by
  obtain ⟨s, lo, hi, e, hg, hs⟩ := C52_split_partitions ncells nproc hp (by omega)
  obtain ⟨s1, s2, s3, s4, s5, -, s7⟩ := hs
  have hN : (0 : ℝ) < ncells := by exact_mod_cast (show (0 : ℤ) < ncells by omega)
  have hd : 0 < (xmax - xmin) / ncells := div_pos (by linarith) hN
  have mono : ∀ i k : ℤ, i < k → Topology.xGlobal xmin xmax ncells i < Topology.xGlobal xmin xmax ncells k := by
    intro i k h
    unfold Topology.xGlobal
    have : (i : ℝ) < k := by exact_mod_cast h
    nlinarith
  have mono' : ∀ i k : ℤ, i ≤ k → Topology.xGlobal xmin xmax ncells i ≤ Topology.xGlobal xmin xmax ncells k := by
    intro i k h
    rcases lt_or_eq_of_le h with h | h
    · exact (mono i k h).le
    · rw [h]
  have h0 : Topology.xGlobal xmin xmax ncells 0 = xmin := by simp [Topology.xGlobal]
  have hNx : Topology.xGlobal xmin xmax ncells ncells = xmax := by
    unfold Topology.xGlobal
    field_simp
    ring
  refine ⟨s, fun c => Topology.xGlobal xmin xmax ncells (lo (c + 1)), fun c => Topology.xGlobal xmin xmax ncells (hi (c + 1) + 1), e, ?_, ?_, ?_, ?_⟩
  · intro c h1 h2
    have hlh := s7 hc (c + 1) (by omega) (by omega)
    have k1 := s5 (c + 1) (lo (c + 1)) (by omega) (by omega) le_rfl hlh
    have k2 := s5 (c + 1) (hi (c + 1)) (by omega) (by omega) hlh le_rfl
    refine ⟨?_, ?_, mono _ _ (by omega), ?_, fun hc0 => ?_⟩
    · unfold Topology.localExtent
      rw [(hg (c + 1) (by omega) (by omega)).1, (hg (c + 1) (by omega) (by omega)).2]
      rfl
    · have := mono' 0 (lo (c + 1)) k1.1
      rwa [h0] at this
    · have := mono' (hi (c + 1) + 1) ncells (by omega)
      rwa [hNx] at this
    · have e1 := s3 c (by omega) (by omega)
      have e2 := s7 hc c (by omega) (by omega)
      have k3 := s5 c (lo c) (by omega) (by omega) le_rfl e2
      have := mono 0 (lo (c + 1)) (by omega)
      rwa [h0] at this
  · show Topology.xGlobal _ _ _ (lo (0 + 1)) = _
    rw [zero_add, s1, h0]
  · show Topology.xGlobal _ _ _ (hi (nproc - 1 + 1) + 1) = _
    rw [sub_add_cancel, s2, sub_add_cancel, hNx]
  · intro c h1 h2
    show Topology.xGlobal _ _ _ (lo (c + 1 + 1)) = Topology.xGlobal _ _ _ (hi (c + 1) + 1)
    rw [s3 (c + 1) (by omega) (by omega)]

theorem mkAxis_eq {xmin xmax o1 o2 a b : ℝ} {ncells nproc c k1 k2 : ℤ} {s : Topology.Split} (h : Topology.localExtent xmin xmax ncells s c = .ok (a, b)) :
    mkAxis xmin xmax o1 o2 ncells s nproc c k1 k2 = .ok
      ⟨(faceLim k1 xmin o1 a b a (decide (c = 0))).lim, (faceLim k2 xmax o2 a b b (decide (c = nproc - 1))).lim,
       (faceLim k1 xmin o1 a b a (decide (c = 0))).wall, (faceLim k2 xmax o2 a b b (decide (c = nproc - 1))).wall,
       (faceLim k2 xmax o2 a b b (decide (c = nproc - 1))).wall - (faceLim k1 xmin o1 a b a (decide (c = 0))).wall, (xmax - xmin) / ncells,
       (faceLim k1 xmin o1 a b a (decide (c = 0))).flag, (faceLim k2 xmax o2 a b b (decide (c = nproc - 1))).flag, k1, k2⟩ := by
  unfold mkAxis
  rw [h]
  rfl

/-- C55, periodic boundaries and faces between subdomains: on every process of every decomposition, a particle that leaves by less than the size
of the neighbouring subdomain is sent to the neighbour, and with the coordinate it is sent with it lies inside the neighbour's limits; this
includes the wrap-around at the ends and a single process. -/
theorem C55_periodic_lands (ncells nproc : ℤ) (hp : 1 ≤ nproc) (hc : nproc ≤ ncells) (xmin xmax : ℝ) (hx : xmin < xmax) :
    ∃ (s : Topology.Split) (a b : ℤ → ℝ), Topology.split ncells nproc = .ok s ∧
      (∀ c, 0 ≤ c → c < nproc → Topology.localExtent xmin xmax ncells s c = .ok (a c, b c)) ∧
      ∀ (c : ℤ) (A : Ax → Axis) (ax : Ax) (p p' : Part n) (d : I3), 0 ≤ c → c < nproc → mkAxis xmin xmax 0 0 ncells s nproc c 0 0 = .ok (A ax) →
        Treated A p p' d ax →
        (∀ t, t = (c - 1) % nproc → a c - (b t - a t) ≤ pos p ax → pos p ax < a c → dirOf d ax = -1 ∧ a t ≤ pos p' ax ∧ pos p' ax < b t) ∧
        (∀ t, t = (c + 1) % nproc → b c ≤ pos p ax → pos p ax < b c + (b t - a t) → dirOf d ax = 1 ∧ a t ≤ pos p' ax ∧ pos p' ax < b t) ∧
        (a c ≤ pos p ax → pos p ax < b c → dirOf d ax = 0 ∧ pos p' ax = pos p ax) := by
  obtain ⟨s, a, b, e, hext, ha0, hbn, hcons⟩ := extents hp hc hx
  refine ⟨s, a, b, e, fun c h1 h2 => (hext c h1 h2).1, ?_⟩
  intro c A ax p p' d h1 h2 hA ht
  obtain ⟨he, -, hab, -, -⟩ := hext c h1 h2
  rw [mkAxis_eq he] at hA
  injection hA with hA
  have f0 : ∀ (edge off l1 l2 l : ℝ) (bnd : Bool), faceLim 0 edge off l1 l2 l bnd = ⟨edge, bnd, l⟩ := by
    intro edge off l1 l2 l bnd
    unfold faceLim
    rw [if_neg (by omega)]
  simp only [f0] at hA
  have alo : (A ax).lo = a c := by rw [← hA]
  have ahi : (A ax).hi = b c := by rw [← hA]
  have alen : (A ax).len = xmax - xmin := by rw [← hA]
  have abmin : (A ax).bmin = decide (c = 0) := by rw [← hA]
  have abmax : (A ax).bmax = decide (c = nproc - 1) := by rw [← hA]
  have akmin : (A ax).kmin = 0 := by rw [← hA]
  have akmax : (A ax).kmax = 0 := by rw [← hA]
  obtain ⟨t1, t2⟩ := ht
  refine ⟨?_, ?_, ?_⟩
  · rintro t rfl g1 g2
    have hcr : Crosses A p ax (-1) := .inl ⟨rfl, by rw [alo]; exact g2⟩
    obtain ⟨u1, -, u3⟩ := t2 _ hcr
    by_cases h0 : c = 0
    · have hmod : (c - 1) % nproc = nproc - 1 := by
        rw [h0, show (0 : ℤ) - 1 = (nproc - 1) + nproc * (-1) by ring, Int.add_mul_emod_self_left]
        exact Int.emod_eq_of_lt (by omega) (by omega)
      rw [hmod] at g1 ⊢
      obtain ⟨v1, -, v3⟩ := u3 (.inl ⟨rfl, by rw [abmin]; simp [h0], akmin⟩)
      subst h0
      rw [hbn] at g1 ⊢
      rw [ha0] at g1 g2
      refine ⟨v3, ?_, ?_⟩
      · rw [v1, alen]; push_cast; linarith
      · rw [v1, alen]; push_cast; linarith
    · have hmod : (c - 1) % nproc = c - 1 := Int.emod_eq_of_lt (by omega) (by omega)
      rw [hmod] at g1 ⊢
      obtain ⟨v1, -, v3⟩ := u1 (by
        rintro k (⟨-, hb, -⟩ | ⟨hb, -⟩)
        · rw [abmin] at hb; simp [h0] at hb
        · omega)
      have hcc := hcons (c - 1) (by omega) (by omega)
      rw [sub_add_cancel] at hcc
      refine ⟨v3, ?_, ?_⟩
      · rw [v1]; linarith
      · rw [v1]; linarith
  · rintro t rfl g1 g2
    have hcr : Crosses A p ax 1 := .inr ⟨rfl, by rw [ahi]; exact g1⟩
    obtain ⟨u1, -, u3⟩ := t2 _ hcr
    by_cases h0 : c = nproc - 1
    · have hmod : (c + 1) % nproc = 0 := by
        rw [h0, sub_add_cancel]; exact Int.emod_self
      rw [hmod] at g2 ⊢
      obtain ⟨v1, -, v3⟩ := u3 (.inr ⟨rfl, by rw [abmax]; simp [h0], akmax⟩)
      subst h0
      rw [hbn] at g1 g2
      rw [ha0] at g2 ⊢
      refine ⟨v3, ?_, ?_⟩
      · rw [v1, alen]; push_cast; linarith
      · rw [v1, alen]; push_cast; linarith
    · have hmod : (c + 1) % nproc = c + 1 := Int.emod_eq_of_lt (by omega) (by omega)
      rw [hmod] at g2 ⊢
      obtain ⟨v1, -, v3⟩ := u1 (by
        rintro k (⟨hb, -⟩ | ⟨-, hb, -⟩)
        · omega
        · rw [abmax] at hb; simp [h0] at hb)
      have hcc := hcons c (by omega) (by omega)
      refine ⟨v3, ?_, ?_⟩
      · rw [v1]; linarith
      · rw [v1]; linarith
  · intro g1 g2
    obtain ⟨v1, -, v3⟩ := t1 ⟨by rw [alo]; exact g1, by rw [ahi]; exact g2⟩
    exact ⟨v3, v1⟩

/-- C56, lower face: with absorbing boundaries and default (zero) offsets the lower wall is recognised on exactly the processes at the lower
end, and particles that cross it there are removed. -/
theorem C56_lower_face_partial (ncells nproc : ℤ) (hp : 1 ≤ nproc) (hc : nproc ≤ ncells) (xmin xmax : ℝ) (hx : xmin < xmax) :
    ∃ s, Topology.split ncells nproc = .ok s ∧ ∀ c, 0 ≤ c → c < nproc → ∃ X, mkAxis xmin xmax 0 0 ncells s nproc c 1 1 = .ok X ∧
      (X.bmin = true ↔ c = 0) ∧ (c = 0 → X.lo = xmin) ∧
      ∀ (A : Ax → Axis) (T : TileLim) (p : Part n), c = 0 → A .x = X → Wide A → Types A → p.x < xmin → Within A p .y → Within A p .z →
        scan .blocking A T p = .removed ∧ scan .nonBlocking A T p = .removed := by
  obtain ⟨s, a, b, e, hext, ha0, hbn, hcons⟩ := extents hp hc hx
  refine ⟨s, e, fun c h1 h2 => ?_⟩
  obtain ⟨he, ha, hab, hb, hgt⟩ := hext c h1 h2
  refine ⟨_, mkAxis_eq he, ?_, ?_, ?_⟩
  · dsimp only
    unfold faceLim
    rw [if_pos (by simp), add_zero]
    constructor
    · intro h
      by_contra h0
      have := hgt (by omega)
      rw [if_neg (fun hh => by linarith [hh.1])] at h
      simp at h
    · rintro rfl
      rw [if_pos ⟨by rw [ha0], by rw [← ha0]; exact hab⟩]
  · rintro rfl
    dsimp only
    unfold faceLim
    rw [if_pos (by simp), add_zero, if_pos ⟨by rw [ha0], by rw [← ha0]; exact hab⟩]
  · rintro A T p rfl hA hw hT hpx hy hz
    have hf : faceLim 1 xmin 0 (a 0) (b 0) (a 0) (decide ((0 : ℤ) = 0)) = ⟨xmin, true, xmin⟩ := by
      unfold faceLim
      rw [if_pos (by simp), add_zero, if_pos ⟨by rw [ha0], by rw [← ha0]; exact hab⟩]
    have hlo : (A .x).lo = xmin := by rw [hA, hf]
    have hwl : Wall A .x (-1) 1 := .inl ⟨rfl, by rw [hA, hf], by rw [hA]⟩
    have hcr : Crosses A p .x (-1) := .inl ⟨rfl, by rw [hlo]; exact hpx⟩
    have key : ∀ m : Mode, m ≠ .combined → scan m A T p = .removed := by
      intro m hm
      refine C55_absorbing_partial m A T p hw hT ⟨.x, -1, by unfold Looks; simp, hcr, hwl⟩ ?_ (fun h => (hm h).elim)
      rintro ⟨ax, s', -, hcs, hk⟩
      cases ax with
      | x =>
        obtain rfl := cross_uniq (hw .x) hcr hcs
        exact absurd (wall_uniq hwl hk) (by decide)
      | y => exact within_not hy hcs
      | z => exact within_not hz hcs
    exact ⟨key _ (by decide), key _ (by decide)⟩

/-- C56 is false of the code at the upper face: with absorbing boundaries and default (zero) offsets no process of any decomposition
recognises the upper wall, and a particle that crosses it on the last process is not removed but sent, unchanged, to the neighbour in
direction +x, which is the first process. -/
theorem C56_upper_face_refuted (ncells nproc : ℤ) (hp : 1 ≤ nproc) (hc : nproc ≤ ncells) (xmin xmax : ℝ) (hx : xmin < xmax) :
    ∃ s, Topology.split ncells nproc = .ok s ∧ ∀ c, 0 ≤ c → c < nproc → ∃ X, mkAxis xmin xmax 0 0 ncells s nproc c 1 1 = .ok X ∧ X.bmax = false ∧
      ∀ (m : Mode) (A : Ax → Axis) (T : TileLim) (p : Part n), m ≠ .combined → c = nproc - 1 → A .x = X → Wide A → xmax ≤ p.x →
        Within A p .y → Within A p .z → scan m A T p = .sent ⟨1, 0, 0⟩ p ∧ Topology.neight nproc c 1 = 0 := by
  obtain ⟨s, a, b, e, hext, ha0, hbn, hcons⟩ := extents hp hc hx
  refine ⟨s, e, fun c h1 h2 => ?_⟩
  obtain ⟨he, ha, hab, hb, hgt⟩ := hext c h1 h2
  have hf : faceLim 1 xmax 0 (a c) (b c) (b c) (decide (c = nproc - 1)) = ⟨xmax, false, b c⟩ := by
    unfold faceLim
    rw [if_pos (by simp), add_zero, if_neg (fun hh => by linarith [hh.2])]
  refine ⟨_, mkAxis_eq he, by rw [hf], ?_⟩
  rintro m A T p hm hcl hA hw hpx hy hz
  have hhi : (A .x).hi = xmax := by rw [hA, hf]; dsimp only; rw [hcl, hbn]
  have hcr : Crosses A p .x 1 := .inr ⟨rfl, by rw [hhi]; exact hpx⟩
  have hopen : ∀ k, ¬ Wall A .x 1 k := by
    rintro k (⟨h, -⟩ | ⟨-, h, -⟩)
    · omega
    · rw [hA, hf] at h; simp at h
  constructor
  · unfold scan
    rw [if_neg (fun h => hm h.1), axis_cross (hw .x) (by unfold Looks; simp) hcr, face_open (.inr rfl) hopen]
    simp only [Scan.andThen]
    rw [axis_within hy]
    simp only
    rw [axis_within hz]
    unfold finish
    simp only
    rw [if_neg hm, if_pos (by decide)]
    simp [setDir]
  · rw [hcl]
    unfold Topology.neight
    split_ifs <;> omega

/-! ### Examples -/

/-- One process in every direction, unit box, ten cells; absorbing in x, reflecting in y, periodic in z. -/
noncomputable def exAxes : Ax → Axis
  | .x => ⟨0, 1, 0, 1, 1, 1 / 10, true, true, 1, 1⟩
  | .y => ⟨0, 1, 0, 1, 1, 1 / 10, true, true, 2, 2⟩
  | .z => ⟨0, 1, 0, 1, 1, 1 / 10, true, true, 0, 0⟩

theorem exAxes_ok : Wide exAxes ∧ Types exAxes := by
  constructor
  · intro a; cases a <;> norm_num [exAxes]
  · intro a; cases a <;> norm_num [exAxes]

def exLim : TileLim := ⟨fun _ => 0, fun _ => 1⟩

/-- A particle behind the upper z wall and the lower y wall: it is reflected in y, and sent through the z wall. -/
example : ∃ p' : Part 1, scan .blocking exAxes exLim (⟨1 / 2, -1 / 100, 101 / 100, 3, 4, 5, 1, fun _ => 7⟩ : Part 1) = .sent ⟨0, 0, 1⟩ p' ∧
    p'.y = 9 / 100 ∧ p'.uy = -4 ∧ p'.z = 1 / 100 ∧ p'.uz = 5 := by
  obtain ⟨hw, hT⟩ := exAxes_ok
  have hnb : ∀ k, k ≠ 2 → k ≠ 0 → ¬ Hits .blocking exAxes (⟨1 / 2, -1 / 100, 101 / 100, 3, 4, 5, 1, fun _ => 7⟩ : Part 1) k := by
    rintro k h2 h0 ⟨a, s, -, hcs, hwl⟩
    cases a with
    | x => rcases hcs with ⟨-, h⟩ | ⟨-, h⟩ <;> norm_num [pos, exAxes] at h
    | y => rcases hwl with ⟨-, -, h⟩ | ⟨-, -, h⟩ <;> exact h2 h.symm
    | z => rcases hwl with ⟨-, -, h⟩ | ⟨-, -, h⟩ <;> exact h0 h.symm
  obtain ⟨p', d, ht, -, -, -, e⟩ := C55_pass_reflect_wrap_partial .blocking exAxes exLim (⟨1 / 2, -1 / 100, 101 / 100, 3, 4, 5, 1, fun _ => 7⟩ : Part 1) hw hT
    (hnb 1 (by decide) (by decide)) (hnb 3 (by decide) (by decide)) (.inl (.inl rfl)) (by simp)
  obtain ⟨-, -, x3⟩ := (ht .x (by unfold Looks; simp)).1 ⟨by norm_num [pos, exAxes], by norm_num [pos, exAxes]⟩
  obtain ⟨y1, y2, y3⟩ := ((ht .y (by unfold Looks; simp)).2 (-1) (.inl ⟨rfl, by norm_num [pos, exAxes]⟩)).2.1 (.inl ⟨rfl, rfl, rfl⟩)
  obtain ⟨z1, z2, z3⟩ := ((ht .z (by unfold Looks; simp)).2 1 (.inr ⟨rfl, by norm_num [pos, exAxes]⟩)).2.2 (.inr ⟨rfl, rfl, rfl⟩)
  have hd : d = ⟨0, 0, 1⟩ := by
    rcases d with ⟨d1, d2, d3⟩
    simp only [dirOf] at x3 y3 z3
    subst x3 y3 z3
    rfl
  refine ⟨p', ?_, ?_, ?_, ?_, ?_⟩
  · rw [e, hd, if_neg (by decide)]
  · have : p'.y = _ := y1
    rw [this]; norm_num [pos, exAxes]
  · have : p'.uy = _ := y2
    rw [this]; norm_num [mom]
  · have : p'.z = _ := z1
    rw [this]; norm_num [pos, exAxes]
  · have : p'.uz = _ := z2
    rw [this]; norm_num [mom]

/-- A particle behind the lower x wall is absorbed. -/
example : scan .nonBlocking exAxes exLim (⟨-1 / 100, -1 / 100, 101 / 100, 3, 4, 5, 1, fun _ => 7⟩ : Part 1) = .removed := by
  obtain ⟨hw, hT⟩ := exAxes_ok
  refine C55_absorbing_partial .nonBlocking exAxes exLim _ hw hT ⟨.x, -1, by unfold Looks; simp, .inl ⟨rfl, by norm_num [pos, exAxes]⟩, .inl ⟨rfl, rfl, rfl⟩⟩ ?_ (by simp)
  rintro ⟨a, s, -, -, hwl⟩
  cases a <;> rcases hwl with ⟨-, -, h⟩ | ⟨-, -, h⟩ <;> norm_num [exAxes] at h

/-- Re-injection in x. -/
noncomputable def exAxes3 : Ax → Axis
  | .x => ⟨0, 1, 0, 1, 1, 1 / 10, true, true, 3, 3⟩
  | .y => ⟨0, 1, 0, 1, 1, 1 / 10, true, true, 0, 0⟩
  | .z => ⟨0, 1, 0, 1, 1, 1 / 10, true, true, 0, 0⟩

example : ∃ p' : Part 1, scan .blocking exAxes3 exLim (⟨-1 / 100, 1 / 2, 101 / 100, 3, 4, 5, 1, fun _ => 7⟩ : Part 1) = .kept p' ∧ p'.ux = 0 ∧ 0 ≤ p'.x := by
  have hw : Wide exAxes3 := by intro a; cases a <;> norm_num [exAxes3]
  have hT : Types exAxes3 := by intro a; cases a <;> norm_num [exAxes3]
  obtain ⟨p', e, hm, hpos, -⟩ := C55_reinjecting_partial .blocking exAxes3 exLim (⟨-1 / 100, 1 / 2, 101 / 100, 3, 4, 5, 1, fun _ => 7⟩ : Part 1) hw hT
    ⟨.x, -1, by unfold Looks; simp, .inl ⟨rfl, by norm_num [pos, exAxes3]⟩, .inl ⟨rfl, rfl, rfl⟩⟩
    (by
      rintro ⟨a, s, -, -, hwl⟩
      cases a <;> rcases hwl with ⟨-, -, h⟩ | ⟨-, -, h⟩ <;> norm_num [exAxes3] at h)
    (by simp) (by intro a; cases a <;> norm_num [exAxes3, exLim])
  refine ⟨p', e, hm .x, ?_⟩
  have := (hpos .x (by unfold Looks; simp)).1
  norm_num [exLim, exAxes3] at this
  have h2 : p'.x = pos p' .x := rfl
  rw [h2]
  linarith

/-- Reflection in x, re-injection in y, periodic in z. -/
noncomputable def exAxes2 : Ax → Axis
  | .x => ⟨0, 1, 0, 1, 1, 1 / 10, true, true, 2, 2⟩
  | .y => ⟨0, 1, 0, 1, 1, 1 / 10, true, true, 3, 3⟩
  | .z => ⟨0, 1, 0, 1, 1, 1 / 10, true, true, 0, 0⟩

theorem exAxes2_wide : Wide exAxes2 := by intro a; cases a <;> norm_num [exAxes2]

/-- A particle behind the lower x wall, combined version: sent to the other side. -/
example : ∃ p' : Part 1, scan .combined exAxes2 exLim (⟨-1 / 100, 1 / 2, 1 / 2, -3, 4, 5, 1, fun _ => 7⟩ : Part 1) = .sent ⟨-1, 0, 0⟩ p' ∧ p'.ux = -3 :=
  ⟨_, C55_combined_reflecting_refuted .combined (.inl rfl) exAxes2 exLim _ exAxes2_wide (.inl ⟨rfl, by norm_num [pos, exAxes2]⟩) (.inl ⟨rfl, rfl, rfl⟩)
    (by constructor <;> norm_num [pos, exAxes2]) (by constructor <;> norm_num [pos, exAxes2]) (fun h => by have := (h .x).1; norm_num [pos, exLim] at this), rfl⟩

/-- A particle that leaves by two cells, blocking version. -/
example : ∃ p' : Part 1, scan .blocking exAxes2 exLim (⟨-1 / 5, 1 / 2, 1 / 2, -3, 4, 5, 1, fun _ => 7⟩ : Part 1) = .kept p' ∧ p'.x < 0 :=
  C55_far_reflecting_refuted exAxes2 exLim _ exAxes2_wide (.inl ⟨rfl, rfl, rfl⟩) (by norm_num [exAxes2]) (by norm_num [exAxes2])
    (by constructor <;> norm_num [pos, exAxes2]) (by constructor <;> norm_num [pos, exAxes2])

/-- Absorption in x, re-injection in y. -/
noncomputable def exAxes13 : Ax → Axis
  | .x => ⟨0, 1, 0, 1, 1, 1 / 10, true, true, 1, 1⟩
  | .y => ⟨0, 1, 0, 1, 1, 1 / 10, true, true, 3, 3⟩
  | .z => ⟨0, 1, 0, 1, 1, 1 / 10, true, true, 0, 0⟩

/-- A particle that leaves through the edge. -/
example : scan .blocking exAxes13 exLim (⟨-1 / 100, -1 / 100, 1 / 2, -3, -4, 5, 1, fun _ => 7⟩ : Part 1) = .removed ∧
    ∃ p', scan .nonBlocking exAxes13 exLim (⟨-1 / 100, -1 / 100, 1 / 2, -3, -4, 5, 1, fun _ => 7⟩ : Part 1) = .kept p' :=
  C55_corner_refuted exAxes13 exLim _ (by intro a; cases a <;> norm_num [exAxes13]) (-1) (-1) (.inl ⟨rfl, by norm_num [pos, exAxes13]⟩) (.inl ⟨rfl, rfl, rfl⟩)
    (.inl ⟨rfl, by norm_num [pos, exAxes13]⟩) (.inl ⟨rfl, rfl, rfl⟩)

/-- One tile in x with eight grid points: a particle a quarter of a cell behind the absorbing wall stays, combined version. -/
example : scan .combined exAxes ⟨fun a => if a = .x then -1 / 20 else 0, fun _ => 1⟩ (⟨-1 / 40, 1 / 2, 1 / 2, -3, -4, 5, 1, fun _ => 7⟩ : Part 1) =
    .kept ⟨-1 / 40, 1 / 2, 1 / 2, -3, -4, 5, 1, fun _ => 7⟩ :=
  (C55_combined_tile_refuted exAxes ⟨fun a => if a = .x then -1 / 20 else 0, fun _ => 1⟩ (⟨-1 / 40, 1 / 2, 1 / 2, -3, -4, 5, 1, fun _ => 7⟩ : Part 1) ⟨1, 8, 8⟩ 1 rfl
    (by constructor <;> norm_num [tileExt, exAxes]) (by norm_num [exAxes]) (by constructor <;> norm_num [exAxes])
    (by intro a ha; cases a <;> simp_all [pos] <;> norm_num)).2

/-- The decomposition hypotheses are met by ten cells on three processes. -/
example : ∃ s, Topology.split 10 3 = .ok s := by
  obtain ⟨s, h, -⟩ := C56_upper_face_refuted (n := 1) 10 3 (by norm_num) (by norm_num) 0 1 (by norm_num)
  exact ⟨s, h⟩

end Picsar.Props
