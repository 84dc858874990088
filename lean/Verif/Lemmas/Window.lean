import Verif.Spec.Window
import Verif.Lemmas.TileSplit
/-
Helper lemmas for C71.
-/
namespace Picsar.Window
open Picsar Picsar.Grid Picsar.Tiling Picsar.ParticleBcs

variable {n : ℕ}

theorem boxFold (d : Ax → ℝ) (is : ℕ) : ∀ (l : List I3) (t : ℕ → I3 → Ax → Ext), l.Nodup →
    l.foldl (fun t u => moveTile d is u t) t = fun is' u => if is' = is ∧ u ∈ l then fun a => moveExt (d a) (t is' u a) else t is' u := by
  intro l
  induction l with
  | nil => intro t _; simp
  | cons v l ih =>
    intro t hn
    rw [List.nodup_cons] at hn
    rw [List.foldl_cons, ih _ hn.2]
    funext is' u
    unfold moveTile
    by_cases h1 : is' = is
    · subst h1
      by_cases h2 : u = v
      · subst h2
        simp [hn.1]
      · simp [h2]
    · simp [h1]

theorem moveTiles_eq (d : Ax → ℝ) (nt : I3) (t : ℕ → I3 → Ax → Ext) : ∀ K,
    moveTiles d nt K t = fun is u => if is < K ∧ InBox ⟨1, 1, 1⟩ nt u then fun a => moveExt (d a) (t is u a) else t is u := by
  intro K
  induction K with
  | zero => unfold moveTiles; simp
  | succ K ih =>
    have : moveTiles d nt (K + 1) t = (box ⟨1, 1, 1⟩ nt).foldl (fun t u => moveTile d K u t) (moveTiles d nt K t) := by
      unfold moveTiles
      rw [List.range_succ, List.foldl_append]
      rfl
    rw [this, boxFold _ _ _ _ (nodup_box _ _), ih]
    funext is u
    by_cases h1 : is = K
    · subst h1
      simp [mem_box]
    · by_cases h2 : is < K
      · simp [h1, h2, show is < K + 1 by omega]
      · simp [h1, h2, show ¬ is < K + 1 by omega]

theorem movedBnd_move (d : ℝ) (b : Bnd) : MovedBnd d b (moveBnd d b) := ⟨rfl, rfl, rfl, rfl, rfl, rfl, rfl, rfl, rfl, rfl, rfl, rfl⟩

theorem MovedBnd.trans {d e : ℝ} {b c f : Bnd} (h : MovedBnd d b c) (k : MovedBnd e c f) : MovedBnd (d + e) b f := by
  constructor <;> first
    | rw [k.min, h.min, add_assoc] | rw [k.max, h.max, add_assoc] | rw [k.minPart, h.minPart, add_assoc] | rw [k.maxPart, h.maxPart, add_assoc]
    | rw [k.gridMin, h.gridMin, add_assoc] | rw [k.gridMax, h.gridMax, add_assoc] | rw [k.minLoc, h.minLoc, add_assoc]
    | rw [k.maxLoc, h.maxLoc, add_assoc] | rw [k.minLocPart, h.minLocPart, add_assoc] | rw [k.maxLocPart, h.maxLocPart, add_assoc]
    | rw [k.gridMinLoc, h.gridMinLoc, add_assoc] | rw [k.gridMaxLoc, h.gridMaxLoc, add_assoc]

theorem MovedExt.trans {d e : ℝ} {b c f : Ext} (h : MovedExt d b c) (k : MovedExt e c f) : MovedExt (d + e) b f := by
  refine ⟨by rw [k.nGrid, h.nGrid], by rw [k.nMin, h.nMin], by rw [k.nMax, h.nMax], ?_, ?_, ?_, ?_⟩
  · rw [k.gridMin, h.gridMin, add_assoc]
  · rw [k.gridMax, h.gridMax, add_assoc]
  · rw [k.lo, h.lo, add_assoc]
  · rw [k.hi, h.hi, add_assoc]

theorem moves_spec (ds : List (Ax → ℝ)) : ∀ w : World, (moves ds w).nt = w.nt ∧ (moves ds w).nspecies = w.nspecies ∧ (moves ds w).mins = w.mins ∧
    (moves ds w).maxs = w.maxs ∧ (∀ a, MovedBnd (disp ds a) (w.b a) ((moves ds w).b a)) ∧
    ∀ is, is < w.nspecies → ∀ u, InBox ⟨1, 1, 1⟩ w.nt u → ∀ a, MovedExt (disp ds a) (w.tiles is u a) ((moves ds w).tiles is u a) := by
  induction ds with
  | nil =>
    intro w
    refine ⟨rfl, rfl, rfl, rfl, fun a => ?_, fun is _ u _ a => ?_⟩
    · constructor <;> simp [moves, disp]
    · constructor <;> simp [moves, disp]
  | cons d ds ih =>
    intro w
    obtain ⟨h1, h2, h3, h4, h5, h6⟩ := ih (move d w)
    refine ⟨h1, h2, h3, h4, fun a => ?_, fun is hi u hu a => ?_⟩
    · have : disp (d :: ds) a = d a + disp ds a := by simp [disp]
      rw [this]
      exact (movedBnd_move (d a) (w.b a)).trans (h5 a)
    · have : disp (d :: ds) a = d a + disp ds a := by simp [disp]
      rw [this]
      refine MovedExt.trans ?_ (h6 is hi u hu a)
      have e : (move d w).tiles is u a = moveExt (d a) (w.tiles is u a) := by
        show moveTiles d w.nt w.nspecies w.tiles is u a = _
        rw [moveTiles_eq]
        dsimp only
        rw [if_pos ⟨hi, hu⟩]
      rw [e]
      exact ⟨rfl, rfl, rfl, rfl, rfl, rfl, rfl⟩

theorem pos_shift (D : Ax → ℝ) (p : Part n) (a : Ax) : pos (shiftPart D p) a = pos p a + D a := by cases a <;> rfl

/-! ### Boundary conditions -/

def shiftAxis (D : ℝ) (A : Axis) : Axis := ⟨A.lo + D, A.hi + D, A.gmin + D, A.gmax + D, A.len, A.dx, A.bmin, A.bmax, A.kmin, A.kmax⟩

def shiftScan (D : Ax → ℝ) : Scan n → Scan n
  | .go p d rm => .go (shiftPart D p) d rm
  | .stop o => .stop (shiftOut D o)

theorem shift_setPos (D : Ax → ℝ) (p : Part n) (a : Ax) (v : ℝ) : setPos (shiftPart D p) a (v + D a) = shiftPart D (setPos p a v) := by cases a <;> rfl
theorem shift_negMom (D : Ax → ℝ) (p : Part n) (a : Ax) : negMom (shiftPart D p) a = shiftPart D (negMom p a) := by cases a <;> rfl
theorem shift_stopped (D : Ax → ℝ) (p : Part n) : stopped (shiftPart D p) = shiftPart D (stopped p) := rfl

theorem clamp_shift (lo hi dx v D : ℝ) : clamp (lo + D) (hi + D) dx (v + D) = clamp lo hi dx v + D := by
  unfold clamp
  rw [show lo + D + 1 / 2 * dx = lo + 1 / 2 * dx + D by ring, show hi + D - 1 / 2 * dx = hi - 1 / 2 * dx + D by ring, max_add_add_right, min_add_add_right]

theorem clampAll_shift (m : Mode) (A : Ax → Axis) (lo hi D : Ax → ℝ) (p : Part n) :
    clampAll m (fun a => shiftAxis (D a) (A a)) ⟨fun a => lo a + D a, fun a => hi a + D a⟩ (shiftPart D p) = shiftPart D (clampAll m A ⟨lo, hi⟩ p) := by
  unfold clampAll
  dsimp only [shiftAxis]
  have e1 : (shiftPart D p).x = p.x + D .x := rfl
  rw [e1, clamp_shift, shift_setPos]
  by_cases hm : m = .nonBlocking2d
  · rw [if_pos hm, if_pos hm]
    have e2 : ∀ q : Part n, (shiftPart D q).z = q.z + D .z := fun _ => rfl
    rw [e2, clamp_shift, shift_setPos]
  · rw [if_neg hm, if_neg hm]
    have e2 : ∀ q : Part n, (shiftPart D q).z = q.z + D .z := fun _ => rfl
    have e3 : ∀ q : Part n, (shiftPart D q).y = q.y + D .y := fun _ => rfl
    rw [e3, clamp_shift, shift_setPos, e2, clamp_shift, shift_setPos]

theorem cases_shift (m : Mode) (A : Ax → Axis) (lo hi D : Ax → ℝ) (a : Ax) (side kind : ℤ) (wall x0 : ℝ) (p : Part n) (d : I3) (rm : Bool) :
    cases m (fun a => shiftAxis (D a) (A a)) ⟨fun a => lo a + D a, fun a => hi a + D a⟩ a side kind (wall + D a) (x0 + D a) (shiftPart D p) d rm =
      shiftScan D (cases m A ⟨lo, hi⟩ a side kind wall x0 p d rm) := by
  unfold cases
  by_cases h1 : kind = 1
  · rw [if_pos h1, if_pos h1]
    cases m <;> rfl
  rw [if_neg h1, if_neg h1]
  by_cases h2 : kind = 2 ∧ (m = .blocking ∨ m = .nonBlocking)
  · rw [if_pos h2, if_pos h2]
    dsimp only [shiftAxis, shiftScan]
    rw [show x0 + D a - side * (A a).dx = x0 - side * (A a).dx + D a by ring, shift_setPos, shift_negMom]
  rw [if_neg h2, if_neg h2]
  by_cases h3 : kind = 3
  · rw [if_pos h3, if_pos h3, pos_shift, show 2 * (wall + D a) - (pos p a + D a) = 2 * wall - pos p a + D a by ring, shift_setPos, shift_stopped, clampAll_shift]
    rfl
  rw [if_neg h3, if_neg h3]
  dsimp only [shiftAxis, shiftScan]
  rw [show x0 + D a - side * (A a).len = x0 - side * (A a).len + D a by ring, shift_setPos]

theorem face_shift (m : Mode) (A : Ax → Axis) (lo hi D : Ax → ℝ) (a : Ax) (side : ℤ) (x0 : ℝ) (p : Part n) (d : I3) (rm : Bool) :
    face m (fun a => shiftAxis (D a) (A a)) ⟨fun a => lo a + D a, fun a => hi a + D a⟩ a side (x0 + D a) (shiftPart D p) d rm =
      shiftScan D (face m A ⟨lo, hi⟩ a side x0 p d rm) := by
  unfold face
  by_cases hs : side = -1
  · simp only [if_pos hs]
    by_cases hb : (A a).bmin = true
    · rw [if_pos hb, if_pos (show (shiftAxis (D a) (A a)).bmin = true from hb), ← cases_shift]; rfl
    · rw [if_neg hb, if_neg (show ¬ (shiftAxis (D a) (A a)).bmin = true from hb)]; rfl
  · simp only [if_neg hs]
    by_cases hb : (A a).bmax = true
    · rw [if_pos hb, if_pos (show (shiftAxis (D a) (A a)).bmax = true from hb), ← cases_shift]; rfl
    · rw [if_neg hb, if_neg (show ¬ (shiftAxis (D a) (A a)).bmax = true from hb)]; rfl

theorem andThen_shift (D : Ax → ℝ) (s : Scan n) (f g : Part n → I3 → Bool → Scan n) (h : ∀ p d rm, g (shiftPart D p) d rm = shiftScan D (f p d rm)) :
    (shiftScan D s).andThen g = shiftScan D (s.andThen f) := by
  cases s with
  | go p d rm => exact h p d rm
  | stop o => rfl

theorem axis_shift (m : Mode) (A : Ax → Axis) (lo hi D : Ax → ℝ) (a : Ax) (p : Part n) (d : I3) (rm : Bool) :
    axis m (fun a => shiftAxis (D a) (A a)) ⟨fun a => lo a + D a, fun a => hi a + D a⟩ a (shiftPart D p) d rm = shiftScan D (axis m A ⟨lo, hi⟩ a p d rm) := by
  unfold axis
  dsimp only
  rw [pos_shift]
  have c1 : (pos p a + D a < (shiftAxis (D a) (A a)).lo) ↔ pos p a < (A a).lo := by dsimp only [shiftAxis]; exact add_lt_add_iff_right _
  have c2 : (pos p a + D a ≥ (shiftAxis (D a) (A a)).hi) ↔ pos p a ≥ (A a).hi := by dsimp only [shiftAxis]; exact add_le_add_iff_right _
  by_cases h0 : a = .y ∧ m = .nonBlocking2d
  · rw [if_pos h0, if_pos h0]; rfl
  rw [if_neg h0, if_neg h0]
  by_cases hm : m = .combined
  · rw [if_pos hm, if_pos hm]
    by_cases h1 : pos p a < (A a).lo
    · rw [if_pos (c1.mpr h1), if_pos h1, face_shift]
    rw [if_neg (fun h => h1 (c1.mp h)), if_neg h1]
    by_cases h2 : pos p a ≥ (A a).hi
    · rw [if_pos (c2.mpr h2), if_pos h2, face_shift]
    · rw [if_neg (fun h => h2 (c2.mp h)), if_neg h2]; rfl
  rw [if_neg hm, if_neg hm]
  have e : (if pos p a + D a < (shiftAxis (D a) (A a)).lo then face m (fun a => shiftAxis (D a) (A a)) ⟨fun a => lo a + D a, fun a => hi a + D a⟩ a (-1) (pos p a + D a) (shiftPart D p) d rm
      else .go (shiftPart D p) d rm) = shiftScan D (if pos p a < (A a).lo then face m A ⟨lo, hi⟩ a (-1) (pos p a) p d rm else .go p d rm) := by
    by_cases h1 : pos p a < (A a).lo
    · rw [if_pos (c1.mpr h1), if_pos h1, face_shift]
    · rw [if_neg (fun h => h1 (c1.mp h)), if_neg h1]; rfl
  rw [e]
  refine andThen_shift D _ _ _ fun q d' rm' => ?_
  by_cases h2 : pos p a ≥ (A a).hi
  · rw [if_pos (c2.mpr h2), if_pos h2, face_shift]
  · rw [if_neg (fun h => h2 (c2.mp h)), if_neg h2]; rfl

theorem finish_shift (D : Ax → ℝ) (m : Mode) (s : Scan n) : finish m (shiftScan D s) = shiftOut D (finish m s) := by
  cases s with
  | stop o => rfl
  | go p d rm =>
    unfold shiftScan finish
    dsimp only
    split_ifs <;> rfl

theorem scan_shift (m : Mode) (A : Ax → Axis) (lo hi D : Ax → ℝ) (p : Part n) :
    scan m (fun a => shiftAxis (D a) (A a)) ⟨fun a => lo a + D a, fun a => hi a + D a⟩ (shiftPart D p) = shiftOut D (scan m A ⟨lo, hi⟩ p) := by
  have c1 : inTile ⟨fun a => lo a + D a, fun a => hi a + D a⟩ (shiftPart D p) ↔ inTile ⟨lo, hi⟩ p := by
    unfold inTile
    simp only [pos_shift, add_le_add_iff_right, add_lt_add_iff_right]
  have c2 : outDom (fun a => shiftAxis (D a) (A a)) (shiftPart D p) ↔ outDom A p := by
    unfold outDom
    simp only [pos_shift, shiftAxis, add_le_add_iff_right, add_lt_add_iff_right]
  unfold scan
  by_cases h : m = .combined ∧ (inTile ⟨lo, hi⟩ p ∨ ¬ outDom A p)
  · rw [if_pos h, if_pos (by rw [c1, c2]; exact h)]; rfl
  · rw [if_neg h, if_neg (by rw [c1, c2]; exact h), axis_shift, andThen_shift D _ _ _ fun q d rm => axis_shift m A lo hi D .y q d rm,
      andThen_shift D _ _ _ fun q d rm => axis_shift m A lo hi D .z q d rm, finish_shift]

/-! ### Tile split -/

/-- The geometry of the moved subdomain. -/
def shift1 (D : ℝ) (g : Geo1) : Geo1 := ⟨g.s, g.xmin + D, g.xmax + D, g.dx, g.pmin + D, g.pmax + D⟩

theorem shift1_ok {g : Geo1} {nt0 nGrid : ℤ} (h : g.Ok nt0 nGrid) (D : ℝ) : (shift1 D g).Ok nt0 nGrid := by
  refine ⟨h.tiles, h.grid, h.split, h.dx, ?_, ?_, ?_⟩
  · dsimp only [shift1]; rw [h.xmax]; ring
  · dsimp only [shift1]; linarith [h.pmin]
  · dsimp only [shift1]; linarith [h.pmax]

theorem tileExt_shift (s : Split1) (xmin xmax dx D : ℝ) (i : ℤ) : tileExt s (xmin + D) (xmax + D) dx i = moveExt D (tileExt s xmin xmax dx i) := by
  unfold tileExt
  by_cases h1 : i = s.nt
  · rw [if_pos h1, if_pos h1]; unfold moveExt; dsimp only; congr 1 <;> ring
  rw [if_neg h1, if_neg h1]
  by_cases h2 : i = 1
  · rw [if_pos h2, if_pos h2]; unfold moveExt; dsimp only; congr 1; ring; ring
  · rw [if_neg h2, if_neg h2]; unfold moveExt; dsimp only; congr 1 <;> ring

theorem ext_shift (g : Geo1) (D : ℝ) (i : ℤ) {e : Ext} (h : MovedExt D (g.ext i) e) : e = (shift1 D g).ext i := by
  obtain ⟨a1, a2, a3, a4, a5, a6, a7⟩ := h
  have hx : (shift1 D g).ext i = moveExt D (g.ext i) := tileExt_shift g.s g.xmin g.xmax g.dx D i
  rw [hx]
  unfold moveExt
  rw [← a1, ← a2, ← a3, ← a4, ← a5, ← a6, ← a7]

theorem idx_shift (g : Geo1) (D x : ℝ) : (shift1 D g).idx (x + D) = g.idx x := by
  have h : ((shift1 D g).ext 1).nGrid = (g.ext 1).nGrid := by
    have hx : (shift1 D g).ext 1 = moveExt D (g.ext 1) := tileExt_shift g.s g.xmin g.xmax g.dx D 1
    rw [hx]; rfl
  unfold Geo1.idx
  rw [h]
  unfold tileIdx
  dsimp only [shift1]
  rw [show x + D - (g.xmin + D) + g.dx / 2 = x - g.xmin + g.dx / 2 by ring]

def shift3 (D : Ax → ℝ) (g : Geo) : Geo := ⟨shift1 (D .x) g.x, shift1 (D .y) g.y, shift1 (D .z) g.z⟩

theorem geo_shift (D : Ax → ℝ) (g : Geo) (a : Ax) : geo (shift3 D g) a = shift1 (D a) (geo g a) := by cases a <;> rfl

theorem initial_moves {w : World} {g : Geo} (h : Initial w g) (ds : List (Ax → ℝ)) : Initial (moves ds w) (shift3 (disp ds) g) := by
  obtain ⟨h1, h2, -, -, h5, h6⟩ := moves_spec ds w
  refine ⟨?_, fun a => ?_, fun a => ?_, fun a => ?_, fun a => ?_, fun is hi u hu a => ?_⟩
  · obtain ⟨⟨p, q, hx⟩, ⟨p', q', hy⟩, ⟨p'', q'', hz⟩, hn⟩ := h.fits
    exact ⟨⟨p, q, shift1_ok hx _⟩, ⟨p', q', shift1_ok hy _⟩, ⟨p'', q'', shift1_ok hz _⟩, by rw [h1]; exact hn⟩
  · rw [geo_shift, (h5 a).minLoc, h.min]; rfl
  · rw [geo_shift, (h5 a).maxLoc, h.max]; rfl
  · rw [geo_shift, (h5 a).minLocPart, h.pmin]; rfl
  · rw [geo_shift, (h5 a).maxLocPart, h.pmax]; rfl
  · rw [h2] at hi
    rw [h1] at hu
    rw [geo_shift]
    refine ext_shift _ _ _ ?_
    rw [← h.tiles is hi u hu a]
    exact h6 is hi u hu a

end Picsar.Window
