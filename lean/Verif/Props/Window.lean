import Verif.Lemmas.Window
import Verif.Props.Tiling
/-
C71: moving the simulation window.
-/
namespace Picsar.Props
open Picsar Picsar.Grid Picsar.Tiling Picsar.ParticleBcs Picsar.Window

/-- C71, bounds: after any sequence of displacements every limit of the domain, of the particle domain, of the grid, of the subdomain and of every
tile of every species has moved by the sum of the displacements; lengths, numbers of tiles and of grid points have not changed. -/
theorem C71_bounds (ds : List (Ax → ℝ)) (w : World) : (moves ds w).nt = w.nt ∧ (moves ds w).nspecies = w.nspecies ∧
    (∀ a, MovedBnd (disp ds a) (w.b a) ((moves ds w).b a)) ∧
    ∀ is, is < w.nspecies → ∀ u, InBox ⟨1, 1, 1⟩ w.nt u → ∀ a, MovedExt (disp ds a) (w.tiles is u a) ((moves ds w).tiles is u a) := by
  obtain ⟨h1, h2, -, -, h5, h6⟩ := moves_spec ds w
  exact ⟨h1, h2, h5, h6⟩

/-- C71, partition: starting from the state after initialisation, after any sequence of displacements every position of the moved subdomain lies in the
stored limits of exactly one tile. -/
theorem C71_partition {n : ℕ} (ds : List (Ax → ℝ)) (w : World) (g : Geo) (h : Initial w g) (is : ℕ) (hi : is < w.nspecies) (p : Part n)
    (hp : InLocal (moves ds w) p) : ∃! u, InBox ⟨1, 1, 1⟩ w.nt u ∧ InStored (moves ds w) is u p := by
  have H := initial_moves h ds
  obtain ⟨h1, h2, -, -, -, -⟩ := moves_spec ds w
  generalize moves ds w = w' at *
  generalize shift3 (disp ds) g = g' at *
  obtain ⟨⟨p1, q1, hx⟩, ⟨p2, q2, hy⟩, ⟨p3, q3, hz⟩, hn⟩ := H.fits
  have px : g'.x.xmin ≤ p.x ∧ p.x < g'.x.xmax := by have := hp .x; rw [H.min, H.max] at this; exact this
  have py : g'.y.xmin ≤ p.y ∧ p.y < g'.y.xmax := by have := hp .y; rw [H.min, H.max] at this; exact this
  have pz : g'.z.xmin ≤ p.z ∧ p.z < g'.z.xmax := by have := hp .z; rw [H.min, H.max] at this; exact this
  obtain ⟨rx, ix'⟩ := C58_positions _ _ _ hx _ px
  obtain ⟨ry, iy'⟩ := C58_positions _ _ _ hy _ py
  obtain ⟨rz, iz'⟩ := C58_positions _ _ _ hz _ pz
  have hw : w.nt = ⟨g'.x.s.nt, g'.y.s.nt, g'.z.s.nt⟩ := by rw [← h1, hn]
  have key : ∀ u, InBox ⟨1, 1, 1⟩ w.nt u → (InStored w' is u p ↔ u = ⟨g'.x.idx p.x, g'.y.idx p.y, g'.z.idx p.z⟩) := by
    intro u hu
    have ht := H.tiles is (by rw [h2]; exact hi) u (by rw [h1]; exact hu)
    rw [hw] at hu
    obtain ⟨u1, u1', u2, u2', u3, u3'⟩ := hu
    constructor
    · intro hs
      have sx := hs .x; have sy := hs .y; have sz := hs .z
      rw [ht] at sx sy sz
      have ex := (ix' u.j u1 u1').mp sx
      have ey := (iy' u.k u2 u2').mp sy
      have ez := (iz' u.l u3 u3').mp sz
      cases u
      dsimp only at ex ey ez
      rw [ex, ey, ez]
    · rintro rfl a
      rw [ht]
      cases a
      · exact (ix' _ rx.1 rx.2).mpr rfl
      · exact (iy' _ ry.1 ry.2).mpr rfl
      · exact (iz' _ rz.1 rz.2).mpr rfl
  have hbox : InBox ⟨1, 1, 1⟩ w.nt ⟨g'.x.idx p.x, g'.y.idx p.y, g'.z.idx p.z⟩ := by rw [hw]; exact ⟨rx.1, rx.2, ry.1, ry.2, rz.1, rz.2⟩
  exact ⟨_, ⟨hbox, (key _ hbox).mpr rfl⟩, fun u hu => (key u hu.1).mp hu.2⟩

/-- C71, particles: a particle lies in the stored limits of a tile (in the subdomain) exactly if the particle shifted along does after the
displacements. -/
theorem C71_particles {n : ℕ} (ds : List (Ax → ℝ)) (w : World) (p : Part n) :
    (InLocal (moves ds w) (shiftPart (disp ds) p) ↔ InLocal w p) ∧
    ∀ is, is < w.nspecies → ∀ u, InBox ⟨1, 1, 1⟩ w.nt u → (InStored (moves ds w) is u (shiftPart (disp ds) p) ↔ InStored w is u p) := by
  obtain ⟨h1, h2, -, -, h5, h6⟩ := moves_spec ds w
  refine ⟨?_, fun is hi u hu => ?_⟩
  · unfold InLocal
    simp only [pos_shift, (h5 _).minLoc, (h5 _).maxLoc, add_le_add_iff_right, add_lt_add_iff_right]
  · unfold InStored
    simp only [pos_shift, (h6 is hi u hu _).lo, (h6 is hi u hu _).hi, add_le_add_iff_right, add_lt_add_iff_right]

/-- C71, the tile index computed for a particle does not change either: it is computed from the moved lower limit. -/
theorem C71_index (ds : List (Ax → ℝ)) (w : World) (g : Geo) (h : Initial w g) (hs : 0 < w.nspecies) (ht : InBox ⟨1, 1, 1⟩ w.nt ⟨1, 1, 1⟩) (a : Ax) (x : ℝ) :
    tileIdx ((moves ds w).tiles 0 ⟨1, 1, 1⟩ a).nGrid (geo g a).s.nt ((moves ds w).b a).minLoc (geo g a).dx (x + disp ds a) = (geo g a).idx x := by
  have H := initial_moves h ds
  obtain ⟨h1, h2, -, -, -, -⟩ := moves_spec ds w
  rw [H.tiles 0 (by rw [h2]; exact hs) ⟨1, 1, 1⟩ (by rw [h1]; exact ht) a, H.min a, geo_shift]
  have := idx_shift (geo g a) (disp ds a) x
  unfold Geo1.idx at this
  cases a <;> exact this

/-- C71, boundary conditions: with the limits read from the moved state every version of the particle boundary conditions does the same to the
shifted particle as before to the particle (with a length that does not change). -/
theorem C71_boundary_conditions {n : ℕ} (m : Mode) (A : Ax → Axis) (ds : List (Ax → ℝ)) (w : World) (is : ℕ) (hi : is < w.nspecies) (u : I3)
    (hu : InBox ⟨1, 1, 1⟩ w.nt u) (p : Part n) :
    scan m (axisOf A (moves ds w)) (limOf (moves ds w) is u) (shiftPart (disp ds) p) = shiftOut (disp ds) (scan m (axisOf A w) (limOf w is u) p) := by
  obtain ⟨h1, h2, -, -, h5, h6⟩ := moves_spec ds w
  have e1 : axisOf A (moves ds w) = fun a => shiftAxis (disp ds a) (axisOf A w a) := by
    funext a
    unfold axisOf shiftAxis
    rw [(h5 a).minLocPart, (h5 a).maxLocPart, (h5 a).minPart, (h5 a).maxPart]
  have e2 : limOf (moves ds w) is u = ⟨fun a => (w.tiles is u a).lo + disp ds a, fun a => (w.tiles is u a).hi + disp ds a⟩ := by
    unfold limOf
    congr 1
    · funext a; exact (h6 is hi u hu a).lo
    · funext a; exact (h6 is hi u hu a).hi
  rw [e1, e2, scan_shift]
  rfl

/-- C71, false of the tables of the limits of all processes: they stay where they are, so for every displacement different from zero the entry
of the process itself is no longer its lower limit. -/
theorem C71_process_tables_refuted (ds : List (Ax → ℝ)) (w : World) (a : Ax) (c : ℤ) (h : (w.b a).minLoc = w.mins a c) (hd : disp ds a ≠ 0) :
    ((moves ds w).b a).minLoc ≠ (moves ds w).mins a c := by
  obtain ⟨-, -, h3, -, h5, -⟩ := moves_spec ds w
  rw [(h5 a).minLoc, h3, h]
  intro e
  apply hd
  linarith

/-- State after initialisation with 22 grid points and three tiles in every direction, two species. -/
noncomputable def exWorld : World :=
  ⟨fun _ => ⟨0, 21, 0, 21, 0, 21, 0, 21, 0, 21, 0, 21⟩, ⟨3, 3, 3⟩, 2, fun _ u a => exGeo.ext (ix u a), fun _ _ => 0, fun _ _ => 21⟩

theorem exWorld_ok : Initial exWorld ⟨exGeo, exGeo, exGeo⟩ := by
  refine ⟨⟨⟨3, 22, exGeo_ok⟩, ⟨3, 22, exGeo_ok⟩, ⟨3, 22, exGeo_ok⟩, rfl⟩, ?_, ?_, ?_, ?_, ?_⟩
  all_goals intro a
  · cases a <;> rfl
  · cases a <;> rfl
  · cases a <;> rfl
  · cases a <;> rfl
  · intro _ u _ b
    cases b <;> rfl

/-- Two displacements along z: the tiles partition the moved subdomain, in which `(10,10,12)` lies. -/
example : ∃! u, InBox ⟨1, 1, 1⟩ exWorld.nt u ∧ InStored (moves [fun a => if a = .z then 1 else 0, fun a => if a = .z then 1 else 0] exWorld) 1 u
    (⟨10, 10, 12, 0, 0, 0, 1, fun _ => 1⟩ : Part 1) := by
  refine C71_partition _ exWorld _ exWorld_ok 1 (by decide) _ ?_
  intro a
  cases a <;> simp [moves, move, moveBnd, exWorld, pos] <;> norm_num

end Picsar.Props
