import Verif.Spec.Realloc
import Verif.Lemmas.Realloc
/-
C183: the flags of reallocated tiles can be relied on.
-/
namespace Picsar.Props
open Picsar Picsar.Grid Picsar.Tiling

/-- C183. Pointers to the arrays of a tile are taken and its flag is cleared. After any history of additions and removals no fault has occurred, the tile holds the
particles (as it would without flags), and the flag tells whether the pointers still are those of the tile: not set, they give the arrays with these particles;
set, they point to memory that has been freed. -/
theorem C183_flags (n : ℕ) (s : PyTile n) (l : List (Part n)) (h : Holds s.t l) (ha : s.t.alloc = true) (ops : List (Op n)) (hv : Valid l.length ops) :
    ∃ s' l', PyTile.run ops s.clear = .ok s' ∧ (∃ log, Tiling.run ops s.t [] = .ok (s'.t, log)) ∧ Holds s'.t l' ∧
      (s'.flag = false → ∀ a ∈ kept n, ∃ b, s'.view s.blk a = .ok b ∧ ∀ (i : ℕ) (hi : i < l'.length), b.val (i + 1) = some (l'[i].val a)) ∧
      (s'.flag = true → ∀ a, s'.view s.blk a = .error .useAfterFree) := by
  obtain ⟨s', l', e, h', a', I, f⟩ := PyTile.run_ok (b := s.blk) ops (s := s.clear) h ha (Or.inl ⟨rfl, rfl⟩) hv
  refine ⟨s', l', e, f [], h', fun hf a hk => ⟨_, if_pos ?_, fun i hi => h'.vals a hk i hi⟩, fun hf a => if_neg ?_⟩
  · rcases I with ⟨-, i⟩ | ⟨i, -⟩
    · exact i.symm
    · rw [hf] at i; cases i
  · rcases I with ⟨i, -⟩ | ⟨-, i⟩
    · rw [hf] at i; cases i
    · omega

/-- C183, a single addition: the flag is set exactly if the tile was full. -/
theorem C183_full (n : ℕ) (s : PyTile n) (l : List (Part n)) (h : Holds s.t l) (ha : s.t.alloc = true) (p : Part n) :
    ∃ s', s.clear.add p = .ok s' ∧ (s'.flag = true ↔ (l.length : ℤ) = s.t.npmax) := by
  obtain ⟨s', e, -, -, -, -, f⟩ := PyTile.add_ok (b := s.blk) (s := s.clear) h ha (Or.inl ⟨rfl, rfl⟩) p
  refine ⟨s', e, ?_⟩
  have hc := h.count
  have hf := h.fits
  rw [f]
  show (false || decide (s.t.np + 1 > s.t.npmax)) = true ↔ _
  rw [Bool.false_or, decide_eq_true_iff]
  omega

/-- A tile with one particle and room for one. -/
def exFull (p : Part 1) : Tile 1 := ⟨1, 1, true, fun a => ⟨1, fun _ => some (p.val a)⟩⟩

theorem exFull_holds (p : Part 1) : Holds (exFull p) [p] :=
  ⟨rfl, le_rfl, fun _ _ => rfl, (fun h => nomatch h), fun a _ i hi => by
    have : i = 0 := by simpa using hi
    subst this
    rfl⟩

/-- It is full: the next addition moves the arrays and sets the flag. -/
example (p q : Part 1) : ∃ s', PyTile.add q (PyTile.clear ⟨exFull p, 5, true⟩) = .ok s' ∧ s'.flag = true := by
  obtain ⟨s', e, f⟩ := C183_full 1 ⟨exFull p, 5, true⟩ [p] (exFull_holds p) rfl q
  exact ⟨s', e, f.mpr rfl⟩

/-- Removal of the particle, then two additions. -/
example (p q : Part 1) : ∃ s' l', PyTile.run [.rm 1, .add q, .add p] (PyTile.clear ⟨exFull p, 5, true⟩) = .ok s' ∧ Holds s'.t l' ∧
    (s'.flag = true → s'.view 5 .x = .error .useAfterFree) := by
  obtain ⟨s', l', e, -, h, -, f⟩ := C183_flags 1 ⟨exFull p, 5, true⟩ [p] (exFull_holds p) rfl [.rm 1, .add q, .add p] ⟨by simp, trivial⟩
  exact ⟨s', l', e, h, fun hf => f hf .x⟩

end Picsar.Props
