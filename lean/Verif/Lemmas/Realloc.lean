import Verif.Spec.Realloc
import Verif.Lemmas.Tiling
namespace Picsar.Tiling
open Picsar Picsar.Grid

variable {n : ℕ}

/-- The flag tells whether the arrays are still in block `b`. -/
def Told (b : ℕ) (s : PyTile n) : Prop := (s.flag = false ∧ s.blk = b) ∨ (s.flag = true ∧ b < s.blk)

theorem PyTile.add_ok {s : PyTile n} {l : List (Part n)} {b : ℕ} (h : Holds s.t l) (ha : s.t.alloc = true) (I : Told b s) (p : Part n) :
    ∃ s', s.add p = .ok s' ∧ addTile p s.t = .ok s'.t ∧ Holds s'.t (l ++ [p]) ∧ s'.t.alloc = true ∧ Told b s' ∧
      s'.flag = (s.flag || decide (s.t.np + 1 > s.t.npmax)) := by
  obtain ⟨t', e, h', a'⟩ := addTile_ok h p
  unfold addTile at e
  have en : Tiling.ensure s.t = s.t := if_pos ha
  have ep : s.ensure = s := if_pos ha
  dsimp only at e
  rw [en] at e
  unfold PyTile.add
  dsimp only
  rw [ep]
  unfold Tiling.grow at e
  unfold PyTile.grow
  by_cases hg : s.t.np + 1 > s.t.npmax
  · rw [if_pos hg] at e
    rw [if_pos hg]
    unfold PyTile.resize
    dsimp only
    cases hr : Tiling.resize s.t.npmax (2 * s.t.npmax + 1) s.t with
    | error f => rw [hr] at e; cases e
    | ok t2 =>
      rw [hr] at e
      simp only [except_bind_ok] at e ⊢
      rw [e]
      refine ⟨⟨t', s.blk + 1, true⟩, rfl, ?_, h', a', Or.inr ⟨rfl, ?_⟩, by simp [hg]⟩
      · unfold addTile Tiling.grow
        dsimp only
        rw [en, if_pos hg, hr]
        exact e
      · rcases I with ⟨-, i⟩ | ⟨-, i⟩ <;> dsimp only <;> omega
  · rw [if_neg hg] at e
    rw [if_neg hg]
    simp only [except_bind_ok] at e ⊢
    rw [e]
    refine ⟨⟨t', s.blk, s.flag⟩, rfl, ?_, h', a', I, by simp [hg]⟩
    unfold addTile Tiling.grow
    dsimp only
    rw [en, if_neg hg]
    exact e

theorem PyTile.rm_ok {s : PyTile n} {l : List (Part n)} {b : ℕ} (h : Holds s.t l) (I : Told b s) {i : ℕ} (hi : i < l.length) :
    ∃ s', s.rm (i + 1) = .ok s' ∧ rmTile (i + 1) s.t = .ok s'.t ∧ Holds s'.t (swapRm l i) ∧ s'.t.alloc = true ∧ Told b s' := by
  obtain ⟨t1, e1, h1, a1⟩ := rmMove_ok h hi
  obtain ⟨t', e, h', a'⟩ := rmTile_ok h hi
  have e0 := e
  unfold rmTile at e
  rw [e1] at e
  simp only [except_bind_ok] at e
  unfold PyTile.rm
  rw [e1]
  simp only [except_bind_ok]
  unfold Tiling.shrink at e
  unfold PyTile.shrink
  dsimp only
  by_cases hd : t1.np < 2 * t1.npmax / 5
  · rw [if_pos hd] at e ⊢
    by_cases hz : t1.npmax / 2 > 0
    · rw [if_pos hz] at e ⊢
      unfold PyTile.resize
      dsimp only
      rw [e]
      refine ⟨⟨t', s.blk + 1, true⟩, rfl, e0, h', a', Or.inr ⟨rfl, ?_⟩⟩
      rcases I with ⟨-, i⟩ | ⟨-, i⟩ <;> dsimp only <;> omega
    · rw [if_neg hz] at e ⊢
      injection e with e
      exact ⟨_, rfl, by rw [e0, e], by dsimp only; rw [e]; exact h', by dsimp only; rw [e]; exact a', I⟩
  · rw [if_neg hd] at e ⊢
    injection e with e
    exact ⟨_, rfl, by rw [e0, e], by dsimp only; rw [e]; exact h', by dsimp only; rw [e]; exact a', I⟩

theorem PyTile.run_ok {b : ℕ} : ∀ (ops : List (Op n)) {s : PyTile n} {l : List (Part n)}, Holds s.t l → s.t.alloc = true → Told b s → Valid l.length ops →
    ∃ s' l', PyTile.run ops s = .ok s' ∧ Holds s'.t l' ∧ s'.t.alloc = true ∧ Told b s' ∧ ∀ log, ∃ log', Tiling.run ops s.t log = .ok (s'.t, log')
  | [], s, l, h, ha, I, _ => ⟨s, l, rfl, h, ha, I, fun log => ⟨log, rfl⟩⟩
  | .add p :: r, s, l, h, ha, I, hv => by
    obtain ⟨s1, e1, f1, h1, a1, I1, -⟩ := PyTile.add_ok h ha I p
    obtain ⟨s2, l2, e2, h2, a2, I2, f2⟩ := PyTile.run_ok r h1 a1 I1 (by
      rw [show (((l ++ [p]).length : ℕ) : ℤ) = (l.length : ℤ) + 1 by simp]
      exact hv)
    refine ⟨s2, l2, ?_, h2, a2, I2, fun log => ?_⟩
    · unfold PyTile.run
      rw [e1]
      exact e2
    · obtain ⟨log', g⟩ := f2 log
      refine ⟨log', ?_⟩
      unfold Tiling.run
      rw [f1]
      exact g
  | .rm i :: r, s, l, h, ha, I, hv => by
    obtain ⟨⟨v1, v2⟩, hv⟩ := hv
    obtain ⟨k, rfl⟩ : ∃ k : ℕ, i = k + 1 := ⟨(i - 1).toNat, by omega⟩
    have hk : k < l.length := by omega
    obtain ⟨s1, e1, f1, h1, a1, I1⟩ := PyTile.rm_ok h I hk
    obtain ⟨s2, l2, e2, h2, a2, I2, f2⟩ := PyTile.run_ok r h1 a1 I1 (by
      rw [show (((swapRm l k).length : ℕ) : ℤ) = (l.length : ℤ) - 1 by have := swapRm_length l k hk; omega]
      exact hv)
    refine ⟨s2, l2, ?_, h2, a2, I2, fun log => ?_⟩
    · unfold PyTile.run
      rw [e1]
      exact e2
    · obtain ⟨log', g⟩ := f2 (l[k] :: log)
      refine ⟨log', ?_⟩
      unfold Tiling.run
      rw [readPart_ok h hk]
      simp only [except_bind_ok]
      rw [f1]
      exact g

end Picsar.Tiling
