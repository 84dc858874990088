import Verif.Model.TileMem
import Verif.Lemmas.Tiling
namespace Picsar.Tiling
open Picsar Picsar.Grid

variable {n : ℕ}

theorem onArrays_head {f : Attr n → FArr ℝ → Res (FArr ℝ)} : ∀ (l : List (Attr n)) {t t' : Tile n}, onArrays l f t = .ok t' → t'.np = t.np ∧ t'.npmax = t.npmax
  | [], t, t', h => by
    unfold onArrays at h
    injection h with h
    subst h
    exact ⟨rfl, rfl⟩
  | a :: l, t, t', h => by
    unfold onArrays at h
    rw [List.foldlM_cons] at h
    cases hb : f a (t.arr a) with
    | error e => rw [hb] at h; cases h
    | ok b =>
      rw [hb] at h
      have := onArrays_head (f := f) l (t := ⟨t.np, t.npmax, t.alloc, Function.update t.arr a b⟩) (t' := t') h
      exact this

theorem resize_npmax {old new : ℤ} {t t' : Tile n} (h : resize old new t = .ok t') : t'.np = t.np ∧ t'.npmax = new := onArrays_head _ h

theorem addTile_cap {p : Part n} {t t' : Tile n} (h : addTile p t = .ok t') :
    t'.np = t.np + 1 ∧ t'.npmax = if t.np + 1 > t.npmax then 2 * t.npmax + 1 else t.npmax := by
  have hm : (ensure t).npmax = t.npmax ∧ (ensure t).np = t.np := by unfold ensure allocArrays; split <;> exact ⟨rfl, rfl⟩
  unfold addTile at h
  dsimp only at h
  cases hg : grow ((ensure t).np + 1) (ensure t) with
  | error e => rw [hg] at h; cases h
  | ok t2 =>
    rw [hg, except_bind_ok] at h
    have h1 := onArrays_head _ h
    dsimp only at h1
    rw [hm.2] at h1 hg
    refine ⟨h1.1, h1.2.trans ?_⟩
    unfold grow at hg
    rw [hm.1] at hg
    split at hg
    · rename_i c
      rw [if_pos c]
      exact (resize_npmax hg).2
    · rename_i c
      rw [if_neg c]
      injection hg with hg
      rw [← hg, hm.1]

theorem rmTile_cap {i : ℤ} {t t' : Tile n} (h : rmTile i t = .ok t') :
    t'.np = t.np - 1 ∧ t'.npmax = if t.np - 1 < 2 * t.npmax / 5 ∧ t.npmax / 2 > 0 then t.npmax / 2 else t.npmax := by
  unfold rmTile at h
  cases hm : rmMove i t with
  | error e => rw [hm] at h; cases h
  | ok t1 =>
    rw [hm] at h
    have h1 : t1.np = t.np - 1 ∧ t1.npmax = t.npmax := by
      unfold rmMove at hm
      split at hm
      · injection hm with hm
        subst hm
        exact ⟨rfl, rfl⟩
      · cases ho : onArrays (kept n) (fun _ b => do
            let v ← b.get t.np
            b.set i v) t with
        | error e => rw [ho] at hm; cases hm
        | ok t2 =>
          rw [ho] at hm
          have h2 := onArrays_head _ ho
          injection hm with hm
          subst hm
          exact ⟨by rw [h2.1], h2.2⟩
    change shrink t1 = .ok t' at h
    unfold shrink at h
    rw [h1.1, h1.2] at h
    split at h
    · rename_i c
      split at h
      · rename_i d
        rw [if_pos ⟨c, d⟩]
        exact ⟨(resize_npmax h).1.trans h1.1, (resize_npmax h).2⟩
      · rename_i d
        rw [if_neg (fun x => d x.2)]
        injection h with h
        rw [← h]
        exact h1
    · rename_i c
      rw [if_neg (fun x => c x.1)]
      injection h with h
      rw [← h]
      exact h1

theorem foldl_add {α : Type} (f : α → ℤ) : ∀ (l : List α) (m : ℤ), l.foldl (fun m a => m + f a) m = m + (l.map f).sum
  | [], m => by simp
  | a :: l, m => by
    rw [List.foldl_cons, foldl_add f l, List.map_cons, List.sum_cons]
    ring

theorem tileMem_eq {t : Tile n} {l : List (Part n)} (h : Holds t l) (m : ℤ) : tileMem m t = m + if t.alloc then 8 * (13 + n) * t.npmax else 0 := by
  unfold tileMem
  cases ha : t.alloc with
  | false => simp
  | true =>
    rw [if_neg (by simp), if_pos rfl, foldl_add]
    congr 1
    have hf := h.fits
    have e : (memAttrs n).map (fun a => sizeOf8 (t.arr a)) = (memAttrs n).map fun _ => 8 * t.npmax := by
      refine List.map_congr_left fun a _ => ?_
      unfold sizeOf8
      rw [h.size ha, max_eq_right (by omega)]
    have hl : (memAttrs n).length = 13 + n := by simp [memAttrs]; omega
    rw [e, List.map_const', List.sum_replicate, hl, nsmul_eq_mul]
    push_cast
    ring

/-- The bound on the capacity of a tile that started with at most `c0` places. -/
def Cap (c0 : ℤ) (t : Tile n) : Prop := 0 ≤ t.npmax ∧ (t.npmax ≤ c0 ∨ 2 * t.npmax ≤ 5 * max t.np 0 + 4)

theorem cap_add {c0 : ℤ} {p : Part n} {t t' : Tile n} (hc : Cap c0 t) (h : addTile p t = .ok t') : Cap c0 t' := by
  obtain ⟨c1, c2⟩ := addTile_cap h
  unfold Cap at *
  split at c2 <;> omega

theorem cap_rm {c0 : ℤ} {i : ℤ} {t t' : Tile n} (hc : Cap c0 t) (h : rmTile i t = .ok t') : Cap c0 t' := by
  obtain ⟨c1, c2⟩ := rmTile_cap h
  unfold Cap at *
  split at c2 <;> omega

/-- All tiles of a species. -/
def Caps (c0 : ℤ) (S : Species n) : Prop := ∀ u, InBox ⟨1, 1, 1⟩ S.nt u → Cap c0 (S.tiles u)

theorem caps_at {c0 : ℤ} {u : I3} {f : Tile n → Res (Tile n)} (hf : ∀ t t', Cap c0 t → f t = .ok t' → Cap c0 t') {S S' : Species n} (hc : Caps c0 S)
    (h : atTile u f S = .ok S') : Caps c0 S' := by
  unfold atTile at h
  split at h
  · rename_i hu
    cases hb : f (S.tiles u) with
    | error e => rw [hb] at h; cases h
    | ok t =>
      rw [hb] at h
      injection h with h
      subst h
      intro v hv
      dsimp only
      by_cases e : v = u
      · subst e
        rw [Function.update_self]
        exact hf _ _ (hc v hv) hb
      · rw [Function.update_of_ne e]
        exact hc v hv
  · cases h

theorem caps_fold {α : Type} {c0 : ℤ} {f : Species n → α → Res (Species n)} (hf : ∀ S S' a, Caps c0 S → f S a = .ok S' → Caps c0 S') :
    ∀ (l : List α) {S S' : Species n}, Caps c0 S → l.foldlM f S = .ok S' → Caps c0 S'
  | [], S, S', hc, h => by
    injection h with h
    exact h ▸ hc
  | a :: l, S, S', hc, h => by
    rw [List.foldlM_cons] at h
    cases hb : f S a with
    | error e => rw [hb] at h; cases h
    | ok S1 =>
      rw [hb] at h
      exact caps_fold hf l (hf _ _ _ hc hb) h

theorem caps_move {c0 : ℤ} {inTile : I3 → Part n → Prop} {inDom : Part n → Prop} {idx : Part n → I3} [∀ u p, Decidable (inTile u p)] [∀ p, Decidable (inDom p)]
    {S S' : Species n} (hc : Caps c0 S) (h : moveTiles inTile inDom idx S = .ok S') : Caps c0 S' := by
  refine caps_fold (fun S S' u hc h => caps_fold (fun S S' i hc h => ?_) _ hc h) _ hc h
  unfold moveOne at h
  cases hp : readPart (S.tiles u) i with
  | error e => rw [hp] at h; cases h
  | ok p =>
    rw [hp, except_bind_ok] at h
    split at h
    · injection h with h
      exact h ▸ hc
    · split at h
      · injection h with h
        exact h ▸ hc
      · cases hr : rmAt u i S with
        | error e => rw [hr] at h; cases h
        | ok S1 =>
          rw [hr, except_bind_ok] at h
          exact caps_at (fun _ _ => cap_add) (caps_at (fun _ _ => cap_rm) hc hr) h

end Picsar.Tiling
