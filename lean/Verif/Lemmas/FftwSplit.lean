import Verif.Spec.FftwSplit
import Verif.Lemmas.Topology
namespace Picsar.Topology
open Picsar Picsar.Grid

/-- The elements below `m` have been set. -/
def FInv (n : ℤ) (z0 : ℤ → ℤ) (m : ℤ) (s : Split) : Prop :=
  s.cmin.n = n ∧ s.cmax.n = n ∧ ∀ i, 1 ≤ i → i < m → s.cmin.val i = some (z0 (i - 1)) ∧ s.cmax.val i = some (z0 i - 1)

theorem allNz_get {n : ℤ} {nz : ℤ → ℤ} {i : ℤ} (h1 : 1 ≤ i) (h2 : i ≤ n) : (allNz n nz).get i = .ok (nz (i - 1)) := by
  unfold IArr.get allNz
  rw [if_pos ⟨h1, h2⟩]

theorem set_ok {a : IArr} {i v : ℤ} (h : 1 ≤ i ∧ i ≤ a.n) : a.set i v = .ok ⟨a.n, Function.update a.val i (some v)⟩ := by
  unfold IArr.set
  rw [if_pos h]

theorem fftwStep_ok {n N : ℤ} {nz z0 : ℤ → ℤ} (S : Slabs n N nz z0) {i : ℤ} {s : Split} (h2 : 2 ≤ i) (hn : i ≤ n) (I : FInv n z0 i s) :
    ∃ s', fftwStep (allNz n nz) s i = .ok s' ∧ FInv n z0 (i + 1) s' := by
  obtain ⟨e1, e2, hv⟩ := I
  obtain ⟨-, hs⟩ := S.2.2 (i - 1) (by omega) (by omega)
  rw [sub_add_cancel] at hs
  have a1 : s.cmax.get (i - 1) = .ok (z0 (i - 1) - 1) := by
    unfold IArr.get
    rw [if_pos (by omega), (hv (i - 1) (by omega) (by omega)).2]
  have a2 := set_ok (a := s.cmin) (i := i) (v := z0 (i - 1) - 1 + 1) (by omega)
  have a3 : IArr.get ⟨s.cmin.n, Function.update s.cmin.val i (some (z0 (i - 1) - 1 + 1))⟩ i = .ok (z0 (i - 1)) := by
    unfold IArr.get
    rw [if_pos (by show 1 ≤ i ∧ i ≤ s.cmin.n; omega)]
    simp
  have a5 := set_ok (a := s.cmax) (i := i) (v := z0 (i - 1) + nz (i - 1) - 1) (by omega)
  refine ⟨⟨⟨s.cmin.n, Function.update s.cmin.val i (some (z0 (i - 1) - 1 + 1))⟩, ⟨s.cmax.n, Function.update s.cmax.val i (some (z0 (i - 1) + nz (i - 1) - 1))⟩⟩,
    ?_, e1, e2, ?_⟩
  · unfold fftwStep
    rw [a1]; simp only [except_bind_ok]
    rw [a2]; simp only [except_bind_ok]
    rw [a3]; simp only [except_bind_ok]
    rw [allNz_get (by omega) hn]; simp only [except_bind_ok]
    rw [a5]; rfl
  · intro k k1 k2
    dsimp only
    by_cases hk : k = i
    · subst hk
      rw [Function.update_self, Function.update_self, hs]
      simp
    · rw [Function.update_of_ne hk, Function.update_of_ne hk]
      exact hv k k1 (by omega)

theorem fftwSplit_ok {n N : ℤ} {nz z0 : ℤ → ℤ} (S : Slabs n N nz z0) (hn : 1 ≤ n) {s : Split} (h1 : s.cmin.n = n) (h2 : s.cmax.n = n) :
    ∃ s', fftwSplit (allNz n nz) n s = .ok s' ∧ FInv n z0 (n + 1) s' := by
  obtain ⟨-, hs⟩ := S.2.2 0 le_rfl (by omega)
  rw [S.1, zero_add, zero_add] at hs
  unfold fftwSplit
  rw [set_ok (by omega)]; simp only [except_bind_ok]
  rw [allNz_get le_rfl hn]; simp only [except_bind_ok]
  rw [set_ok (by omega)]; simp only [except_bind_ok]
  refine foldlM_irange_inv (body := fftwStep (allNz n nz)) (fun i s => FInv n z0 i s) _ n rfl (by omega) (fun i s i1 i2 I => fftwStep_ok S i1 i2 I) _ ?_
  refine ⟨h1, h2, fun i i1 i2 => ?_⟩
  have : i = 1 := by omega
  subst this
  dsimp only
  rw [Function.update_self, Function.update_self, hs]
  simp [S.1]

theorem adjust_eq {n N : ℤ} {nz z0 : ℤ → ℤ} (S : Slabs n N nz z0) (hn : 1 ≤ n) (hN : 0 ≤ N) (r z : ℤ) (hz : 0 ≤ z ∧ z < n) :
    adjust n N nz r z = .ok (if nz r = nz z then some (z0 z, z0 (z + 1) - 1) else none) := by
  obtain ⟨s, -, -, e, ⟨i1, i2, -⟩, -⟩ := split_ok hn hN
  obtain ⟨s', e', j1, j2, hv⟩ := fftwSplit_ok S hn i1 i2
  obtain ⟨-, hs⟩ := S.2.2 z hz.1 hz.2
  have g := hv (z + 1) (by omega) (by omega)
  rw [add_sub_cancel_right] at g
  unfold adjust
  rw [e]; simp only [except_bind_ok]
  rw [e']; simp only [except_bind_ok]
  unfold IArr.get
  rw [if_pos (by omega), if_pos (by omega), g.1, g.2]
  simp only [except_bind_ok]
  by_cases h : nz r = nz z
  · rw [if_pos h, if_neg (by omega)]; rfl
  · rw [if_neg h, if_pos (by omega)]; rfl

theorem slabs_mono {n N : ℤ} {nz z0 : ℤ → ℤ} (S : Slabs n N nz z0) {a : ℤ} (ha : 0 ≤ a) : ∀ (d : ℕ), a + d ≤ n → z0 a ≤ z0 (a + d)
  | 0, _ => by simp
  | d + 1, h => by
    push_cast at h
    have := slabs_mono S ha d (by omega)
    obtain ⟨h1, h2⟩ := S.2.2 (a + d) (by omega) (by omega)
    push_cast
    rw [← add_assoc]
    omega

theorem slabs_exists {n N : ℤ} {nz z0 : ℤ → ℤ} (S : Slabs n N nz z0) {c : ℤ} (hc : 0 ≤ c) : ∀ (d : ℕ), (d : ℤ) ≤ n → c < z0 d →
    ∃ r : ℤ, (0 ≤ r ∧ r < d) ∧ z0 r ≤ c ∧ c ≤ z0 (r + 1) - 1
  | 0, _, h => by
    have := S.1
    simp only [Nat.cast_zero] at h
    omega
  | d + 1, h, hd => by
    by_cases h' : c < z0 d
    · obtain ⟨r, h1, h2⟩ := slabs_exists S hc d (by push_cast at h; omega) h'
      exact ⟨r, by push_cast; omega, h2⟩
    · push_cast at hd
      exact ⟨d, by push_cast; omega, by omega, by omega⟩

end Picsar.Topology
