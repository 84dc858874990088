import Verif.Model.PsatdCopy
import Verif.Lemmas.Grid

namespace Picsar.PsatdCopy
open Picsar Picsar.Grid

/-- A copy without fault. -/
theorem copyLoop_ok (src : Arr) (fs fd : I3 → I3) (L : List I3) (hL : L.Nodup) (hi : ∀ i j, fd i = fd j → i = j) (dst : Arr)
    (h1 : ∀ i ∈ L, InBox src.lo src.hi (fs i)) (h2 : ∀ i ∈ L, InBox dst.lo dst.hi (fd i)) :
    ∃ v, copyLoop src fs fd L dst = .ok ⟨dst.lo, dst.hi, v⟩ ∧ (∀ i ∈ L, v (fd i) = src.val (fs i)) ∧ ∀ x, (∀ i ∈ L, fd i ≠ x) → v x = dst.val x := by
  induction L generalizing dst with
  | nil => exact ⟨dst.val, rfl, by simp, fun _ _ => rfl⟩
  | cons i L ih =>
    rw [List.nodup_cons] at hL
    have e1 : src.get (fs i) = .ok (src.val (fs i)) := if_pos (h1 i (by simp))
    have e2 : dst.set (fd i) (src.val (fs i)) = .ok ⟨dst.lo, dst.hi, Function.update dst.val (fd i) (src.val (fs i))⟩ := if_pos (h2 i (by simp))
    obtain ⟨v, e, ha, hb⟩ := ih hL.2 ⟨dst.lo, dst.hi, Function.update dst.val (fd i) (src.val (fs i))⟩ (fun j hj => h1 j (by simp [hj]))
      (fun j hj => h2 j (by simp [hj]))
    refine ⟨v, ?_, fun j hj => ?_, fun x hx => ?_⟩
    · unfold copyLoop at e ⊢
      rw [List.foldlM_cons, e1]
      simp only [except_bind_ok]
      rw [e2]
      simp only [except_bind_ok]
      exact e
    · rcases List.mem_cons.mp hj with rfl | hj
      · rw [hb (fd j) fun k hk he => hL.1 (hi _ _ he ▸ hk)]
        exact Function.update_self ..
      · exact ha j hj
    · rw [hb x fun k hk => hx k (by simp [hk])]
      exact Function.update_of_ne (fun h => hx i (by simp) h.symm) _ _

/-- A copy that leaves the source array. -/
theorem copyLoop_oob (src : Arr) (fs fd : I3 → I3) (L : List I3) (dst : Arr) (h : ∃ i ∈ L, ¬ InBox src.lo src.hi (fs i)) :
    copyLoop src fs fd L dst = .error .outOfBounds := by
  induction L generalizing dst with
  | nil => simp at h
  | cons i L ih =>
    unfold copyLoop
    rw [List.foldlM_cons]
    by_cases h1 : InBox src.lo src.hi (fs i)
    · have e1 : src.get (fs i) = .ok (src.val (fs i)) := if_pos h1
      rw [e1]
      simp only [except_bind_ok]
      by_cases h2 : InBox dst.lo dst.hi (fd i)
      · have e2 : dst.set (fd i) (src.val (fs i)) = .ok ⟨dst.lo, dst.hi, Function.update dst.val (fd i) (src.val (fs i))⟩ := if_pos h2
        rw [e2]
        simp only [except_bind_ok]
        refine ih _ ?_
        obtain ⟨j, hj, hn⟩ := h
        rcases List.mem_cons.mp hj with rfl | hj
        · exact absurd h1 hn
        · exact ⟨j, hj, hn⟩
      · have e2 : dst.set (fd i) (src.val (fs i)) = .error .outOfBounds := if_neg h2
        rw [e2]
        rfl
    · have e1 : src.get (fs i) = .error .outOfBounds := if_neg h1
      rw [e1]
      rfl

/-- Several arrays one after the other. -/
theorem arrays_ok (g : ℕ → Arr → Res Arr) (n : ℕ) (f h : ℕ → Arr) (hg : ∀ c, c < n → g c (f c) = .ok (h c)) :
    (List.range n).foldlM (fun (f : ℕ → Arr) (c : ℕ) => do
      let a ← g c (f c)
      (.ok (Function.update f c a) : Res (ℕ → Arr))) f = .ok fun c => if c < n then h c else f c := by
  induction n with
  | zero => simp [pure, Except.pure]
  | succ n ih =>
    rw [List.range_succ, List.foldlM_append, ih fun c hc => hg c (by omega)]
    simp only [except_bind_ok, List.foldlM_cons, List.foldlM_nil, lt_irrefl, if_false]
    rw [hg n (by omega)]
    simp only [except_bind_ok, pure, Except.pure]
    congr 1
    funext c
    by_cases hc : c = n
    · subst hc
      simp
    · rw [Function.update_of_ne hc]
      by_cases h1 : c < n
      · rw [if_pos h1, if_pos (by omega)]
      · rw [if_neg h1, if_neg (by omega)]

theorem arrays_fault (g : ℕ → Arr → Res Arr) (e : Fault) (n : ℕ) (f : ℕ → Arr) (h0 : g 0 (f 0) = .error e) (hn : 0 < n) :
    (List.range n).foldlM (fun (f : ℕ → Arr) (c : ℕ) => do
      let a ← g c (f c)
      (.ok (Function.update f c a) : Res (ℕ → Arr))) f = .error e := by
  obtain ⟨k, rfl⟩ : ∃ k, n = k + 1 := ⟨n - 1, by omega⟩
  rw [List.range_succ_eq_map, List.foldlM_cons, h0]
  rfl

theorem shift_inj (lr lp : I3) (i j : I3) (h : shift lr lp i = shift lr lp j) : i = j := by
  unfold shift at h
  rw [I3.mk.injEq] at h
  cases i
  cases j
  simp only at h
  rw [I3.mk.injEq]
  omega

theorem in_fft {D : Dims} {M R : Local} (h : Shaped D M R) (i : I3) (v : I3 → ℝ) (hi : InBox (fftArr D v).lo (fftArr D v).hi i) :
    -D.g.j ≤ i.j ∧ i.j ≤ D.n.j + D.g.j - 1 ∧ -D.g.k ≤ i.k ∧ i.k ≤ D.n.k + D.g.k - 1 ∧ -D.g.l ≤ i.l ∧ i.l ≤ D.n.l + D.g.l - 1 ∧
      (D.twoD = true → i.k = 0) := by
  have hn := h.n
  have h2 := h.two
  unfold InBox fftArr at hi
  simp only at hi
  cases ht : D.twoD
  · rw [ht] at hi
    simp at hi
    refine ⟨by omega, by omega, by omega, by omega, by omega, by omega, by simp⟩
  · rw [ht] at hi
    simp at hi
    have := h2 ht
    refine ⟨by omega, by omega, by omega, by omega, by omega, by omega, fun _ => by omega⟩

/-- Where the elements of a field or source array with `q` guard cells are taken from. -/
theorem shift_fft {D : Dims} {M R : Local} (h : Shaped D M R) (i : I3) (v : I3 → ℝ) (q : I3) (h2 : D.twoD = true → q.k = 0)
    (hi : InBox (fftArr D v).lo (fftArr D v).hi i) :
    shift (fftArr D v).lo ⟨-q.j, -q.k, -q.l⟩ i = ⟨i.j + D.g.j - q.j, i.k + D.g.k - q.k, i.l + D.g.l - q.l⟩ := by
  have ht := h.two
  have := in_fft h i v hi
  unfold shift fftArr
  simp only
  cases hd : D.twoD
  · simp
    omega
  · have := ht hd
    have := h2 hd
    simp
    omega

end Picsar.PsatdCopy
