import Verif.Model.OmpTables
import Verif.Lemmas.BreitWheeler
import Mathlib.Data.List.Count

namespace Picsar

theorem wr_getElem? {α : Type} {l l' : List α} {i : ℕ} {x : α} (h : wr l i x = .ok l') (j : ℕ) :
    l'[j]? = if j = i then some x else l[j]? := by
  by_cases hi : i < l.length
  · rw [wr_ok hi] at h
    cases h
    rw [List.getElem?_set]
    by_cases hj : i = j
    · subst hj; simp [hi]
    · simp [hj, Ne.symm hj]
  · rw [wr_oob (by omega)] at h
    cases h

/-- If iteration `i` alone writes `v i 0, v i 1, …` to consecutive elements of its own row, then after any schedule
in which every iteration got at least `nc` steps the array holds exactly those values, row by row. -/
theorem RowProg.run_spec {σ α : Type} (p : RowProg σ (Option α)) (n nc : ℕ) (S : ℕ → ℕ → σ) (v : ℕ → ℕ → α)
    (hs : ∀ i k, i < n → k < nc → p.step i (S i k) = some (S i (k + 1), i * nc + k, some (v i k)))
    (hd : ∀ i, i < n → p.step i (S i nc) = none) :
    ∀ (sched : List ℕ), (∀ i ∈ sched, i < n) →
      ∀ (s : OmpState σ (Option α)) (c : ℕ → ℕ), (∀ i, i < n → c i ≤ nc ∧ s.loc i = S i (c i)) →
        s.mem.length = n * nc →
        (∀ i k, i < n → k < c i → s.mem[i * nc + k]? = some (some (v i k))) →
        ∃ s', p.run sched s = .ok s' ∧ s'.mem.length = n * nc ∧
          ∀ i k, i < n → k < nc → k < c i + sched.count i → s'.mem[i * nc + k]? = some (some (v i k)) := by
  intro sched
  induction sched with
  | nil =>
    intro _ s c hc hl hm
    exact ⟨s, rfl, hl, fun i k hi _ hk => hm i k hi (by simpa using hk)⟩
  | cons j sched ih =>
    intro hmem s c hc hl hm
    have hj : j < n := hmem j (by simp)
    obtain ⟨hcj, hlj⟩ := hc j hj
    rcases Nat.lt_or_ge (c j) nc with hlt | hge
    · have hst := hs j (c j) hj hlt
      have hin : j * nc + c j < s.mem.length := by
        rw [hl]
        calc j * nc + c j < j * nc + nc := by omega
          _ = (j + 1) * nc := by ring
          _ ≤ n * nc := Nat.mul_le_mul_right _ hj
      have hw := wr_ok (x := some (v j (c j))) hin
      have hex : p.exec j s = .ok ⟨Function.update s.loc j (S j (c j + 1)),
          s.mem.set (j * nc + c j) (some (v j (c j)))⟩ := by
        unfold RowProg.exec
        rw [hlj, hst]
        simp only [hw]
        rfl
      obtain ⟨s', h1, h2, h3⟩ := ih (fun i hi => hmem i (by simp [hi]))
        ⟨Function.update s.loc j (S j (c j + 1)), s.mem.set (j * nc + c j) (some (v j (c j)))⟩
        (fun i => if i = j then c j + 1 else c i) (by
          intro i hi
          by_cases hij : i = j
          · subst hij; simp; omega
          · simp [hij, Function.update_of_ne, hc i hi]) (by simpa using hl) (by
          intro i k hi hk
          simp only at hk ⊢
          rw [List.getElem?_set]
          by_cases hij : i = j
          · subst hij
            simp only [if_true] at hk
            by_cases hkc : k = c i
            · subst hkc; simp [hin]
            · rw [if_neg (by omega)]
              exact hm i k hi (by omega)
          · simp only [hij, if_false] at hk
            rw [if_neg]
            · exact hm i k hi hk
            · intro he
              have hk' : k < nc := lt_of_lt_of_le hk (hc i hi).1
              have e1 : (j * nc + c j) / nc = j := by
                rw [mul_comm, Nat.mul_add_div (by omega), Nat.div_eq_of_lt hlt, add_zero]
              have e2 : (i * nc + k) / nc = i := by
                rw [mul_comm, Nat.mul_add_div (by omega), Nat.div_eq_of_lt hk', add_zero]
              rw [he, e2] at e1
              exact hij e1)
      refine ⟨s', ?_, h2, ?_⟩
      · simp only [RowProg.run, hex, except_bind_ok, h1]
      · intro i k hi hk hkc
        apply h3 i k hi hk
        rw [List.count_cons] at hkc
        by_cases hij : i = j
        · subst hij; simp at hkc ⊢; omega
        · simp [hij, Ne.symm hij] at hkc ⊢; omega
    · have hcn : c j = nc := by omega
      have hex : p.exec j s = .ok s := by
        unfold RowProg.exec
        rw [hlj, hcn, hd j hj]
      obtain ⟨s', h1, h2, h3⟩ := ih (fun i hi => hmem i (by simp [hi])) s c hc hl hm
      refine ⟨s', ?_, h2, ?_⟩
      · simp only [RowProg.run, hex, except_bind_ok, h1]
      · intro i k hi hk hkc
        apply h3 i k hi hk
        rw [List.count_cons] at hkc
        by_cases hij : i = j
        · subst hij; omega
        · simp [Ne.symm hij] at hkc ⊢; omega

/-- The array described row by row. -/
theorem rows_eq {α : Type} {n nc : ℕ} {l : List (Option α)} (v : ℕ → ℕ → α) (hl : l.length = n * nc)
    (h : ∀ i k, i < n → k < nc → l[i * nc + k]? = some (some (v i k))) :
    l = (List.range n).flatMap fun i => (List.range nc).map fun (k : ℕ) => some (v i k) := by
  apply List.ext_getElem?
  intro m
  rcases Nat.lt_or_ge m (n * nc) with hm | hm
  · have hnc : 0 < nc := by
      rcases Nat.eq_zero_or_pos nc with h | h
      · subst h; simp at hm
      · exact h
    have hi : m / nc < n := Nat.div_lt_of_lt_mul (by rw [mul_comm]; exact hm)
    have hk : m % nc < nc := Nat.mod_lt _ hnc
    have hm' : m = (m / nc) * nc + m % nc := by rw [mul_comm]; exact (Nat.div_add_mod m nc).symm
    rw [hm', h _ _ hi hk, flatMap_getElem? (n := nc) (by intro x; simp) _ _ _ hk]
    simp [List.getElem?_range hi, List.getElem?_range hk]
  · rw [List.getElem?_eq_none (by omega), List.getElem?_eq_none]
    simp only [List.length_flatMap, List.length_map, List.length_range, List.map_const', List.sum_replicate]
    simpa using hm

/-- A list as a function on its indices. -/
theorem list_eq_range_map (l : List ℝ) : l = (List.range l.length).map fun (i : ℕ) => l[i]?.getD 0 := by
  apply List.ext_getElem
  · simp
  · intro i h1 h2
    simp [List.getElem?_eq_getElem h1]

theorem flatMap_eq_range {β : Type} (l : List ℝ) (f : ℝ → List β) :
    l.flatMap f = (List.range l.length).flatMap fun (i : ℕ) => f (l[i]?.getD 0) := by
  conv_lhs => rw [list_eq_range_map l, List.flatMap_map]

/-- `guess` and `previous` after the first `k` columns of a row of the photon table. -/
noncomputable def qsAfter (solve : ℝ → ℝ → ℝ → Option ℝ → ℝ) (chi guess : ℝ) (prev : Option ℝ) (l : List ℝ) (k : ℕ) :
    ℝ × Option ℝ :=
  (l.take k).foldl (fun st pr => (solve chi pr st.1 st.2, some (solve chi pr st.1 st.2))) (guess, prev)

theorem qsAfter_succ {solve : ℝ → ℝ → ℝ → Option ℝ → ℝ} {chi guess : ℝ} {prev : Option ℝ} {l : List ℝ} {k : ℕ}
    (hk : k < l.length) :
    qsAfter solve chi guess prev l (k + 1) =
      (solve chi l[k] (qsAfter solve chi guess prev l k).1 (qsAfter solve chi guess prev l k).2,
       some (solve chi l[k] (qsAfter solve chi guess prev l k).1 (qsAfter solve chi guess prev l k).2)) := by
  unfold qsAfter
  rw [List.take_succ_eq_append_getElem hk, List.foldl_append]
  rfl

theorem rowFrom_eq (solve : ℝ → ℝ → ℝ → Option ℝ → ℝ) (chi : ℝ) (l : List ℝ) :
    ∀ (guess : ℝ) (prev : Option ℝ), QS.rowFrom solve chi guess prev l =
      (List.range l.length).map fun (k : ℕ) => Real.exp (qsAfter solve chi guess prev l (k + 1)).1 := by
  induction l with
  | nil => intro _ _; rfl
  | cons pr l ih =>
    intro guess prev
    rw [QS.rowFrom, ih, List.length_cons, List.range_succ_eq_map, List.map_cons, List.map_map]
    congr 1

end Picsar
