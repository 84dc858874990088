import Verif.Model.LoadBalance
import Verif.Spec.LoadBalance
import Mathlib.Tactic.Linarith
import Mathlib.Tactic.Ring
import Mathlib.Tactic.FieldSimp
import Mathlib.Algebra.Order.BigOperators.Group.List
import Mathlib.Data.Real.Basic
import Mathlib.Data.List.Basic
namespace Picsar.LoadBalance
open Picsar Picsar.Spec.LoadBalance

/-- Load of the first `k` cells. -/
def pre (load : List ℝ) (k : ℕ) : ℝ := (load.take k).sum

theorem pre_succ {load : List ℝ} {k : ℕ} (h : k < load.length) : pre load (k + 1) = pre load k + load[k] := by
  unfold pre
  rw [List.take_succ_eq_append_getElem h, List.sum_append]
  simp

theorem pre_mono {load : List ℝ} (h : ∀ v ∈ load, 0 ≤ v) {a b : ℕ} (hab : a ≤ b) : pre load a ≤ pre load b := by
  induction b with
  | zero => rw [Nat.le_zero.mp hab]
  | succ b ih =>
    rcases Nat.lt_or_ge a (b + 1) with h' | h'
    · by_cases hb : b < load.length
      · rw [pre_succ hb]
        have := ih (by omega)
        have := h _ (List.getElem_mem hb)
        linarith
      · have e : pre load (b + 1) = pre load b := by
          unfold pre
          rw [List.take_of_length_le (by omega), List.take_of_length_le (by omega)]
        rw [e]
        exact ih (by omega)
    · rw [show a = b + 1 by omega]

theorem pre_all (load : List ℝ) : pre load load.length = load.sum := by
  unfold pre; rw [List.take_length]

theorem scan_spec (load : List ℝ) (target : ℝ) : ∀ (n ic : ℕ) (cur : ℝ), load.length - ic = n →
    ∃ cur' c, scan load target cur ic = .ok (cur', c) ∧ ic ≤ c ∧
      ((c + 1 < load.length ∧ cur' = cur + (pre load (c + 1) - pre load ic) ∧ target ≤ cur' ∧
          (cur < target → cur + (pre load c - pre load ic) < target)) ∨
       (load.length ≤ c + 1 ∧ (load.length ≤ ic + 1 → c = ic) ∧ (ic + 1 ≤ load.length → c + 1 = load.length) ∧
          (cur < target → cur + (pre load c - pre load ic) < target) ∧
          cur' = cur + (pre load c - pre load ic))) := by
  intro n
  induction n with
  | zero =>
    intro ic cur h
    unfold scan
    rw [if_neg (by omega)]
    exact ⟨cur, ic, rfl, le_rfl, .inr ⟨by omega, fun _ => rfl, by omega, by simp, by simp⟩⟩
  | succ n ih =>
    intro ic cur h
    unfold scan
    by_cases hic : ic + 1 < load.length
    · rw [if_pos hic, rd_ok (show ic < load.length by omega)]
      simp only [except_bind_ok]
      have hp := pre_succ (show ic < load.length by omega)
      by_cases ht : target ≤ cur + load[ic]
      · rw [if_pos ht]
        exact ⟨_, ic, rfl, le_rfl, .inl ⟨hic, by rw [hp]; ring, ht, by simp⟩⟩
      · rw [if_neg ht]
        push Not at ht
        obtain ⟨cur', c, e, hc, h'⟩ := ih (ic + 1) (cur + load[ic]) (by omega)
        refine ⟨cur', c, e, by omega, ?_⟩
        rw [hp] at h'
        rcases h' with ⟨a1, a2, a3, a4⟩ | ⟨a1, a2, a3, a4, a5⟩
        · exact .inl ⟨a1, by rw [a2]; ring, a3, fun _ => by have := a4 ht; linarith⟩
        · refine .inr ⟨a1, fun h => by omega, fun _ => a3 (by omega), fun _ => by have := a4 ht; linarith, by rw [a5]; ring⟩
    · rw [if_neg hic]
      exact ⟨cur, ic, rfl, le_rfl, .inr ⟨by omega, fun _ => rfl, by omega, by simp, by simp⟩⟩

/-- Cell after the last range. -/
def endOf : ℕ → List (ℕ × ℕ) → ℕ
  | s, [] => s
  | _, r :: R => endOf (r.2 + 1) R

theorem endOf_append (s : ℕ) (R : List (ℕ × ℕ)) (x : ℕ × ℕ) : endOf s (R ++ [x]) = x.2 + 1 := by
  induction R generalizing s with
  | nil => rfl
  | cons r R ih => exact ih _

theorem chain_append {s : ℕ} {R : List (ℕ × ℕ)} {lo hi : ℕ} (h : Chain s R)
    (hl : lo = endOf s R) (hh : lo ≤ hi) : Chain s (R ++ [(lo, hi)]) := by
  induction R generalizing s with
  | nil => exact ⟨hl, hh, trivial⟩
  | cons r R ih =>
    obtain ⟨a, b, c⟩ := h
    exact ⟨a, b, ih c hl⟩

/-- The ranges found so far: in order, without gap, the last one ending before the next cell. -/
structure BInv (s : BState) (i : ℕ) : Prop where
  chain : Chain 0 s.ranges
  len : s.ranges.length = i
  next : s.icell = endOf 0 s.ranges

theorem chain_mem {s : ℕ} {R : List (ℕ × ℕ)} (h : Chain s R) : ∀ r ∈ R, s ≤ r.1 ∧ r.1 ≤ r.2 := by
  induction R generalizing s with
  | nil => simp
  | cons a R ih =>
    obtain ⟨h1, h2, h3⟩ := h
    intro r hr
    rcases List.mem_cons.mp hr with rfl | hr
    · exact ⟨by omega, h2⟩
    · have := ih h3 r hr
      exact ⟨by omega, this.2⟩

theorem chain_pairwise {s : ℕ} {R : List (ℕ × ℕ)} (h : Chain s R) : R.Pairwise fun r t => r.2 < t.1 := by
  induction R generalizing s with
  | nil => exact .nil
  | cons a R ih =>
    obtain ⟨h1, h2, h3⟩ := h
    exact .cons (fun t ht => by have := (chain_mem h3 t ht).1; omega) (ih h3)

theorem chain_cover {s : ℕ} {R : List (ℕ × ℕ)} (h : Chain s R) : s ≤ endOf s R ∧
    (∀ c, s ≤ c → c < endOf s R → ∃ r ∈ R, r.1 ≤ c ∧ c ≤ r.2) ∧ ∀ r ∈ R, r.2 < endOf s R := by
  induction R generalizing s with
  | nil => exact ⟨le_rfl, fun c h1 h2 => absurd h2 (by simpa [endOf] using h1), by simp⟩
  | cons a R ih =>
    obtain ⟨h1, h2, h3⟩ := h
    obtain ⟨i0, i1, i2⟩ := ih h3
    have e : endOf s (a :: R) = endOf (a.2 + 1) R := rfl
    rw [e]
    refine ⟨by omega, fun c hc1 hc2 => ?_, fun r hr => ?_⟩
    · by_cases hca : c ≤ a.2
      · exact ⟨a, by simp, by omega, hca⟩
      · obtain ⟨r, hr, h⟩ := i1 c (by omega) hc2
        exact ⟨r, by simp [hr], h⟩
    · rcases List.mem_cons.mp hr with rfl | hr
      · omega
      · exact i2 r hr

/-- One process: the range starts at the next cell; either the last process got everything up to the last cell by the sanity check, or
the range ends where the scan ended. -/
theorem step_inv (load : List ℝ) (b : ℝ) (P : ℕ) (s : BState) (i : ℕ) (h : BInv s i) :
    ∃ s' cur c, scan load s.target 0 s.icell = .ok (cur, c) ∧ s.icell ≤ c ∧ balanceStep load b P s i = .ok s' ∧
      s'.icell = c + 1 ∧ s'.used = s.used + cur ∧ s'.target = b + ((i + 1) * b - (s.used + cur)) ∧
      Chain 0 s'.ranges ∧ s'.ranges.length = i + 1 ∧
      endOf 0 s'.ranges = (if i = P - 1 ∧ c + 1 + 1 < load.length then load.length - 1 else c) + 1 ∧
      (i + 1 < P → BInv s' (i + 1)) := by
  obtain ⟨cur, c, e, hc, -⟩ := scan_spec load s.target _ s.icell 0 rfl
  have hch : Chain 0 (s.ranges ++ [(s.icell, if i = P - 1 ∧ c + 1 + 1 < load.length then load.length - 1 else c)]) := by
    refine chain_append h.chain h.next ?_
    split_ifs with h' <;> omega
  refine ⟨_, cur, c, e, hc, by unfold balanceStep; rw [e]; rfl, rfl, rfl, rfl, hch, by simp [h.len], endOf_append _ _ _, fun hP => ?_⟩
  refine ⟨hch, by simp [h.len], ?_⟩
  rw [endOf_append, if_neg (by omega)]

theorem foldlM_range_inv {α : Type} {body : α → ℕ → Res α} (I : ℕ → α → Prop) (n : ℕ)
    (h : ∀ i s, i < n → I i s → ∃ s', body s i = .ok s' ∧ I (i + 1) s') (s : α) (hs : I 0 s) :
    ∃ s', (List.range n).foldlM body s = .ok s' ∧ I n s' := by
  induction n with
  | zero => exact ⟨s, rfl, hs⟩
  | succ n ih =>
    obtain ⟨s1, e1, h1⟩ := ih fun i s hi => h i s (by omega)
    obtain ⟨s2, e2, h2⟩ := h n s1 (by omega) h1
    refine ⟨s2, ?_, h2⟩
    rw [List.range_succ, List.foldlM_append, e1]
    simp only [except_bind_ok, List.foldlM_cons, List.foldlM_nil, e2]
    rfl

theorem balance_chain (load : List ℝ) (P : ℕ) :
    ∃ R, balance load P = .ok R ∧ R.length = P ∧ Chain 0 R := by
  obtain ⟨s, e, h1, h2, -⟩ := foldlM_range_inv
    (body := balanceStep load (load.sum / P) P)
    (fun i s => s.ranges.length = i ∧ Chain 0 s.ranges ∧ (i < P → BInv s i)) P (by
      rintro i s hi ⟨-, -, h⟩
      obtain ⟨s', cur, c, -, -, e, -, -, -, hc, hl, -, hb⟩ := step_inv load (load.sum / P) P s i (h hi)
      exact ⟨s', e, hl, hc, hb⟩)
    ⟨0, load.sum / P, 0, []⟩ ⟨rfl, trivial, fun _ => ⟨trivial, rfl, rfl⟩⟩
  refine ⟨s.ranges, ?_, h1, h2⟩
  unfold balance
  dsimp only
  rw [e]
  rfl

theorem balance_split {load : List ℝ} {P : ℕ} (hP : 0 < P) (h0 : ∀ v ∈ load, 0 ≤ v)
    (hmax : ∀ v ∈ load, v * P ≤ load.sum) (hN : 0 < load.length) (hlast : 0 < load[load.length - 1]) :
    ∃ R, balance load P = .ok R ∧ IsSplit load.length P R := by
  have hPr : (0 : ℝ) < P := by exact_mod_cast hP
  set b := load.sum / P with hb
  have hbt : P * b = load.sum := by rw [hb]; field_simp
  have hvb : ∀ v ∈ load, v ≤ b := fun v hv => by rw [hb, le_div_iff₀ hPr]; exact hmax v hv
  have htot : load.sum = pre load (load.length - 1) + load[load.length - 1] := by
    rw [← pre_succ (by omega), ← pre_all]; congr 1; omega
  have hpre0 : 0 ≤ pre load (load.length - 1) := by
    have := pre_mono h0 (Nat.zero_le (load.length - 1))
    simpa [pre] using this
  have hbpos : 0 < b := by rw [hb]; exact div_pos (by linarith) hPr
  obtain ⟨s, e, h1, h2, -, h3⟩ := foldlM_range_inv
    (body := balanceStep load b P)
    (fun i s => s.ranges.length = i ∧ Chain 0 s.ranges ∧
      (i < P → BInv s i ∧ s.icell + 1 ≤ load.length ∧ s.used = pre load s.icell ∧ s.target = (i + 1) * b - s.used ∧
        s.used < (i + 1) * b) ∧ (i = P → endOf 0 s.ranges = load.length)) P (by
      rintro i s hi ⟨-, -, h, -⟩
      obtain ⟨hB, hic, hu, ht, hlt⟩ := h hi
      obtain ⟨s', cur, c, es, hcc, e, f1, f2, f3, hc, hl, hend, hb'⟩ := step_inv load b P s i hB
      obtain ⟨cur2, c2, es2, -, hsc⟩ := scan_spec load s.target _ s.icell 0 rfl
      rw [es] at es2
      cases es2
      refine ⟨s', e, hl, hc, fun hi' => ⟨hb' hi', ?_⟩, fun hi' => ?_⟩
      · -- not the last process
        have hi2 : (i : ℝ) + 2 ≤ P := by exact_mod_cast hi'
        rcases hsc with ⟨a1, a2, a3, a4⟩ | ⟨a1, a2, a3, a4, a5⟩
        · have a4 := a4 (by rw [ht]; linarith)
          have hcl : c < load.length := by omega
          have hp := pre_succ hcl
          have hv := hvb _ (List.getElem_mem hcl)
          have hused : s.used + cur = pre load (c + 1) := by rw [hu, a2]; ring
          refine ⟨by omega, by rw [f2, f1, hused], ?_, ?_⟩
          · rw [f3, f2]; push_cast; ring
          · rw [f2, hused, hp]
            push_cast
            rw [hu] at ht
            nlinarith
        · exfalso
          have a4 := a4 (by rw [ht]; linarith)
          have hcN : c = load.length - 1 := by have := a3 hic; omega
          have hv := hvb _ (List.getElem_mem (show load.length - 1 < load.length by omega))
          rw [hcN, ht, hu] at a4
          nlinarith
      · -- the last process
        rw [hend]
        have hiP : (i : ℝ) + 1 = P := by exact_mod_cast hi'
        rcases hsc with ⟨a1, a2, a3, a4⟩ | ⟨a1, a2, a3, a4, a5⟩
        · exfalso
          have hm := pre_mono h0 (show c + 1 ≤ load.length - 1 by omega)
          rw [ht, a2, hu, hiP, hbt] at a3
          linarith
        · have := a3 hic
          rw [if_neg (by omega)]
          omega)
    ⟨0, b, 0, []⟩ ⟨rfl, trivial, fun _ => ⟨⟨trivial, rfl, rfl⟩, by show 0 + 1 ≤ _; omega, by simp [pre], by simp, by simpa using hbpos⟩,
      fun h => by omega⟩
  obtain ⟨-, c1, c2⟩ := chain_cover h2
  rw [h3 rfl] at c1 c2
  refine ⟨s.ranges, ?_, h1, fun r hr => (chain_mem h2 r hr).2, c2, fun c hc => c1 c (Nat.zero_le _) hc, chain_pairwise h2⟩
  unfold balance
  dsimp only
  rw [← hb, e]
  rfl

theorem rd0_ok {α : Type} {l : List α} {i : ℤ} (h0 : 0 ≤ i) (h1 : i.toNat < l.length) : rd0 l i = .ok l[i.toNat] := by
  unfold rd0
  rw [if_pos h0, rd_ok h1]

theorem interval_ok {ncmin ncmax : List ℤ} (hlen : ncmin.length = ncmax.length) (ic : ℤ)
    (hne : ∀ (i : ℕ) (h : i < ncmin.length), ncmin[i] ≤ ncmax[i]'(hlen ▸ h))
    (hs : ∀ (i j : ℕ) (_ : i < j) (hj : j < ncmin.length), ncmax[i]'(by omega) < ncmin[j]) :
    ∀ (n : ℕ) (imin imax : ℤ), (imax - imin + 1).toNat = n → 0 ≤ imin → imax < ncmin.length →
      (∀ (i : ℕ) (h : i < ncmin.length), (i : ℤ) < imin → ncmax[i]'(hlen ▸ h) < ic) →
      (∀ (i : ℕ) (h : i < ncmin.length), imax < (i : ℤ) → ic < ncmin[i]) →
      (∃ (i : ℕ) (h : i < ncmin.length), intervalLoop ncmin ncmax ic imin imax = .ok i ∧
          ncmin[i] ≤ ic ∧ ic ≤ ncmax[i]'(hlen ▸ h)) ∨
        (intervalLoop ncmin ncmax ic imin imax = .ok (-1) ∧
          ∀ (i : ℕ) (h : i < ncmin.length), ¬ (ncmin[i] ≤ ic ∧ ic ≤ ncmax[i]'(hlen ▸ h))) := by
  intro n
  induction n using Nat.strong_induction_on with
  | _ n ih =>
    intro imin imax hn h0 h1 hlo hhi
    unfold intervalLoop
    by_cases h : imin ≤ imax
    · rw [dif_pos h]
      have hm1 : ((imax + imin) / 2).toNat < ncmin.length := by omega
      have hm2 : ((imax + imin) / 2).toNat < ncmax.length := by omega
      rw [rd0_ok (by omega) hm1, rd0_ok (by omega) hm2]
      dsimp only
      by_cases hc : ncmin[((imax + imin) / 2).toNat] ≤ ic ∧ ic ≤ ncmax[((imax + imin) / 2).toNat]
      · rw [if_pos hc]
        exact .inl ⟨((imax + imin) / 2).toNat, hm1, by congr 1; omega, hc⟩
      · rw [if_neg hc]
        by_cases hl : ic < ncmin[((imax + imin) / 2).toNat]
        · rw [if_pos hl]
          refine ih _ ?_ _ _ rfl h0 (by omega) hlo ?_
          · omega
          · intro i hi hi'
            rcases Nat.lt_or_ge ((imax + imin) / 2).toNat i with h' | h'
            · have a := hs _ _ h' hi
              have b := hne _ hm1
              omega
            · obtain rfl : i = ((imax + imin) / 2).toNat := by omega
              exact hl
        · rw [if_neg hl]
          refine ih _ ?_ _ _ rfl (by omega) h1 ?_ hhi
          · omega
          · intro i hi hi'
            rcases Nat.lt_or_ge i ((imax + imin) / 2).toNat with h' | h'
            · have a := hs _ _ h' hm1
              have b := hne _ hm1
              omega
            · obtain rfl : i = ((imax + imin) / 2).toNat := by omega
              omega
    · rw [dif_neg h]
      refine .inr ⟨rfl, fun i hi hc => ?_⟩
      rcases lt_or_ge (i : ℤ) imin with h' | h'
      · have := hlo i hi h'
        omega
      · have := hhi i hi (by omega)
        omega

theorem search_ok {arr : List ℤ} (key : ℤ)
    (hs : ∀ (i j : ℕ) (_ : i < j) (hj : j < arr.length), arr[i] ≤ arr[j]) :
    ∀ (n : ℕ) (imin imax : ℤ), (imax - imin + 1).toNat = n → 1 ≤ imin → imax ≤ arr.length →
      (∀ (i : ℕ) (_ : i < arr.length), (i : ℤ) + 1 < imin → arr[i] < key) →
      (∀ (i : ℕ) (_ : i < arr.length), imax < (i : ℤ) + 1 → key < arr[i]) →
      (∃ (i : ℕ) (_ : i < arr.length), searchLoop arr key imin imax = .ok (i + 1) ∧ arr[i] = key) ∨
        (searchLoop arr key imin imax = .ok (-1) ∧ key ∉ arr) := by
  intro n
  induction n using Nat.strong_induction_on with
  | _ n ih =>
    intro imin imax hn h0 h1 hlo hhi
    unfold searchLoop
    by_cases h : imin ≤ imax
    · rw [dif_pos h]
      have hm1 : ((imax + imin) / 2 - 1).toNat < arr.length := by omega
      rw [rd0_ok (by omega) hm1]
      dsimp only
      by_cases hc : arr[((imax + imin) / 2 - 1).toNat] = key
      · rw [if_pos hc]
        exact .inl ⟨((imax + imin) / 2 - 1).toNat, hm1, by congr 1; omega, hc⟩
      · rw [if_neg hc]
        by_cases hl : key ≤ arr[((imax + imin) / 2 - 1).toNat]
        · rw [if_pos hl]
          refine ih _ ?_ _ _ rfl h0 (by omega) hlo ?_
          · omega
          · intro i hi hi'
            rcases Nat.lt_or_ge ((imax + imin) / 2 - 1).toNat i with h' | h'
            · have a := hs _ _ h' hi
              omega
            · obtain rfl : i = ((imax + imin) / 2 - 1).toNat := by omega
              omega
        · rw [if_neg hl]
          refine ih _ ?_ _ _ rfl (by omega) h1 ?_ hhi
          · omega
          · intro i hi hi'
            rcases Nat.lt_or_ge i ((imax + imin) / 2 - 1).toNat with h' | h'
            · have a := hs _ _ h' hm1
              omega
            · obtain rfl : i = ((imax + imin) / 2 - 1).toNat := by omega
              omega
    · rw [dif_neg h]
      refine .inr ⟨rfl, fun hk => ?_⟩
      obtain ⟨i, hi, he⟩ := List.getElem_of_mem hk
      rcases lt_or_ge ((i : ℤ) + 1) imin with h' | h'
      · have := hlo i hi h'
        omega
      · have := hhi i hi (by omega)
        omega

end Picsar.LoadBalance
