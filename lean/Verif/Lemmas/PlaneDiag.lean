import Verif.Spec.PlaneDiag
import Verif.Lemmas.PartBuffers
/-
Lemmas for the particle diagnostics of scripts.
-/
namespace Picsar.PlaneDiag
open Picsar Picsar.Grid Picsar.Tiling Picsar.PartExchange

variable {n : ℕ}

/-! ### Values of all particles -/

/-- One tile: its values are appended. -/
theorem copyTile_ok {a : Attr n} {S : Species n} {u : I3} {vs : List ℝ} (hc : (S.tiles u).np = vs.length) (hn : vs ≠ [] → ((S.tiles u).arr a).Holds vs)
    {b : FArr ℝ} {l : List ℝ} (hb : b.Holds l) (hf : ((l ++ vs).length : ℤ) ≤ b.n) :
    ∃ b', copyTile a S (b, (l.length : ℤ) + 1) u = .ok (b', ((l ++ vs).length : ℤ) + 1) ∧ b'.n = b.n ∧ b'.Holds (l ++ vs) := by
  rw [List.length_append] at hf
  unfold copyTile
  by_cases h0 : vs = []
  · subst h0
    rw [if_pos (by rw [hc]; rfl)]
    exact ⟨b, by simp, rfl, by simpa using hb⟩
  · have hh := hn h0
    have hl : 0 < vs.length := List.length_pos_iff.mpr h0
    rw [if_neg (by omega), hc, Int.toNat_natCast, slice_ok vs 1 le_rfl (by have := hh.1; omega) (fun i hi => by rw [← hh.2 i hi, add_comm]), except_bind_ok]
    obtain ⟨b', e, nb, lo, hi⟩ := setFrom_ok vs ((l.length : ℤ) + 1) b (by omega) (by push_cast at hf; omega)
    refine ⟨b', ?_, nb, by rw [List.length_append, nb]; exact hf, fun i hi' => ?_⟩
    · dsimp only
      rw [e, except_bind_ok]
      congr 2
      rw [List.length_append]
      push_cast
      ring
    · by_cases hil : i < l.length
      · rw [List.getElem_append_left hil, lo _ (by omega)]
        exact hb.2 i hil
      · rw [List.getElem_append_right (by omega)]
        have hlen : i - l.length < vs.length := by rw [List.length_append] at hi'; omega
        rw [← hi (i - l.length) hlen]
        congr 1
        push_cast [Nat.cast_sub (not_lt.mp hil)]
        ring

theorem copyAll_ok {a : Attr n} {S : Species n} {V : I3 → List ℝ} (hc : ∀ u ∈ box ⟨1, 1, 1⟩ S.nt, (S.tiles u).np = (V u).length)
    (hn : ∀ u ∈ box ⟨1, 1, 1⟩ S.nt, V u ≠ [] → ((S.tiles u).arr a).Holds (V u)) :
    ∃ b, copyAll a S ((box ⟨1, 1, 1⟩ S.nt).flatMap V).length = .ok b ∧ b.n = ((box ⟨1, 1, 1⟩ S.nt).flatMap V).length ∧
      b.Holds ((box ⟨1, 1, 1⟩ S.nt).flatMap V) := by
  have key : ∀ (us : List I3) (b : FArr ℝ) (l : List ℝ), (∀ u ∈ us, u ∈ box ⟨1, 1, 1⟩ S.nt) → b.Holds l → ((l ++ us.flatMap V).length : ℤ) ≤ b.n →
      ∃ b', us.foldlM (copyTile a S) (b, (l.length : ℤ) + 1) = .ok (b', ((l ++ us.flatMap V).length : ℤ) + 1) ∧ b'.n = b.n ∧ b'.Holds (l ++ us.flatMap V) := by
    intro us
    induction us with
    | nil => exact fun b l _ hb _ => ⟨b, by simp, rfl, by simpa using hb⟩
    | cons u us ih =>
      intro b l hu hb hf
      rw [List.flatMap_cons, ← List.append_assoc] at hf
      obtain ⟨b1, e1, n1, h1⟩ := copyTile_ok (hc u (hu u (by simp))) (hn u (hu u (by simp))) hb (le_trans (by simp only [List.length_append]; push_cast; omega) hf)
      obtain ⟨b2, e2, n2, h2⟩ := ih b1 (l ++ V u) (fun w hw => hu w (by simp [hw])) h1 (by rw [n1]; exact hf)
      refine ⟨b2, ?_, by rw [n2, n1], ?_⟩
      · rw [List.foldlM_cons, e1, except_bind_ok, e2, List.flatMap_cons, List.append_assoc]
      · rw [List.flatMap_cons, ← List.append_assoc]
        exact h2
  obtain ⟨b, e, nb, h⟩ := key (box ⟨1, 1, 1⟩ S.nt) (FArr.undef ((box ⟨1, 1, 1⟩ S.nt).flatMap V).length) [] (fun _ h => h)
    ⟨by show ((0 : ℕ) : ℤ) ≤ ((((box ⟨1, 1, 1⟩ S.nt).flatMap V).length : ℕ) : ℤ); exact_mod_cast Nat.zero_le _, fun i hi => by simp at hi⟩ le_rfl
  rw [List.nil_append] at e h
  refine ⟨b, ?_, nb, h⟩
  unfold copyAll
  rw [show (FArr.undef (α := ℝ) (((box ⟨1, 1, 1⟩ S.nt).flatMap V).length : ℤ), (1 : ℤ)) =
    (FArr.undef (((box ⟨1, 1, 1⟩ S.nt).flatMap V).length : ℤ), (([] : List ℝ).length : ℤ) + 1) by simp, e]
  rfl

/-- The particles of all tiles, in the order of the loops. -/
def listed (S : Species n) (L : I3 → List (Part n)) : List (Part n) := (box ⟨1, 1, 1⟩ S.nt).flatMap L

theorem listed_total (S : Species n) (L : I3 → List (Part n)) : (listed S L : Multiset (Part n)) = total S.nt L := by
  unfold listed total
  induction box ⟨1, 1, 1⟩ S.nt with
  | nil => rfl
  | cons u us ih => rw [List.flatMap_cons, ← Multiset.coe_add, ih]; simp

theorem localNumber_eq {S : Species n} {L : I3 → List (Part n)} (h : HoldsAll S L) : localNumber S = (listed S L).length := by
  unfold localNumber listed
  have : ∀ us : List I3, (∀ u ∈ us, u ∈ box ⟨1, 1, 1⟩ S.nt) → (us.map fun u => (S.tiles u).np).sum = ((us.flatMap L).length : ℤ) := by
    intro us
    induction us with
    | nil => intro _; rfl
    | cons u us ih =>
      intro hu
      rw [List.map_cons, List.sum_cons, ih fun w hw => hu w (by simp [hw]), (h u (mem_box.mp (hu u (by simp)))).count, List.flatMap_cons, List.length_append]
      push_cast
      ring
  exact this _ fun _ h => h

theorem copyAll_kept {S : Species n} {L : I3 → List (Part n)} (h : HoldsAll S L) {a : Attr n} (ha : a ∈ kept n) :
    ∃ b, copyAll a S (localNumber S) = .ok b ∧ b.n = localNumber S ∧ b.Holds ((listed S L).map fun p => p.val a) := by
  have e : (listed S L).map (fun p => p.val a) = (box ⟨1, 1, 1⟩ S.nt).flatMap fun u => (L u).map fun p => p.val a := by
    unfold listed
    rw [List.map_flatMap]
  have hl : (((box ⟨1, 1, 1⟩ S.nt).flatMap fun u => (L u).map fun p => p.val a).length : ℤ) = localNumber S := by
    rw [← e, List.length_map, localNumber_eq h]
  have := copyAll_ok (a := a) (S := S) (V := fun u => (L u).map fun p => p.val a) (fun u hu => by
    rw [List.length_map]
    exact (h u (mem_box.mp hu)).count) (fun u hu hne => by
    have hh := h u (mem_box.mp hu)
    have hal : (S.tiles u).alloc = true := by
      by_contra hn
      rw [hh.empty (by simpa using hn)] at hne
      exact hne rfl
    refine ⟨by rw [hh.size hal, List.length_map]; exact hh.fits, fun i hi => ?_⟩
    rw [List.length_map] at hi
    rw [hh.vals a ha i hi, List.getElem_map])
  rwa [hl, ← e] at this

/-! ### The plane -/

theorem relPos_eq (N c p : Fin 3 → ℝ) : relPos N c (p 0) (p 1) (p 2) = side N c p := by
  unfold relPos side
  rw [Fin.sum_univ_three]

theorem irange_one (m : ℕ) : irange 1 (m : ℤ) = (List.range m).map fun (i : ℕ) => (i : ℤ) + 1 := by
  unfold irange
  rw [show ((m : ℤ) - 1 + 1).toNat = m by omega]
  exact List.map_congr_left fun i _ => add_comm _ _

variable {α : Type}

open Classical in
theorem loadTestPlane_ok {rs : List α} {po pn : α → Fin 3 → ℝ} {st : α → ℤ} {N c co : Fin 3 → ℝ} {X XOld : Fin 3 → FArr ℝ} {mask : FArr ℤ}
    (hX : ∀ k, (X k).Holds (rs.map fun r => pn r k)) (hO : ∀ k, (XOld k).Holds (rs.map fun r => po r k)) (hm : mask.Holds (rs.map st)) :
    ∃ T, loadTestPlane rs.length N c co X XOld mask = .ok T ∧ T.npnew = rs.countP (fun r => decide (Crosses N co c (po r) (pn r))) ∧
      T.rel.Holds (rs.map fun r => side N c (pn r)) ∧ T.relOld.Holds (rs.map fun r => side N co (po r)) ∧
      T.mask.Holds (rs.map fun r => if Crosses N co c (po r) (pn r) then 1 else st r) := by
  have key : ∀ j, j ≤ rs.length → ∃ T, ((List.range j).map fun (i : ℕ) => (i : ℤ) + 1).foldlM (testStep N c co X XOld)
      ⟨mask, FArr.undef rs.length, FArr.undef rs.length, 0⟩ = .ok T ∧ T.rel.n = rs.length ∧ T.relOld.n = rs.length ∧ T.mask.n = mask.n ∧
      T.npnew = (rs.take j).countP (fun r => decide (Crosses N co c (po r) (pn r))) ∧
      (∀ (i : ℕ) (h : i < rs.length), i < j → T.rel.val (i + 1) = some (side N c (pn rs[i])) ∧ T.relOld.val (i + 1) = some (side N co (po rs[i]))) ∧
      ∀ (i : ℕ) (h : i < rs.length), T.mask.val (i + 1) = some (if i < j ∧ Crosses N co c (po rs[i]) (pn rs[i]) then 1 else st rs[i]) := by
    intro j
    induction j with
    | zero =>
      refine fun _ => ⟨_, rfl, rfl, rfl, rfl, by simp, fun i _ h => absurd h (Nat.not_lt_zero i), fun i h => ?_⟩
      have := hm.2 i (by simpa using h)
      simpa using this
    | succ j ih =>
      intro hj
      obtain ⟨T, e, n1, n2, n3, c1, v1, v2⟩ := ih (by omega)
      have hjl : j < rs.length := hj
      have gX : ∀ k, (X k).get ((j : ℤ) + 1) = .ok (pn rs[j] k) := fun k => by
        rw [(hX k).get (i := j) (by simpa using hjl), List.getElem_map]
      have gO : ∀ k, (XOld k).get ((j : ℤ) + 1) = .ok (po rs[j] k) := fun k => by
        rw [(hO k).get (i := j) (by simpa using hjl), List.getElem_map]
      have hmn := hm.1
      rw [List.length_map] at hmn
      rw [List.range_succ, List.map_append, List.foldlM_append, e, except_bind_ok]
      simp only [List.map_cons, List.map_nil, List.foldlM_cons, List.foldlM_nil]
      unfold testStep
      simp only [gX, gO, except_bind_ok, relPos_eq]
      rw [FArr.set_ok _ ⟨by omega, by omega⟩, except_bind_ok, FArr.set_ok _ ⟨by omega, by omega⟩, except_bind_ok]
      have hr : ∀ (i : ℕ) (h : i < rs.length), i < j + 1 →
          Function.update T.rel.val ((j : ℤ) + 1) (some (side N c (pn rs[j]))) ((i : ℤ) + 1) = some (side N c (pn rs[i])) ∧
          Function.update T.relOld.val ((j : ℤ) + 1) (some (side N co (po rs[j]))) ((i : ℤ) + 1) = some (side N co (po rs[i])) := by
        intro i h hi
        by_cases hij : i = j
        · subst hij; simp
        · rw [Function.update_of_ne (by omega), Function.update_of_ne (by omega)]
          exact v1 i h (by omega)
      have hcnt : ((rs.take (j + 1)).countP (fun r => decide (Crosses N co c (po r) (pn r))) : ℤ) =
          T.npnew + if Crosses N co c (po rs[j]) (pn rs[j]) then 1 else 0 := by
        rw [← List.take_append_getElem hjl, List.countP_append, List.countP_singleton, c1]
        simp only [decide_eq_true_eq]
        split_ifs <;> simp
      by_cases hcr : Crosses N co c (po rs[j]) (pn rs[j])
      · rw [if_pos ⟨hcr.1, hcr.2⟩, FArr.set_ok _ ⟨by omega, by omega⟩, except_bind_ok, except_bind_ok]
        refine ⟨_, rfl, n1, n2, n3, by rw [hcnt, if_pos hcr], hr, fun i h => ?_⟩
        dsimp only
        by_cases hij : i = j
        · subst hij
          rw [Function.update_self, if_pos ⟨by omega, hcr⟩]
        · rw [Function.update_of_ne (by omega), v2 i h]
          congr 1
          by_cases hlt : i < j
          · simp [hlt, Nat.lt_succ_of_lt hlt]
          · simp [hlt, show ¬ i < j + 1 by omega]
      · rw [if_neg fun h => hcr ⟨h.1, h.2⟩, except_bind_ok]
        refine ⟨_, rfl, n1, n2, n3, by rw [hcnt, if_neg hcr, add_zero], hr, fun i h => ?_⟩
        dsimp only
        rw [v2 i h]
        congr 1
        by_cases hij : i = j
        · subst hij
          simp [hcr]
        · by_cases hlt : i < j
          · simp [hlt, Nat.lt_succ_of_lt hlt]
          · simp [hlt, show ¬ i < j + 1 by omega]
  obtain ⟨T, e, n1, n2, n3, c1, v1, v2⟩ := key rs.length le_rfl
  rw [List.take_length] at c1
  refine ⟨T, ?_, c1, ⟨by rw [List.length_map, n1], fun i h => ?_⟩, ⟨by rw [List.length_map, n2], fun i h => ?_⟩, ⟨?_, fun i h => ?_⟩⟩
  · unfold loadTestPlane
    rw [irange_one]
    exact e
  · rw [List.length_map] at h
    rw [List.getElem_map]
    exact (v1 i h h).1
  · rw [List.length_map] at h
    rw [List.getElem_map]
    exact (v1 i h h).2
  · have := hm.1
    rw [List.length_map] at this ⊢
    omega
  · rw [List.length_map] at h
    rw [List.getElem_map, v2 i h]
    simp [h]

/-- The loop of the selection: with enough room the selected values, otherwise an access out of bounds. -/
theorem select_run {rs : List α} {C : α → Bool} {v : α → ℝ} {mv : α → ℤ} {mask : FArr ℤ} {q : FArr ℝ} (hm : mask.Holds (rs.map mv)) (hC : ∀ r ∈ rs, mv r = 1 ↔ C r = true)
    (hq : q.Holds (rs.map v)) (k : ℕ) : if rs.countP C ≤ k then ∃ b, select rs.length k mask q = .ok b ∧ b.n = k ∧ b.Holds ((rs.filter C).map v)
      else select rs.length k mask q = .error .outOfBounds := by
  have key : ∀ j, j ≤ rs.length → if (rs.take j).countP C ≤ k then ∃ b, ((List.range j).map fun (i : ℕ) => (i : ℤ) + 1).foldlM (selStep mask q) (FArr.undef (k : ℤ), 1) =
        .ok (b, ((rs.take j).countP C : ℤ) + 1) ∧ b.n = k ∧ b.Holds (((rs.take j).filter C).map v)
      else ((List.range j).map fun (i : ℕ) => (i : ℤ) + 1).foldlM (selStep mask q) (FArr.undef (k : ℤ), 1) = .error .outOfBounds := by
    intro j
    induction j with
    | zero =>
      intro _
      rw [if_pos (by simp)]
      exact ⟨FArr.undef (k : ℤ), by simp, rfl, by simp [FArr.undef], fun i h => by simp at h⟩
    | succ j ih =>
      intro hj
      have hjl : j < rs.length := hj
      have ih := ih (by omega)
      have hg : mask.get ((j : ℤ) + 1) = .ok (mv rs[j]) := by rw [hm.get (i := j) (by simpa using hjl), List.getElem_map]
      have hgq : q.get ((j : ℤ) + 1) = .ok (v rs[j]) := by rw [hq.get (i := j) (by simpa using hjl), List.getElem_map]
      have hcj := hC rs[j] (List.getElem_mem hjl)
      rw [List.range_succ, List.map_append, List.foldlM_append, ← List.take_append_getElem hjl, List.countP_append, List.filter_append, List.countP_singleton]
      simp only [List.map_cons, List.map_nil, List.foldlM_cons, List.foldlM_nil]
      by_cases h0 : (rs.take j).countP C ≤ k
      · rw [if_pos h0] at ih
        obtain ⟨b, e, nb, hb⟩ := ih
        rw [e, except_bind_ok]
        unfold selStep
        rw [hg, except_bind_ok, hgq]
        by_cases h1 : C rs[j] = true
        · rw [if_pos h1, if_pos (hcj.mpr h1), except_bind_ok]
          have hlen : (((rs.take j).filter C).map v).length = (rs.take j).countP C := by rw [List.length_map, List.countP_eq_length_filter]
          by_cases h2 : (rs.take j).countP C + 1 ≤ k
          · rw [if_pos h2, FArr.set_ok _ ⟨by dsimp only; omega, by dsimp only; omega⟩]
            refine ⟨_, rfl, nb, ?_, fun i hi => ?_⟩
            · rw [List.filter_singleton, h1, cond_true, List.map_append, List.length_append, hlen]
              simp only [List.map_cons, List.map_nil, List.length_singleton]
              omega
            · simp only [List.filter_singleton, h1, cond_true, List.map_append, List.map_cons, List.map_nil] at hi ⊢
              rw [List.length_append, hlen, List.length_singleton] at hi
              by_cases h3 : i < (rs.take j).countP C
              · rw [Function.update_of_ne (by omega), List.getElem_append_left (by omega)]
                exact hb.2 i (by omega)
              · have : i = (rs.take j).countP C := by omega
                subst this
                rw [Function.update_self, List.getElem_append_right (by omega)]
                simp
          · rw [if_neg h2, FArr.set_oob _ (by dsimp only; omega)]
            rfl
        · rw [if_neg h1, if_neg fun h => h1 (hcj.mp h), add_zero, if_pos h0, except_bind_ok]
          refine ⟨b, rfl, nb, ?_⟩
          rw [List.filter_singleton, Bool.eq_false_iff.mpr h1, cond_false, List.append_nil]
          exact hb
      · rw [if_neg h0] at ih
        rw [if_neg (by omega), ih]
        rfl
  have := key rs.length le_rfl
  rw [List.take_length] at this
  unfold select
  rw [irange_one]
  split_ifs at this ⊢ with h
  · obtain ⟨b, e, nb, hb⟩ := this
    exact ⟨b, by rw [e]; rfl, nb, hb⟩
  · rw [this]
    rfl

theorem interp_ok {ss : List α} {ro r pv cv : α → ℝ} {RO R P C : FArr ℝ} (hro : RO.Holds (ss.map ro)) (hr : R.Holds (ss.map r)) (hp : P.Holds (ss.map pv)) (hc : C.Holds (ss.map cv))
    (h0 : ∀ s ∈ ss, |ro s| + r s ≠ 0) : ∃ b, (irange 1 (ss.length : ℤ)).foldlM (interpStep R RO P C) (FArr.undef ss.length) = .ok b ∧ b.n = ss.length ∧
      b.Holds (ss.map fun s => |ro s| * (1 / (|ro s| + r s)) * cv s + r s * (1 / (|ro s| + r s)) * pv s) := by
  rw [irange_one]
  have key : ∀ j, j ≤ ss.length → ∃ b, ((List.range j).map fun (i : ℕ) => (i : ℤ) + 1).foldlM (interpStep R RO P C) (FArr.undef ss.length) = .ok b ∧ b.n = ss.length ∧
      ∀ (i : ℕ) (h : i < ss.length), i < j → b.val (i + 1) =
        some (|ro ss[i]| * (1 / (|ro ss[i]| + r ss[i])) * cv ss[i] + r ss[i] * (1 / (|ro ss[i]| + r ss[i])) * pv ss[i]) := by
    intro j
    induction j with
    | zero => exact fun _ => ⟨_, rfl, rfl, fun i _ h => absurd h (Nat.not_lt_zero i)⟩
    | succ j ih =>
      intro hj
      have hjl : j < ss.length := hj
      obtain ⟨b, e, nb, hb⟩ := ih (by omega)
      have g : ∀ {a : FArr ℝ} {f : α → ℝ}, a.Holds (ss.map f) → a.get ((j : ℤ) + 1) = .ok (f ss[j]) := fun {a f} ha => by
        rw [ha.get (i := j) (by simpa using hjl), List.getElem_map]
      rw [List.range_succ, List.map_append, List.foldlM_append, e, except_bind_ok]
      simp only [List.map_cons, List.map_nil, List.foldlM_cons, List.foldlM_nil]
      unfold interpStep
      rw [g hro, except_bind_ok, g hr, except_bind_ok, if_neg (h0 _ (List.getElem_mem hjl)), g hc, except_bind_ok, g hp, except_bind_ok,
        FArr.set_ok _ ⟨by omega, by omega⟩]
      refine ⟨_, rfl, nb, fun i h hi => ?_⟩
      dsimp only
      by_cases hij : i = j
      · subst hij; rw [Function.update_self]
      · rw [Function.update_of_ne (by omega)]
        exact hb i h (by omega)
  obtain ⟨b, e, nb, hb⟩ := key ss.length le_rfl
  refine ⟨b, e, nb, by rw [List.length_map, nb], fun i h => ?_⟩
  rw [List.length_map] at h
  rw [List.getElem_map]
  exact hb i h h

theorem side_on (N co c po p : Fin 3 → ℝ) (t : ℝ) : side N (on t co c) (on t po p) = (1 - t) * side N co po + t * side N c p := by
  unfold side on
  simp only [Fin.sum_univ_three]
  ring

theorem onPlane_iff {N co c po p : Fin 3 → ℝ} (h : Crosses N co c po p) (t : ℝ) :
    OnPlane N co c po p t ↔ t = |side N co po| * (1 / (|side N co po| + side N c p)) := by
  obtain ⟨h1, h2⟩ := h
  rw [abs_of_nonpos h1]
  have hd : 0 < -side N co po + side N c p := by linarith
  unfold OnPlane
  rw [side_on]
  constructor
  · rintro ⟨-, -, h⟩
    field_simp
    linarith
  · rintro rfl
    refine ⟨by apply mul_nonneg <;> [linarith; positivity], ?_, ?_⟩
    · rw [mul_one_div, div_lt_one hd]
      linarith
    · field_simp
      ring

end Picsar.PlaneDiag
