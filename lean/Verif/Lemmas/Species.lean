import Verif.Spec.Species
import Verif.Lemmas.LookupTables

namespace Picsar.Species
open Picsar Picsar.Spec

theorem soa_num (l : List Particle) : (soa l).num = l.length := by simp [soa, Arrays.num]

theorem soa_consistent (l : List Particle) : Consistent (soa l) := by
  intro n hn
  simp [lens, soa] at hn
  simp [soa_num, hn]

theorem consistent_soa {s : Arrays} (h : Consistent s) : ∃ l, s = soa l := by
  obtain ⟨x, y, z, px, py, pz, ex, ey, ez, bx, by', bz, depth, flag⟩ := s
  simp only [Consistent, lens, Arrays.num, List.mem_cons, List.not_mem_nil, or_false, forall_eq_or_imp, forall_eq] at h
  obtain ⟨-, hy, hz, hpx, hpy, hpz, hex, hey, hez, hbx, hby, hbz, hd, hf⟩ := h
  refine ⟨(List.range x.length).map fun (i : ℕ) => ⟨x[i]?.getD 0, y[i]?.getD 0, z[i]?.getD 0, px[i]?.getD 0, py[i]?.getD 0,
    pz[i]?.getD 0, ex[i]?.getD 0, ey[i]?.getD 0, ez[i]?.getD 0, bx[i]?.getD 0, by'[i]?.getD 0, bz[i]?.getD 0,
    depth[i]?.getD 0, flag[i]?.getD false⟩, ?_⟩
  have key : ∀ {α : Type} (d : α) (l : List α) (n : ℕ), l.length = n → l = (List.range n).map fun (i : ℕ) => l[i]?.getD d := by
    intro α d l n hn
    subst hn
    apply List.ext_getElem
    · simp
    · intro i h1 h2
      simp [List.getElem?_eq_getElem h1]
  simp only [soa, List.map_map, Function.comp_def]
  rw [← key 0 x _ rfl, ← key 0 y _ hy, ← key 0 z _ hz, ← key 0 px _ hpx, ← key 0 py _ hpy, ← key 0 pz _ hpz,
    ← key 0 ex _ hex, ← key 0 ey _ hey, ← key 0 ez _ hez, ← key 0 bx _ hbx, ← key 0 by' _ hby, ← key 0 bz _ hbz,
    ← key 0 depth _ hd, ← key false flag _ hf]

theorem each_soa {f : ∀ {α : Type}, List α → Res (List α)} {l l' : List Particle}
    (h : ∀ {β : Type} (g : Particle → β), f (l.map g) = .ok (l'.map g)) : (soa l).each f = .ok (soa l') := by
  unfold Arrays.each soa
  simp only [h, except_bind_ok]
  rfl

theorem each_soa_err {f : ∀ {α : Type}, List α → Res (List α)} {l : List Particle} {e : Fault}
    (h : ∀ {β : Type} (g : Particle → β), f (l.map g) = .error e) : (soa l).each f = .error e := by
  unfold Arrays.each soa
  simp only [h, except_bind_error]

theorem map_eraseIdx' {α β : Type} (g : α → β) (l : List α) (i : ℕ) : (l.map g).eraseIdx i = (l.eraseIdx i).map g := by
  induction l generalizing i with
  | nil => simp
  | cons a l ih => cases i <;> simp [ih]

theorem removeParticle_soa (l : List Particle) (i : ℕ) :
    removeParticle (soa l) i = if i < l.length then .ok (soa (l.eraseIdx i)) else .error .outOfBounds := by
  split
  · rename_i h
    exact each_soa fun g => by simp [erase1, h, map_eraseIdx']
  · rename_i h
    exact each_soa_err fun g => by simp [erase1, h]

theorem removeToEnd_soa (l : List Particle) (i : ℕ) :
    removeToEnd (soa l) i = if i ≤ l.length then .ok (soa (l.take i)) else .error .outOfBounds := by
  split
  · rename_i h
    exact each_soa fun g => by simp [eraseToEnd, h]
  · rename_i h
    exact each_soa_err fun g => by simp [eraseToEnd, h]

theorem overwrite_soa {l : List Particle} {i j : ℕ} (hi : i < l.length) (hj : j < l.length) :
    overwrite (soa l) i j = .ok (soa (l.set j l[i])) := by
  apply each_soa
  intro β g
  unfold copyElem
  rw [rd_ok (by simpa using hi)]
  simp only [except_bind_ok]
  rw [wr_ok (by simpa using hj)]
  simp [List.map_set]

theorem addParticle_soa (l : List Particle) (x y z px py pz : ℝ) :
    addParticle (soa l) x y z px py pz = soa (l ++ [⟨x, y, z, px, py, pz, 0, 0, 0, 0, 0, 0, 0, false⟩]) := by
  simp [addParticle, soa]

theorem readParticle_soa {l : List Particle} {i : ℕ} (hi : i < l.length) : readParticle (soa l) i = .ok l[i] := by
  unfold readParticle soa
  simp only [rd, List.getElem?_map, List.getElem?_eq_getElem hi, Option.map_some, except_bind_ok]
  rfl

theorem writeFields_soa {l : List Particle} {i : ℕ} (hi : i < l.length) (f : ℝ × ℝ × ℝ × ℝ × ℝ × ℝ) :
    writeFields (soa l) i f = .ok (soa (l.set i (setFields l[i] f))) := by
  unfold writeFields soa
  simp only [wr, List.length_map, hi, if_true, except_bind_ok, pure, Except.pure, List.map_set, setFields]
  have : ∀ {β : Type} (g : Particle → β), (l.map g) = (l.map g).set i (g l[i]) := by
    intro β g
    apply List.ext_getElem?
    intro k
    rw [List.getElem?_set]
    split
    · rename_i h; subst h; simp [hi]
    · rfl
  rw [← this (·.x), ← this (·.y), ← this (·.z), ← this (·.px), ← this (·.py), ← this (·.pz), ← this (·.depth), ← this (·.flag)]

theorem map_set_self {β : Type} {l : List Particle} {i : ℕ} (hi : i < l.length) (g : Particle → β) :
    (l.map g).set i (g l[i]) = l.map g := by
  apply List.ext_getElem?
  intro k
  rw [List.getElem?_set]
  split
  · rename_i h; subst h; simp [hi]
  · rfl

theorem writePos_soa {l : List Particle} {i : ℕ} (hi : i < l.length) (q : ℝ × ℝ × ℝ) :
    writePos (soa l) i q.1 q.2.1 q.2.2 = .ok (soa (l.set i (setPos l[i] q))) := by
  unfold writePos soa
  simp only [wr, List.length_map, hi, if_true, except_bind_ok, pure, Except.pure, List.map_set, setPos, map_set_self hi]

theorem writeMom_soa {l : List Particle} {i : ℕ} (hi : i < l.length) (q : ℝ × ℝ × ℝ) :
    writeMom (soa l) i q.1 q.2.1 q.2.2 = .ok (soa (l.set i (setMom l[i] q))) := by
  unfold writeMom soa
  simp only [wr, List.length_map, hi, if_true, except_bind_ok, pure, Except.pure, List.map_set, setMom, map_set_self hi]

/-- A loop whose body replaces particle `i` by `g` of it. -/
theorem forParts_soa {body : ℕ → Arrays → Res Arrays} {g : Particle → Particle}
    (hb : ∀ (l : List Particle) (i : ℕ) (hi : i < l.length), body i (soa l) = .ok (soa (l.set i (g l[i])))) :
    ∀ (suf pre : List Particle), forParts body (List.range' pre.length suf.length) (soa (pre ++ suf)) =
      .ok (soa (pre ++ suf.map g))
  | [], pre => by simp [forParts]
  | p :: suf, pre => by
    rw [List.length_cons, List.range'_succ, forParts, hb _ _ (by simp)]
    simp only [except_bind_ok]
    have : (pre ++ p :: suf).set pre.length (g (pre ++ p :: suf)[pre.length]) = (pre ++ [g p]) ++ suf := by simp
    rw [this]
    have ih := forParts_soa hb suf (pre ++ [g p])
    simp only [List.length_append, List.length_cons, List.length_nil] at ih
    rw [ih]
    simp

theorem forAll_soa {body : ℕ → Arrays → Res Arrays} {g : Particle → Particle}
    (hb : ∀ (l : List Particle) (i : ℕ) (hi : i < l.length), body i (soa l) = .ok (soa (l.set i (g l[i]))))
    (l : List Particle) : forParts body (List.range (soa l).num) (soa l) = .ok (soa (l.map g)) := by
  have h := forParts_soa hb l []
  rw [soa_num, List.range_eq_range']
  simpa using h

/-! ### Removal -/

/-- What the search for a particle to move finds. -/
theorem findFill_spec (kills : List ℕ) (ki : ℕ) : ∀ (last : ℕ),
    (∃ src, findFill kills ki last = (some src, src - 1) ∧ ki < src ∧ src ≤ last ∧ src ∉ kills ∧
      ∀ j, src < j → j ≤ last → j ∈ kills) ∨
    (findFill kills ki last = (none, min ki last) ∧ ∀ j, ki < j → j ≤ last → j ∈ kills)
  | 0 => by
    right
    exact ⟨by simp [findFill], fun j h1 h2 => by omega⟩
  | last + 1 => by
    rw [findFill]
    by_cases h : last + 1 > ki
    · rw [if_pos h]
      by_cases hm : last + 1 ∈ kills
      · rw [if_neg (by simpa using hm)]
        rcases findFill_spec kills ki last with ⟨src, h1, h2, h3, h4, h5⟩ | ⟨h1, h2⟩
        · left
          refine ⟨src, h1, h2, by omega, h4, fun j hj1 hj2 => ?_⟩
          rcases Nat.lt_or_ge last j with hlt | hge
          · have : j = last + 1 := by omega
            rw [this]; exact hm
          · exact h5 j hj1 hge
        · right
          refine ⟨?_, fun j hj1 hj2 => ?_⟩
          · rw [h1]; simp only [Prod.mk.injEq, true_and]; omega
          · rcases Nat.lt_or_ge last j with hlt | hge
            · have : j = last + 1 := by omega
              rw [this]; exact hm
            · exact h2 j hj1 hge
      · rw [if_pos (by simpa using hm)]
        left
        exact ⟨last + 1, rfl, h, le_refl _, hm, fun j h1 h2 => by omega⟩
    · rw [if_neg h]
      right
      refine ⟨?_, fun j h1 h2 => by omega⟩
      simp only [Prod.mk.injEq, true_and]; omega

/-- The particles in the positions below `b` that are not about to be removed. -/
def kept (l : List Particle) (b : ℕ) (ks : List ℕ) : List Particle :=
  ((List.range b).filter (· ∉ ks)).filterMap fun i => l[i]?

theorem kept_nil {l : List Particle} {b : ℕ} {ks : List ℕ} (h : ∀ k ∈ ks, b ≤ k) : kept l b ks = l.take b := by
  unfold kept
  have : (List.range b).filter (· ∉ ks) = List.range b := by
    apply List.filter_eq_self.mpr
    intro i hi
    simp only [List.mem_range] at hi
    simp only [decide_eq_true_eq]
    intro hk
    exact absurd (h i hk) (by omega)
  rw [this]
  induction b with
  | zero => simp
  | succ b ih =>
    rw [List.range_succ, List.filterMap_append, ih (fun k hk => by have := h k hk; omega)
      (List.filter_eq_self.mpr fun i hi => by
        simp only [List.mem_range] at hi
        simp only [decide_eq_true_eq]
        intro hk
        exact absurd (h i hk) (by omega)), List.take_add_one]
    congr 1

theorem kept_step {l : List Particle} {b : ℕ} {ks : List ℕ} (h : b ∈ ks) : kept l (b + 1) ks = kept l b ks := by
  unfold kept
  rw [List.range_succ, List.filter_append]
  simp [h]

theorem kept_shrink {l : List Particle} {b c : ℕ} {ks : List ℕ} (hbc : b ≤ c) (h : ∀ j, b ≤ j → j < c → j ∈ ks) :
    kept l c ks = kept l b ks := by
  induction c with
  | zero => have : b = 0 := by omega
            rw [this]
  | succ c ih =>
    rcases Nat.lt_or_ge c b with h1 | h1
    · have : b = c + 1 := by omega
      rw [this]
    · rw [kept_step (h c h1 (by omega))]
      exact ih h1 fun j h2 h3 => h j h2 (by omega)

theorem kept_move {l : List Particle} {ki src : ℕ} {ks : List ℕ} (hlt : ki < src) (hsrc : src < l.length)
    (hks : src ∉ ki :: ks) (hki : ki ∉ ks) :
    (kept (l.set ki l[src]) src ks).Perm (kept l (src + 1) (ki :: ks)) := by
  have h1 : kept l (src + 1) (ki :: ks) = kept l src (ki :: ks) ++ [l[src]] := by
    unfold kept
    rw [List.range_succ, List.filter_append, List.filterMap_append]
    congr 1
    simp only [List.filter_cons, hks, not_false_eq_true, decide_true, if_true, List.filter_nil, List.filterMap_cons,
      List.filterMap_nil, List.getElem?_eq_getElem hsrc]
  have h2 : ((List.range src).filter (· ∉ ks)).Perm (ki :: (List.range src).filter (· ∉ ki :: ks)) := by
    rw [List.perm_ext_iff_of_nodup]
    · intro i
      simp only [List.mem_filter, List.mem_range, List.mem_cons, decide_eq_true_eq, not_or]
      constructor
      · rintro ⟨a, b⟩
        by_cases h : i = ki
        · exact Or.inl h
        · exact Or.inr ⟨a, h, b⟩
      · rintro (rfl | ⟨a, _, b⟩)
        · exact ⟨hlt, hki⟩
        · exact ⟨a, b⟩
    · exact List.Nodup.filter _ List.nodup_range
    · refine List.nodup_cons.mpr ⟨?_, List.Nodup.filter _ List.nodup_range⟩
      simp
  have h3 : kept (l.set ki l[src]) src (ki :: ks) = kept l src (ki :: ks) := by
    unfold kept
    apply List.filterMap_congr
    intro i hi
    simp only [List.mem_filter, List.mem_range, List.mem_cons, decide_eq_true_eq, not_or] at hi
    rw [List.getElem?_set_ne (Ne.symm hi.2.1)]
  have h4 : (kept (l.set ki l[src]) src ks).Perm (l[src] :: kept l src (ki :: ks)) := by
    rw [← h3]
    unfold kept
    refine (h2.filterMap _).trans ?_
    rw [List.filterMap_cons, List.getElem?_set_self (by omega)]
  rw [h1]
  exact h4.trans (List.perm_append_comm (l₁ := [l[src]]))

theorem killLoop_done (kills : List ℕ) (s : Arrays) : ∀ (ks : List ℕ) (last : ℕ), (∀ k ∈ ks, last ≤ k) →
    killLoop kills ks last s = .ok s
  | [], _, _ => rfl
  | ki :: ks, last, h => by
    have h0 := h ki (by simp)
    have : findFill kills ki last = (none, last) := by
      cases last with
      | zero => rfl
      | succ last => rw [findFill, if_neg (by omega)]
    rw [killLoop, this]
    exact killLoop_done kills s ks last fun k hk => h k (by simp [hk])

theorem killLoop_spec (kills : List ℕ) : ∀ (ks : List ℕ) (last : ℕ) (l : List Particle),
    ks.Pairwise (· < ·) → (∀ k ∈ ks, k ∈ kills) → (∀ j ∈ kills, j ∈ ks ∨ ∀ k ∈ ks, j < k) → last < l.length →
    ∃ l' c, killLoop kills ks last (soa l) = .ok (soa l') ∧ l'.length = l.length ∧ c ≤ l.length ∧
      (l'.take c).Perm (kept l (last + 1) ks)
  | [], last, l, _, _, _, hl => by
    refine ⟨l, last + 1, rfl, rfl, hl, ?_⟩
    rw [kept_nil (by simp)]
  | ki :: ks, last, l, hs, hsub, hk, hl => by
    have hlt : ∀ k ∈ ks, ki < k := (List.pairwise_cons.mp hs).1
    have hin : ∀ j, ki < j → j ∈ kills → j ∈ ki :: ks := by
      intro j h1 h2
      rcases hk j h2 with h3 | h3
      · exact h3
      · exact absurd (h3 ki (by simp)) (by omega)
    rcases findFill_spec kills ki last with ⟨src, h1, h2, h3, h4, h5⟩ | ⟨h1, h2⟩
    · have hsrc : src < l.length := by omega
      obtain ⟨l', c, g1, g2, g3, g4⟩ := killLoop_spec kills ks (src - 1) (l.set ki l[src]) (List.pairwise_cons.mp hs).2
        (fun k hk' => hsub k (by simp [hk'])) (by
          intro j hj
          rcases hk j hj with h | h
          · rcases List.mem_cons.mp h with rfl | h
            · exact Or.inr hlt
            · exact Or.inl h
          · exact Or.inr fun k hk' => h k (by simp [hk'])) (by simp; omega)
      refine ⟨l', c, ?_, by simpa using g2, by simpa using g3, ?_⟩
      · rw [killLoop, h1]
        simp only [overwrite_soa hsrc (show ki < l.length by omega), except_bind_ok, g1]
      · rw [show src - 1 + 1 = src by omega] at g4
        refine g4.trans ((kept_move h2 hsrc (fun h => h4 (hsub _ h)) (fun h => by have := hlt _ h; omega)).trans ?_)
        rw [kept_shrink (b := src + 1) (c := last + 1) (by omega)]
        intro j hj1 hj2
        exact hin j (by omega) (h5 j (by omega) (by omega))
    · refine ⟨l, min ki (last + 1), ?_, rfl, by omega, ?_⟩
      · rw [killLoop, h1]
        exact killLoop_done _ _ _ _ fun k hk' => by have := hlt k hk'; omega
      · rcases Nat.lt_or_ge last ki with h | h
        · rw [show min ki (last + 1) = last + 1 by omega, kept_nil]
          intro k hk'
          rcases List.mem_cons.mp hk' with rfl | hk'
          · omega
          · have := hlt k hk'; omega
        · rw [show min ki (last + 1) = ki by omega, kept_shrink (b := ki) (c := last + 1) (by omega), kept_nil]
          · intro k hk'
            rcases List.mem_cons.mp hk' with rfl | hk'
            · omega
            · have := hlt k hk'; omega
          · intro j hj1 hj2
            rcases Nat.lt_or_ge ki j with h' | h'
            · exact hin j h' (h2 j h' (by omega))
            · have : j = ki := by omega
              rw [this]; simp

/-- The positions that are not in `kills`. -/
theorem kept_length {l : List Particle} {ks : List ℕ} (hs : ks.Pairwise (· < ·)) (hr : ∀ k ∈ ks, k < l.length) :
    (kept l l.length ks).length + ks.length = l.length := by
  unfold kept
  have h1 : (((List.range l.length).filter (· ∉ ks)).filterMap fun i => l[i]?).length =
      ((List.range l.length).filter (· ∉ ks)).length := by
    have : ∀ (m : List ℕ), (∀ i ∈ m, i < l.length) → (m.filterMap fun i => l[i]?).length = m.length := by
      intro m
      induction m with
      | nil => simp
      | cons i m ih =>
        intro h
        rw [List.filterMap_cons, List.getElem?_eq_getElem (h i (by simp))]
        simp [ih fun i hi => h i (by simp [hi])]
    apply this
    intro i hi
    simp at hi
    exact hi.1
  rw [h1]
  have h2 : ((List.range l.length).filter (· ∈ ks)).length = ks.length := by
    apply List.Perm.length_eq
    rw [List.perm_ext_iff_of_nodup (List.Nodup.filter _ List.nodup_range) (hs.imp (fun h => Nat.ne_of_lt h))]
    intro i
    simp only [List.mem_filter, List.mem_range, decide_eq_true_eq]
    exact ⟨fun h => h.2, fun h => ⟨hr i h, h⟩⟩
  have h3 := List.length_eq_length_filter_add (l := List.range l.length) (fun i => decide (i ∈ ks))
  rw [List.length_range] at h3
  have h4 : ((List.range l.length).filter (· ∉ ks)) = (List.range l.length).filter (fun i => !decide (i ∈ ks)) := by
    congr 1
    funext i
    simp
  rw [h4]
  omega

theorem removeSorted_soa {l : List Particle} {kills : List ℕ} (hs : kills.Pairwise (· < ·))
    (hr : ∀ k ∈ kills, k < l.length) (hsz : l.length < 2 ^ 64) :
    ∃ l', removeSorted (soa l) kills = .ok (soa l') ∧ l'.Perm (kept l l.length kills) := by
  have hlen := kept_length hs hr
  have hmain : ∃ l1 c, killLoop kills kills (((soa l).num + (2 ^ 64 - 1)) % 2 ^ 64) (soa l) = .ok (soa l1) ∧
      l1.length = l.length ∧ c ≤ l.length ∧ (l1.take c).Perm (kept l l.length kills) := by
    rcases Nat.eq_zero_or_pos l.length with h0 | h0
    · have hk : kills = [] := by
        cases kills with
        | nil => rfl
        | cons k ks => have := hr k (by simp); omega
      refine ⟨l, 0, ?_, rfl, by omega, ?_⟩
      · rw [hk]; rfl
      · have : l = [] := List.length_eq_zero_iff.mp h0
        rw [this]; simp [kept]
    · rw [soa_num, show (l.length + (2 ^ 64 - 1)) % 2 ^ 64 = l.length - 1 by omega]
      obtain ⟨l1, c, h1, h2, h3, h4⟩ := killLoop_spec kills kills (l.length - 1) l hs (fun k h => h) (fun j h => Or.inl h) (by omega)
      rw [show l.length - 1 + 1 = l.length by omega] at h4
      exact ⟨l1, c, h1, h2, h3, h4⟩
  obtain ⟨l1, c, h1, h2, h3, h4⟩ := hmain
  have hc : c = l.length - kills.length := by
    have := h4.length_eq
    rw [List.length_take, h2] at this
    omega
  have hn : (l1.length + (2 ^ 64 - kills.length)) % 2 ^ 64 = c := by omega
  refine ⟨l1.take c, ?_, h4⟩
  unfold removeSorted
  rw [h1]
  simp only [except_bind_ok]
  rw [soa_num, hn, removeToEnd_soa, if_pos (by omega)]

theorem collect_soa {l : List Particle} {sel : Particle → Bool} : ∀ (is : List ℕ), (∀ i ∈ is, i < l.length) →
    collect (soa l) sel is = .ok (is.filter fun i => (l[i]?.map sel).getD false)
  | [], _ => rfl
  | i :: is, h => by
    have hi := h i (by simp)
    rw [collect, readParticle_soa hi, collect_soa is fun j hj => h j (by simp [hj])]
    simp only [except_bind_ok, List.filter_cons, List.getElem?_eq_getElem hi, Option.map_some, Option.getD_some]
    rfl

theorem kept_filter (l : List Particle) (sel : Particle → Bool) :
    kept l l.length ((List.range l.length).filter fun i => (l[i]?.map sel).getD false) = l.filter (fun p => !sel p) := by
  unfold kept
  have h1 : (List.range l.length).filter (· ∉ (List.range l.length).filter fun i => (l[i]?.map sel).getD false) =
      (List.range l.length).filter (fun i => !(l[i]?.map sel).getD false) := by
    apply List.filter_congr
    intro i hi
    simp only [List.mem_range] at hi
    simp [List.mem_filter, hi]
  rw [h1]
  clear h1
  induction l using List.reverseRecOn with
  | nil => simp
  | append_singleton l p ih =>
    rw [List.length_append, List.length_singleton, List.range_succ, List.filter_append, List.filterMap_append, List.filter_append]
    congr 1
    · rw [← ih]
      have e : ∀ i ∈ List.range l.length, (l ++ [p])[i]? = l[i]? := by
        intro i hi
        rw [List.getElem?_append_left (by simpa using hi)]
      rw [List.filter_congr fun i hi => by rw [e i hi]]
      apply List.filterMap_congr
      intro i hi
      exact e i (List.mem_filter.mp hi).1
    · simp only [List.filter_cons, List.getElem?_append_right (Nat.le_refl l.length), Nat.sub_self, List.getElem?_cons_zero,
        Option.map_some, Option.getD_some, List.filter_nil]
      cases sel p <;> simp

end Picsar.Species
