import Verif.Lemmas.Combined
/-
The exchange between tiles and processes: the send buffers.
-/
namespace Picsar.Combined
open Picsar Picsar.Grid Picsar.Tiling Picsar.ParticleBcs Picsar.PartExchange

variable {n : ℕ}

theorem set_holds {a : FArr (Part n)} {l : List (Part n)} (h : a.Holds l) (p : Part n) (hl : (l.length : ℤ) + 1 ≤ a.n) :
    ∃ a', a.set (l.length + 1) p = .ok a' ∧ a'.n = a.n ∧ a'.Holds (l ++ [p]) := by
  refine ⟨_, FArr.set_ok p ⟨by omega, hl⟩, rfl, by simpa using hl, fun i hi => ?_⟩
  dsimp only
  by_cases hil : i < l.length
  · rw [Function.update_of_ne (by omega), List.getElem_append_left hil]
    exact h.2 i hil
  · have : i = l.length := by simp at hi; omega
    subst this
    rw [Function.update_self]
    simp

theorem copyRows_ok {src dst : FArr (Part n)} {l l0 : List (Part n)} (hs : src.Holds l) (hd : dst.Holds l0) {j : ℤ} (hj : j = l0.length) :
    ∀ k : ℕ, k ≤ l.length → (l0.length : ℤ) + k ≤ dst.n → ∃ dst', copyRows src j k dst = .ok dst' ∧ dst'.n = dst.n ∧ dst'.Holds (l0 ++ l.take k) := by
  intro k
  induction k with
  | zero => intro _ _; exact ⟨dst, rfl, rfl, by simpa using hd⟩
  | succ k ih =>
    intro hk hn
    push_cast at hn
    obtain ⟨d1, e1, n1, h1⟩ := ih (by omega) (by omega)
    have hlen : (l0 ++ l.take k).length = l0.length + k := by simp; omega
    obtain ⟨d2, e2, n2, h2⟩ := set_holds h1 l[k] (by rw [hlen, n1]; push_cast; omega)
    refine ⟨d2, ?_, by rw [n2, n1], ?_⟩
    · rw [copyRows, e1]
      simp only [except_bind_ok]
      rw [hs.get (by omega)]
      simp only [except_bind_ok]
      rw [← e2]
      congr 1
      rw [hlen, hj]; push_cast; ring
    · rw [← List.take_append_getElem (show k < l.length by omega), ← List.append_assoc]
      exact h2

theorem fillTile_ok {b : TBuf n} {B : ℤ → List (Part n)} (h : TBHolds b B) {ib : ℤ} {x : ℤ × FArr (Part n)} {l0 : List (Part n)} (h1 : x.1 = l0.length) (h2 : x.2.Holds l0)
    (hn : (l0.length : ℤ) + (B ib).length ≤ x.2.n) :
    ∃ x' : ℤ × FArr (Part n), fillTile b ib x = .ok x' ∧ x'.1 = ((l0 ++ B ib).length : ℕ) ∧ x'.2.n = x.2.n ∧ x'.2.Holds (l0 ++ B ib) := by
  have hnp := h.np ib
  have hsrc : (b.rows ib).Holds (B ib) := ⟨by rw [h.size]; exact (h.room ib).le, h.vals ib⟩
  unfold fillTile
  by_cases h0 : b.np ib = 0
  · rw [if_pos h0]
    have : B ib = [] := List.length_eq_zero_iff.mp (by omega)
    exact ⟨x, rfl, by rw [this]; simpa using h1, rfl, by rw [this]; simpa using h2⟩
  · rw [if_neg h0]
    obtain ⟨a, e, na, ha⟩ := copyRows_ok hsrc h2 h1 (B ib).length le_rfl hn
    rw [hnp, Int.toNat_natCast, e]
    simp only [except_bind_ok]
    exact ⟨_, rfl, by dsimp only; rw [h1]; simp, na, by simpa using ha⟩

theorem fillTiles_ok {tb : I3 → TBuf n} {X : I3 → ℤ → List (Part n)} {ib : ℤ} : ∀ (us : List I3), (∀ u ∈ us, TBHolds (tb u) (X u)) →
    ∀ (x : ℤ × FArr (Part n)) (l0 : List (Part n)), x.1 = l0.length → x.2.Holds l0 → (l0.length : ℤ) + (us.map fun v => ((X v ib).length : ℤ)).sum ≤ x.2.n →
    ∃ x' : ℤ × FArr (Part n), us.foldlM (fun x u => fillTile (tb u) ib x) x = .ok x' ∧ x'.1 = ((l0 ++ us.flatMap fun v => X v ib).length : ℕ) ∧
      x'.2.Holds (l0 ++ us.flatMap fun v => X v ib) := by
  intro us
  induction us with
  | nil => exact fun _ x l0 h1 h2 _ => ⟨x, rfl, by simpa using h1, by simpa using h2⟩
  | cons u us ih =>
    intro ht x l0 h1 h2 hn
    rw [List.map_cons, List.sum_cons] at hn
    have hpos : 0 ≤ (us.map fun v => ((X v ib).length : ℤ)).sum := List.sum_nonneg (by simp)
    obtain ⟨x1, e1, c1, n1, g1⟩ := fillTile_ok (ht u (by simp)) (ib := ib) h1 h2 (by omega)
    obtain ⟨x2, e2, c2, g2⟩ := ih (fun v hv => ht v (by simp [hv])) x1 _ c1 g1 (by rw [n1]; simp; omega)
    refine ⟨x2, ?_, by simpa using c2, by simpa using g2⟩
    rw [List.foldlM_cons, e1]
    exact e2

theorem rowsOf_ok {a : FArr (Part n)} {l : List (Part n)} (h : a.Holds l) : ∀ k : ℕ, k ≤ l.length → rowsOf a k = .ok (l.take k) := by
  intro k
  induction k with
  | zero => intro _; rfl
  | succ k ih =>
    intro hk
    rw [rowsOf, ih (by omega)]
    simp only [except_bind_ok]
    rw [h.get (show k < l.length by omega)]
    simp only [except_bind_ok]
    rw [List.take_append_getElem]

theorem le_foldl_max : ∀ (l : List ℤ) (m x : ℤ), (x ≤ m ∨ x ∈ l) → x ≤ l.foldl max m := by
  intro l
  induction l with
  | nil => intro m x h; simpa using h
  | cons a l ih =>
    intro m x h
    rw [List.foldl_cons]
    refine ih _ _ ?_
    rcases h with h | h
    · exact .inl (le_trans h (le_max_left _ _))
    · rcases List.mem_cons.mp h with rfl | h
      · exact .inl (le_max_right _ _)
      · exact .inr h

theorem le_maxval {K : ℕ} {cnt : ℕ → ℤ → ℤ} {is : ℕ} (h : is < K) {ib : ℤ} (hi : 1 ≤ ib ∧ ib ≤ 27) : cnt is ib ≤ maxval K cnt := by
  unfold maxval
  refine le_foldl_max _ _ _ (.inr ?_)
  rw [List.mem_flatMap]
  refine ⟨is, List.mem_range.mpr h, List.mem_map.mpr ⟨ib, ?_, rfl⟩⟩
  rw [mem_irange]; exact hi

theorem sum_flatMap (us : List I3) (f : I3 → List (Part n)) : ((us.flatMap f : List (Part n)) : Multiset (Part n)) = (us.map fun u => (f u : Multiset (Part n))).sum := by
  induction us with
  | nil => rfl
  | cons u us ih => rw [List.flatMap_cons, ← Multiset.coe_add, ih]; simp

/-- What is sent in direction `d`. -/
def rowsTo (nt : I3) (X : I3 → ℤ → List (Part n)) (d : I3) : List (Part n) := (box ⟨1, 1, 1⟩ nt).flatMap fun v => X v (ibOf d)

theorem sendDir_ok {P : Proc n} {S : Species n} {L : I3 → List (Part n)} {s : Sc3 n} {M : I3 → List (Part n)} {X : I3 → ℤ → List (Part n)} (h : Moved P S L s M X) {mx : ℤ}
    {d : I3} (hd : d ∈ dirs) (hm : s.cnt (ibOf d) ≤ mx) : sendDir mx s d = .ok ((rowsTo S.nt X d).length, colMajor (rowsTo S.nt X d)) ∧
      (rowsTo S.nt X d : Multiset (Part n)) = leaving P S.nt L d := by
  rw [h.cnt] at hm
  obtain ⟨x, e, c, g⟩ := fillTiles_ok (tb := s.tb) (X := X) (ib := ibOf d) (box ⟨1, 1, 1⟩ S.nt) (fun u hu => h.buf u (mem_box.mp hu)) (0, FArr.undef mx) [] rfl
    ⟨by simpa [FArr.undef] using le_trans (List.sum_nonneg (by simp)) hm, fun i hi => absurd hi (Nat.not_lt_zero i)⟩ (by simpa [FArr.undef] using hm)
  rw [List.nil_append] at c g
  refine ⟨?_, ?_⟩
  · unfold sendDir fillDir
    rw [h.nt, e]
    simp only [except_bind_ok]
    rw [c, Int.toNat_natCast, rowsOf_ok g _ le_rfl, List.take_length]
    rfl
  · unfold rowsTo
    rw [sum_flatMap]
    unfold leaving
    refine congrArg List.sum (List.map_congr_left fun u hu => ?_)
    rw [h.sent u (mem_box.mp hu) d hd]

theorem storeDirs_ok {mx : ℤ} {s : Sc3 n} {is : ℕ} {c : I3 → ℤ} {o : I3 → List ℝ} : ∀ (ds : List I3), (∀ d ∈ ds, sendDir mx s d = .ok (c d, o d)) → ∀ m : CMem n,
    ∃ m', ds.foldlM (fun m d => storeDir mx s is d m) m = .ok m' ∧ m'.sp = m.sp ∧
      (∀ e ∈ ds, m'.cnt is e = c e ∧ m'.out is e = o e) ∧ ∀ i e, ¬ (i = is ∧ e ∈ ds) → m'.cnt i e = m.cnt i e ∧ m'.out i e = m.out i e := by
  intro ds
  induction ds with
  | nil => exact fun _ m => ⟨m, rfl, rfl, by simp, fun _ _ _ => ⟨rfl, rfl⟩⟩
  | cons d ds ih =>
    intro hs m
    obtain ⟨m', e', s', a', b'⟩ := ih (fun e he => hs e (by simp [he]))
      ⟨m.sp, fun i e => if i = is ∧ e = d then c d else m.cnt i e, fun i e => if i = is ∧ e = d then o d else m.out i e, m.nrecv, m.inbox, m.rbuf, m.npos⟩
    refine ⟨m', ?_, s', fun e he => ?_, fun i e hie => ?_⟩
    · rw [List.foldlM_cons]
      unfold storeDir
      rw [hs d (by simp)]
      exact e'
    · by_cases hds : e ∈ ds
      · exact a' e hds
      · have hed : e = d := by simpa [hds] using he
        subst hed
        have := b' is e (by simp [hds])
        simpa using this
    · have := b' i e (fun h => hie ⟨h.1, by simp [h.2]⟩)
      have hne : ¬ (i = is ∧ e = d) := fun h => hie ⟨h.1, by simp [h.2]⟩
      simpa [hne] using this

/-- State of a process before the communications. -/
structure Ready (K : ℕ) (P : Proc n) (sp : ℕ → Species n) (L : ℕ → I3 → List (Part n)) (m : CMem n) (M : ℕ → I3 → List (Part n)) (W : ℕ → I3 → List (Part n)) : Prop where
  nt : ∀ is, is < K → (m.sp is).nt = (sp is).nt
  npart : ∀ is, is < K → (m.sp is).npart = (sp is).npart
  holds : ∀ is, is < K → HoldsAll (m.sp is) (M is)
  alloc : ∀ is, is < K → AllocAll (m.sp is)
  here : ∀ is, is < K → ∀ T, InBox ⟨1, 1, 1⟩ (sp is).nt T → (M is T : Multiset (Part n)) = here P (sp is).nt (L is) T
  cnt : ∀ is, is < K → ∀ d ∈ dirs, m.cnt is d = (W is d).length
  out : ∀ is, is < K → ∀ d ∈ dirs, m.out is d = colMajor (W is d)
  sent : ∀ is, is < K → ∀ d ∈ dirs, (W is d : Multiset (Part n)) = leaving P (sp is).nt (L is) d

theorem scanAll_ok {P : Proc n} {sp : ℕ → Species n} {bs : ℤ} {g : ℕ → Sc3 n} : ∀ (js : List ℕ), (∀ is ∈ js, combSpecies P bs (sp is) = .ok (g is)) → ∀ f : ℕ → Sc3 n,
    ∃ f', js.foldlM (fun (f : ℕ → Sc3 n) is => (do
      let r ← combSpecies P bs (sp is)
      .ok (Function.update f is r) : Res (ℕ → Sc3 n))) f = .ok f' ∧ ∀ is, (is ∈ js → f' is = g is) ∧ (is ∉ js → f' is = f is) := by
  intro js
  induction js with
  | nil => exact fun _ f => ⟨f, rfl, by simp⟩
  | cons j js ih =>
    intro hg f
    obtain ⟨f', e', h'⟩ := ih (fun is h => hg is (by simp [h])) (Function.update f j (g j))
    refine ⟨f', ?_, fun is => ⟨fun h => ?_, fun h => ?_⟩⟩
    · rw [List.foldlM_cons, hg j (by simp)]
      exact e'
    · by_cases hj : is ∈ js
      · exact (h' is).1 hj
      · have : is = j := by simpa [hj] using h
        subst this
        rw [(h' is).2 hj, Function.update_self]
    · rw [(h' is).2 (fun hh => h (by simp [hh])), Function.update_of_ne (fun e => h (by simp [e]))]

theorem storeAll_ok {mx : ℤ} {f : ℕ → Sc3 n} {c : ℕ → I3 → ℤ} {o : ℕ → I3 → List ℝ} : ∀ (js : List ℕ), js.Nodup → (∀ is ∈ js, ∀ d ∈ dirs, sendDir mx (f is) d = .ok (c is d, o is d)) →
    ∀ m : CMem n, ∃ m', js.foldlM (fun m is => dirs.foldlM (fun m d => storeDir mx (f is) is d m) m) m = .ok m' ∧ m'.sp = m.sp ∧
      (∀ is ∈ js, ∀ d ∈ dirs, m'.cnt is d = c is d ∧ m'.out is d = o is d) ∧ ∀ is, is ∉ js → m'.cnt is = m.cnt is ∧ m'.out is = m.out is := by
  intro js
  induction js with
  | nil => exact fun _ _ m => ⟨m, rfl, rfl, by simp, fun _ _ => ⟨rfl, rfl⟩⟩
  | cons j js ih =>
    intro hnd hs m
    rw [List.nodup_cons] at hnd
    obtain ⟨m1, e1, s1, a1, b1⟩ := storeDirs_ok (is := j) dirs (hs j (by simp)) m
    obtain ⟨m2, e2, s2, a2, b2⟩ := ih hnd.2 (fun is h => hs is (by simp [h])) m1
    refine ⟨m2, ?_, by rw [s2, s1], fun is h d hd => ?_, fun is h => ?_⟩
    · rw [List.foldlM_cons, e1]
      exact e2
    · by_cases hj : is ∈ js
      · exact a2 is hj d hd
      · have : is = j := by simpa [hj] using h
        subst this
        rw [(b2 is hj).1, (b2 is hj).2]
        exact a1 d hd
    · have hj : is ∉ js := fun hh => h (by simp [hh])
      have hne : is ≠ j := fun e => h (by simp [e])
      rw [(b2 is hj).1, (b2 is hj).2]
      exact ⟨funext fun e => (b1 is e (fun hh => hne hh.1)).1, funext fun e => (b1 is e (fun hh => hne hh.1)).2⟩

theorem localPart_ok {K : ℕ} {P : Proc n} {sp : ℕ → Species n} {L : ℕ → I3 → List (Part n)} {bs : ℤ} (hbs : 1 ≤ bs) (hP : ∀ is, is < K → Sorted P (sp is).nt (L is))
    (h : ∀ is, is < K → HoldsAll (sp is) (L is)) (hA : ∀ is, is < K → AllocAll (sp is)) : ∃ m M W, localPart K P bs sp = .ok m ∧ Ready K P sp L m M W := by
  have hex : ∀ is, ∃ s M X, is < K → combSpecies P bs (sp is) = .ok s ∧ Moved P (sp is) (L is) s M X := by
    intro is
    by_cases hK : is < K
    · obtain ⟨s, M, X, a⟩ := combSpecies_ok (hP is hK) hbs (h is hK) (hA is hK)
      exact ⟨s, M, X, fun _ => a⟩
    · exact ⟨⟨sp is, fun _ => TBuf.new false 0, fun _ => 0⟩, fun _ => [], fun _ _ => [], fun h => absurd h hK⟩
  choose g M X hg using hex
  obtain ⟨f, ef, hf⟩ := scanAll_ok (P := P) (sp := sp) (bs := bs) (g := g) (List.range K) (fun is hi => (hg is (List.mem_range.mp hi)).1)
    (fun is => ⟨sp is, fun _ => TBuf.new false 0, fun _ => 0⟩)
  have hfg : ∀ is, is < K → f is = g is := fun is hi => (hf is).1 (List.mem_range.mpr hi)
  have hsend : ∀ is, is < K → ∀ d ∈ dirs, sendDir (maxval K fun is => (f is).cnt) (f is) d =
      .ok (((rowsTo (sp is).nt (X is) d).length : ℤ), colMajor (rowsTo (sp is).nt (X is) d)) ∧ (rowsTo (sp is).nt (X is) d : Multiset (Part n)) = leaving P (sp is).nt (L is) d := by
    intro is hi d hd
    have hle : (f is).cnt (ibOf d) ≤ maxval K fun is => (f is).cnt := le_maxval (cnt := fun is => (f is).cnt) hi (ibOf_range hd)
    rw [hfg is hi] at hle ⊢
    exact sendDir_ok (hg is hi).2 hd hle
  obtain ⟨m, em, sm, am, -⟩ := storeAll_ok (mx := maxval K fun is => (f is).cnt) (f := f) (c := fun is d => ((rowsTo (sp is).nt (X is) d).length : ℤ))
    (o := fun is d => colMajor (rowsTo (sp is).nt (X is) d)) (List.range K) List.nodup_range (fun is hi d hd => (hsend is (List.mem_range.mp hi) d hd).1)
    ⟨fun is => (f is).S, fun _ _ => 0, fun _ _ => [], fun _ _ => 0, fun _ => none, FArr.undef 0, 1⟩
  have hsp : ∀ is, is < K → m.sp is = (g is).S := by
    intro is hi
    rw [sm]
    dsimp only
    rw [hfg is hi]
  refine ⟨m, M, fun is d => rowsTo (sp is).nt (X is) d, ?_, ⟨fun is hi => ?_, fun is hi => ?_, fun is hi => ?_, fun is hi => ?_, fun is hi => (hg is hi).2.here,
    fun is hi d hd => (am is (List.mem_range.mpr hi) d hd).1, fun is hi d hd => (am is (List.mem_range.mpr hi) d hd).2, fun is hi d hd => (hsend is hi d hd).2⟩⟩
  · unfold localPart scanAll
    rw [ef]
    exact em
  · rw [hsp is hi]; exact (hg is hi).2.nt
  · rw [hsp is hi]; exact (hg is hi).2.npart
  · rw [hsp is hi]; exact (hg is hi).2.holds
  · rw [hsp is hi]; exact (hg is hi).2.alloc

end Picsar.Combined
