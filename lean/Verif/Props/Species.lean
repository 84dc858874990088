import Verif.Lemmas.Species
import Mathlib.Tactic.Linarith
import Mathlib.Tactic.Ring
import Mathlib.Tactic.FieldSimp
import Mathlib.Tactic.Positivity
import Mathlib.Tactic.LinearCombination
import Mathlib.Data.List.Sort

/-
C34-C37 and C77-C79: the test-bed species.
-/
namespace Picsar.Props
open Picsar Picsar.Species Picsar.Spec

/-! ### C34 -/

/-- Every operation applied to consistent arrays faults or leaves consistent arrays. -/
def Safe (r : Res Arrays) : Prop := ∀ s', r = .ok s' → ∃ l', s' = soa l'

theorem safe_ok (l : List Particle) : Safe (.ok (soa l)) := by
  intro s' h
  cases h
  exact ⟨l, rfl⟩

theorem safe_err (e : Fault) : Safe (.error e) := by
  intro s' h
  cases h

theorem safe_overwrite (l : List Particle) (i j : ℕ) : Safe (overwrite (soa l) i j) := by
  by_cases hi : i < l.length
  · by_cases hj : j < l.length
    · rw [overwrite_soa hi hj]; exact safe_ok _
    · have : overwrite (soa l) i j = .error .outOfBounds := each_soa_err fun g => by
        unfold copyElem
        rw [rd_ok (by simpa using hi)]
        simp only [except_bind_ok]
        exact wr_oob (by simpa using hj)
      rw [this]; exact safe_err _
  · have : overwrite (soa l) i j = .error .outOfBounds := each_soa_err fun g => by
      unfold copyElem
      rw [rd_oob (by simpa using hi)]
      rfl
    rw [this]; exact safe_err _

theorem safe_bind {r : Res Arrays} {f : Arrays → Res Arrays} (h : Safe r) (hf : ∀ l, Safe (f (soa l))) :
    Safe (r >>= f) := by
  cases r with
  | error e => exact safe_err e
  | ok s =>
    obtain ⟨l, rfl⟩ := h s rfl
    exact hf l

theorem safe_killLoop (kills : List ℕ) : ∀ (ks : List ℕ) (last : ℕ) (l : List Particle),
    Safe (killLoop kills ks last (soa l))
  | [], _, l => safe_ok l
  | ki :: ks, last, l => by
    rw [killLoop]
    split
    · exact safe_bind (safe_overwrite l _ _) fun l => safe_killLoop kills ks _ l
    · exact safe_killLoop kills ks _ l

theorem safe_removeToEnd (l : List Particle) (i : ℕ) : Safe (Species.removeToEnd (soa l) i) := by
  rw [removeToEnd_soa]
  split
  · exact safe_ok _
  · exact safe_err _

theorem safe_removeSorted (l : List Particle) (ks : List ℕ) : Safe (Species.removeSorted (soa l) ks) :=
  safe_bind (safe_killLoop ks ks _ l) fun l => safe_removeToEnd l _

theorem swapCols_prop {α : Type} (P : α → Prop) {cols cols' : List α} {i j : ℕ} (hp : ∀ c ∈ cols, P c)
    (h : swapCols cols i j = .ok cols') : ∀ c ∈ cols', P c := by
  unfold swapCols at h
  by_cases hi : i < cols.length
  · by_cases hj : j < cols.length
    · rw [rd_ok hi, rd_ok hj] at h
      simp only [except_bind_ok] at h
      rw [wr_ok hi] at h
      simp only [except_bind_ok] at h
      rw [wr_ok (by simpa using hj)] at h
      cases h
      intro c hc
      rcases List.mem_or_eq_of_mem_set hc with h1 | h1
      · rcases List.mem_or_eq_of_mem_set h1 with h2 | h2
        · exact hp c h2
        · rw [h2]; exact hp _ (List.getElem_mem hj)
      · rw [h1]; exact hp _ (List.getElem_mem hi)
    · rw [rd_ok hi, rd_oob (by omega)] at h
      cases h
  · rw [rd_oob (by omega)] at h
    cases h

theorem swapCols_length {α : Type} {cols cols' : List α} {i j : ℕ} (h : swapCols cols i j = .ok cols') :
    cols'.length = cols.length := by
  unfold swapCols at h
  by_cases hi : i < cols.length
  · by_cases hj : j < cols.length
    · rw [rd_ok hi, rd_ok hj] at h
      simp only [except_bind_ok] at h
      rw [wr_ok hi] at h
      simp only [except_bind_ok] at h
      rw [wr_ok (by simpa using hj)] at h
      cases h
      simp
    · rw [rd_ok hi, rd_oob (by omega)] at h
      cases h
  · rw [rd_oob (by omega)] at h
    cases h

theorem times_prop {α : Type} {f : α → Res α} (P : α → Prop) (hf : ∀ a b, P a → f a = .ok b → P b) :
    ∀ (n : ℕ) (a b : α), P a → times f n a = .ok b → P b
  | 0, a, b, ha, h => by cases h; exact ha
  | n + 1, a, b, ha, h => by
    rw [times] at h
    cases hfa : f a with
    | error e => rw [hfa] at h; cases h
    | ok c =>
      rw [hfa] at h
      exact times_prop P hf n c b (hf a c ha hfa) h

theorem safe_swap (l : List Particle) (i j : ℕ) : Safe (swapParticles (soa l) i j) := by
  intro s' h
  apply consistent_soa
  unfold swapParticles at h
  have hcol : ∀ (n : ℕ) (cols cols' : List (List ℝ)), (∀ c ∈ cols, c.length = l.length) →
      times (fun c => swapCols c i j) n cols = .ok cols' → ∀ c ∈ cols', c.length = l.length := by
    intro n cols cols' h1 h2
    exact times_prop (fun (cs : List (List ℝ)) => ∀ c ∈ cs, c.length = l.length)
      (fun a b ha hb => swapCols_prop (fun c => c.length = l.length) ha hb) n cols cols' h1 h2
  have hlen : ∀ (n : ℕ) (cols cols' : List (List ℝ)), times (fun c => swapCols c i j) n cols = .ok cols' →
      cols'.length = cols.length := by
    intro n cols cols' h2
    exact times_prop (fun (cs : List (List ℝ)) => cs.length = cols.length)
      (fun a b ha hb => by rw [swapCols_length hb, ha]) n cols cols' rfl h2
  cases hp : times (fun c => swapCols c i j) 3 [(soa l).x, (soa l).y, (soa l).z] with
  | error e => rw [hp] at h; cases h
  | ok pos =>
    cases hm : times (fun c => swapCols c i j) 3 [(soa l).px, (soa l).py, (soa l).pz] with
    | error e => rw [hp, hm] at h; cases h
    | ok mom =>
      cases hf : times (fun c => swapCols c i j) 6 [(soa l).ex, (soa l).ey, (soa l).ez, (soa l).bx, (soa l).by', (soa l).bz] with
      | error e => rw [hp, hm, hf] at h; cases h
      | ok fld =>
        cases hd : swapElems i j (soa l).depth with
        | error e => rw [hp, hm, hf, hd] at h; cases h
        | ok depth =>
          cases hfl : swapElems i j (soa l).flag with
          | error e => rw [hp, hm, hf, hd, hfl] at h; cases h
          | ok flag =>
            rw [hp, hm, hf, hd, hfl] at h
            have h1 := hcol _ _ _ (by simp [soa]) hp
            have h2 := hcol _ _ _ (by simp [soa]) hm
            have h3 := hcol _ _ _ (by simp [soa]) hf
            have h4 : depth.length = l.length := by rw [swapCols_length hd]; simp [soa]
            have h5 : flag.length = l.length := by rw [swapCols_length hfl]; simp [soa]
            have l1 := hlen _ _ _ hp
            have l2 := hlen _ _ _ hm
            have l3 := hlen _ _ _ hf
            clear hp hm hf hd hfl hcol hlen
            obtain ⟨x, y, z, rfl⟩ := List.length_eq_three.mp l1
            obtain ⟨px, py, pz, rfl⟩ := List.length_eq_three.mp l2
            obtain ⟨ex, ey, ez, bx, by', bz, rfl⟩ : ∃ a b c d e f, fld = [a, b, c, d, e, f] := by
              match fld, l3 with
              | [a, b, c, d, e, f], _ => exact ⟨a, b, c, d, e, f, rfl⟩
            cases h
            have hall : ∀ n ∈ lens (⟨x, y, z, px, py, pz, ex, ey, ez, bx, by', bz, depth, flag⟩ : Arrays), n = l.length := by
              simp only [List.mem_cons, List.not_mem_nil, or_false, forall_eq_or_imp, forall_eq] at h1 h2 h3
              simp only [lens, List.mem_cons, List.not_mem_nil, or_false, forall_eq_or_imp, forall_eq]
              exact ⟨h1.1, h1.2.1, h1.2.2, h2.1, h2.2.1, h2.2.2, h3.1, h3.2.1, h3.2.2.1, h3.2.2.2.1, h3.2.2.2.2.1,
                h3.2.2.2.2.2, h4, h5⟩
            intro n hn
            rw [hall n hn]
            exact (hall x.length (by simp [lens])).symm

theorem pushPos_soa (dt : ℝ) (l : List Particle) :
    leptonPushPos dt (soa l) = .ok (soa (l.map fun p => setPos p (leptonDrift dt p))) := by
  unfold leptonPushPos
  exact forAll_soa (g := fun p => setPos p (leptonDrift dt p)) (fun l i hi => by
    rw [readParticle_soa hi]
    simp only [except_bind_ok]
    exact writePos_soa hi _) l

theorem pushMom_soa (b : ℝ) (l : List Particle) :
    leptonPushMom b (soa l) = .ok (soa (l.map fun p => setMom p (leptonBoris b p))) := by
  unfold leptonPushMom
  exact forAll_soa (g := fun p => setMom p (leptonBoris b p)) (fun l i hi => by
    rw [readParticle_soa hi]
    simp only [except_bind_ok]
    exact writeMom_soa hi _) l

theorem calcFields_soa (em : ℝ → ℝ → ℝ → ℝ × ℝ × ℝ × ℝ × ℝ × ℝ) (l : List Particle) :
    Species.calcFields em (soa l) = .ok (soa (l.map fun p => setFields p (em p.x p.y p.z))) := by
  unfold Species.calcFields
  exact forAll_soa (g := fun p => setFields p (em p.x p.y p.z)) (fun l i hi => by
    rw [readParticle_soa hi]
    simp only [except_bind_ok]
    exact writeFields_soa hi _) l

theorem safe_op (o : Op) (l : List Particle) : Safe (o.run (soa l)) := by
  cases o with
  | add x y z px py pz => rw [Op.run, addParticle_soa]; exact safe_ok _
  | remove i =>
    rw [Op.run, removeParticle_soa]
    split
    · exact safe_ok _
    · exact safe_err _
  | removeToEnd i => exact safe_removeToEnd l i
  | removeSorted ks => exact safe_removeSorted l ks
  | destroy sel =>
    rw [Op.run, doDestruction, soa_num, collect_soa _ (by simp)]
    exact safe_removeSorted l _
  | swap i j => exact safe_swap l i j
  | calcFields em => rw [Op.run, calcFields_soa]; exact safe_ok _
  | pushPositions dt => rw [Op.run, pushPos_soa]; exact safe_ok _
  | pushMomenta b => rw [Op.run, pushMom_soa]; exact safe_ok _
  | process f keeps =>
    intro s' h
    cases h
    apply consistent_soa
    intro n hn
    rw [keeps] at hn
    rw [soa_consistent l n hn]
    have : (lens (f (soa l)))[0]? = (lens (soa l))[0]? := by rw [keeps]
    simp only [lens, List.getElem?_cons_zero, Option.some.injEq] at this
    exact this.symm

/-- C34: after every history of operations that does not fault, starting from an empty species, all the per-particle arrays
have the reported number of elements. -/
theorem C34_arrays_consistent (os : List Op) (s : Arrays) (h : runOps os Arrays.empty = .ok s) : Consistent s := by
  have key : ∀ (os : List Op) (l : List Particle), Safe (runOps os (soa l)) := by
    intro os
    induction os with
    | nil => intro l; exact safe_ok l
    | cons o os ih => intro l; exact safe_bind (safe_op o l) ih
  obtain ⟨l', rfl⟩ := key os [] s h
  exact soa_consistent l'

/-- The documented preconditions of the operations (the swap is treated in C37). -/
def Legal (l : List Particle) : Op → Prop
  | .remove i => i < l.length
  | .removeToEnd i => i ≤ l.length
  | .removeSorted ks => ks.Pairwise (· < ·) ∧ ∀ k ∈ ks, k < l.length
  | .swap _ _ => False
  | _ => True

/-- Legal operations never fault (on populations whose size fits a `size_t`). -/
theorem C34_no_fault (o : Op) (l : List Particle) (hl : l.length < 2 ^ 64)
    (ho : Legal l o) :
    ∃ s', o.run (soa l) = .ok s' := by
  cases o with
  | add => exact ⟨_, rfl⟩
  | remove i => exact ⟨_, by rw [Op.run, removeParticle_soa, if_pos (show i < l.length from ho)]⟩
  | removeToEnd i => exact ⟨_, by rw [Op.run, removeToEnd_soa, if_pos (show i ≤ l.length from ho)]⟩
  | removeSorted ks =>
    obtain ⟨l', h, _⟩ := removeSorted_soa ho.1 ho.2 hl
    exact ⟨_, h⟩
  | destroy sel =>
    obtain ⟨l', h, _⟩ := removeSorted_soa (l := l) (kills := (List.range l.length).filter fun i => (l[i]?.map sel).getD false)
      (List.Pairwise.filter _ List.pairwise_lt_range) (by intro k hk; simp at hk; exact hk.1) hl
    refine ⟨soa l', ?_⟩
    · rw [Op.run, doDestruction, soa_num, collect_soa _ (by simp)]
      exact h
  | swap i j => exact absurd ho id
  | calcFields em => exact ⟨_, by rw [Op.run, calcFields_soa]⟩
  | pushPositions dt => exact ⟨_, by rw [Op.run, pushPos_soa]⟩
  | pushMomenta b => exact ⟨_, by rw [Op.run, pushMom_soa]⟩
  | process f _ => exact ⟨_, rfl⟩

/-- Non-vacuity: a history that succeeds and leaves two particles. -/
example : ∃ s, runOps [.add 1 2 3 0 0 0, .add 4 5 6 0 0 0, .add 7 8 9 0 0 0, .remove 1, .pushPositions 1] Arrays.empty = .ok s ∧
    s.num = 2 := by
  refine ⟨_, rfl, ?_⟩
  rfl

/-! ### C35 -/

/-- C35: applying a destruction process to any population removes exactly the selected particles; the remaining population is
a rearrangement of the particles that were not selected, each with all its attributes. -/
theorem C35_destruction_exact (l : List Particle) (sel : Particle → Bool) (hl : l.length < 2 ^ 64) :
    ∃ l', doDestruction (soa l) sel = .ok (soa l') ∧ l'.Perm (l.filter fun p => !sel p) := by
  obtain ⟨l', h1, h2⟩ := removeSorted_soa (l := l)
    (kills := (List.range l.length).filter fun i => (l[i]?.map sel).getD false)
    (List.Pairwise.filter _ List.pairwise_lt_range) (by intro k hk; simp at hk; exact hk.1) hl
  refine ⟨l', ?_, by rw [kept_filter] at h2; exact h2⟩
  rw [doDestruction, soa_num, collect_soa _ (by simp)]
  exact h1

/-- C35 for the public removal by sorted indices: exactly the particles at the listed positions disappear. -/
theorem C35_removal_by_index (l : List Particle) (kills : List ℕ) (hs : kills.Pairwise (· < ·))
    (hr : ∀ k ∈ kills, k < l.length) (hl : l.length < 2 ^ 64) :
    ∃ l', Species.removeSorted (soa l) kills = .ok (soa l') ∧
      l'.Perm (((List.range l.length).filter (· ∉ kills)).filterMap fun i => l[i]?) :=
  removeSorted_soa hs hr hl

/-- C35 for single removal: the other particles keep their order. -/
theorem C35_remove_one (l : List Particle) (i : ℕ) (hi : i < l.length) :
    removeParticle (soa l) i = .ok (soa (l.take i ++ l.drop (i + 1))) := by
  rw [removeParticle_soa, if_pos hi, List.eraseIdx_eq_take_drop_succ]

/-- Non-vacuity: indices 0 and 2 of a population of three. -/
example : ([0, 2] : List ℕ).Pairwise (· < ·) ∧ ∀ k ∈ ([0, 2] : List ℕ), k < 3 := by decide

/-! ### C36 -/

section registry
variable {P : Type}

/-- Entries sorted by identifier, without repetition. -/
def Sorted (m : Registry P) : Prop := m.Pairwise fun a b => a.1 < b.1

theorem insert_mem (m : Registry P) (id : ℤ) (p : Option P) (e : ℤ × Option P) :
    e ∈ m.insert id p ↔ e = (id, p) ∨ e ∈ m := by
  induction m with
  | nil => simp [Registry.insert]
  | cons a m ih =>
    rw [Registry.insert]
    split
    · simp
    · rw [List.mem_cons, ih, List.mem_cons]
      tauto

theorem insert_sorted {m : Registry P} (hm : Sorted m) {id : ℤ} (p : Option P) (hid : ∀ e ∈ m, e.1 ≠ id) :
    Sorted (m.insert id p) := by
  induction m with
  | nil => simp [Registry.insert, Sorted]
  | cons a m ih =>
    obtain ⟨h1, h2⟩ := List.pairwise_cons.mp hm
    rw [Registry.insert]
    split
    · rename_i hlt
      refine List.pairwise_cons.mpr ⟨?_, hm⟩
      intro e he
      rcases List.mem_cons.mp he with rfl | he
      · exact hlt
      · exact lt_trans hlt (h1 e he)
    · rename_i hlt
      refine List.pairwise_cons.mpr ⟨?_, ih h2 fun e he => hid e (by simp [he])⟩
      intro e he
      rcases (insert_mem m id p e).mp he with rfl | he
      · have := hid a (by simp)
        simp only
        omega
      · exact h1 e he

theorem has_iff (m : Registry P) (id : ℤ) : m.has id = true ↔ ∃ e ∈ m, e.1 = id := by
  simp [Registry.has]

/-- A history of registrations. -/
def registerAll (m : Registry P) : List (ℤ × P) → Registry P
  | [] => m
  | r :: rs => registerAll (addProcess m r.1 r.2).1 rs

/-- C36: a second registration with the same identifier is refused and changes nothing; a first one is accepted and makes
the process available under its identifier without changing the others. -/
theorem C36_register (m : Registry P) (id : ℤ) (p : P) :
    ((∃ e ∈ m, e.1 = id) → addProcess m id p = (m, true)) ∧
    ((¬ ∃ e ∈ m, e.1 = id) → (addProcess m id p).2 = false ∧
      ∀ e, e ∈ (addProcess m id p).1 ↔ e = (id, some p) ∨ e ∈ m) := by
  constructor
  · intro h
    rw [addProcess, if_pos ((has_iff m id).mpr h)]
  · intro h
    have hh : ¬ m.has id = true := fun hc => h ((has_iff m id).mp hc)
    rw [addProcess, if_neg hh]
    exact ⟨rfl, insert_mem m id (some p)⟩

theorem registerAll_sorted : ∀ (rs : List (ℤ × P)) (m : Registry P), Sorted m → (∀ e ∈ m, e.2 ≠ none) →
    Sorted (registerAll m rs) ∧ ∀ e ∈ registerAll m rs, e.2 ≠ none
  | [], m, h1, h2 => ⟨h1, h2⟩
  | r :: rs, m, h1, h2 => by
    rw [registerAll]
    by_cases h : ∃ e ∈ m, e.1 = r.1
    · rw [(C36_register m r.1 r.2).1 h]
      exact registerAll_sorted rs m h1 h2
    · have h3 := ((C36_register m r.1 r.2).2 h).2
      apply registerAll_sorted rs
      · have hh : ¬ m.has r.1 = true := fun hc => h ((has_iff m r.1).mp hc)
        rw [addProcess, if_neg hh]
        exact insert_sorted h1 _ (by push Not at h; exact h)
      · intro e he
        rcases (h3 e).mp he with rfl | he
        · simp
        · exact h2 e he

/-- What the registry holds after a history of registrations: for each identifier the process of its first registration. -/
theorem registerAll_mem : ∀ (rs : List (ℤ × P)) (m : Registry P) (id : ℤ) (p : P),
    (id, some p) ∈ registerAll m rs ↔
      (id, some p) ∈ m ∨ ((¬ ∃ e ∈ m, e.1 = id) ∧ (rs.find? fun r => r.1 == id) = some (id, p))
  | [], m, id, p => by simp [registerAll]
  | r :: rs, m, id, p => by
    rw [registerAll, registerAll_mem rs]
    by_cases h : ∃ e ∈ m, e.1 = r.1
    · rw [(C36_register m r.1 r.2).1 h]
      by_cases hid : r.1 = id
      · have h' : ∃ e ∈ m, e.1 = id := by rw [← hid]; exact h
        constructor
        · rintro (h1 | ⟨h1, _⟩)
          · exact Or.inl h1
          · exact absurd h' h1
        · rintro (h1 | ⟨h1, _⟩)
          · exact Or.inl h1
          · exact absurd h' h1
      · rw [List.find?_cons_of_neg (by simpa using hid)]
    · have h3 := ((C36_register m r.1 r.2).2 h).2
      have hex : (∃ e ∈ (addProcess m r.1 r.2).1, e.1 = id) ↔ r.1 = id ∨ ∃ e ∈ m, e.1 = id := by
        constructor
        · rintro ⟨e, he, h4⟩
          rcases (h3 e).mp he with rfl | he
          · exact Or.inl h4
          · exact Or.inr ⟨e, he, h4⟩
        · rintro (h4 | ⟨e, he, h4⟩)
          · exact ⟨_, (h3 _).mpr (Or.inl rfl), h4⟩
          · exact ⟨e, (h3 e).mpr (Or.inr he), h4⟩
      rw [h3, hex]
      by_cases hid : r.1 = id
      · rw [List.find?_cons_of_pos (by simpa using hid)]
        have h' : ¬ ∃ e ∈ m, e.1 = id := by rw [← hid]; exact h
        constructor
        · rintro ((h1 | h1) | ⟨h1, _⟩)
          · refine Or.inr ⟨h', ?_⟩
            simp only [Prod.mk.injEq, Option.some.injEq] at h1
            rw [h1.1, h1.2]
          · exact Or.inl h1
          · exact absurd (Or.inl hid) h1
        · rintro (h1 | ⟨_, h1⟩)
          · exact Or.inl (Or.inr h1)
          · left; left
            simp only [Option.some.injEq] at h1
            rw [h1]
      · rw [List.find?_cons_of_neg (by simpa using hid)]
        constructor
        · rintro ((h1 | h1) | ⟨h1, h2⟩)
          · simp only [Prod.mk.injEq] at h1
            exact absurd h1.1.symm hid
          · exact Or.inl h1
          · push Not at h1
            exact Or.inr ⟨by push Not; exact h1.2, h2⟩
        · rintro (h1 | ⟨h1, h2⟩)
          · exact Or.inl (Or.inr h1)
          · exact Or.inr ⟨by push Not; push Not at h1; exact ⟨hid, h1⟩, h2⟩

end registry

theorem doAll_spec {D : Type} : ∀ (m : Registry (D → D)) (d : D), (∀ e ∈ m, e.2 ≠ none) →
    doAll m d = .ok ((m.filterMap (·.2)).foldl (fun d f => f d) d)
  | [], d, _ => rfl
  | (id, none) :: m, d, h => absurd rfl (h (id, none) (by simp))
  | (id, some f) :: m, d, h => by
    rw [doAll, doAll_spec m (f d) fun e he => h e (by simp [he])]
    simp

/-- C36: after any history of registrations (some of them refused), `do_all_simple_processes` applies, in increasing order
of identifier and each exactly once, the process first registered under each identifier. -/
theorem C36_all_in_order {D : Type} (rs : List (ℤ × (D → D))) (d : D) :
    ∃ l : List (ℤ × (D → D)), l.Pairwise (fun a b => a.1 < b.1) ∧
      (∀ id f, (id, f) ∈ l ↔ (rs.find? fun r => r.1 == id) = some (id, f)) ∧
      doAll (registerAll [] rs) d = .ok (l.foldl (fun d e => e.2 d) d) := by
  obtain ⟨h1, h2⟩ := registerAll_sorted rs ([] : Registry (D → D)) List.Pairwise.nil (by simp)
  have hmem := registerAll_mem rs ([] : Registry (D → D))
  have hall := doAll_spec (registerAll [] rs) d h2
  generalize registerAll [] rs = m at *
  have hm : ∃ l : List (ℤ × (D → D)), m = l.map fun e => (e.1, some e.2) := by
    clear hall hmem h1
    induction m with
    | nil => exact ⟨[], rfl⟩
    | cons e m ih =>
      obtain ⟨l, hl⟩ := ih fun e he => h2 e (by simp [he])
      obtain ⟨id, of⟩ := e
      cases of with
      | none => exact absurd rfl (h2 (id, none) (by simp))
      | some f => exact ⟨(id, f) :: l, by rw [hl]; rfl⟩
  obtain ⟨l, rfl⟩ := hm
  refine ⟨l, ?_, ?_, ?_⟩
  · have := h1
    unfold Sorted at this
    rw [List.pairwise_map] at this
    exact this
  · intro id f
    have := hmem id f
    simp only [List.mem_map, Prod.mk.injEq, Option.some.injEq, List.not_mem_nil, false_and, exists_false, not_false_eq_true,
      true_and, false_or] at this
    rw [← this]
    constructor
    · intro h
      exact ⟨(id, f), h, rfl, rfl⟩
    · rintro ⟨⟨i', f'⟩, h, rfl, rfl⟩
      exact h
  · rw [hall, List.filterMap_map]
    have : l.filterMap ((fun e : ℤ × Option (D → D) => e.2) ∘ fun e => (e.1, some e.2)) = l.map (·.2) := by
      induction l with
      | nil => rfl
      | cons a l ih => simp
    rw [this, List.foldl_map]

/-- C36: applying one registered process applies that process and leaves the registry alone. -/
theorem C36_apply_one_partial {D : Type} (m : Registry (D → D)) (id : ℤ) (f : D → D) (d : D) (h : m.get id = some (some f)) :
    doOne m id d = (m, .ok (f d)) := by
  rw [doOne, h]

/-- C36 fails for an unknown identifier: the call throws, but leaves an empty entry behind. From then on the identifier
cannot be registered any more, and applying all processes throws. -/
theorem C36_unknown_id_refuted {D : Type} (f : D → D) (d : D) :
    let m : Registry (D → D) := registerAll [] [(1, f)]
    let m' := (doOne m 7 d).1
    doAll m d = .ok (f d) ∧ (addProcess m 7 f).2 = false ∧
    (doOne m 7 d).2 = .error .exception ∧ doAll m' d = .error .exception ∧ (addProcess m' 7 f).2 = true := by
  refine ⟨rfl, rfl, rfl, rfl, rfl⟩

/-! ### C37 -/

/-- What C37 asks for. -/
def SwapsExactly (l : List Particle) (i j : ℕ) : Prop :=
  ∃ (hi : i < l.length) (hj : j < l.length), swapParticles (soa l) i j = .ok (soa ((l.set i l[j]).set j l[i]))

/-- C37 fails whenever one of the particles has an index of three or more: the call indexes the three-component array of
positions with the particle index. -/
theorem C37_large_index_refuted (l : List Particle) (i j : ℕ) (hi : 3 ≤ i) :
    swapParticles (soa l) i j = .error .outOfBounds := by
  unfold swapParticles
  have : swapCols [(soa l).x, (soa l).y, (soa l).z] i j = .error .outOfBounds := by
    unfold swapCols
    rw [rd_oob (by simpa using hi)]
    rfl
  simp only [times, this, except_bind_error]

/-- C37 also fails for small indices: swapping particles 0 and 1 exchanges the x and y coordinates (and momenta) of every
particle, and only the optical depths and flags of the two. -/
theorem C37_small_index_refuted (p q : Particle) (l : List Particle) :
    swapParticles (soa (p :: q :: l)) 0 1 =
      .ok { soa (p :: q :: l) with
        x := (p :: q :: l).map (·.y), y := (p :: q :: l).map (·.x), px := (p :: q :: l).map (·.py), py := (p :: q :: l).map (·.px),
        depth := q.depth :: p.depth :: l.map (·.depth), flag := q.flag :: p.flag :: l.map (·.flag) } := by
  rfl

theorem C37_refuted : ¬ ∀ (l : List Particle) (i j : ℕ), i < l.length → j < l.length → SwapsExactly l i j := by
  intro h
  have h0 := h [⟨1, 2, 3, 0, 0, 0, 0, 0, 0, 0, 0, 0, 0, false⟩, ⟨4, 5, 6, 0, 0, 0, 0, 0, 0, 0, 0, 0, 0, false⟩] 0 1
    (by simp) (by simp)
  obtain ⟨_, _, h1⟩ := h0
  rw [C37_small_index_refuted] at h1
  simp only [soa, Except.ok.injEq, List.map_cons, List.map_nil] at h1
  have h2 := congrArg (fun s : Arrays => s.x[0]?) h1
  norm_num at h2

/-- What remains true of C37: a swap of a particle with itself, for the first three particles, changes nothing. -/
theorem C37_self_partial (l : List Particle) (i : ℕ) (hi : i < l.length) (h3 : i < 3) :
    swapParticles (soa l) i i = .ok (soa l) := by
  have hc : ∀ {α : Type} (c : List α), i < c.length → swapCols c i i = .ok c := by
    intro α c h
    unfold swapCols
    rw [rd_ok h]
    simp only [except_bind_ok]
    rw [wr_ok h]
    simp only [except_bind_ok]
    rw [wr_ok (by simpa using h)]
    simp
  have ht : ∀ {α : Type} (c : List α) (n : ℕ), i < c.length → times (fun c => swapCols c i i) n c = .ok c := by
    intro α c n h
    induction n with
    | zero => rfl
    | succ n ih => rw [times, hc c h]; exact ih
  unfold swapParticles
  rw [ht _ _ (by simpa using h3), ht _ _ (by simpa using h3), ht _ _ (by simp; omega)]
  unfold swapElems
  rw [hc _ (by simpa [soa] using hi), hc _ (by simpa [soa] using hi)]
  rfl

/-! ### C77-C79: pushes of the test-bed -/

/-- C77: one momentum push satisfies the implicit midpoint form of the Lorentz force law: the momentum change is
`2 beta (E + average momentum x B / gamma_old)`, with `beta = q dt / 2m`. -/
theorem C77_lepton_push (beta : ℝ) (p : Particle) :
    let q := leptonBoris beta p
    let g := Real.sqrt (1 + p.px * p.px + p.py * p.py + p.pz * p.pz)
    let ax := (p.px + q.1) / 2
    let ay := (p.py + q.2.1) / 2
    let az := (p.pz + q.2.2) / 2
    q.1 - p.px = 2 * beta * (p.ex + (ay * p.bz - az * p.by') / g) ∧
    q.2.1 - p.py = 2 * beta * (p.ey + (az * p.bx - ax * p.bz) / g) ∧
    q.2.2 - p.pz = 2 * beta * (p.ez + (ax * p.by' - ay * p.bx) / g) := by
  have hg : 0 < Real.sqrt (1 + p.px * p.px + p.py * p.py + p.pz * p.pz) :=
    Real.sqrt_pos.mpr (by nlinarith [mul_self_nonneg p.px, mul_self_nonneg p.py, mul_self_nonneg p.pz])
  simp only [leptonBoris]
  generalize Real.sqrt (1 + p.px * p.px + p.py * p.py + p.pz * p.pz) = g at hg ⊢
  have e1 : ∀ b : ℝ, 2 * beta * (b / g) = 2 * (beta / g * b) := fun b => by field_simp
  have hb : 0 < 1 + (beta / g * p.bx * (beta / g * p.bx) + beta / g * p.by' * (beta / g * p.by') +
      beta / g * p.bz * (beta / g * p.bz)) := by
    have h1 := mul_self_nonneg (beta / g * p.bx)
    have h2 := mul_self_nonneg (beta / g * p.by')
    have h3 := mul_self_nonneg (beta / g * p.bz)
    linarith
  generalize hk : beta / g = k at hb e1 ⊢
  refine ⟨?_, ?_, ?_⟩
  · rw [mul_add (2 * beta), e1]
    field_simp
    ring
  · rw [mul_add (2 * beta), e1]
    field_simp
    ring
  · rw [mul_add (2 * beta), e1]
    field_simp
    ring

/-- C77: in a purely magnetic field the momentum magnitude does not change. -/
theorem C77_magnetic_norm (beta : ℝ) (p : Particle) (he : p.ex = 0 ∧ p.ey = 0 ∧ p.ez = 0) :
    let q := leptonBoris beta p
    q.1 ^ 2 + q.2.1 ^ 2 + q.2.2 ^ 2 = p.px ^ 2 + p.py ^ 2 + p.pz ^ 2 := by
  obtain ⟨h1, h2, h3⟩ := C77_lepton_push beta p
  intro q
  obtain ⟨ex, ey, ez⟩ := he
  rw [ex] at h1
  rw [ey] at h2
  rw [ez] at h3
  have e1 : q.1 ^ 2 - p.px ^ 2 = (q.1 - p.px) * (q.1 + p.px) := by ring
  have e2 : q.2.1 ^ 2 - p.py ^ 2 = (q.2.1 - p.py) * (q.2.1 + p.py) := by ring
  have e3 : q.2.2 ^ 2 - p.pz ^ 2 = (q.2.2 - p.pz) * (q.2.2 + p.pz) := by ring
  rw [h1] at e1
  rw [h2] at e2
  rw [h3] at e3
  have : (q.1 ^ 2 - p.px ^ 2) + (q.2.1 ^ 2 - p.py ^ 2) + (q.2.2 ^ 2 - p.pz ^ 2) = 0 := by
    rw [e1, e2, e3]
    ring
  linarith

/-- C77 over any number of steps with fields recomputed each step: if the field function is purely magnetic, every particle
keeps its momentum magnitude, and the number and order of particles are unchanged. -/
theorem C77_history (em : ℝ → ℝ → ℝ → ℝ × ℝ × ℝ × ℝ × ℝ × ℝ)
    (hm : ∀ x y z, (em x y z).1 = 0 ∧ (em x y z).2.1 = 0 ∧ (em x y z).2.2.1 = 0) (beta dt : ℝ) (l : List Particle) :
    ∀ n : ℕ, ∃ l', runOps (List.replicate n [Op.calcFields em, .pushMomenta beta, .pushPositions dt]).flatten (soa l) = .ok (soa l') ∧
      l'.map (fun p => p.px ^ 2 + p.py ^ 2 + p.pz ^ 2) = l.map (fun p => p.px ^ 2 + p.py ^ 2 + p.pz ^ 2) := by
  intro n
  induction n generalizing l with
  | zero => exact ⟨l, rfl, rfl⟩
  | succ n ih =>
    rw [List.replicate_succ, List.flatten_cons]
    simp only [List.cons_append, List.nil_append, runOps, Op.run]
    rw [calcFields_soa]
    simp only [except_bind_ok]
    rw [pushMom_soa]
    simp only [except_bind_ok]
    rw [pushPos_soa]
    simp only [except_bind_ok]
    obtain ⟨l', h1, h2⟩ := ih (List.map (fun p => setPos p (leptonDrift dt p)) (List.map (fun p => setMom p (leptonBoris beta p))
      (List.map (fun p => setFields p (em p.x p.y p.z)) l)))
    refine ⟨l', h1, ?_⟩
    rw [h2, List.map_map, List.map_map, List.map_map]
    apply List.map_congr_left
    intro p _
    have := C77_magnetic_norm beta (setFields p (em p.x p.y p.z)) (by simp [setFields, hm])
    simp only [Function.comp_apply]
    simpa [setPos, setMom, setFields] using this

/-- C78: a lepton moves along its momentum, by less than `|dt|` (light speed is one). -/
theorem C78_lepton_slower_than_light (dt : ℝ) (hdt : dt ≠ 0) (p : Particle) :
    ∃ k, 0 < k ∧ leptonDrift dt p = (p.x + dt * k * p.px, p.y + dt * k * p.py, p.z + dt * k * p.pz) ∧
      (dt * k * p.px) ^ 2 + (dt * k * p.py) ^ 2 + (dt * k * p.pz) ^ 2 < dt ^ 2 := by
  have hs : (0 : ℝ) < 1 + p.px * p.px + p.py * p.py + p.pz * p.pz := by
    nlinarith [mul_self_nonneg p.px, mul_self_nonneg p.py, mul_self_nonneg p.pz]
  have hg := Real.sqrt_pos.mpr hs
  refine ⟨1 / Real.sqrt (1 + p.px * p.px + p.py * p.py + p.pz * p.pz), by positivity, rfl, ?_⟩
  have h2 : (1 / Real.sqrt (1 + p.px * p.px + p.py * p.py + p.pz * p.pz)) ^ 2 * (1 + p.px * p.px + p.py * p.py + p.pz * p.pz) = 1 := by
    rw [div_pow, Real.sq_sqrt hs.le]
    field_simp
  have hk : 0 < (1 / Real.sqrt (1 + p.px * p.px + p.py * p.py + p.pz * p.pz)) ^ 2 := by positivity
  generalize (1 / Real.sqrt (1 + p.px * p.px + p.py * p.py + p.pz * p.pz)) = k at *
  have hd : 0 < dt ^ 2 := by positivity
  have : (dt * k * p.px) ^ 2 + (dt * k * p.py) ^ 2 + (dt * k * p.pz) ^ 2 = dt ^ 2 * (1 - k ^ 2) := by
    linear_combination dt ^ 2 * h2
  rw [this]
  nlinarith [mul_pos hd hk]

/-- C78: a photon with nonzero momentum moves along it by exactly `|dt|`. -/
theorem C78_photon_at_light_speed (dt : ℝ) (p : Particle) (h : p.px ≠ 0 ∨ p.py ≠ 0 ∨ p.pz ≠ 0) :
    ∃ k, 0 < k ∧ photonDrift dt p = some (p.x + dt * k * p.px, p.y + dt * k * p.py, p.z + dt * k * p.pz) ∧
      (dt * k * p.px) ^ 2 + (dt * k * p.py) ^ 2 + (dt * k * p.pz) ^ 2 = dt ^ 2 := by
  have hs : (0 : ℝ) < p.px * p.px + p.py * p.py + p.pz * p.pz := by
    rcases h with h | h | h
    · have := mul_self_pos.mpr h; nlinarith [mul_self_nonneg p.py, mul_self_nonneg p.pz]
    · have := mul_self_pos.mpr h; nlinarith [mul_self_nonneg p.px, mul_self_nonneg p.pz]
    · have := mul_self_pos.mpr h; nlinarith [mul_self_nonneg p.px, mul_self_nonneg p.py]
  have hg := Real.sqrt_pos.mpr hs
  refine ⟨1 / Real.sqrt (p.px * p.px + p.py * p.py + p.pz * p.pz), by positivity, ?_, ?_⟩
  · simp only [photonDrift]
    rw [if_neg hg.ne']
  · have h2 : (1 / Real.sqrt (p.px * p.px + p.py * p.py + p.pz * p.pz)) ^ 2 * (p.px * p.px + p.py * p.py + p.pz * p.pz) = 1 := by
      rw [div_pow, Real.sq_sqrt hs.le, one_pow, one_div_mul_cancel hs.ne']
    linear_combination dt ^ 2 * h2

/-- C79: `calc_fields` gives every particle the field at its own position and changes nothing else; the pushes change only
positions (resp. momenta), each particle by its own data. -/
theorem C79_calc_fields (em : ℝ → ℝ → ℝ → ℝ × ℝ × ℝ × ℝ × ℝ × ℝ) (l : List Particle) :
    Species.calcFields em (soa l) = .ok (soa (l.map fun p => setFields p (em p.x p.y p.z))) := calcFields_soa em l

theorem C79_push_positions (dt : ℝ) (l : List Particle) :
    leptonPushPos dt (soa l) = .ok (soa (l.map fun p => setPos p (leptonDrift dt p))) := pushPos_soa dt l

theorem C79_push_momenta (beta : ℝ) (l : List Particle) :
    leptonPushMom beta (soa l) = .ok (soa (l.map fun p => setMom p (leptonBoris beta p))) := pushMom_soa beta l

end Picsar.Props
