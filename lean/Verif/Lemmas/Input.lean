import Verif.Spec.Input
import Mathlib.Data.List.Infix
import Mathlib.Tactic.Linarith

/-
Helper lemmas for the input file and the command line.
-/
namespace Picsar.Lemmas.InputL
open Picsar Picsar.Input Picsar.Spec.Input

theorem indexFrom_pos (k : List Char) (hk : k ≠ []) : ∀ (s : List Char) (i : ℕ), 0 < i → (0 < indexFrom k s i ↔ k <:+: s)
  | [], i, _ => by simp [indexFrom, hk]
  | c :: s, i, hi => by
    unfold indexFrom
    rw [List.infix_cons_iff, ← List.isPrefixOf_iff_prefix]
    by_cases h : k.isPrefixOf (c :: s) = true
    · rw [if_pos h]; simp [h, hi]
    · rw [if_neg h, indexFrom_pos k hk s (i + 1) (by omega)]; simp [h]

theorem index_pos {k : List Char} (hk : k ≠ []) (s : List Char) : 0 < index s k ↔ k <:+: s := indexFrom_pos k hk s 1 (by omega)

theorem indexFrom_sep (c : Char) : ∀ (s t : List Char) (i : ℕ), c ∉ s → indexFrom [c] (s ++ c :: t) i = i + s.length
  | [], t, i, _ => by simp [indexFrom, List.isPrefixOf]
  | d :: s, t, i, h => by
    have hd : c ≠ d := fun e => h (by simp [e])
    have hs : c ∉ s := fun e => h (by simp [e])
    show (if [c].isPrefixOf (d :: (s ++ c :: t)) then i else indexFrom [c] (s ++ c :: t) (i + 1)) = _
    rw [if_neg (by simp [List.isPrefixOf, hd]), indexFrom_sep c s t (i + 1) hs]
    simp only [List.length_cons]; omega

theorem drop_index_sep (c : Char) (s t : List Char) (h : c ∉ s) : (s ++ c :: t).drop (index (s ++ c :: t) [c]) = t := by
  unfold index
  rw [indexFrom_sep c s t 1 h]
  have : s ++ c :: t = (s ++ [c]) ++ t := by simp
  rw [this, List.drop_append_of_le_length (by simp; omega)]
  simp [Nat.add_comm]

theorem toBuffer_short {l : List Char} (h : l.length ≤ stringLength) :
    toBuffer l = l ++ List.replicate (stringLength - l.length) ' ' := by
  unfold toBuffer
  rw [List.take_append, List.take_of_length_le h, List.take_replicate]
  congr 2
  omega

/-- A word without the separator that occurs in a text occurs on one side of it. -/
theorem infix_sep {k : List Char} {c : Char} (hc : c ∉ k) : ∀ (s t : List Char), k <:+: s ++ c :: t → k <:+: s ∨ k <:+: t
  | [], t, h => by
    rw [List.nil_append, List.infix_cons_iff] at h
    rcases h with h | h
    · cases k with
      | nil => exact Or.inl (List.infix_refl _)
      | cons a k =>
        rw [List.cons_prefix_cons] at h
        exact absurd h.1.symm (by intro e; exact hc (by simp [e]))
    · exact Or.inr h
  | d :: s, t, h => by
    rw [List.cons_append, List.infix_cons_iff] at h
    rcases h with h | h
    · left
      rw [List.infix_cons_iff]; left
      rw [← List.cons_append] at h
      rcases List.prefix_or_prefix_of_prefix h (List.prefix_append (d :: s) (c :: t)) with h' | ⟨u, hu⟩
      · exact h'
      · rw [← hu, List.prefix_append_right_inj] at h
        cases u with
        | nil => rw [← hu]; simp
        | cons a u =>
          rw [List.cons_prefix_cons] at h
          exact absurd hu (by rw [h.1]; intro e; exact hc (by rw [← e]; simp))
    · rcases infix_sep hc s t h with h | h
      · left; rw [List.infix_cons_iff]; exact Or.inr h
      · exact Or.inr h

theorem infix_blanks_left {k : List Char} (hb : ' ' ∉ k) : ∀ {a : List Char} (s : List Char), Blanks a → k <:+: a ++ s → k <:+: s
  | [], s, _, h => h
  | c :: a, s, ha, h => by
    have hc : c = ' ' := ha c (by simp)
    subst hc
    rcases infix_sep hb [] (a ++ s) h with h | h
    · rw [List.infix_nil] at h; rw [h]; exact List.nil_infix
    · exact infix_blanks_left hb s (fun c hc => ha c (by simp [hc])) h

theorem infix_blanks_right {k : List Char} (hb : ' ' ∉ k) {a : List Char} (s : List Char) (ha : Blanks a) (h : k <:+: s ++ a) : k <:+: s := by
  cases a with
  | nil => simpa using h
  | cons c a =>
    have hc : c = ' ' := ha c (by simp)
    subst hc
    rcases infix_sep hb s a h with h | h
    · exact h
    · have := infix_blanks_left (a := a) hb [] (fun c hc => ha c (by simp [hc])) (by simpa using h)
      rw [List.infix_nil] at this; rw [this]; exact List.nil_infix

theorem blanks_replicate (n : ℕ) : Blanks (List.replicate n ' ') := fun _ h => (List.mem_replicate.mp h).2

/-- A word without blank nor `=` that occurs in the buffer of a setting occurs in the keyword or in the value. -/
theorem infix_setting {k key v l : List Char} (hb : ' ' ∉ k) (he : '=' ∉ k) {a b : List Char} (ha : Blanks a) (hb' : Blanks b)
    (hl : l = a ++ key ++ b ++ '=' :: v) (n : ℕ) :
    k <:+: l ++ List.replicate n ' ' ↔ k <:+: key ∨ k <:+: v := by
  constructor
  · intro h
    have h1 := infix_blanks_right hb l (blanks_replicate n) h
    rw [hl] at h1
    rcases infix_sep he _ _ h1 with h | h
    · left
      have := infix_blanks_right hb (a ++ key) hb' h
      exact infix_blanks_left hb key ha this
    · exact Or.inr h
  · intro h
    refine List.IsInfix.trans ?_ (List.infix_append' [] l _)
    rw [hl]
    rcases h with h | h
    · exact h.trans ⟨a, b ++ '=' :: v, by simp⟩
    · exact h.trans ⟨a ++ key ++ b ++ ['='], [], by simp⟩

/-- The branch of a documented keyword. -/
def How.branch : How → Option Fmt × Kind
  | .columns => (some .i10, .int)
  | .int => (some .free, .int)
  | .real => (some .free, .real)
  | .logic => (some .free, .logic)
  | .text => (some .free, .text)

def Unit.post (K : Consts) : Spec.Input.Unit → Val → Val
  | .one => id
  | .emass => Val.scale K.emass
  | .echarge => Val.scale K.echarge
  | .clight => Val.scale K.clight

def More.also : More → Val → List (Name × Val)
  | .nothing => fun _ => []
  | .same n => fun v => [(n, v)]
  | .cells n => fun v => [(n, v.pred)]
  | .flat => dim2

def toBranch (K : Consts) (d : Doc) : Branch :=
  ⟨d.key, (How.branch d.how).1, (How.branch d.how).2, d.param, Unit.post K d.unit, More.also d.more⟩

theorem unit_post (K : Consts) (u : Spec.Input.Unit) (v : Val) : Unit.post K u v = u.inCode K v := by
  cases u <;> cases v <;> rfl

theorem set_apply (e : Env) (n : Name) (v : Val) (m : Name) : e.set n v m = if m = n then some v else e m := rfl

theorem apply_eq (K : Consts) (d : Doc) (v : Val) (e : Env) :
    (e.set d.param (Unit.post K d.unit v)).sets (More.also d.more v) = d.apply K v e := by
  funext n
  unfold Doc.apply
  rw [unit_post]
  cases hm : d.more with
  | nothing => rfl
  | same m =>
    show (if n = m then some v else _) = _
    by_cases h : n = m
    · simp [More.value, h]
    · simp [More.value, h, set_apply]
  | cells m =>
    show (if n = m then some v.pred else _) = _
    by_cases h : n = m
    · cases v <;> simp [More.value, h, Val.pred]
    · cases v <;> simp [More.value, h, set_apply]
  | flat =>
    show Env.sets _ (dim2 v) n = _
    by_cases hv : v = .int 2
    · subst hv
      show (if n = c!"ny" then some (Val.int 1) else _) = _
      by_cases h : n = c!"ny"
      · simp [More.value, h]
      · simp [More.value, h, set_apply]
    · have : dim2 v = [] := by
        unfold dim2
        split
        · exact absurd rfl hv
        · rfl
      rw [this]
      simp [More.value, hv, Env.sets, set_apply]

theorem read_eq (K : Consts) (rd : Reader) (d : Doc) (t : List Char) :
    (toBranch K d).read rd t = (d.value rd t).map some := by
  unfold toBranch Branch.read Doc.value How.branch
  cases d.how <;> rfl

theorem run_eq (K : Consts) (rd : Reader) (d : Doc) (t : List Char) (e : Env) (v : Val) (h : d.value rd t = some v) :
    (toBranch K d).run rd t e = .ok (d.apply K v e) := by
  unfold Branch.run
  rw [read_eq, h]
  show Except.ok _ = _
  rw [← apply_eq]
  rfl

/-- The `(i10)` field does not depend on trailing blanks. -/
theorem readI10_trailing (t : List Char) (n : ℕ) : readI10 (t ++ List.replicate n ' ') = readI10 t := by
  have : (((t ++ List.replicate n ' ').take 10).filter fun c => c ≠ ' ') = (t.take 10).filter fun c => c ≠ ' ' := by
    rw [List.take_append, List.filter_append, List.take_replicate]
    simp
  unfold readI10
  rw [this]

theorem value_trailing {rd : Reader} (hr : Trailing rd) (d : Doc) (t : List Char) (n : ℕ) :
    d.value rd (t ++ List.replicate n ' ') = d.value rd t := by
  unfold Doc.value
  cases d.how
  · exact readI10_trailing t n
  all_goals exact hr _ _ _

/-- The branch of a keyword of a section. -/
def secBranch (K : Consts) (s : Sec) (d : Doc) : Branch :=
  if s = .solver ∧ d.key = c!"mpi_buf_size" then { toBranch K d with fmt := none } else toBranch K d

theorem table_eq (F : Flags) (K : Consts) (s : Sec) : tableOf F K s = (docs F s).map (secBranch K s) := by
  obtain ⟨f, p⟩ := F
  cases f <;> cases p <;> cases s <;> rfl

theorem secBranch_key (K : Consts) (s : Sec) (d : Doc) : (secBranch K s d).key = d.key := by
  unfold secBranch
  split <;> rfl

theorem docs_first (F : Flags) (s : Sec) : ∀ d ∈ docs F s, (docs F s).find? (fun d' => decide (0 < index d.key d'.key)) = some d := by
  obtain ⟨f, p⟩ := F
  cases f <;> cases p <;> cases s <;> decide +kernel

theorem docs_clean (F : Flags) (s : Sec) : ∀ d ∈ docs F s, d.key ≠ [] ∧ ' ' ∉ d.key ∧ '=' ∉ d.key ∧ '#' ∉ d.key := by
  obtain ⟨f, p⟩ := F
  cases f <;> cases p <;> cases s <;> decide +kernel

theorem docs_endMark (F : Flags) (s : Sec) : ∀ d ∈ docs F s, ¬ 0 < index (endMark s) d.key := by
  obtain ⟨f, p⟩ := F
  cases f <;> cases p <;> cases s <;> decide +kernel

theorem find?_congr' {α : Type} {p q : α → Bool} : ∀ {l : List α}, (∀ x ∈ l, p x = q x) → l.find? p = l.find? q
  | [], _ => rfl
  | a :: l, h => by
    rw [List.find?_cons, List.find?_cons, h a (by simp), find?_congr' (fun x hx => h x (by simp [hx]))]

theorem chain_docs (F : Flags) (K : Consts) (s : Sec) (buf : List Char) :
    chain (tableOf F K s) buf = ((docs F s).find? (fun d => decide (0 < index buf d.key))).map (secBranch K s) := by
  unfold chain
  rw [table_eq, List.find?_map]
  congr 1
  apply find?_congr'
  intro d _
  simp only [Function.comp, secBranch_key]

/-- The chain takes the branch of the keyword when the other keywords occur in the buffer only inside it. -/
theorem chain_key (F : Flags) (K : Consts) (s : Sec) {d : Doc} (hd : d ∈ docs F s) (buf : List Char)
    (h : ∀ d' ∈ docs F s, d'.key <:+: buf ↔ d'.key <:+: d.key) : chain (tableOf F K s) buf = some (secBranch K s d) := by
  rw [chain_docs, find?_congr' (q := fun d' => decide (0 < index d.key d'.key)), docs_first F s d hd]
  · rfl
  · intro d' hd'
    have hk := (docs_clean F s d' hd').1
    rw [decide_eq_decide, index_pos hk, index_pos hk]
    exact h d' hd'

theorem chain_none (F : Flags) (K : Consts) (s : Sec) (buf : List Char) (h : ∀ d ∈ docs F s, ¬ d.key <:+: buf) :
    chain (tableOf F K s) buf = none := by
  rw [chain_docs, List.find?_eq_none.mpr]
  · rfl
  · intro d hd
    have hk := (docs_clean F s d hd).1
    rw [decide_eq_true_eq, index_pos hk]
    exact h d hd

theorem hash_infix (s : List Char) : c!"#" <:+: s ↔ '#' ∈ s := by
  constructor
  · rintro ⟨a, b, rfl⟩; simp
  · intro h
    obtain ⟨a, b, rfl⟩ := List.append_of_mem h
    exact ⟨a, b, by simp⟩

theorem hash_buffer {l : List Char} (h : l.length ≤ stringLength) : 0 < index (toBuffer l) c!"#" ↔ '#' ∈ l := by
  rw [index_pos (by simp), hash_infix, toBuffer_short h]
  simp

theorem blanks_not_mem {a : List Char} (ha : Blanks a) {c : Char} (hc : c ≠ ' ') : c ∉ a := fun h => hc (ha c h)

/-- A setting line read by the chain of the section. -/
theorem body_set (F : Flags) (K : Consts) (rd : Reader) (hr : Trailing rd) (s : Sec) (endk : Option (List Char)) {d : Doc} (hd : d ∈ docs F s)
    (hne : ¬ (s = .solver ∧ d.key = c!"mpi_buf_size")) {l t : List Char} (hl : Sets d.key t l) (hp : Plain (docs F s) t) {v : Val}
    (hv : d.value rd t = some v) (e : Env) : body rd (tableOf F K s) endk (toBuffer l) e = .ok (d.apply K v e, false) := by
  obtain ⟨a, b, ha, hb, rfl, hlen⟩ := hl
  have hclean := docs_clean F s d hd
  unfold body
  rw [if_neg]
  · rw [chain_key F K s hd]
    · dsimp only
      have hsb : secBranch K s d = toBranch K d := if_neg hne
      have ht : (toBuffer (a ++ d.key ++ b ++ '=' :: t)).drop (index (toBuffer (a ++ d.key ++ b ++ '=' :: t)) c!"=") =
          t ++ List.replicate (stringLength - (a ++ d.key ++ b ++ '=' :: t).length) ' ' := by
        rw [toBuffer_short hlen, List.append_assoc, List.cons_append]
        apply drop_index_sep
        simp only [List.mem_append, not_or]
        exact ⟨⟨blanks_not_mem ha (by decide), hclean.2.2.1⟩, blanks_not_mem hb (by decide)⟩
      rw [ht, hsb, run_eq K rd d _ e v (by rw [value_trailing hr]; exact hv)]
      rfl
    · intro d' hd'
      have hc' := docs_clean F s d' hd'
      rw [toBuffer_short hlen, infix_setting hc'.2.1 hc'.2.2.1 ha hb rfl]
      constructor
      · rintro (h | h)
        · exact h
        · exact absurd h (hp.2 d' hd')
      · exact Or.inl
  · rw [hash_buffer hlen]
    simp only [List.mem_append, List.mem_cons, not_or]
    exact ⟨⟨⟨blanks_not_mem ha (by decide), hclean.2.2.2⟩, blanks_not_mem hb (by decide)⟩, by decide, hp.1⟩

theorem body_comment (rd : Reader) (tbl : List Branch) (endk : Option (List Char)) {l : List Char} (h : '#' ∈ l) (hlen : l.length ≤ stringLength)
    (e : Env) : body rd tbl endk (toBuffer l) e = .ok (e, false) := by
  unfold body
  rw [if_pos ((hash_buffer hlen).mpr h)]

theorem endMark_clean (s : Sec) : endMark s ≠ [] ∧ ' ' ∉ endMark s ∧ '=' ∉ endMark s ∧ '#' ∉ endMark s := by
  cases s <;> decide +kernel

theorem endKey_eq {s : Sec} (h : s ≠ .temporal) : endKey s = some (endMark s) := by
  cases s <;> first | rfl | exact absurd rfl h

theorem infix_pad {k l : List Char} (hb : ' ' ∉ k) (n : ℕ) : k <:+: l ++ List.replicate n ' ' ↔ k <:+: l :=
  ⟨infix_blanks_right hb l (blanks_replicate n), fun h => h.trans (List.infix_append' [] l _)⟩

theorem body_idle (F : Flags) (K : Consts) (rd : Reader) (s : Sec) {l : List Char} (hp : Plain (docs F s) l) (he : ¬ endMark s <:+: l)
    (hlen : l.length ≤ stringLength) (e : Env) : body rd (tableOf F K s) (endKey s) (toBuffer l) e = .ok (e, false) := by
  unfold body
  rw [if_neg (by rw [hash_buffer hlen]; exact hp.1), chain_none]
  · by_cases h : s = .temporal
    · subst h; rfl
    · rw [endKey_eq h]
      dsimp only
      have : ¬ 0 < index (toBuffer l) (endMark s) := by
        rw [index_pos (endMark_clean s).1, toBuffer_short hlen, infix_pad (endMark_clean s).2.1]
        exact he
      simp only [this, decide_false]
  · intro d hd
    rw [toBuffer_short hlen, infix_pad (docs_clean F s d hd).2.1]
    exact hp.2 d hd

theorem body_close (F : Flags) (K : Consts) (rd : Reader) (s : Sec) (hs : s ≠ .temporal) {l : List Char} (hl : Closes s l) (e : Env) :
    body rd (tableOf F K s) (endKey s) (toBuffer l) e = .ok (e, true) := by
  obtain ⟨a, b, ha, hb, rfl, hlen⟩ := hl
  have hc := endMark_clean s
  unfold body
  rw [if_neg, chain_none]
  · rw [endKey_eq hs]
    dsimp only
    have : 0 < index (toBuffer (a ++ endMark s ++ b)) (endMark s) := by
      rw [index_pos hc.1, toBuffer_short hlen, infix_pad hc.2.1]
      exact List.infix_append a _ b
    simp only [this, decide_true]
  · intro d hd h
    have hd' := docs_clean F s d hd
    rw [toBuffer_short hlen, infix_pad hd'.2.1] at h
    have := infix_blanks_left hd'.2.1 _ ha (by simpa using infix_blanks_right hd'.2.1 _ hb h)
    exact docs_endMark F s d hd ((index_pos hd'.1 _).mpr this)
  · rw [hash_buffer hlen]
    simp only [List.mem_append, not_or]
    exact ⟨⟨blanks_not_mem ha (by decide), hc.2.2.2⟩, blanks_not_mem hb (by decide)⟩

/-- A line inside a section. -/
theorem body_item (F : Flags) (K : Consts) (rd : Reader) (hr : Trailing rd) (s : Sec) {i : Item} (hi : i.Ok F rd s) (e : Env) :
    body rd (tableOf F K s) (endKey s) (toBuffer i.line) e = .ok (i.apply K e, false) := by
  cases i with
  | comment l => exact body_comment rd _ _ hi.1 hi.2 e
  | idle l => exact body_idle F K rd s hi.1 hi.2.1 hi.2.2 e
  | set l d v =>
    obtain ⟨hd, hne, _, t, hl, hp, hv⟩ := hi
    exact body_set F K rd hr s (endKey s) hd hne hl hp hv e

end Picsar.Lemmas.InputL
