import Verif.Lemmas.InputFile
import Mathlib.Tactic.IntervalCases
import Mathlib.Data.List.TakeWhile

/-
Helper lemmas for the command line and the integers in ten columns.
-/
namespace Picsar.Lemmas.InputL
open Picsar Picsar.Input Picsar.Spec.Input

theorem clTable_eq (F : Flags) (K : Consts) :
    clTable F = (((clDocs F).take 41).map (toBranch K) ++ [bf c!"nsteps" .int c!"nsteps"]) ++ ((clDocs F).drop 41).map (toBranch K) := by
  obtain ⟨f, p⟩ := F
  cases f <;> cases p <;> rfl

theorem nsteps_mem (F : Flags) : doc c!"nsteps" .int c!"nsteps" ∈ (clDocs F).take 41 := by
  obtain ⟨f, p⟩ := F
  cases f <;> cases p <;> decide +kernel

theorem find?_dup {α : Type} (p : α → Bool) (l : List α) {x : α} (hx : x ∈ l) (r : List α) : ((l ++ [x]) ++ r).find? p = (l ++ r).find? p := by
  rw [List.append_assoc, List.find?_append, List.find?_append, List.find?_append]
  cases h : l.find? p with
  | some y => rfl
  | none =>
    have hp := List.find?_eq_none.mp h x hx
    simp [hp]

theorem chain_cl (F : Flags) (K : Consts) (buf : List Char) :
    chain (clTable F) buf = ((clDocs F).find? (fun d => decide (0 < index buf d.key))).map (toBranch K) := by
  unfold chain
  rw [clTable_eq F K, find?_dup, ← List.map_append, List.take_append_drop, List.find?_map]
  · rfl
  · have := List.mem_map_of_mem (f := toBranch K) (nsteps_mem F)
    exact this

theorem cl_first (F : Flags) : ∀ d ∈ clDocs F, d.key ∉ shadowed →
    (clDocs F).find? (fun d' => decide (0 < index d.key d'.key)) = some d := by
  obtain ⟨f, p⟩ := F
  cases f <;> cases p <;> decide +kernel

theorem cl_clean (F : Flags) : ∀ d ∈ clDocs F, d.key ≠ [] ∧ ' ' ∉ d.key ∧ '-' ∉ d.key := by
  obtain ⟨f, p⟩ := F
  cases f <;> cases p <;> decide +kernel

theorem infix_dashes {k : List Char} (hb : '-' ∉ k) (s : List Char) : ∀ n : ℕ, k <:+: List.replicate n '-' ++ s ↔ k <:+: s
  | 0 => by simp
  | n + 1 => by
    rw [List.replicate_succ, List.cons_append]
    constructor
    · intro h
      rcases infix_sep hb [] _ h with h | h
      · rw [List.infix_nil] at h; rw [h]; exact List.nil_infix
      · exact (infix_dashes hb s n).mp h
    · intro h
      rw [List.infix_cons_iff]
      exact Or.inr ((infix_dashes hb s n).mpr h)

theorem chain_opt (F : Flags) (K : Consts) {d : Doc} (hd : d ∈ clDocs F) (hs : d.key ∉ shadowed) (n : ℕ)
    (hlen : (List.replicate n '-' ++ d.key).length ≤ stringLength) :
    chain (clTable F) (toBuffer (List.replicate n '-' ++ d.key)) = some (toBranch K d) := by
  rw [chain_cl F K, find?_congr' (q := fun d' => decide (0 < index d.key d'.key)), cl_first F d hd hs]
  · rfl
  · intro d' hd'
    have hk := cl_clean F d' hd'
    rw [decide_eq_decide, index_pos hk.1, index_pos hk.1, toBuffer_short hlen, infix_pad hk.2.1, infix_dashes hk.2.2]

theorem options_run (F : Flags) (K : Consts) (rd : Reader) (hr : Trailing rd) : ∀ (os : List Opt), (∀ o ∈ os, o.Ok F rd) →
    (∀ o ∈ os, o.doc.key ∉ shadowed) → ∀ e, options F rd (args os) e = .ok (optMeaning K os e)
  | [], _, _, e => rfl
  | o :: os, h, hs, e => by
    have ho := h o (by simp)
    have : args (o :: os) = o.name :: o.text :: args os := rfl
    rw [this]
    unfold options
    rw [show o.name = List.replicate o.dashes '-' ++ o.doc.key from rfl, chain_opt F K ho.doc (hs o (by simp)) o.dashes ho.name]
    dsimp only
    rw [run_eq K rd o.doc _ e o.val (by rw [toBuffer_short ho.text, value_trailing hr]; exact ho.val), except_bind_ok]
    exact options_run F K rd hr os (fun x hx => h x (by simp [hx])) (fun x hx => hs x (by simp [hx])) _

/-! Integers -/

theorem digits_cons {c : Char} {d : ℕ} (hd : digit c = some d) (s : List Char) (a : ℕ) : digits (c :: s) a = digits s (10 * a + d) := by
  rw [digits, hd]

theorem digits_cons_none {c : Char} (hd : digit c = none) (s : List Char) (a : ℕ) : digits (c :: s) a = none := by
  rw [digits, hd]

theorem digits_append : ∀ (s t : List Char) (a b : ℕ), digits s a = some b → digits (s ++ t) a = digits t b
  | [], t, a, b, h => by simp only [digits, Option.some.injEq] at h; rw [h]; rfl
  | c :: s, t, a, b, h => by
    rw [List.cons_append]
    cases hd : digit c with
    | none => rw [digits_cons_none hd] at h; simp at h
    | some d =>
      rw [digits_cons hd] at h ⊢
      exact digits_append s t _ b h

theorem digit_ofNat (d : ℕ) (h : d < 10) : digit (Char.ofNat (48 + d)) = some d := by
  interval_cases d <;> decide

theorem digits_decimal (n : ℕ) : digits (decimal n) 0 = some n := by
  induction n using Nat.strongRecOn with
  | ind n ih =>
    unfold decimal
    by_cases h : n < 10
    · rw [if_pos h]
      unfold digits
      rw [digit_ofNat n h]
      simp [digits]
    · rw [if_neg h, digits_append _ _ _ _ (ih (n / 10) (by omega))]
      unfold digits
      rw [digit_ofNat _ (by omega)]
      simp only [digits, Option.some.injEq]
      omega

theorem ofNat_digit_mem {c : Char} {d : ℕ} (h : d < 10) (hc : c = Char.ofNat (48 + d)) : c ≠ ' ' ∧ c ≠ '-' ∧ c ≠ '+' := by
  subst hc
  interval_cases d <;> decide

theorem decimal_chars (n : ℕ) : ∀ c ∈ decimal n, c ≠ ' ' ∧ c ≠ '-' ∧ c ≠ '+' := by
  induction n using Nat.strongRecOn with
  | ind n ih =>
    unfold decimal
    by_cases h : n < 10
    · rw [if_pos h]
      intro c hc
      exact ofNat_digit_mem h (List.mem_singleton.mp hc)
    · rw [if_neg h]
      intro c hc
      rcases List.mem_append.mp hc with hc | hc
      · exact ih (n / 10) (by omega) c hc
      · exact ofNat_digit_mem (d := n % 10) (by omega) (List.mem_singleton.mp hc)

theorem decimal_ne (n : ℕ) : decimal n ≠ [] := by
  unfold decimal
  split <;> simp

theorem number_decimal (n : ℕ) : number (decimal n) = some (n : ℤ) := by
  unfold number
  have h := decimal_ne n
  split
  · rename_i heq; exact absurd heq h
  · rw [digits_decimal]; rfl

theorem filter_blanks {a : List Char} (ha : Blanks a) : a.filter (fun c => decide (c ≠ ' ')) = [] := by
  rw [List.filter_eq_nil_iff]
  intro c hc
  simp [ha c hc]

theorem filter_self {s : List Char} (h : ∀ c ∈ s, c ≠ ' ') : s.filter (fun c => decide (c ≠ ' ')) = s := by
  rw [List.filter_eq_self]
  intro c hc
  simp [h c hc]

theorem readI10_decimal (z : ℤ) {a b : List Char} (ha : Blanks a) (hb : Blanks b) (hlen : (a ++ decimalInt z).length ≤ 10) :
    readI10 (a ++ decimalInt z ++ b) = some (.int z) := by
  have hfil : ∀ s : List Char, (∀ c ∈ s, c ≠ ' ') → (a ++ s).length ≤ 10 →
      ((a ++ s ++ b).take 10).filter (fun c => decide (c ≠ ' ')) = s := by
    intro s hs hl
    rw [List.take_append, List.take_of_length_le hl, List.filter_append, List.filter_append, filter_blanks ha, filter_self hs, filter_blanks]
    · simp
    · intro c hc; exact hb c (List.mem_of_mem_take hc)
  cases z with
  | ofNat n =>
    have hc := decimal_chars n
    have hd := number_decimal n
    show field (((a ++ decimal n ++ b).take 10).filter fun c => c ≠ ' ') = _
    rw [hfil (decimal n) (fun c h => (hc c h).1) hlen]
    cases hs : decimal n with
    | nil => exact absurd hs (decimal_ne n)
    | cons c s =>
      rw [hs] at hc hd
      have h1 := hc c (by simp)
      unfold field
      split
      · rename_i heq; cases heq
      · rename_i heq; exact absurd (List.cons.inj heq).1 h1.2.1
      · rename_i heq; exact absurd (List.cons.inj heq).1 h1.2.2
      · rw [hd]; rfl
  | negSucc n =>
    have hc := decimal_chars (n + 1)
    have hd := number_decimal (n + 1)
    show field (((a ++ ('-' :: decimal (n + 1)) ++ b).take 10).filter fun c => c ≠ ' ') = _
    rw [hfil ('-' :: decimal (n + 1)) (by
      intro c h
      rcases List.mem_cons.mp h with h | h
      · rw [h]; decide
      · exact (hc c h).1) hlen]
    show (number (decimal (n + 1))).map _ = _
    rw [hd]
    rfl

theorem readI10_blank {t : List Char} (h : Blanks (t.take 10)) : readI10 t = some (.int 0) := by
  unfold readI10
  rw [filter_blanks h]
  rfl

theorem readI10_take (t : List Char) : readI10 t = readI10 (t.take 10) := by
  unfold readI10
  rw [List.take_take, Nat.min_self]

theorem toBuffer_length (l : List Char) : (toBuffer l).length = stringLength := by
  unfold toBuffer
  simp

theorem index_name (w x : List Char) : 0 < index (toBuffer w) (toBuffer x) ↔ toBuffer x = toBuffer w := by
  rw [index_pos]
  · constructor
    · intro h; exact h.eq_of_length (by rw [toBuffer_length, toBuffer_length])
    · intro h; rw [h]
  · intro h
    have := toBuffer_length x
    rw [h] at this
    exact absurd this (by decide)

theorem findSpecies_eq (w : List Char) : ∀ (sp : List Env) (names : List (List Char)) (i : ℤ),
    sp.map (fun s => s c!"name") = names.map (fun x => some (Val.text x)) →
    findSpecies w sp i = .ok ((names.findIdx? (sameName w)).map fun (k : ℕ) => i + k)
  | [], [], i, _ => rfl
  | [], x :: names, i, h => by simp at h
  | s :: sp, [], i, h => by simp at h
  | s :: sp, x :: names, i, h => by
    simp only [List.map_cons, List.cons.injEq] at h
    unfold findSpecies
    rw [h.1]
    dsimp only
    rw [List.findIdx?_cons]
    by_cases hx : toBuffer x = toBuffer w
    · rw [if_pos ((index_name w x).mpr hx), if_pos (show sameName w x = true from decide_eq_true hx)]
      simp
    · rw [if_neg (fun h => hx ((index_name w x).mp h)), if_neg (by unfold sameName; simp [hx]), findSpecies_eq w sp names (i + 1) h.2]
      congr 1
      rw [Option.map_map]
      congr 1
      funext k
      simp only [Function.comp]
      push_cast
      omega

end Picsar.Lemmas.InputL
