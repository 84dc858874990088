import Verif.Spec.TempDiag
import Mathlib.Tactic.Ring
import Mathlib.Tactic.Linarith
import Mathlib.Algebra.BigOperators.Group.List.Basic

/-
Lemmas about the temporal diagnostics.
-/
namespace Picsar.TempDiag
open Picsar

/-- Switched on, as a Boolean. -/
def on (act : ℕ → Option ℤ) (d : ℕ) : Bool := match act d with
  | some a => decide (a > 0)
  | none => false

theorem on_iff {act : ℕ → Option ℤ} {d : ℕ} : (1 ≤ d ∧ d ≤ 10 ∧ on act d = true) ↔ On act d := by
  unfold on On
  cases h : act d with
  | none => simp
  | some a => simp

/-- Position after the values of the first `m` diagnostics. -/
def start (act : ℕ → Option ℤ) (ns : ℕ) : ℕ → ℕ
  | 0 => 1
  | m + 1 => start act ns m + if on act (m + 1) then nbValues ns (m + 1) else 0

def nbOn (act : ℕ → Option ℤ) : ℕ → ℕ
  | 0 => 0
  | m + 1 => nbOn act m + if on act (m + 1) then 1 else 0

theorem start_mono {act : ℕ → Option ℤ} {ns a b : ℕ} (h : a ≤ b) : start act ns a ≤ start act ns b := by
  induction h with
  | refl => exact le_refl _
  | step _ ih => exact le_trans ih (Nat.le_add_right _ _)

theorem start_pos (act : ℕ → Option ℤ) (ns m : ℕ) : 1 ≤ start act ns m := start_mono (a := 0) (Nat.zero_le m)

theorem start_on {act : ℕ → Option ℤ} {ns d : ℕ} (h : 1 ≤ d) (ho : on act d = true) : start act ns d = start act ns (d - 1) + nbValues ns d := by
  obtain ⟨e, rfl⟩ : ∃ e, d = e + 1 := ⟨d - 1, by omega⟩
  rw [start, if_pos ho]
  rfl

theorem pos_inj {act : ℕ → Option ℤ} {ns d d' k k' : ℕ} (h : 1 ≤ d) (h' : 1 ≤ d') (o : on act d = true) (o' : on act d' = true)
    (hk : k < nbValues ns d) (hk' : k' < nbValues ns d') (e : start act ns (d - 1) + k = start act ns (d' - 1) + k') : d = d' := by
  by_contra hne
  have a := start_on (ns := ns) h o
  have a' := start_on (ns := ns) h' o'
  rcases Nat.lt_or_gt_of_ne hne with hl | hl
  · have := start_mono (act := act) (ns := ns) (show d ≤ d' - 1 by omega)
    omega
  · have := start_mono (act := act) (ns := ns) (show d' ≤ d - 1 by omega)
    omega

theorem layout_ok {act : ℕ → Option ℤ} (hg : Given act) (ns m : ℕ) (hm : m ≤ 10) :
    ∃ L, (List.range' 1 m).foldlM (layoutStep act ns) ⟨fun _ => none, fun _ => none, 0, 1⟩ = .ok L ∧ L.next = start act ns m ∧
      L.nb = nbOn act m ∧
      (∀ d, L.ilist d = if 1 ≤ d ∧ d ≤ m ∧ on act d = true then some (start act ns (d - 1)) else none) ∧
      ∀ d, L.nvals d = if 1 ≤ d ∧ d ≤ m ∧ on act d = true then some (nbValues ns d) else none := by
  induction m with
  | zero => exact ⟨_, rfl, rfl, rfl, fun d => by rw [if_neg (by omega)], fun d => by rw [if_neg (by omega)]⟩
  | succ m ih =>
    obtain ⟨L, e, h1, h2, h3, h4⟩ := ih (by omega)
    rw [List.range'_1_concat, List.foldlM_append, e, except_bind_ok, List.foldlM_cons]
    have hc : 1 + m = m + 1 := by omega
    rw [hc]
    obtain ⟨a, ha⟩ := Option.ne_none_iff_exists'.mp (hg (m + 1) (by omega) hm)
    by_cases hp : a > 0
    · have ho : on act (m + 1) = true := by unfold on; rw [ha]; simpa using hp
      have es : layoutStep act ns L (m + 1) = .ok ⟨Function.update L.ilist (m + 1) (some L.next),
          Function.update L.nvals (m + 1) (some (nbValues ns (m + 1))), L.nb + 1, L.next + nbValues ns (m + 1)⟩ := by
        unfold layoutStep
        rw [ha]
        exact if_pos hp
      rw [es, except_bind_ok]
      refine ⟨_, rfl, ?_, ?_, fun d => ?_, fun d => ?_⟩
      · rw [start, if_pos ho, h1]
      · rw [nbOn, if_pos ho, h2]
      · show Function.update L.ilist (m + 1) (some L.next) d = _
        by_cases hd : d = m + 1
        · subst hd
          rw [Function.update_self, if_pos ⟨by omega, le_refl _, ho⟩, h1]
          rfl
        · rw [Function.update_of_ne hd, h3 d]
          exact if_congr (by constructor <;> rintro ⟨x, y, z⟩ <;> exact ⟨x, by omega, z⟩) rfl rfl
      · show Function.update L.nvals (m + 1) (some (nbValues ns (m + 1))) d = _
        by_cases hd : d = m + 1
        · subst hd
          rw [Function.update_self, if_pos ⟨by omega, le_refl _, ho⟩]
        · rw [Function.update_of_ne hd, h4 d]
          exact if_congr (by constructor <;> rintro ⟨x, y, z⟩ <;> exact ⟨x, by omega, z⟩) rfl rfl
    · have ho : ¬ on act (m + 1) = true := by unfold on; rw [ha]; simpa using hp
      have es : layoutStep act ns L (m + 1) = .ok L := by
        unfold layoutStep
        rw [ha]
        exact if_neg hp
      have hx : ∀ d, (1 ≤ d ∧ d ≤ m ∧ on act d = true) ↔ (1 ≤ d ∧ d ≤ m + 1 ∧ on act d = true) := by
        intro d
        constructor
        · rintro ⟨x, y, z⟩
          exact ⟨x, by omega, z⟩
        · rintro ⟨x, y, z⟩
          refine ⟨x, ?_, z⟩
          by_contra hy
          obtain rfl : d = m + 1 := by omega
          exact ho z
      rw [es, except_bind_ok]
      refine ⟨L, rfl, ?_, ?_, fun d => ?_, fun d => ?_⟩
      · rw [start, if_neg ho, h1, Nat.add_zero]
      · rw [nbOn, if_neg ho, h2, Nat.add_zero]
      · rw [h3 d]
        exact if_congr (hx d) rfl rfl
      · rw [h4 d]
        exact if_congr (hx d) rfl rfl

/-- The layout computed by `initLayout`. -/
structure IsLayout (act : ℕ → Option ℤ) (ns : ℕ) (L : Layout) : Prop where
  next : L.next = start act ns 10
  nb : L.nb = nbOn act 10
  ilist : ∀ d, L.ilist d = if 1 ≤ d ∧ d ≤ 10 ∧ on act d = true then some (start act ns (d - 1)) else none
  nvals : ∀ d, L.nvals d = if 1 ≤ d ∧ d ≤ 10 ∧ on act d = true then some (nbValues ns d) else none

theorem initLayout_ok {act : ℕ → Option ℤ} (hg : Given act) (ns : ℕ) : ∃ L, initLayout act ns = .ok L ∧ IsLayout act ns L := by
  obtain ⟨L, e, h1, h2, h3, h4⟩ := layout_ok hg ns 10 le_rfl
  exact ⟨L, e, h1, h2, h3, h4⟩

theorem tot_bound {act : ℕ → Option ℤ} {ns : ℕ} {L : Layout} (hL : IsLayout act ns L) {d : ℕ} (h1 : 1 ≤ d) (h2 : d ≤ 10)
    (ho : on act d = true) : start act ns (d - 1) + nbValues ns d ≤ L.tot + 1 := by
  have a := start_on (ns := ns) h1 ho
  have b := start_mono (act := act) (ns := ns) h2
  have c := start_pos act ns 10
  unfold Layout.tot
  rw [hL.next]
  omega

theorem stores_ok (tot i : ℕ) (v : ℕ → ℝ) (n : ℕ) (a : Vals) (h1 : 1 ≤ i) (h2 : i + n ≤ tot + 1) :
    ∃ a', (List.range n).foldlM (fun a k => store tot a (i + k) (v k)) a = .ok a' ∧ (∀ k, k < n → a' (i + k) = some (v k)) ∧
      ∀ p, p < i ∨ i + n ≤ p → a' p = a p := by
  induction n with
  | zero => exact ⟨a, rfl, fun k hk => by omega, fun _ _ => rfl⟩
  | succ n ih =>
    obtain ⟨a', e, h3, h4⟩ := ih (by omega)
    rw [List.range_succ, List.foldlM_append, e, except_bind_ok, List.foldlM_cons]
    have es : store tot a' (i + n) (v n) = .ok (Function.update a' (i + n) (some (v n))) := by
      unfold store
      rw [if_pos (by omega)]
    rw [es, except_bind_ok]
    refine ⟨_, rfl, fun k hk => ?_, fun p hp => ?_⟩
    · by_cases hkn : k = n
      · subst hkn
        exact Function.update_self _ _ _
      · rw [Function.update_of_ne (by omega)]
        exact h3 k (by omega)
    · rw [Function.update_of_ne (by omega)]
      exact h4 p (by omega)

theorem fill_ok {act : ℕ → Option ℤ} (hg : Given act) {ns : ℕ} {L : Layout} (hL : IsLayout act ns L) (q : ℕ → ℕ → ℝ) :
    ∃ a, fill act ns L q = .ok a ∧ ∀ d k, 1 ≤ d → d ≤ 10 → on act d = true → k < nbValues ns d → a (start act ns (d - 1) + k) = some (q d k) := by
  have key : ∀ m, m ≤ 10 → ∃ a, (List.range' 1 m).foldlM (fillStep act ns L q) (fun _ => none) = .ok a ∧
      ∀ d k, 1 ≤ d → d ≤ m → on act d = true → k < nbValues ns d → a (start act ns (d - 1) + k) = some (q d k) := by
    intro m
    induction m with
    | zero => exact fun _ => ⟨_, rfl, fun d k h1 h2 => by omega⟩
    | succ m ih =>
      intro hm
      obtain ⟨a, e, h⟩ := ih (by omega)
      rw [List.range'_1_concat, List.foldlM_append, e, except_bind_ok, List.foldlM_cons, Nat.add_comm 1 m]
      obtain ⟨s, hs⟩ := Option.ne_none_iff_exists'.mp (hg (m + 1) (by omega) hm)
      by_cases hp : s > 0
      · have ho : on act (m + 1) = true := by unfold on; rw [hs]; simpa using hp
        have hi : L.ilist (m + 1) = some (start act ns m) := by
          rw [hL.ilist, if_pos ⟨by omega, hm, ho⟩]
          rfl
        have tb := tot_bound hL (d := m + 1) (by omega) hm ho
        obtain ⟨a', e', h3, h4⟩ := stores_ok L.tot (start act ns m) (q (m + 1)) (nbValues ns (m + 1)) a (start_pos _ _ _) tb
        have es : fillStep act ns L q a (m + 1) = .ok a' := by
          unfold fillStep
          rw [hs]
          simp only [if_pos hp, hi]
          exact e'
        rw [es, except_bind_ok]
        refine ⟨a', rfl, fun d k h1 h2 h5 h6 => ?_⟩
        by_cases hd : d = m + 1
        · subst hd
          exact h3 k h6
        · rw [h4 _ ?_]
          · exact h d k h1 (by omega) h5 h6
          · left
            have := start_on (ns := ns) h1 h5
            have := start_mono (act := act) (ns := ns) (show d ≤ m by omega)
            omega
      · have ho : ¬ on act (m + 1) = true := by unfold on; rw [hs]; simpa using hp
        have es : fillStep act ns L q a (m + 1) = .ok a := by
          unfold fillStep
          rw [hs]
          exact if_neg hp
        rw [es, except_bind_ok]
        refine ⟨a, rfl, fun d k h1 h2 h5 h6 => h d k h1 ?_ h5 h6⟩
        by_contra hd
        obtain rfl : d = m + 1 := by omega
        exact ho h5
  exact key 10 le_rfl

theorem fills_ok {act : ℕ → Option ℤ} (hg : Given act) {ns : ℕ} {L : Layout} (hL : IsLayout act ns L) (qs : List (ℕ → ℕ → ℝ)) :
    ∃ ls, qs.mapM (fill act ns L) = .ok ls ∧ ∀ d k, 1 ≤ d → d ≤ 10 → on act d = true → k < nbValues ns d →
      reduce ls (start act ns (d - 1) + k) = some (qs.map fun q => q d k).sum := by
  have key : ∃ ls : List Vals, qs.mapM (fill act ns L) = .ok ls ∧ ∀ d k, 1 ≤ d → d ≤ 10 → on act d = true → k < nbValues ns d →
      ls.mapM (fun a : Vals => a (start act ns (d - 1) + k)) = some (qs.map fun q => q d k) := by
    induction qs with
    | nil => exact ⟨[], rfl, fun _ _ _ _ _ _ => rfl⟩
    | cons q qs ih =>
      obtain ⟨ls, e, h⟩ := ih
      obtain ⟨a, e', h'⟩ := fill_ok hg hL q
      refine ⟨a :: ls, ?_, fun d k h1 h2 h3 h4 => ?_⟩
      · rw [List.mapM_cons, e', except_bind_ok, e]
        rfl
      · rw [List.mapM_cons, h' d k h1 h2 h3 h4, h d k h1 h2 h3 h4]
        rfl
  obtain ⟨ls, e, h⟩ := key
  refine ⟨ls, e, fun d k h1 h2 h3 h4 => ?_⟩
  unfold reduce
  rw [h d k h1 h2 h3 h4]
  rfl

theorem nb_one {ns d : ℕ} (h : 8 ≤ d) : nbValues ns d = 1 := by
  unfold nbValues
  rw [if_neg (by omega)]

/-- One of the three square roots. -/
theorem root_ok {act : ℕ → Option ℤ} (hg : Given act) {ns : ℕ} {L : Layout} (hL : IsLayout act ns L) (e : ℕ) (h8 : 8 ≤ e) (h10 : e ≤ 10)
    (a : Vals) (v : ℕ → ℕ → ℝ)
    (ha : ∀ d k, 1 ≤ d → d ≤ 10 → on act d = true → k < nbValues ns d → a (start act ns (d - 1) + k) = some (v d k)) :
    ∃ a', rootStep act L a e = .ok a' ∧ ∀ d k, 1 ≤ d → d ≤ 10 → on act d = true → k < nbValues ns d →
      a' (start act ns (d - 1) + k) = some (if d = e then √(v d k) else v d k) := by
  obtain ⟨s, hs⟩ := Option.ne_none_iff_exists'.mp (hg e (by omega) h10)
  by_cases hp : s > 0
  · have ho : on act e = true := by unfold on; rw [hs]; simpa using hp
    have hi : L.ilist e = some (start act ns (e - 1)) := by
      rw [hL.ilist, if_pos ⟨by omega, h10, ho⟩]
    have es : rootStep act L a e = .ok (Function.update a (start act ns (e - 1)) ((a (start act ns (e - 1))).map Real.sqrt)) := by
      unfold rootStep
      rw [hs]
      simp only [if_pos hp, hi]
    refine ⟨_, es, fun d k h1 h2 h3 h4 => ?_⟩
    by_cases hd : d = e
    · subst hd
      rw [nb_one h8] at h4
      obtain rfl : k = 0 := by omega
      have := ha d 0 h1 h2 h3 (by rw [nb_one h8]; omega)
      rw [Nat.add_zero] at this ⊢
      rw [Function.update_self, this, if_pos rfl]
      rfl
    · rw [Function.update_of_ne, if_neg hd]
      · exact ha d k h1 h2 h3 h4
      · intro he
        exact hd (pos_inj (k' := 0) h1 (by omega) h3 ho h4 (by rw [nb_one h8]; omega) he)
  · have ho : ¬ on act e = true := by unfold on; rw [hs]; simpa using hp
    have es : rootStep act L a e = .ok a := by
      unfold rootStep
      rw [hs]
      exact if_neg hp
    refine ⟨a, es, fun d k h1 h2 h3 h4 => ?_⟩
    rw [if_neg (by rintro rfl; exact ho h3)]
    exact ha d k h1 h2 h3 h4

theorem global_ok {act : ℕ → Option ℤ} (hg : Given act) {ns : ℕ} {L : Layout} (hL : IsLayout act ns L) (qs : List (ℕ → ℕ → ℝ)) :
    ∃ g, globalValues act ns L qs = .ok g ∧ ∀ d, 1 ≤ d → d ≤ 10 → on act d = true → slice L g d = .ok (record ns d qs) := by
  obtain ⟨ls, e, h⟩ := fills_ok hg hL qs
  obtain ⟨a1, e1, h1⟩ := root_ok hg hL 8 (by omega) (by omega) (reduce ls) (fun d k => (qs.map fun q => q d k).sum) h
  obtain ⟨a2, e2, h2⟩ := root_ok hg hL 9 (by omega) (by omega) a1 _ h1
  obtain ⟨a3, e3, h3⟩ := root_ok hg hL 10 (by omega) (by omega) a2 _ h2
  refine ⟨a3, ?_, fun d hd1 hd2 ho => ?_⟩
  · unfold globalValues
    rw [e, except_bind_ok]
    unfold roots
    rw [List.foldlM_cons, e1, except_bind_ok, List.foldlM_cons, e2, except_bind_ok, List.foldlM_cons, e3, except_bind_ok]
    rfl
  · have hb := tot_bound hL hd1 hd2 ho
    have hs := start_pos act ns (d - 1)
    unfold slice
    rw [hL.ilist, hL.nvals, if_pos ⟨hd1, hd2, ho⟩, if_pos ⟨hd1, hd2, ho⟩]
    show (if _ then _ else _) = _
    rw [if_pos (by omega)]
    congr 1
    unfold record
    show (List.range (nbValues ns d)).map _ = (List.range (nbValues ns d)).map _
    apply List.map_congr_left
    intro k hk
    rw [List.mem_range] at hk
    rw [h3 d k hd1 hd2 ho hk]
    congr 1
    unfold value
    by_cases h8 : 8 ≤ d
    · rw [if_pos h8]
      obtain rfl | rfl | rfl : d = 8 ∨ d = 9 ∨ d = 10 := by omega
      all_goals norm_num
    · rw [if_neg h8, if_neg (by omega), if_neg (by omega), if_neg (by omega)]

/-! ### Files -/

/-- Opening files, one for each element of `xs` with `c`. -/
theorem opens_ok {α : Type} (L : Layout) (period : ℝ) (F : World → α → Res World) (c : α → Prop) (r u d : α → ℕ) (xs : List α) (hn : xs.Nodup)
    (hF : ∀ w, ∀ x ∈ xs, (c x ∧ F w x = openFile L period w (r x) (u x) (d x)) ∨ (¬ c x ∧ F w x = .ok w))
    (hd : ∀ x ∈ xs, ∀ y ∈ xs, d x = d y → x = y) (hu : ∀ x ∈ xs, ∀ y ∈ xs, r x = r y → u x = u y → x = y) (w : World)
    (hw : ∀ x ∈ xs, w.file (d x) = none) :
    ∃ w', xs.foldlM F w = .ok w' ∧ (∀ x ∈ xs, c x → w'.file (d x) = some [.head (L.nvals (d x)) period] ∧ w'.unit (r x) (u x) = some (d x)) ∧
      (∀ e, (∀ x ∈ xs, c x → d x ≠ e) → w'.file e = w.file e) ∧
      (∀ a b, (∀ x ∈ xs, c x → ¬ (r x = a ∧ u x = b)) → w'.unit a b = w.unit a b) ∧ w'.fort = w.fort := by
  induction xs generalizing w with
  | nil => exact ⟨w, rfl, by simp, fun _ _ => rfl, fun _ _ _ => rfl, rfl⟩
  | cons x xs ih =>
    rw [List.nodup_cons] at hn
    have hd' : ∀ y ∈ xs, d y ≠ d x := fun y hy he => hn.1 (hd y (List.mem_cons_of_mem _ hy) x List.mem_cons_self he ▸ hy)
    have hu' : ∀ y ∈ xs, ¬ (r y = r x ∧ u y = u x) := fun y hy he =>
      hn.1 (hu y (List.mem_cons_of_mem _ hy) x List.mem_cons_self he.1 he.2 ▸ hy)
    have ih := ih hn.2 (fun w y hy => hF w y (List.mem_cons_of_mem _ hy))
      (fun y hy z hz => hd y (List.mem_cons_of_mem _ hy) z (List.mem_cons_of_mem _ hz))
      (fun y hy z hz => hu y (List.mem_cons_of_mem _ hy) z (List.mem_cons_of_mem _ hz))
    rw [List.foldlM_cons]
    rcases hF w x List.mem_cons_self with ⟨hc, e⟩ | ⟨hc, e⟩
    · have eo : openFile L period w (r x) (u x) (d x) = .ok ⟨Function.update w.file (d x) (some [.head (L.nvals (d x)) period]),
          Function.update w.unit (r x) (Function.update (w.unit (r x)) (u x) (some (d x))), w.fort⟩ := by
        unfold openFile
        rw [hw x List.mem_cons_self]
      rw [e, eo, except_bind_ok]
      obtain ⟨w', e', h1, h2, h3, h4⟩ := ih ⟨Function.update w.file (d x) (some [.head (L.nvals (d x)) period]),
          Function.update w.unit (r x) (Function.update (w.unit (r x)) (u x) (some (d x))), w.fort⟩ (fun y hy => by
        show Function.update w.file (d x) _ (d y) = none
        rw [Function.update_of_ne (hd' y hy)]
        exact hw y (List.mem_cons_of_mem _ hy))
      refine ⟨w', e', fun y hy hcy => ?_, fun k hk => ?_, fun a b hab => ?_, h4⟩
      · rcases List.mem_cons.mp hy with rfl | hy
        · rw [h2 _ fun z hz _ => hd' z hz, h3 _ _ fun z hz _ => hu' z hz]
          exact ⟨Function.update_self _ _ _, by simp only [Function.update_self]⟩
        · exact h1 y hy hcy
      · rw [h2 k fun z hz => hk z (List.mem_cons_of_mem _ hz)]
        exact Function.update_of_ne (hk x List.mem_cons_self hc).symm _ _
      · rw [h3 a b fun z hz => hab z (List.mem_cons_of_mem _ hz)]
        show Function.update w.unit (r x) (Function.update (w.unit (r x)) (u x) (some (d x))) a b = _
        by_cases ha : a = r x
        · subst ha
          have hb : b ≠ u x := fun hb => hab x List.mem_cons_self hc ⟨rfl, hb.symm⟩
          rw [Function.update_self, Function.update_of_ne hb]
        · rw [Function.update_of_ne ha]
    · rw [e, except_bind_ok]
      obtain ⟨w', e', h1, h2, h3, h4⟩ := ih w (fun y hy => hw y (List.mem_cons_of_mem _ hy))
      refine ⟨w', e', fun y hy hcy => ?_, fun k hk => ?_, fun a b hab => ?_, h4⟩
      · rcases List.mem_cons.mp hy with rfl | hy
        · exact absurd hcy hc
        · exact h1 y hy hcy
      · exact h2 k fun z hz => hk z (List.mem_cons_of_mem _ hz)
      · exact h3 a b fun z hz => hab z (List.mem_cons_of_mem _ hz)

/-- Writing one record to each of several connected units. -/
theorem writes_ok {α : Type} (F : World → α → Res World) (r u d : α → ℕ) (l : ℕ → List (Option ℝ)) (xs : List α) (hn : xs.Nodup)
    (hF : ∀ w, ∀ x ∈ xs, F w x = .ok (write w (r x) (u x) (.vals (l (d x))))) (hd : ∀ x ∈ xs, ∀ y ∈ xs, d x = d y → x = y) (w : World)
    (hw : ∀ x ∈ xs, w.unit (r x) (u x) = some (d x)) :
    ∃ w', xs.foldlM F w = .ok w' ∧ (∀ x ∈ xs, w'.file (d x) = (w.file (d x)).map (· ++ [.vals (l (d x))])) ∧
      (∀ e, (∀ x ∈ xs, d x ≠ e) → w'.file e = w.file e) ∧ w'.unit = w.unit ∧ w'.fort = w.fort := by
  induction xs generalizing w with
  | nil => exact ⟨w, rfl, by simp, fun _ _ => rfl, rfl, rfl⟩
  | cons x xs ih =>
    rw [List.nodup_cons] at hn
    have hd' : ∀ y ∈ xs, d y ≠ d x := fun y hy he => hn.1 (hd y (List.mem_cons_of_mem _ hy) x List.mem_cons_self he ▸ hy)
    have e1 : write w (r x) (u x) (.vals (l (d x))) =
        { w with file := Function.update w.file (d x) ((w.file (d x)).map (· ++ [.vals (l (d x))])) } := by
      unfold write
      rw [hw x List.mem_cons_self]
    rw [List.foldlM_cons, hF w x List.mem_cons_self, except_bind_ok, e1]
    obtain ⟨w', e', h1, h2, h3, h4⟩ := ih hn.2 (fun w y hy => hF w y (List.mem_cons_of_mem _ hy))
      (fun y hy z hz => hd y (List.mem_cons_of_mem _ hy) z (List.mem_cons_of_mem _ hz))
      { w with file := Function.update w.file (d x) ((w.file (d x)).map (· ++ [.vals (l (d x))])) }
      (fun y hy => hw y (List.mem_cons_of_mem _ hy))
    refine ⟨w', e', fun y hy => ?_, fun k hk => ?_, h3, h4⟩
    · rcases List.mem_cons.mp hy with rfl | hy
      · rw [h2 _ hd']
        exact Function.update_self _ _ _
      · rw [h1 y hy]
        show Option.map _ (Function.update w.file (d x) _ (d y)) = _
        rw [Function.update_of_ne (hd' y hy)]
    · rw [h2 k fun z hz => hk z (List.mem_cons_of_mem _ hz)]
      exact Function.update_of_ne (hk x List.mem_cons_self).symm _ _

theorem foldlM_fault {α β : Type} (f : β → α → Res β) (E : Fault) (xs : List α)
    (h : ∀ s, ∀ x ∈ xs, (∃ s', f s x = .ok s') ∨ f s x = .error E) (hx : ∃ x ∈ xs, ∀ s, f s x = .error E) (s : β) :
    xs.foldlM f s = .error E := by
  induction xs generalizing s with
  | nil => exact absurd hx (by simp)
  | cons x xs ih =>
    rw [List.foldlM_cons]
    rcases h s x List.mem_cons_self with ⟨s', e⟩ | e
    · rw [e, except_bind_ok]
      refine ih (fun s y hy => h s y (List.mem_cons_of_mem _ hy)) ?_ s'
      obtain ⟨y, hy, he⟩ := hx
      rcases List.mem_cons.mp hy with rfl | hy
      · rw [he s] at e
        exact absurd e (by simp)
      · exact ⟨y, hy, he⟩
    · rw [e]
      rfl

theorem slice_unset {act : ℕ → Option ℤ} {ns : ℕ} {L : Layout} (hL : IsLayout act ns L) {d : ℕ} (h : ¬ (1 ≤ d ∧ d ≤ 10 ∧ on act d = true))
    (g : Vals) : slice L g d = .error .uninitialised := by
  unfold slice
  rw [hL.ilist, if_neg h]

/-- A slice is read or its indices have never been set. -/
theorem slice_cases {act : ℕ → Option ℤ} {ns : ℕ} {L : Layout} (hL : IsLayout act ns L) (d : ℕ) (g : Vals) :
    (∃ l, slice L g d = .ok l) ∨ slice L g d = .error .uninitialised := by
  by_cases h : 1 ≤ d ∧ d ≤ 10 ∧ on act d = true
  · left
    have hb := tot_bound hL h.1 h.2.1 h.2.2
    have hs := start_pos act ns (d - 1)
    unfold slice
    rw [hL.ilist, hL.nvals, if_pos h, if_pos h]
    exact ⟨_, if_pos (by omega)⟩
  · exact Or.inr (slice_unset hL h g)

theorem nbOn_prefix {act : ℕ → Option ℤ} {m : ℕ} (h : ∀ d, On act d ↔ 1 ≤ d ∧ d ≤ m) (j : ℕ) (hj : j ≤ 10) : nbOn act j = min j m := by
  induction j with
  | zero => simp [nbOn]
  | succ j ih =>
    rw [nbOn, ih (by omega)]
    have := (on_iff (act := act) (d := j + 1)).trans (h (j + 1))
    by_cases ho : on act (j + 1) = true
    · rw [if_pos ho]
      have := (this.mp ⟨by omega, hj, ho⟩).2
      omega
    · rw [if_neg ho]
      have : ¬ (j + 1 ≤ m) := fun hjm => ho (this.mpr ⟨by omega, hjm⟩).2.2
      omega

theorem nbOn_le (act : ℕ → Option ℤ) {i j : ℕ} (h : i ≤ j) : nbOn act i ≤ nbOn act j := by
  induction h with
  | refl => exact le_refl _
  | step _ ih => exact le_trans ih (Nat.le_add_right _ _)

theorem nbOn_le_self (act : ℕ → Option ℤ) (j : ℕ) : nbOn act j ≤ j := by
  induction j with
  | zero => exact le_refl _
  | succ j ih =>
    rw [nbOn]
    split_ifs <;> omega

theorem openIf_on {act : ℕ → Option ℤ} (hg : Given act) (L : Layout) (period : ℝ) (w : World) (r u : ℕ) {d : ℕ} (h1 : 1 ≤ d) (h2 : d ≤ 10) :
    (on act d = true ∧ openIf act L period w r u d = openFile L period w r u d) ∨ (¬ on act d = true ∧ openIf act L period w r u d = .ok w) := by
  obtain ⟨s, hs⟩ := Option.ne_none_iff_exists'.mp (hg d h1 h2)
  unfold openIf on
  rw [hs]
  by_cases hp : s > 0
  · exact Or.inl ⟨by simpa using hp, if_pos hp⟩
  · exact Or.inr ⟨by simpa using hp, if_neg hp⟩

/-- The files after `init_temp_diags`. -/
theorem openFiles_ok {act : ℕ → Option ℤ} (hg : Given act) {ns : ℕ} {L : Layout} (hL : IsLayout act ns L) (period : ℝ) (nproc : ℕ) :
    ∃ w, openFiles act L period nproc = .ok w ∧ w.fort = [] ∧
      (∀ d, 1 ≤ d → d ≤ L.nb → on act d = true → w.file d = some [.head (some (nbValues ns d)) period] ∧
        (L.nb ≤ nproc → w.unit (d - 1) 42 = some d) ∧ (nproc < L.nb → w.unit 0 (42 + d) = some d)) ∧
      ∀ d, ¬ (1 ≤ d ∧ d ≤ L.nb ∧ on act d = true) → w.file d = none := by
  have h10 : L.nb ≤ 10 := by rw [hL.nb]; exact nbOn_le_self act 10
  have nv : ∀ d, 1 ≤ d → d ≤ L.nb → on act d = true → L.nvals d = some (nbValues ns d) := fun d a b c => by
    rw [hL.nvals, if_pos ⟨a, by omega, c⟩]
  unfold openFiles
  by_cases hp : nproc ≥ L.nb
  · rw [if_pos hp]
    obtain ⟨w, e, h1, h2, h3, h4⟩ := opens_ok L period (fun w r => if r < L.nb then openIf act L period w r 42 (r + 1) else .ok w)
      (fun r => r < L.nb ∧ on act (r + 1) = true) (fun r => r) (fun _ => 42) (fun r => r + 1) (List.range nproc) List.nodup_range (by
        intro w r _
        by_cases hr : r < L.nb
        · simp only [if_pos hr]
          rcases openIf_on hg L period w r 42 (d := r + 1) (by omega) (by omega) with ⟨a, b⟩ | ⟨a, b⟩
          · exact Or.inl ⟨⟨hr, a⟩, b⟩
          · exact Or.inr ⟨fun h => a h.2, b⟩
        · simp only [if_neg hr]
          exact Or.inr ⟨fun h => hr h.1, trivial⟩) (fun x _ y _ h => by omega) (fun x _ y _ h _ => h) ⟨fun _ => none, fun _ _ => none, []⟩
      (fun _ _ => rfl)
    refine ⟨w, e, h4, fun d a b c => ?_, fun d hd => ?_⟩
    · obtain ⟨r, rfl⟩ : ∃ r, d = r + 1 := ⟨d - 1, by omega⟩
      obtain ⟨x, y⟩ := h1 r (List.mem_range.mpr (by omega)) ⟨by omega, c⟩
      exact ⟨by rw [x, nv _ a b c], fun _ => y, fun h => by omega⟩
    · rw [h2 d]
      rintro r - ⟨x, y⟩ rfl
      exact hd ⟨by omega, by omega, y⟩
  · rw [if_neg hp]
    obtain ⟨w, e, h1, h2, h3, h4⟩ := opens_ok L period (fun w i => openIf act L period w 0 (42 + i) i)
      (fun i => on act i = true) (fun _ => 0) (fun i => 42 + i) (fun i => i) (List.range' 1 L.nb) List.nodup_range' (by
        intro w i hi
        rw [List.mem_range'_1] at hi
        exact openIf_on hg L period w 0 (42 + i) hi.1 (by omega)) (fun x _ y _ h => h) (fun x _ y _ _ h => by omega)
      ⟨fun _ => none, fun _ _ => none, []⟩ (fun _ _ => rfl)
    refine ⟨w, e, h4, fun d a b c => ?_, fun d hd => ?_⟩
    · obtain ⟨x, y⟩ := h1 d (List.mem_range'_1.mpr ⟨a, by omega⟩) c
      exact ⟨by rw [x, nv _ a b c], fun h => by omega, fun _ => y⟩
    · rw [h2 d]
      rintro i hi hc rfl
      rw [List.mem_range'_1] at hi
      exact hd ⟨hi.1, by omega, hc⟩

end Picsar.TempDiag
