import Verif.Model.Grid
import Mathlib.Tactic.Linarith
import Mathlib.Data.List.Nodup
import Mathlib.Algebra.BigOperators.Intervals

namespace Picsar.Grid
open Picsar

/-- Value of an expression over unbounded arrays. -/
noncomputable def Ex.den (σ : Mem) (i : I3) : Ex → ℝ
  | .rd c dj dk dl => (σ c).val (i.sh dj dk dl)
  | .k f => f i
  | .add a b => a.den σ i + b.den σ i
  | .sub a b => a.den σ i - b.den σ i
  | .mul a b => a.den σ i * b.den σ i
  | .cond p a b => if p i then a.den σ i else b.den σ i
  | .sum n body => ∑ m ∈ Finset.range (n i), (body (m + 1)).den σ i

/-- All reads of the expression at `i` are inside the bounds. -/
def Ex.Safe (σ : Mem) (i : I3) : Ex → Prop
  | .rd c dj dk dl => InBox (σ c).lo (σ c).hi (i.sh dj dk dl)
  | .k _ => True
  | .add a b => a.Safe σ i ∧ b.Safe σ i
  | .sub a b => a.Safe σ i ∧ b.Safe σ i
  | .mul a b => a.Safe σ i ∧ b.Safe σ i
  | .cond p a b => if p i then a.Safe σ i else b.Safe σ i
  | .sum n body => ∀ m, m < n i → (body (m + 1)).Safe σ i

/-- The expression reads the target array at the loop index only. -/
def Ex.LocalTo (t : Comp) : Ex → Prop
  | .rd c dj dk dl => c = t → dj = 0 ∧ dk = 0 ∧ dl = 0
  | .k _ => True
  | .add a b => a.LocalTo t ∧ b.LocalTo t
  | .sub a b => a.LocalTo t ∧ b.LocalTo t
  | .mul a b => a.LocalTo t ∧ b.LocalTo t
  | .cond _ a b => a.LocalTo t ∧ b.LocalTo t
  | .sum _ body => ∀ m, (body m).LocalTo t

@[simp] theorem add_den (σ : Mem) (i : I3) (a b : Ex) : (a + b).den σ i = a.den σ i + b.den σ i := rfl
@[simp] theorem sub_den (σ : Mem) (i : I3) (a b : Ex) : (a - b).den σ i = a.den σ i - b.den σ i := rfl
@[simp] theorem mul_den (σ : Mem) (i : I3) (a b : Ex) : (a * b).den σ i = a.den σ i * b.den σ i := rfl
@[simp] theorem cst_den (σ : Mem) (i : I3) (r : ℝ) : (cst r).den σ i = r := rfl
@[simp] theorem k_den (σ : Mem) (i : I3) (f : I3 → ℝ) : (Ex.k f).den σ i = f i := rfl
@[simp] theorem rd_den (σ : Mem) (i : I3) (c : Comp) (a b d : ℤ) : (Ex.rd c a b d).den σ i = (σ c).val (i.sh a b d) := rfl
@[simp] theorem cond_den (σ : Mem) (i : I3) (p : I3 → Bool) (a b : Ex) :
    (Ex.cond p a b).den σ i = if p i then a.den σ i else b.den σ i := rfl
@[simp] theorem sum_den (σ : Mem) (i : I3) (n : I3 → ℕ) (b : ℕ → Ex) :
    (Ex.sum n b).den σ i = ∑ m ∈ Finset.range (n i), (b (m + 1)).den σ i := rfl

@[simp] theorem add_safe (σ : Mem) (i : I3) (a b : Ex) : (a + b).Safe σ i ↔ a.Safe σ i ∧ b.Safe σ i := Iff.rfl
@[simp] theorem sub_safe (σ : Mem) (i : I3) (a b : Ex) : (a - b).Safe σ i ↔ a.Safe σ i ∧ b.Safe σ i := Iff.rfl
@[simp] theorem mul_safe (σ : Mem) (i : I3) (a b : Ex) : (a * b).Safe σ i ↔ a.Safe σ i ∧ b.Safe σ i := Iff.rfl
@[simp] theorem cst_safe (σ : Mem) (i : I3) (r : ℝ) : (cst r).Safe σ i := trivial
@[simp] theorem k_safe (σ : Mem) (i : I3) (f : I3 → ℝ) : (Ex.k f).Safe σ i := trivial
@[simp] theorem rd_safe (σ : Mem) (i : I3) (c : Comp) (a b d : ℤ) :
    (Ex.rd c a b d).Safe σ i ↔ InBox (σ c).lo (σ c).hi (i.sh a b d) := Iff.rfl
@[simp] theorem cond_safe (σ : Mem) (i : I3) (p : I3 → Bool) (a b : Ex) :
    (Ex.cond p a b).Safe σ i ↔ if p i then a.Safe σ i else b.Safe σ i := Iff.rfl
@[simp] theorem sum_safe (σ : Mem) (i : I3) (n : I3 → ℕ) (b : ℕ → Ex) :
    (Ex.sum n b).Safe σ i ↔ ∀ m, m < n i → (b (m + 1)).Safe σ i := Iff.rfl

@[simp] theorem add_local (t : Comp) (a b : Ex) : (a + b).LocalTo t ↔ a.LocalTo t ∧ b.LocalTo t := Iff.rfl
@[simp] theorem sub_local (t : Comp) (a b : Ex) : (a - b).LocalTo t ↔ a.LocalTo t ∧ b.LocalTo t := Iff.rfl
@[simp] theorem mul_local (t : Comp) (a b : Ex) : (a * b).LocalTo t ↔ a.LocalTo t ∧ b.LocalTo t := Iff.rfl
@[simp] theorem cst_local (t : Comp) (r : ℝ) : (cst r).LocalTo t := trivial
@[simp] theorem k_local (t : Comp) (f : I3 → ℝ) : (Ex.k f).LocalTo t := trivial
@[simp] theorem rd_local (t : Comp) (c : Comp) (a b d : ℤ) :
    (Ex.rd c a b d).LocalTo t ↔ (c = t → a = 0 ∧ b = 0 ∧ d = 0) := Iff.rfl
@[simp] theorem cond_local (t : Comp) (p : I3 → Bool) (a b : Ex) :
    (Ex.cond p a b).LocalTo t ↔ a.LocalTo t ∧ b.LocalTo t := Iff.rfl
@[simp] theorem sum_local (t : Comp) (n : I3 → ℕ) (b : ℕ → Ex) :
    (Ex.sum n b).LocalTo t ↔ ∀ m, (b m).LocalTo t := Iff.rfl

theorem foldlM_sum {n : ℕ} {g : ℕ → Res ℝ} {h : ℕ → ℝ} (H : ∀ m, m < n → g m = .ok (h m)) :
    (List.range n).foldlM (fun (s : ℝ) (m : ℕ) => do
      let v ← g m
      pure (s + v)) 0 = (.ok (∑ m ∈ Finset.range n, h m) : Res ℝ) := by
  induction n with
  | zero => rfl
  | succ n ih =>
    rw [List.range_succ, List.foldlM_append, ih (fun m hm => H m (by omega))]
    simp only [except_bind_ok, List.foldlM_cons, List.foldlM_nil, H n (by omega), except_pure, Finset.sum_range_succ]

theorem eval_ok {σ : Mem} {i : I3} : ∀ {e : Ex}, e.Safe σ i → e.eval σ i = .ok (e.den σ i)
  | .rd c dj dk dl, h => by
    simp only [Ex.eval, Arr.get]
    have h' : InBox (σ c).lo (σ c).hi (i.sh dj dk dl) := h
    rw [if_pos h']
    rfl
  | .k f, _ => rfl
  | .add a b, h => by simp only [Ex.eval, eval_ok h.1, eval_ok h.2, except_bind_ok, except_pure, Ex.den]
  | .sub a b, h => by simp only [Ex.eval, eval_ok h.1, eval_ok h.2, except_bind_ok, except_pure, Ex.den]
  | .mul a b, h => by simp only [Ex.eval, eval_ok h.1, eval_ok h.2, except_bind_ok, except_pure, Ex.den]
  | .cond p a b, h => by
    simp only [Ex.Safe] at h
    simp only [Ex.eval, Ex.den]
    by_cases hp : p i = true
    · rw [if_pos hp] at *
      rw [if_pos hp, eval_ok h]
    · rw [if_neg hp] at *
      rw [if_neg hp, eval_ok h]
  | .sum n body, h => by
    simp only [Ex.eval, Ex.den]
    exact foldlM_sum fun m hm => eval_ok (h m hm)

theorem get_oob {a : Arr} {i : I3} (h : ¬ InBox a.lo a.hi i) : a.get i = .error .outOfBounds := by
  unfold Arr.get
  rw [if_neg h]

/-- Memories that agree outside `t`, on the bounds, and at the index. -/
theorem den_congr {σ τ : Mem} {t : Comp} {i : I3} (hσ : ∀ c, c ≠ t → σ c = τ c) (ht : (σ t).val i = (τ t).val i) :
    ∀ {e : Ex}, e.LocalTo t → e.den σ i = e.den τ i
  | .rd c dj dk dl, h => by
    simp only [Ex.den]
    by_cases hc : c = t
    · obtain ⟨rfl, rfl, rfl⟩ := h hc
      subst hc
      simpa [I3.sh] using ht
    · rw [hσ c hc]
  | .k f, _ => rfl
  | .add a b, h => by simp only [Ex.den, den_congr hσ ht h.1, den_congr hσ ht h.2]
  | .sub a b, h => by simp only [Ex.den, den_congr hσ ht h.1, den_congr hσ ht h.2]
  | .mul a b, h => by simp only [Ex.den, den_congr hσ ht h.1, den_congr hσ ht h.2]
  | .cond p a b, h => by simp only [Ex.den, den_congr hσ ht h.1, den_congr hσ ht h.2]
  | .sum n body, h => by
    simp only [Ex.den]
    exact Finset.sum_congr rfl fun m _ => den_congr hσ ht (h (m + 1))

theorem safe_congr {σ τ : Mem} {i : I3} (hb : ∀ c, (σ c).lo = (τ c).lo ∧ (σ c).hi = (τ c).hi) :
    ∀ {e : Ex}, e.Safe σ i → e.Safe τ i
  | .rd c dj dk dl, h => by simpa only [Ex.Safe, ← (hb c).1, ← (hb c).2] using h
  | .k f, _ => trivial
  | .add a b, h => ⟨safe_congr hb h.1, safe_congr hb h.2⟩
  | .sub a b, h => ⟨safe_congr hb h.1, safe_congr hb h.2⟩
  | .mul a b, h => ⟨safe_congr hb h.1, safe_congr hb h.2⟩
  | .cond p a b, h => by
    simp only [Ex.Safe] at h ⊢
    by_cases hp : p i = true
    · rw [if_pos hp] at *; exact safe_congr hb h
    · rw [if_neg hp] at *; exact safe_congr hb h
  | .sum n body, h => fun m hm => safe_congr hb (h m hm)

/-- Array after the loop `t = e` over the index set `o`. -/
noncomputable def after (σ : Mem) (t : Comp) (e : Ex) (lo hi : I3) : Mem :=
  Function.update σ t { σ t with val := fun i => if InBox lo hi i then e.den σ i else (σ t).val i }

theorem loop_list {t : Comp} {e : Ex} (hl : e.LocalTo t) : ∀ (o : List I3) (σ : Mem), o.Nodup →
    (∀ i ∈ o, e.Safe σ i ∧ InBox (σ t).lo (σ t).hi i) →
    loop t e o σ =
      .ok (Function.update σ t { σ t with val := fun i => if i ∈ o then e.den σ i else (σ t).val i })
  | [], σ, _, _ => by simp [loop]
  | i :: is, σ, hn, hs => by
    obtain ⟨h1, h2⟩ := hs i (by simp)
    simp only [loop, eval_ok h1, except_bind_ok, Arr.set]
    rw [if_pos h2]
    simp only [except_bind_ok]
    have hn' := List.nodup_cons.mp hn
    have hb : ∀ c, (σ c).lo = ((Function.update σ t { σ t with val := Function.update (σ t).val i (e.den σ i) }) c).lo ∧
        (σ c).hi = ((Function.update σ t { σ t with val := Function.update (σ t).val i (e.den σ i) }) c).hi := by
      intro c
      by_cases hc : c = t
      · subst hc; simp
      · simp [Function.update_of_ne hc]
    rw [loop_list hl is _ hn'.2]
    · congr 1
      rw [Function.update_idem]
      congr 1
      simp only [Function.update_self, Arr.mk.injEq, true_and]
      funext i'
      by_cases hi : i' ∈ is
      · rw [if_pos hi, if_pos (List.mem_cons_of_mem _ hi)]
        apply den_congr _ _ hl
        · intro c hc; rw [Function.update_of_ne hc]
        · have : i' ≠ i := fun h => hn'.1 (h ▸ hi)
          simp [Function.update_of_ne this]
      · rw [if_neg hi]
        by_cases he : i' = i
        · subst he; simp
        · rw [Function.update_of_ne he, if_neg (by simp [he, hi])]
    · intro i' hi'
      obtain ⟨a, b⟩ := hs i' (by simp [hi'])
      refine ⟨safe_congr hb a, ?_⟩
      rw [← (hb t).1, ← (hb t).2]
      exact b

theorem mem_irange {lo hi x : ℤ} : x ∈ irange lo hi ↔ lo ≤ x ∧ x ≤ hi := by
  unfold irange
  simp only [List.mem_map, List.mem_range]
  constructor
  · rintro ⟨n, hn, rfl⟩; omega
  · intro ⟨h1, h2⟩; exact ⟨(x - lo).toNat, by omega, by omega⟩

theorem nodup_irange (lo hi : ℤ) : (irange lo hi).Nodup :=
  List.nodup_range.map fun a b h => by simpa using h

theorem mem_box {lo hi i : I3} : i ∈ box lo hi ↔ InBox lo hi i := by
  unfold box InBox
  simp only [List.mem_flatMap, List.mem_map, mem_irange]
  constructor
  · rintro ⟨l, ⟨h1, h2⟩, k, ⟨h3, h4⟩, j, ⟨h5, h6⟩, rfl⟩
    exact ⟨h5, h6, h3, h4, h1, h2⟩
  · intro ⟨h1, h2, h3, h4, h5, h6⟩
    exact ⟨i.l, ⟨h5, h6⟩, i.k, ⟨h3, h4⟩, i.j, ⟨h1, h2⟩, rfl⟩

theorem nodup_box (lo hi : I3) : (box lo hi).Nodup := by
  unfold box
  rw [List.nodup_flatMap]
  constructor
  · intro l _
    rw [List.nodup_flatMap]
    constructor
    · intro k _
      exact (nodup_irange _ _).map fun a b h => by injection h
    · apply (nodup_irange _ _).imp
      intro a b hab
      rw [Function.onFun, List.disjoint_left]
      intro x hx hy
      simp only [List.mem_map] at hx hy
      obtain ⟨_, _, rfl⟩ := hx
      obtain ⟨_, _, h⟩ := hy
      injection h with _ h2 _
      exact hab h2.symm
  · apply (nodup_irange _ _).imp
    intro a b hab
    rw [Function.onFun, List.disjoint_left]
    intro x hx hy
    simp only [List.mem_flatMap, List.mem_map] at hx hy
    obtain ⟨_, _, _, _, rfl⟩ := hx
    obtain ⟨_, _, _, _, h⟩ := hy
    injection h with _ _ h3
    exact hab h3.symm

/-- Any execution order of the loop over a box gives the simultaneous update of the box. -/
theorem loop_box {t : Comp} {e : Ex} {lo hi : I3} {o : List I3} {σ : Mem} (hl : e.LocalTo t) (ho : o.Perm (box lo hi))
    (hs : ∀ i, InBox lo hi i → e.Safe σ i ∧ InBox (σ t).lo (σ t).hi i) :
    loop t e o σ = .ok (after σ t e lo hi) := by
  have hm : ∀ i, i ∈ o ↔ InBox lo hi i := fun i => ho.mem_iff.trans mem_box
  rw [loop_list hl o σ (ho.nodup_iff.mpr (nodup_box lo hi)) (fun i hi => hs i ((hm i).mp hi))]
  unfold after
  simp only [hm]

theorem after_bounds (σ : Mem) (t : Comp) (e : Ex) (lo hi : I3) (c : Comp) :
    ((after σ t e lo hi) c).lo = (σ c).lo ∧ ((after σ t e lo hi) c).hi = (σ c).hi := by
  unfold after
  by_cases hc : c = t
  · subst hc; simp
  · simp [Function.update_of_ne hc]

theorem after_of_ne (σ : Mem) {t c : Comp} (e : Ex) (lo hi : I3) (h : c ≠ t) : (after σ t e lo hi) c = σ c := by
  unfold after
  rw [Function.update_of_ne h]

theorem after_val (σ : Mem) (t : Comp) (e : Ex) (lo hi : I3) (i : I3) :
    ((after σ t e lo hi) t).val i = if InBox lo hi i then e.den σ i else (σ t).val i := by
  unfold after
  simp

/-! ### Faults -/

theorem foldlM_oob {g : ℕ → Res ℝ} (hg : ∀ m, (∃ v, g m = .ok v) ∨ g m = .error .outOfBounds) :
    ∀ (l : List ℕ), (∃ m ∈ l, g m = .error .outOfBounds) → ∀ s : ℝ, l.foldlM (fun (s : ℝ) (m : ℕ) => do
      let v ← g m
      pure (s + v)) s = (.error .outOfBounds : Res ℝ)
  | [], h => by simp at h
  | a :: l, h => by
    intro s
    rw [List.foldlM_cons]
    rcases hg a with ⟨v, hv⟩ | he
    · rw [hv]
      simp only [except_bind_ok, except_pure]
      refine foldlM_oob hg l ?_ _
      obtain ⟨m, hm, hm'⟩ := h
      rcases List.mem_cons.mp hm with rfl | hm
      · rw [hv] at hm'; simp at hm'
      · exact ⟨m, hm, hm'⟩
    · rw [he]; rfl

/-- An expression that is not safe faults. -/
theorem eval_oob {σ : Mem} {i : I3} : ∀ {e : Ex}, ¬ e.Safe σ i → e.eval σ i = .error .outOfBounds
  | .rd c dj dk dl, h => get_oob h
  | .k f, h => (h trivial).elim
  | .add a b, h => by
    by_cases ha : a.Safe σ i
    · simp only [Ex.eval, eval_ok ha, eval_oob (fun hb => h ⟨ha, hb⟩), except_bind_ok, except_bind_error]
    · simp only [Ex.eval, eval_oob ha, except_bind_error]
  | .sub a b, h => by
    by_cases ha : a.Safe σ i
    · simp only [Ex.eval, eval_ok ha, eval_oob (fun hb => h ⟨ha, hb⟩), except_bind_ok, except_bind_error]
    · simp only [Ex.eval, eval_oob ha, except_bind_error]
  | .mul a b, h => by
    by_cases ha : a.Safe σ i
    · simp only [Ex.eval, eval_ok ha, eval_oob (fun hb => h ⟨ha, hb⟩), except_bind_ok, except_bind_error]
    · simp only [Ex.eval, eval_oob ha, except_bind_error]
  | .cond p a b, h => by
    simp only [Ex.Safe] at h
    simp only [Ex.eval]
    by_cases hp : p i = true
    · rw [if_pos hp] at *
      exact eval_oob h
    · rw [if_neg hp] at *
      exact eval_oob h
  | .sum n body, h => by
    simp only [Ex.eval]
    simp only [Ex.Safe, not_forall] at h
    obtain ⟨m, hm, hs⟩ := h
    refine foldlM_oob (fun m => ?_) _ ⟨m, by simpa using hm, eval_oob hs⟩ 0
    by_cases h' : (body (m + 1)).Safe σ i
    · exact Or.inl ⟨_, eval_ok h'⟩
    · exact Or.inr (eval_oob h')

/-- A loop that meets an unsafe index faults, whatever the order of execution. -/
theorem loop_oob {t : Comp} {e : Ex} : ∀ (o : List I3) (σ : Mem), (∃ i ∈ o, ¬ e.Safe σ i) →
    loop t e o σ = .error .outOfBounds
  | [], _, h => by simp at h
  | a :: o, σ, h => by
    unfold loop
    by_cases ha : e.Safe σ a
    · rw [eval_ok ha]
      simp only [except_bind_ok]
      by_cases hb : InBox (σ t).lo (σ t).hi a
      · have hset : (σ t).set a (e.den σ a) = .ok { σ t with val := Function.update (σ t).val a (e.den σ a) } := if_pos hb
        rw [hset]
        simp only [except_bind_ok]
        apply loop_oob
        obtain ⟨i, hi, hs⟩ := h
        rcases List.mem_cons.mp hi with rfl | hi
        · exact (hs ha).elim
        · refine ⟨i, hi, fun hs' => hs (safe_congr (fun c => ?_) hs')⟩
          by_cases hc : c = t
          · subst hc; simp
          · simp [Function.update_of_ne hc]
      · have hset : (σ t).set a (e.den σ a) = .error .outOfBounds := if_neg hb
        rw [hset]; rfl
    · rw [eval_oob ha]; rfl

/-- Loop invariants over `DO i = lo, hi`. -/
theorem foldlM_irange_inv {α : Type} {body : α → ℤ → Res α} {lo : ℤ} (I : ℤ → α → Prop) :
    ∀ (n : ℕ) (hi : ℤ), (hi - lo + 1).toNat = n → lo ≤ hi + 1 →
    (∀ i s, lo ≤ i → i ≤ hi → I i s → ∃ s', body s i = .ok s' ∧ I (i + 1) s') → ∀ s, I lo s →
      ∃ s', (irange lo hi).foldlM body s = .ok s' ∧ I (hi + 1) s' := by
  intro n
  induction n with
  | zero =>
    intro hi hn hlh _ s hs
    have : hi + 1 = lo := by omega
    refine ⟨s, ?_, this ▸ hs⟩
    unfold irange
    rw [hn]
    rfl
  | succ n ih =>
    intro hi hn hlh step s hs
    obtain ⟨s1, h1, hI⟩ := ih (hi - 1) (by omega) (by omega) (fun i s a b c => step i s a (by omega) c) s hs
    obtain ⟨s2, h2, hI2⟩ := step hi s1 (by omega) le_rfl (by simpa using hI)
    refine ⟨s2, ?_, hI2⟩
    have hr : irange lo hi = irange lo (hi - 1) ++ [hi] := by
      unfold irange
      rw [hn, show (hi - 1 - lo + 1).toNat = n by omega, List.range_succ, List.map_append]
      congr 1
      simp only [List.map_cons, List.map_nil, List.cons.injEq, and_true]
      omega
    rw [hr, List.foldlM_append, h1]
    simp only [except_bind_ok, List.foldlM_cons, List.foldlM_nil, h2, except_pure]

end Picsar.Grid
