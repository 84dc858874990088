import Verif.Spec.FieldFile
import Verif.Lemmas.Datatypes
import Mathlib.Data.Nat.Digits.Lemmas
import Mathlib.Tactic.Linarith
import Mathlib.Tactic.Ring

namespace Picsar.FieldFile
open Picsar Picsar.Grid Picsar.Exchange Picsar.Datatypes

theorem mapM_map {α β : Type} {f : α → Res β} {g : α → β} : ∀ {l : List α}, (∀ a ∈ l, f a = .ok (g a)) → l.mapM f = .ok (l.map g)
  | [], _ => rfl
  | a :: l, h => by
    rw [List.mapM_cons, h a (List.mem_cons_self ..), mapM_map fun b hb => h b (List.mem_cons_of_mem _ hb)]
    rfl

/-! ### Writes -/

theorem put_in {f : File} {o : ℤ} {d : Datum} : Holds (put f o d) o d := by
  intro k h0 h1
  unfold put
  rw [if_pos ⟨by omega, by omega⟩, add_sub_cancel_left]

theorem put_out {f : File} {o : ℤ} {d : Datum} {b : ℤ} (h : b < o ∨ o + d.width ≤ b) : put f o d b = f b := by
  unfold put
  rw [if_neg (by omega)]

theorem putAll_out : ∀ {ws : List (ℤ × Datum)} {f : File} {b : ℤ}, (∀ w ∈ ws, b < w.1 ∨ w.1 + w.2.width ≤ b) → putAll f ws b = f b
  | [], _, _, _ => rfl
  | w :: ws, f, b, h => by
    show putAll (put f w.1 w.2) ws b = _
    rw [putAll_out fun x hx => h x (List.mem_cons_of_mem _ hx), put_out (h w (List.mem_cons_self ..))]

theorem putAll_keep {ws : List (ℤ × Datum)} {f : File} {w : ℤ × Datum}
    (hf : Holds f w.1 w.2) : (∀ v ∈ ws, v = w ∨ v.1 + v.2.width ≤ w.1 ∨ w.1 + w.2.width ≤ v.1) → Holds (putAll f ws) w.1 w.2 := by
  induction ws generalizing f with
  | nil => exact fun _ => hf
  | cons v ws ih =>
    intro h
    refine ih (f := put f v.1 v.2) ?_ fun x hx => h x (List.mem_cons_of_mem _ hx)
    rcases h v (List.mem_cons_self ..) with rfl | h
    · exact put_in
    · intro k h0 h1
      rw [put_out (by omega)]
      exact hf k h0 h1

theorem putAll_in {ws : List (ℤ × Datum)} {f : File} {w : ℤ × Datum} (hw : w ∈ ws)
    (h : ∀ v ∈ ws, v = w ∨ v.1 + v.2.width ≤ w.1 ∨ w.1 + w.2.width ≤ v.1) : Holds (putAll f ws) w.1 w.2 := by
  induction ws generalizing f with
  | nil => exact absurd hw List.not_mem_nil
  | cons v ws ih =>
    by_cases e : w ∈ ws
    · exact ih e fun x hx => h x (List.mem_cons_of_mem _ hx)
    · have : w = v := by simpa [e] using hw
      subst this
      exact putAll_keep (f := put f w.1 w.2) put_in fun x hx => h x (List.mem_cons_of_mem _ hx)

/-! ### Datatypes -/

theorem subarray_ok {sizes sub start : Ax → ℤ} (h : ∀ a, 1 ≤ sub a ∧ 0 ≤ start a ∧ start a + sub a ≤ sizes a) :
    subarray sizes sub start = .ok ((box ⟨0, 0, 0⟩ ⟨sub .x - 1, sub .y - 1, sub .z - 1⟩).map fun i =>
      (start .x + i.j) + sizes .x * ((start .y + i.k) + sizes .y * (start .z + i.l))) := by
  unfold subarray
  rw [if_pos fun a _ => h a]
  have := box_from ⟨start .x, start .y, start .z⟩ ⟨sub .x - 1, sub .y - 1, sub .z - 1⟩
  simp only [← add_sub_assoc] at this
  rw [this, List.map_map]
  rfl

theorem lin_bounds {A B C i j k : ℤ} (hi : 0 ≤ i ∧ i < A) (hj : 0 ≤ j ∧ j < B) (hk : 0 ≤ k ∧ k < C) :
    0 ≤ i + A * (j + B * k) ∧ i + A * (j + B * k) < A * B * C := by
  have h1 : 0 ≤ B * k := mul_nonneg (by omega) hk.1
  have h2 : B * k ≤ B * (C - 1) := mul_le_mul_of_nonneg_left (by omega) (by omega)
  have h3 : j + B * k ≤ B * C - 1 := by linarith
  have h4 : A * (j + B * k) ≤ A * (B * C - 1) := mul_le_mul_of_nonneg_left h3 (by omega)
  have h5 : 0 ≤ A * (j + B * k) := mul_nonneg (by omega) (by omega)
  constructor
  · omega
  · have : A * (B * C - 1) = A * B * C - A := by ring
    omega

theorem pair_inj {A i i' m m' : ℤ} (hi : 0 ≤ i ∧ i < A) (hi' : 0 ≤ i' ∧ i' < A) (e : i + A * m = i' + A * m') : i = i' ∧ m = m' := by
  have h1 := Int.add_mul_emod_self_left i A m
  have h2 := Int.add_mul_emod_self_left i' A m'
  rw [Int.emod_eq_of_lt hi.1 hi.2] at h1
  rw [Int.emod_eq_of_lt hi'.1 hi'.2] at h2
  have h3 : i = i' := by rw [← h1, ← h2, e]
  refine ⟨h3, ?_⟩
  have h4 : A * m = A * m' := by omega
  exact mul_left_cancel₀ (by omega) h4

theorem lin_inj {A B : ℤ} {p q : I3} (hp : 0 ≤ p.j ∧ p.j < A) (hq : 0 ≤ q.j ∧ q.j < A) (hp' : 0 ≤ p.k ∧ p.k < B) (hq' : 0 ≤ q.k ∧ q.k < B)
    (e : p.j + A * (p.k + B * p.l) = q.j + A * (q.k + B * q.l)) : p = q := by
  obtain ⟨h1, h2⟩ := pair_inj hp hq e
  obtain ⟨h3, h4⟩ := pair_inj hp' hq' h2
  cases p; cases q
  simp_all

/-! ### One process -/

theorem mem_own {P : Decomp} {r : Ax → ℕ} {i : I3} : i ∈ box ⟨0, 0, 0⟩ ⟨P.n r .x - 1, P.n r .y - 1, P.n r .z - 1⟩ ↔ P.Own r i := by
  rw [mem_box]
  unfold InBox Decomp.Own
  simp only []
  omega

theorem cuts_mono {c : ℕ → ℤ} {R : ℕ} {N : ℤ} (h : CutsOf c R N) {s t : ℕ} (hs : s ≤ t) (ht : t ≤ R) : c s ≤ c t := by
  induction t with
  | zero => rw [Nat.le_zero.mp hs]
  | succ t ih =>
    rcases Nat.lt_or_ge t s with h1 | h1
    · rw [show s = t + 1 by omega]
    · have := h.2.1 t (by omega)
      have := ih h1 (by omega)
      omega

theorem proc_limits {P : Decomp} {D : Domain} (h : P.Of D) {r : Ax → ℕ} (hr : P.Has r) (a : Ax) :
    1 ≤ P.n r a ∧ 0 ≤ P.c a (r a) ∧ P.c a (r a) + P.n r a ≤ D.cells a := by
  have h1 := (h a).2.1 (r a) (hr a)
  have h2 := cuts_mono (h a) (Nat.zero_le (r a)) (hr a).le
  have h3 := cuts_mono (h a) (show r a + 1 ≤ P.R a from hr a) le_rfl
  rw [(h a).1] at h2
  rw [(h a).2.2] at h3
  unfold Decomp.n
  omega

theorem glob_has {P : Decomp} {D : Domain} (h : P.Of D) {r : Ax → ℕ} (hr : P.Has r) {i : I3} (hi : P.Own r i) : D.Has (P.glob r i) := by
  have hx := proc_limits h hr .x
  have hy := proc_limits h hr .y
  have hz := proc_limits h hr .z
  unfold Decomp.Own at hi
  unfold Domain.Has Decomp.glob
  simp only []
  omega

theorem writesOf_ok {P : Decomp} {D : Domain} (h : P.Of D) {g : Ax → ℤ} (hg : ∀ a, 0 ≤ g a) (mem : (Ax → ℕ) → ℤ → ℝ) {r : Ax → ℕ}
    (hr : P.Has r) : writesOf D g (P.proc g mem r) = .ok ((box ⟨0, 0, 0⟩ ⟨P.n r .x - 1, P.n r .y - 1, P.n r .z - 1⟩).map fun i =>
      (D.byte (P.glob r i), Datum.real (P.value g mem r i))) := by
  have h1 : gridType D.cells (P.proc g mem r).n (P.proc g mem r).gmin = _ :=
    subarray_ok (sizes := D.cells) (sub := P.n r) (start := fun a => P.c a (r a)) fun a => proc_limits h hr a
  have h2 : gridSubarray g (P.proc g mem r).n = _ := subarray_ok (sizes := fun a => P.n r a + 1 + 2 * g a) (sub := fun a => P.n r a + 1 - 1)
    (start := fun a => 1 + g a - 1) fun a => by have := proc_limits h hr a; have := hg a; omega
  unfold writesOf
  rw [h1, h2]
  simp only [except_bind_ok, add_sub_cancel_right, add_sub_cancel_left]
  rw [mapM_map (g := (P.proc g mem r).mem), except_bind_ok]
  · show Except.ok _ = _
    rw [List.map_map, List.zip_map', List.map_map]
    congr 1
    apply List.map_congr_left
    intro i _
    show (offset + 8 * _, Datum.real (mem r _)) = (D.byte _, Datum.real (mem r _))
    congr 1
    congr 2
    unfold Fld.addr Fld.sizes
    simp only []
    ring
  · intro d hd
    obtain ⟨i, hi, rfl⟩ := List.mem_map.mp hd
    have hi := mem_own.mp hi
    unfold Decomp.Own at hi
    have hx := hg .x
    have hy := hg .y
    have hz := hg .z
    have hb := lin_bounds (A := P.n r .x + 1 + 2 * g .x) (B := P.n r .y + 1 + 2 * g .y) (C := P.n r .z + 1 + 2 * g .z)
      (i := g .x + i.j) (j := g .y + i.k) (k := g .z + i.l) (by omega) (by omega) (by omega)
    exact if_pos hb

/-! ### All processes -/

theorem allWrites_ok {P : Decomp} {D : Domain} (h : P.Of D) {g : Ax → ℤ} (hg : ∀ a, 0 ≤ g a) (mem : (Ax → ℕ) → ℤ → ℝ)
    {ps : List (Ax → ℕ)} (hps : P.Lists ps) : ∃ ws, allWrites D g (ps.map (P.proc g mem)) = .ok ws ∧
      ∀ w, w ∈ ws ↔ ∃ r i, P.Has r ∧ P.Own r i ∧ w = (D.byte (P.glob r i), Datum.real (P.value g mem r i)) := by
  have h1 : (ps.map (P.proc g mem)).mapM (writesOf D g) = .ok (ps.map fun r =>
      (box ⟨0, 0, 0⟩ ⟨P.n r .x - 1, P.n r .y - 1, P.n r .z - 1⟩).map fun i =>
      (D.byte (P.glob r i), Datum.real (P.value g mem r i))) := by
    rw [List.mapM_map]
    exact mapM_map fun r hr => writesOf_ok h hg mem ((hps.2 r).mp hr)
  refine ⟨_, by unfold allWrites; rw [h1]; rfl, fun w => ?_⟩
  simp only [List.mem_flatten, List.mem_map]
  constructor
  · rintro ⟨_, ⟨r, hr, rfl⟩, hw⟩
    obtain ⟨i, hi, rfl⟩ := List.mem_map.mp hw
    exact ⟨r, i, (hps.2 r).mp hr, mem_own.mp hi, rfl⟩
  · rintro ⟨r, i, hr, hi, rfl⟩
    exact ⟨_, ⟨r, (hps.2 r).mpr hr, rfl⟩, List.mem_map.mpr ⟨i, mem_own.mpr hi, rfl⟩⟩

theorem cut_unique {c : ℕ → ℤ} {R : ℕ} {N : ℤ} (h : CutsOf c R N) {s t : ℕ} (hs : s < R) (ht : t < R) {x : ℤ}
    (h1 : c s ≤ x ∧ x < c (s + 1)) (h2 : c t ≤ x ∧ x < c (t + 1)) : s = t := by
  rcases Nat.lt_trichotomy s t with e | e | e
  · have := cuts_mono h (show s + 1 ≤ t from e) ht.le
    omega
  · exact e
  · have := cuts_mono h (show t + 1 ≤ s from e) hs.le
    omega

theorem cut_exists {c : ℕ → ℤ} {R : ℕ} (h0 : c 0 = 0) {x : ℤ} (hx : 0 ≤ x) : x < c R → ∃ r, r < R ∧ c r ≤ x ∧ x < c (r + 1) := by
  induction R with
  | zero => rw [h0]; omega
  | succ R ih =>
    intro h
    by_cases e : x < c R
    · obtain ⟨r, h1, h2⟩ := ih e
      exact ⟨r, by omega, h2⟩
    · exact ⟨R, by omega, by omega, h⟩

theorem owner_unique {P : Decomp} {D : Domain} (h : P.Of D) {r s : Ax → ℕ} (hr : P.Has r) (hs : P.Has s) {i j : I3} (hi : P.Own r i)
    (hj : P.Own s j) (e : P.glob r i = P.glob s j) : r = s ∧ i = j := by
  unfold Decomp.Own Decomp.n at hi hj
  unfold Decomp.glob at e
  simp only [I3.mk.injEq] at e
  have hx := cut_unique (h .x) (hr .x) (hs .x) (x := P.c .x (r .x) + i.j) (by omega) (by omega)
  have hy := cut_unique (h .y) (hr .y) (hs .y) (x := P.c .y (r .y) + i.k) (by omega) (by omega)
  have hz := cut_unique (h .z) (hr .z) (hs .z) (x := P.c .z (r .z) + i.l) (by omega) (by omega)
  have e1 : r = s := by funext a; cases a <;> assumption
  subst e1
  refine ⟨rfl, ?_⟩
  cases i; cases j
  simp only [I3.mk.injEq]
  simp only [] at e
  omega

theorem owner_exists {P : Decomp} {D : Domain} (h : P.Of D) {I : I3} (hI : D.Has I) : ∃ r i, P.Has r ∧ P.Own r i ∧ P.glob r i = I := by
  unfold Domain.Has at hI
  obtain ⟨rx, x1, x2, x3⟩ := cut_exists (R := P.R .x) (h .x).1 hI.1 (by rw [(h .x).2.2]; exact hI.2.1)
  obtain ⟨ry, y1, y2, y3⟩ := cut_exists (R := P.R .y) (h .y).1 hI.2.2.1 (by rw [(h .y).2.2]; exact hI.2.2.2.1)
  obtain ⟨rz, z1, z2, z3⟩ := cut_exists (R := P.R .z) (h .z).1 hI.2.2.2.2.1 (by rw [(h .z).2.2]; exact hI.2.2.2.2.2)
  refine ⟨fun a => match a with | .x => rx | .y => ry | .z => rz, ⟨I.j - P.c .x rx, I.k - P.c .y ry, I.l - P.c .z rz⟩, ?_, ?_, ?_⟩
  · intro a; cases a <;> assumption
  · unfold Decomp.Own Decomp.n
    simp only []
    omega
  · unfold Decomp.glob
    cases I
    simp

theorem byte_apart {D : Domain} {I J : I3} (hI : D.Has I) (hJ : D.Has J) : I = J ∨ D.byte J + 8 ≤ D.byte I ∨ D.byte I + 8 ≤ D.byte J := by
  unfold Domain.Has at hI hJ
  by_cases e : I.j + D.cells .x * (I.k + D.cells .y * I.l) = J.j + D.cells .x * (J.k + D.cells .y * J.l)
  · exact .inl (lin_inj (by omega) (by omega) (by omega) (by omega) e)
  · unfold Domain.byte
    omega

theorem byte_bounds {D : Domain} {I : I3} (hI : D.Has I) : 60 ≤ D.byte I ∧ D.byte I + 8 ≤ D.bytes := by
  unfold Domain.Has at hI
  have := lin_bounds (A := D.cells .x) (B := D.cells .y) (C := D.cells .z) (i := I.j) (j := I.k) (k := I.l) (by omega) (by omega) (by omega)
  unfold Domain.byte Domain.bytes
  omega

theorem byte_cover {D : Domain} (hD : ∀ a, 1 ≤ D.cells a) {b : ℤ} (h0 : 60 ≤ b) (h1 : b < D.bytes) :
    ∃ I k, D.Has I ∧ 0 ≤ k ∧ k < 8 ∧ b = D.byte I + k := by
  unfold Domain.bytes at h1
  have hx := hD .x
  have hy := hD .y
  have hz := hD .z
  set m := (b - 60) / 8 with hm
  have hm0 : 0 ≤ m := by omega
  have hm1 : m < D.cells .x * D.cells .y * D.cells .z := by omega
  have d1 := Int.emod_add_mul_ediv m (D.cells .x)
  have d2 := Int.emod_add_mul_ediv (m / D.cells .x) (D.cells .y)
  have e1 := Int.emod_nonneg m (show D.cells .x ≠ 0 by omega)
  have e2 := Int.emod_lt_of_pos m (show 0 < D.cells .x by omega)
  have e3 := Int.emod_nonneg (m / D.cells .x) (show D.cells .y ≠ 0 by omega)
  have e4 := Int.emod_lt_of_pos (m / D.cells .x) (show 0 < D.cells .y by omega)
  have e5 : 0 ≤ m / D.cells .x := Int.ediv_nonneg hm0 (by omega)
  have e6 : 0 ≤ m / D.cells .x / D.cells .y := Int.ediv_nonneg e5 (by omega)
  have e7 : m / D.cells .x / D.cells .y < D.cells .z := by
    apply Int.ediv_lt_of_lt_mul (by omega)
    apply Int.ediv_lt_of_lt_mul (by omega)
    calc m < _ := hm1
      _ = D.cells .z * D.cells .y * D.cells .x := by ring
  refine ⟨⟨m % D.cells .x, m / D.cells .x % D.cells .y, m / D.cells .x / D.cells .y⟩, (b - 60) % 8, ⟨e1, e2, e3, e4, e6, e7⟩, by omega, by omega, ?_⟩
  unfold Domain.byte
  simp only []
  rw [d2, d1]
  omega

/-! ### The file -/

theorem holds_put {f : File} {o o' : ℤ} {d d' : Datum} (h : Holds f o d) (ha : o' + d'.width ≤ o ∨ o + d.width ≤ o') :
    Holds (put f o' d') o d := by
  intro k h0 h1
  rw [put_out (by omega)]
  exact h k h0 h1

theorem put_real (f : File) (o : ℤ) (v : ℝ) (b : ℤ) :
    put f o (.real v) b = if o ≤ b ∧ b < o + 8 then some (.real v, b - o) else f b := rfl

theorem put_int (f : File) (o n b : ℤ) : put f o (.int n) b = if o ≤ b ∧ b < o + 4 then some (.int n, b - o) else f b := rfl

theorem header_in (f : File) (D : Domain) : HeaderIn (stream f 0 (header D)) D := by
  have hs : stream f 0 (header D) = put (put (put (put (put (put (put (put (put f 0 (.real (D.lo .x))) 8 (.real (D.hi .x))) 16
      (.int (D.cells .x))) 20 (.real (D.lo .y))) 28 (.real (D.hi .y))) 36 (.int (D.cells .y))) 40 (.real (D.lo .z))) 48
      (.real (D.hi .z))) 56 (.int (D.cells .z)) := rfl
  rw [hs]
  refine ⟨?_, ?_, ?_, ?_, ?_, ?_, ?_, ?_, ?_⟩ <;>
    repeat first | exact put_in | refine holds_put ?_ (.inr (show (_ : ℤ) + _ ≤ _ by simp only [Datum.width]; norm_num))

theorem header_out (f : File) (D : Domain) {b : ℤ} (h : b < 0 ∨ 60 ≤ b) : stream f 0 (header D) b = f b := by
  have hs : stream f 0 (header D) = put (put (put (put (put (put (put (put (put f 0 (.real (D.lo .x))) 8 (.real (D.hi .x))) 16
      (.int (D.cells .x))) 20 (.real (D.lo .y))) 28 (.real (D.hi .y))) 36 (.int (D.cells .y))) 40 (.real (D.lo .z))) 48
      (.real (D.hi .z))) 56 (.int (D.cells .z)) := rfl
  rw [hs]
  simp only [put_real, put_int]
  split_ifs <;> first | rfl | (exfalso; omega)

/-! ### Names -/

theorem digitChar_inj {a b : ℕ} (ha : a < 10) (hb : b < 10) (h : Nat.digitChar a = Nat.digitChar b) : a = b := by
  have : ∀ a b : Fin 10, Nat.digitChar a = Nat.digitChar b → a = b := by decide
  have := this ⟨a, ha⟩ ⟨b, hb⟩ h
  simpa using this

theorem map_inj_on {α β : Type} {f : α → β} : ∀ {l m : List α}, (∀ a ∈ l, ∀ b ∈ m, f a = f b → a = b) → l.map f = m.map f → l = m
  | [], [], _, _ => rfl
  | [], _ :: _, _, h => by simp at h
  | _ :: _, [], _, h => by simp at h
  | a :: l, b :: m, H, h => by
    simp only [List.map_cons, List.cons.injEq] at h
    rw [H a (List.mem_cons_self ..) b (List.mem_cons_self ..) h.1,
      map_inj_on (fun x hx y hy => H x (List.mem_cons_of_mem _ hx) y (List.mem_cons_of_mem _ hy)) h.2]

theorem decimal_inj {m n : ℕ} (h : decimal m = decimal n) : m = n := by
  unfold decimal at h
  have key : ∀ k : ℕ, k ≠ 0 → (Nat.digits 10 k).reverse.map Nat.digitChar ≠ ['0'] := by
    intro k hk e
    have h1 : (Nat.digits 10 k).reverse.map Nat.digitChar = [0].map Nat.digitChar := e
    have h2 := map_inj_on (fun a ha b hb hab => digitChar_inj (Nat.digits_lt_base (by norm_num) (List.mem_reverse.mp ha))
      (by simp only [List.mem_singleton] at hb; omega) hab) h1
    have h3 : Nat.digits 10 k = [0] := by rw [← List.reverse_reverse (Nat.digits 10 k), h2]; rfl
    have h4 := Nat.ofDigits_digits 10 k
    rw [h3] at h4
    exact hk (by simpa using h4.symm)
  split_ifs at h with h1 h2 h2
  · rw [h1, h2]
  · exact absurd h.symm (key n h2)
  · exact absurd h (key m h1)
  · have h3 := map_inj_on (fun a ha b hb hab => digitChar_inj (Nat.digits_lt_base (by norm_num) (List.mem_reverse.mp ha))
      (Nat.digits_lt_base (by norm_num) (List.mem_reverse.mp hb)) hab) h
    exact Nat.digits_inj_iff.mp (List.reverse_injective h3)

theorem decimal_length (n : ℕ) : (decimal n).length ≤ 5 ↔ n < 100000 := by
  unfold decimal
  split_ifs with h
  · subst h; decide
  · rw [List.length_map, List.length_reverse, Nat.digits_length_le_iff (by norm_num)]
    norm_num

end Picsar.FieldFile
