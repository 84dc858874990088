import Verif.Spec.Multimode
import Verif.Lemmas.Grid
import Mathlib.Tactic.FieldSimp
import Mathlib.Tactic.LinearCombination
import Mathlib.Tactic.Linarith

/-
Lemmas for the field solver on azimuthal modes: closed forms of the sweeps.
-/
namespace Picsar.Multimode
open Picsar Picsar.Spec
open Picsar.Grid (irange mem_irange nodup_irange)
open Fld

/-- Value of a coefficient. -/
def valOf : Res ℂ → ℂ
  | .ok v => v
  | .error _ => 0

/-- Values of one mode. -/
abbrev Vals := Fld → ℤ → ℤ → ℂ

/-- Value of a right-hand side. -/
def Ex.den (v : Vals) (j k : ℤ) : Ex → ℂ
  | .rd f a b => v f (j + a) (k + b)
  | .k c => valOf c
  | .add x y => x.den v j k + y.den v j k
  | .sub x y => x.den v j k - y.den v j k
  | .mul x y => x.den v j k * y.den v j k

@[simp] theorem add_den (v : Vals) (j k : ℤ) (x y : Ex) : (x + y).den v j k = x.den v j k + y.den v j k := rfl
@[simp] theorem sub_den (v : Vals) (j k : ℤ) (x y : Ex) : (x - y).den v j k = x.den v j k - y.den v j k := rfl
@[simp] theorem mul_den (v : Vals) (j k : ℤ) (x y : Ex) : (x * y).den v j k = x.den v j k * y.den v j k := rfl
@[simp] theorem cst_den (v : Vals) (j k : ℤ) (c : ℂ) : (cst c).den v j k = c := rfl
@[simp] theorem k_den (v : Vals) (j k : ℤ) (c : Res ℂ) : (Ex.k c).den v j k = valOf c := rfl
@[simp] theorem rd_den (v : Vals) (j k : ℤ) (f : Fld) (a b : ℤ) : (Ex.rd f a b).den v j k = v f (j + a) (k + b) := rfl

/-- Everything that is read exists. -/
def Ex.Safe (σ : Mem) (nm : ℕ) (j k : ℤ) (m : ℕ) : Ex → Prop
  | .rd f a b => (σ f).has nm (j + a) (k + b) m
  | .k c => ∃ v, c = .ok v
  | .add x y => x.Safe σ nm j k m ∧ y.Safe σ nm j k m
  | .sub x y => x.Safe σ nm j k m ∧ y.Safe σ nm j k m
  | .mul x y => x.Safe σ nm j k m ∧ y.Safe σ nm j k m

@[simp] theorem add_safe (σ : Mem) (nm : ℕ) (j k : ℤ) (m : ℕ) (x y : Ex) : (x + y).Safe σ nm j k m ↔ x.Safe σ nm j k m ∧ y.Safe σ nm j k m := Iff.rfl
@[simp] theorem sub_safe (σ : Mem) (nm : ℕ) (j k : ℤ) (m : ℕ) (x y : Ex) : (x - y).Safe σ nm j k m ↔ x.Safe σ nm j k m ∧ y.Safe σ nm j k m := Iff.rfl
@[simp] theorem mul_safe (σ : Mem) (nm : ℕ) (j k : ℤ) (m : ℕ) (x y : Ex) : (x * y).Safe σ nm j k m ↔ x.Safe σ nm j k m ∧ y.Safe σ nm j k m := Iff.rfl
@[simp] theorem cst_safe (σ : Mem) (nm : ℕ) (j k : ℤ) (m : ℕ) (c : ℂ) : (cst c).Safe σ nm j k m := ⟨c, rfl⟩
@[simp] theorem k_safe (σ : Mem) (nm : ℕ) (j k : ℤ) (m : ℕ) (c : Res ℂ) : (Ex.k c).Safe σ nm j k m ↔ ∃ v, c = .ok v := Iff.rfl
@[simp] theorem rd_safe (σ : Mem) (nm : ℕ) (j k : ℤ) (m : ℕ) (f : Fld) (a b : ℤ) : (Ex.rd f a b).Safe σ nm j k m ↔ (σ f).has nm (j + a) (k + b) m := Iff.rfl

/-- The array `t` is read at the point itself only. -/
def Ex.LocalTo (t : Fld) : Ex → Prop
  | .rd f a b => f = t → a = 0 ∧ b = 0
  | .k _ => True
  | .add x y => x.LocalTo t ∧ y.LocalTo t
  | .sub x y => x.LocalTo t ∧ y.LocalTo t
  | .mul x y => x.LocalTo t ∧ y.LocalTo t

@[simp] theorem add_local (t : Fld) (x y : Ex) : (x + y).LocalTo t ↔ x.LocalTo t ∧ y.LocalTo t := Iff.rfl
@[simp] theorem sub_local (t : Fld) (x y : Ex) : (x - y).LocalTo t ↔ x.LocalTo t ∧ y.LocalTo t := Iff.rfl
@[simp] theorem mul_local (t : Fld) (x y : Ex) : (x * y).LocalTo t ↔ x.LocalTo t ∧ y.LocalTo t := Iff.rfl
@[simp] theorem cst_local (t : Fld) (c : ℂ) : (cst c).LocalTo t := trivial
@[simp] theorem k_local (t : Fld) (c : Res ℂ) : (Ex.k c).LocalTo t := trivial
@[simp] theorem rd_local (t f : Fld) (a b : ℤ) : (Ex.rd f a b).LocalTo t ↔ (f = t → a = 0 ∧ b = 0) := Iff.rfl

theorem bind_ok {α β : Type} (x : α) (f : α → Res β) : ((Except.ok x : Res α) >>= f) = f x := rfl

theorem eval_ok {σ : Mem} {nm : ℕ} {j k : ℤ} {m : ℕ} : ∀ {e : Ex}, e.Safe σ nm j k m → e.eval σ nm j k m = .ok (e.den (fun f x y => (σ f).val x y m) j k)
  | .rd f a b, h => by
    exact if_pos h
  | .k c, ⟨v, hv⟩ => by
    subst hv
    rfl
  | .add x y, h => by
    unfold Ex.eval
    rw [eval_ok h.1, eval_ok h.2]
    rfl
  | .sub x y, h => by
    unfold Ex.eval
    rw [eval_ok h.1, eval_ok h.2]
    rfl
  | .mul x y, h => by
    unfold Ex.eval
    rw [eval_ok h.1, eval_ok h.2]
    rfl

theorem safe_congr {σ τ : Mem} {nm : ℕ} {j k : ℤ} {m : ℕ} (hb : ∀ f, (τ f).box = (σ f).box) : ∀ {e : Ex}, e.Safe σ nm j k m → e.Safe τ nm j k m
  | .rd f a b, h => by
    unfold Ex.Safe Arr.has at *
    rw [hb f]
    exact h
  | .k _, h => h
  | .add _ _, h => ⟨safe_congr hb h.1, safe_congr hb h.2⟩
  | .sub _ _, h => ⟨safe_congr hb h.1, safe_congr hb h.2⟩
  | .mul _ _, h => ⟨safe_congr hb h.1, safe_congr hb h.2⟩

theorem den_congr {v w : Vals} {t : Fld} {j k : ℤ} (h1 : ∀ f, f ≠ t → v f = w f) (h2 : v t j k = w t j k) :
    ∀ {e : Ex}, e.LocalTo t → e.den v j k = e.den w j k
  | .rd f a b, h => by
    unfold Ex.den
    by_cases hf : f = t
    · obtain ⟨rfl, rfl⟩ := h hf
      subst hf
      simpa using h2
    · rw [h1 f hf]
  | .k _, _ => rfl
  | .add x y, h => by
    unfold Ex.den
    rw [den_congr h1 h2 h.1, den_congr h1 h2 h.2]
  | .sub x y, h => by
    unfold Ex.den
    rw [den_congr h1 h2 h.1, den_congr h1 h2 h.2]
  | .mul x y, h => by
    unfold Ex.den
    rw [den_congr h1 h2 h.1, den_congr h1 h2 h.2]

/-- What one sweep over array `t`, mode `m`, leaves. -/
structure Swept (t : Fld) (m : ℕ) (P : ℤ → ℤ → Prop) (x : ℤ → ℤ → ℂ) (σ τ : Mem) : Prop where
  box : ∀ f, (τ f).box = (σ f).box
  other : ∀ f, f ≠ t → τ f = σ f
  done : ∀ j k, P j k → (τ t).val j k m = x j k
  kept : ∀ j k n, n ≠ m ∨ ¬ P j k → (τ t).val j k n = (σ t).val j k n

theorem exec_list {nm : ℕ} {t : Fld} {m : ℕ} : ∀ (l : List Stmt) (σ : Mem), (l.map fun s => (s.j, s.k)).Nodup → (∀ s ∈ l, s.e.LocalTo t) →
    (∀ s ∈ l, s.e.Safe σ nm s.j s.k m ∧ (σ t).has nm s.j s.k m) →
    ∃ τ, exec nm t m l σ = .ok τ ∧ (∀ f, (τ f).box = (σ f).box) ∧ (∀ f, f ≠ t → τ f = σ f) ∧
      (∀ s ∈ l, (τ t).val s.j s.k m = s.e.den (fun f x y => (σ f).val x y m) s.j s.k) ∧
      (∀ j k n, n ≠ m ∨ (∀ s ∈ l, (s.j, s.k) ≠ (j, k)) → (τ t).val j k n = (σ t).val j k n)
  | [], σ, _, _, _ => ⟨σ, rfl, fun _ => rfl, fun _ _ => rfl, fun _ h => (List.not_mem_nil h).elim, fun _ _ _ _ => rfl⟩
  | s :: l, σ, hn, hl, hs => by
    rw [List.map_cons, List.nodup_cons] at hn
    obtain ⟨h0, hn⟩ := hn
    obtain ⟨s1, s2⟩ := hs s (List.mem_cons_self ..)
    set v : ℂ := s.e.den (fun f x y => (σ f).val x y m) s.j s.k with hv
    set A : Arr := { (σ t) with val := fun x y n => if x = s.j ∧ y = s.k ∧ n = m then v else (σ t).val x y n } with hA
    have hbox : ∀ f, ((Function.update σ t A) f).box = (σ f).box := by
      intro f
      by_cases hf : f = t
      · subst hf
        rw [Function.update_self]
      · rw [Function.update_of_ne hf]
    have far : ∀ s' ∈ l, ¬ (s'.j = s.j ∧ s'.k = s.k) := by
      rintro s' hs' ⟨e1, e2⟩
      exact h0 (List.mem_map.2 ⟨s', hs', by rw [e1, e2]⟩)
    obtain ⟨τ, e, b, o, d, kp⟩ := exec_list l (Function.update σ t A) hn (fun s' h => hl s' (List.mem_cons_of_mem _ h)) (by
      intro s' h
      obtain ⟨a1, a2⟩ := hs s' (List.mem_cons_of_mem _ h)
      refine ⟨safe_congr hbox a1, ?_⟩
      rw [Function.update_self]
      exact a2)
    refine ⟨τ, ?_, fun f => (b f).trans (hbox f), ?_, ?_, ?_⟩
    · unfold exec
      rw [eval_ok s1, bind_ok]
      unfold Arr.set
      rw [if_pos s2, bind_ok]
      exact e
    · intro f hf
      rw [o f hf, Function.update_of_ne hf]
    · intro s' h
      rcases List.mem_cons.1 h with rfl | h
      · rw [kp s'.j s'.k m (Or.inr fun s'' h'' hc => far s'' h'' (by simpa using hc)), Function.update_self]
        simp [hA, hv]
      · rw [d s' h]
        refine den_congr (t := t) (fun f hf => ?_) ?_ (hl s' (List.mem_cons_of_mem _ h))
        · funext x y
          rw [Function.update_of_ne hf]
        · rw [Function.update_self]
          simp only [hA]
          rw [if_neg fun hc => far s' h ⟨hc.1, hc.2.1⟩]
    · intro j k n hc
      rw [kp j k n (hc.imp id fun h s' hs' => h s' (List.mem_cons_of_mem _ hs')), Function.update_self]
      simp only [hA]
      rw [if_neg]
      rintro ⟨rfl, rfl, rfl⟩
      rcases hc with hc | hc
      · exact hc rfl
      · exact hc s (List.mem_cons_self ..) rfl

/-- The statements assign `e j` to every point of the box once. -/
structure Covers (b : Box) (e : ℤ → Ex) (l : List Stmt) : Prop where
  once : (l.map fun s => (s.j, s.k)).Nodup
  mem : ∀ s, s ∈ l ↔ InsideM b s.j s.k ∧ s.e = e s.j

theorem nodup_flatMap_rows (ks : List ℤ) (hk : ks.Nodup) (f : ℤ → List Stmt) (h1 : ∀ k, ∀ s ∈ f k, s.k = k) (h2 : ∀ k, ((f k).map fun s => (s.j, s.k)).Nodup) :
    ((ks.flatMap f).map fun s => (s.j, s.k)).Nodup := by
  rw [List.map_flatMap, List.nodup_flatMap]
  refine ⟨fun k _ => h2 k, hk.pairwise_of_forall_ne fun a _ b _ hab => ?_⟩
  intro p hp hq
  obtain ⟨s, hs, rfl⟩ := List.mem_map.1 hp
  obtain ⟨s', hs', e⟩ := List.mem_map.1 hq
  rw [Prod.mk.injEq] at e
  exact hab (by rw [← h1 a s hs, ← h1 b s' hs', e.2])

theorem covers_points (b : Box) (e : ℤ → Ex) : Covers b e (points b e) where
  once := by
    unfold points
    refine nodup_flatMap_rows _ (nodup_irange _ _) _ (fun k s hs => ?_) fun k => ?_
    · obtain ⟨j, _, rfl⟩ := List.mem_map.1 hs
      rfl
    · rw [List.map_map]
      exact (nodup_irange _ _).map fun a b h => by simpa using h
  mem s := by
    unfold points InsideM
    simp only [List.mem_flatMap, List.mem_map, mem_irange]
    constructor
    · rintro ⟨k, hk, j, hj, rfl⟩
      exact ⟨⟨hj, hk⟩, rfl⟩
    · rintro ⟨⟨hj, hk⟩, he⟩
      exact ⟨s.k, hk, s.j, hj, by rw [← he]⟩

theorem covers_axis (b : Box) (e : ℤ → Ex) (x : Ex) : Covers b (fun j => if j = 0 then x else e j) (pointsAxis b e x) where
  once := by
    unfold pointsAxis
    refine nodup_flatMap_rows _ (nodup_irange _ _) _ (fun k s hs => ?_) fun k => ?_
    · rcases List.mem_append.1 hs with hs | hs
      · obtain ⟨j, _, rfl⟩ := List.mem_map.1 hs
        rfl
      · split_ifs at hs with hb
        · rw [List.mem_singleton] at hs
          rw [hs]
        · exact (List.not_mem_nil hs).elim
    · rw [List.map_append, List.map_map, List.nodup_append]
      refine ⟨((nodup_irange _ _).filter _).map fun a b h => by simpa using h, ?_, ?_⟩
      · split_ifs <;> simp
      · intro p hp q hq hpq
        obtain ⟨j, hj, rfl⟩ := List.mem_map.1 hp
        split_ifs at hq with hb
        · simp only [List.map_cons, List.map_nil, List.mem_singleton] at hq
          rw [hq] at hpq
          simp only [Function.comp, Prod.mk.injEq] at hpq
          simp [hpq.1] at hj
        · simp at hq
  mem s := by
    unfold pointsAxis InsideM
    simp only [List.mem_flatMap, mem_irange, List.mem_append, List.mem_map, List.mem_filter]
    constructor
    · rintro ⟨k, hk, ⟨j, ⟨hj, h0⟩, rfl⟩ | hs⟩
      · have h0' : j ≠ 0 := by simpa using h0
        exact ⟨⟨hj, hk⟩, by simp [h0']⟩
      · split_ifs at hs with hb
        · rw [List.mem_singleton] at hs
          subst hs
          exact ⟨⟨hb, hk⟩, by simp⟩
        · exact (List.not_mem_nil hs).elim
    · rintro ⟨⟨hj, hk⟩, he⟩
      refine ⟨s.k, hk, ?_⟩
      by_cases h0 : s.j = 0
      · right
        rw [if_pos (by omega), List.mem_singleton]
        rw [if_pos h0] at he
        rw [← he, ← h0]
      · left
        rw [if_neg h0] at he
        exact ⟨s.j, ⟨hj, by simpa using h0⟩, by rw [← he]⟩

theorem exec_covers {nm : ℕ} {t : Fld} {m : ℕ} {b : Box} {e : ℤ → Ex} {l : List Stmt} {σ : Mem} (hc : Covers b e l) (hl : ∀ j, (e j).LocalTo t)
    (hs : ∀ j k, InsideM b j k → (e j).Safe σ nm j k m ∧ (σ t).has nm j k m) :
    ∃ τ, exec nm t m l σ = .ok τ ∧ Swept t m (InsideM b) (fun j k => (e j).den (fun f x y => (σ f).val x y m) j k) σ τ := by
  obtain ⟨τ, h, b1, o, d, kp⟩ := exec_list l σ hc.once (fun s h => by rw [((hc.mem s).1 h).2]; exact hl _)
    (fun s h => by rw [((hc.mem s).1 h).2]; exact hs _ _ ((hc.mem s).1 h).1)
  refine ⟨τ, h, b1, o, fun j k hi => d ⟨j, k, e j⟩ ((hc.mem _).2 ⟨hi, rfl⟩), fun j k n hn => kp j k n (hn.imp id fun hn s hs' he => ?_)⟩
  rw [Prod.mk.injEq] at he
  exact hn (by rw [← he.1, ← he.2]; exact ((hc.mem s).1 hs').1)

/-- Values of mode `m`. -/
def look (σ : Mem) (m : ℕ) : Vals := fun f x y => (σ f).val x y m

/-- Closed form of the step of one mode of the electric field. -/
noncomputable def stepE (a : Args) (m : ℕ) (v : Vals) : Vals :=
  let er' : ℤ → ℤ → ℂ := fun j k => open Classical in if InsideM a.r j k then (erRhs a m j).den v j k else v er j k
  fun f j k => open Classical in match f with
    | er => er' j k
    | et => if InsideM a.t j k then (if j = 0 then etAxis a m else etBulk a).den (Function.update v er er') j k else v et j k
    | ez => if InsideM a.z j k then (if j = 0 then ezAxis a m else ezBulk a m j).den v j k else v ez j k
    | f => v f j k

/-- Closed form of the step of one mode of the magnetic field. -/
noncomputable def stepB (a : Args) (m : ℕ) (v : Vals) : Vals := fun f j k => open Classical in match f with
    | br => if InsideM a.r j k then (brRhs a m j).den v j k else v br j k
    | bt => if InsideM a.t j k then (btRhs a).den v j k else v bt j k
    | bz => if InsideM a.z j k then (bzRhs a m j).den v j k else v bz j k
    | f => v f j k

/-- Conditions under which a step runs. -/
structure OkE (a : Args) (σ : Mem) : Prop where
  hdr : a.dr ≠ 0
  room : RoomFor σ a.r 1 0 ∧ RoomFor σ a.t 1 0 ∧ RoomFor σ a.z 1 0
  half : ∀ j, a.r.lo1 ≤ j → j ≤ a.r.hi1 → a.rHalf j ≠ 0
  node : ∀ j, a.z.lo1 ≤ j → j ≤ a.z.hi1 → (a.rmin = 0 ∧ j = 0) ∨ a.rNode j ≠ 0

structure OkB (a : Args) (σ : Mem) : Prop where
  hdr : a.dr ≠ 0
  room : RoomFor σ a.r 0 1 ∧ RoomFor σ a.t 0 1 ∧ RoomFor σ a.z 0 1
  half : ∀ j, a.z.lo1 ≤ j → j ≤ a.z.hi1 → a.rHalf j ≠ 0
  node : ∀ j, a.r.lo1 ≤ j → j ≤ a.r.hi1 → (a.rmin = 0 ∧ j = 0) ∨ a.rNode j ≠ 0

theorem room_congr {σ τ : Mem} {b : Box} {p q : ℤ} (h : RoomFor σ b p q) (hb : ∀ f, (τ f).box = (σ f).box) : RoomFor τ b p q := by
  intro f
  rw [hb f]
  exact h f

theorem OkE.congr {a : Args} {σ τ : Mem} (h : OkE a σ) (hb : ∀ f, (τ f).box = (σ f).box) : OkE a τ :=
  ⟨h.hdr, ⟨room_congr h.room.1 hb, room_congr h.room.2.1 hb, room_congr h.room.2.2 hb⟩, h.half, h.node⟩

theorem OkB.congr {a : Args} {σ τ : Mem} (h : OkB a σ) (hb : ∀ f, (τ f).box = (σ f).box) : OkB a τ :=
  ⟨h.hdr, ⟨room_congr h.room.1 hb, room_congr h.room.2.1 hb, room_congr h.room.2.2 hb⟩, h.half, h.node⟩

theorem quot_ok {x : ℂ} {r : ℝ} (h : r ≠ 0) : quot x r = .ok (x / r) := if_neg h

theorem ratio_ok {a : Args} {s x : ℝ} (hd : a.dr ≠ 0) (h : a.rmin + x * a.dr ≠ 0) :
    ratio a s x = .ok (1 + s * (0.5 * a.dr / (a.rmin + x * a.dr : ℝ))) := by
  unfold ratio
  rw [quot_ok hd, bind_ok]
  have e : ((a.rmin : ℂ) / (a.dr : ℂ)).re = a.rmin / a.dr := by
    rw [← Complex.ofReal_div, Complex.ofReal_re]
  have e2 : a.rmin / a.dr + x = (a.rmin + x * a.dr) / a.dr := by field_simp
  rw [e, e2, quot_ok (div_ne_zero h hd), bind_ok]
  have hd' : (a.dr : ℂ) ≠ 0 := Complex.ofReal_ne_zero.2 hd
  have h' : ((a.rmin + x * a.dr : ℝ) : ℂ) ≠ 0 := Complex.ofReal_ne_zero.2 h
  show Except.ok _ = Except.ok _
  congr 3
  rw [Complex.ofReal_div]
  field_simp

theorem room_has {σ : Mem} {b : Box} {p q : ℤ} (h : RoomFor σ b p q) {nm m : ℕ} (hm : m < nm) (f : Fld) {j k x y : ℤ} (hi : InsideM b j k)
    (hx : j - p ≤ x ∧ x ≤ j + q) (hy : k - p ≤ y ∧ y ≤ k + q) : (σ f).has nm x y m := by
  obtain ⟨a1, a2, a3, a4⟩ := h f
  obtain ⟨⟨b1, b2⟩, b3, b4⟩ := hi
  exact ⟨⟨by omega, by omega⟩, ⟨by omega, by omega⟩, hm⟩

/-- What a step of mode `m` leaves. -/
structure Stepped (m : ℕ) (w : Vals) (σ τ : Mem) : Prop where
  box : ∀ f, (τ f).box = (σ f).box
  done : look τ m = w
  kept : ∀ n, n ≠ m → look τ n = look σ n

theorem Swept.look {t : Fld} {m : ℕ} {P : ℤ → ℤ → Prop} {x : ℤ → ℤ → ℂ} {σ τ : Mem} (h : Swept t m P x σ τ) [DecidableRel P] :
    look τ m = Function.update (look σ m) t (fun j k => if P j k then x j k else look σ m t j k) := by
  funext f j k
  by_cases hf : f = t
  · subst hf
    rw [Function.update_self]
    split
    · next hp => exact h.done j k hp
    · next hp => exact h.kept j k m (Or.inr hp)
  · rw [Function.update_of_ne hf]
    unfold Multimode.look
    rw [h.other f hf]

theorem Swept.look_other {t : Fld} {m : ℕ} {P : ℤ → ℤ → Prop} {x : ℤ → ℤ → ℂ} {σ τ : Mem} (h : Swept t m P x σ τ) {n : ℕ} (hn : n ≠ m) :
    Multimode.look τ n = Multimode.look σ n := by
  funext f j k
  by_cases hf : f = t
  · subst hf
    exact h.kept j k n (Or.inl hn)
  · unfold Multimode.look
    rw [h.other f hf]

theorem evecMode_ok {a : Args} {σ : Mem} (h : OkE a σ) {m : ℕ} (hm : m < a.nmodes) :
    ∃ τ, evecMode a σ m = .ok τ ∧ Stepped m (stepE a m (look σ m)) σ τ := by
  classical
  obtain ⟨R1, R2, R3⟩ := h.room
  obtain ⟨σ1, e1, w1⟩ := exec_covers (nm := a.nmodes) (t := er) (m := m) (σ := σ) (covers_points a.r (erRhs a m)) (by simp [erRhs]) (by
    intro j k hi
    have H : ∀ f x y, j - 1 ≤ x ∧ x ≤ j + 0 → k - 1 ≤ y ∧ y ≤ k + 0 → (σ f).has a.nmodes x y m := fun f x y hx hy => room_has R1 hm f hi hx hy
    refine ⟨?_, H _ _ _ (by omega) (by omega)⟩
    simp only [erRhs, sub_safe, mul_safe, rd_safe, cst_safe, k_safe, true_and]
    refine ⟨⟨⟨?_, ⟨_, quot_ok (h.half j hi.1.1 hi.1.2)⟩, ?_⟩, ?_, ?_⟩, ?_⟩ <;> exact H _ _ _ (by omega) (by omega))
  have R2' : RoomFor σ1 a.t 1 0 := room_congr R2 w1.box
  obtain ⟨σ2, e2, w2⟩ := exec_covers (nm := a.nmodes) (t := et) (m := m) (σ := σ1) (covers_axis a.t (fun _ => etBulk a) (etAxis a m)) (by
    intro j
    unfold etAxis
    split_ifs <;> simp [etBulk]) (by
    intro j k hi
    have H : ∀ f x y, j - 1 ≤ x ∧ x ≤ j + 0 → k - 1 ≤ y ∧ y ≤ k + 0 → (σ1 f).has a.nmodes x y m := fun f x y hx hy => room_has R2' hm f hi hx hy
    have B : (etBulk a).Safe σ1 a.nmodes j k m := by
      simp only [etBulk, sub_safe, add_safe, mul_safe, rd_safe, cst_safe, true_and]
      refine ⟨⟨⟨?_, ?_, ?_⟩, ?_, ?_⟩, ?_⟩ <;> exact H _ _ _ (by omega) (by omega)
    refine ⟨?_, H _ _ _ (by omega) (by omega)⟩
    unfold etAxis
    split_ifs
    · exact B
    · simp only [mul_safe, cst_safe, rd_safe, true_and]
      exact H _ _ _ (by omega) (by omega)
    · simp
    · exact B)
  have R3' : RoomFor σ2 a.z 1 0 := room_congr R3 fun f => (w2.box f).trans (w1.box f)
  obtain ⟨σ3, e3, w3⟩ := exec_covers (nm := a.nmodes) (t := ez) (m := m) (σ := σ2) (covers_axis a.z (ezBulk a m) (ezAxis a m)) (by
    intro j
    unfold ezAxis
    split_ifs <;> simp [ezBulk]) (by
    intro j k hi
    have H : ∀ f x y, j - 1 ≤ x ∧ x ≤ j + 0 → k - 1 ≤ y ∧ y ≤ k + 0 → (σ2 f).has a.nmodes x y m := fun f x y hx hy => room_has R3' hm f hi hx hy
    have B : ∀ i : ℤ, a.rNode i ≠ 0 → (ezBulk a m i).Safe σ2 a.nmodes j k m := by
      intro i h0
      have q1 := ratio_ok (a := a) (s := 1) (x := i) h.hdr h0
      have q2 := ratio_ok (a := a) (s := -1) (x := i) h.hdr h0
      simp only [ezBulk, sub_safe, add_safe, mul_safe, rd_safe, cst_safe, k_safe, true_and]
      refine ⟨⟨⟨?_, ⟨⟨_, q1⟩, ?_⟩, ⟨_, q2⟩, ?_⟩, ⟨_, quot_ok h0⟩, ?_⟩, ?_⟩ <;> exact H _ _ _ (by omega) (by omega)
    refine ⟨?_, H _ _ _ (by omega) (by omega)⟩
    unfold ezAxis
    have hn := h.node j hi.1.1 hi.1.2
    split_ifs with h1 h2 h3
    · simp only [sub_safe, add_safe, mul_safe, rd_safe, cst_safe, true_and]
      refine ⟨⟨?_, ?_⟩, ?_⟩ <;> exact H _ _ _ (by omega) (by omega)
    · simp
    · subst h1
      exact B 0 (hn.resolve_left fun hh => h2 hh.1)
    · exact B j (hn.resolve_left fun hh => h1 hh.2))
  refine ⟨σ3, ?_, ?_, ?_, ?_⟩
  · unfold evecMode
    rw [e1, bind_ok, e2, bind_ok, e3]
  · intro f
    rw [w3.box, w2.box, w1.box]
  · have far : ∀ (v : Vals) (x y : ℤ → ℤ → ℂ) (j i k : ℤ), (ezBulk a m i).den (Function.update (Function.update v er x) et y) j k = (ezBulk a m i).den v j k := by
      intro v x y j i k
      simp [ezBulk]
    have farA : ∀ (v : Vals) (x y : ℤ → ℤ → ℂ) (j k : ℤ), (ezAxis a m).den (Function.update (Function.update v er x) et y) j k = (ezAxis a m).den v j k := by
      intro v x y j k
      unfold ezAxis
      split_ifs
      · simp
      · simp
      · exact far v x y j 0 k
    have l1 : look σ1 m = Function.update (look σ m) er (fun j k => if InsideM a.r j k then (erRhs a m j).den (look σ m) j k else look σ m er j k) := w1.look
    have l2 : look σ2 m = Function.update (look σ1 m) et (fun j k => if InsideM a.t j k then (if j = 0 then etAxis a m else etBulk a).den (look σ1 m) j k
      else look σ1 m et j k) := w2.look
    have l3 : look σ3 m = Function.update (look σ2 m) ez (fun j k => if InsideM a.z j k then (if j = 0 then ezAxis a m else ezBulk a m j).den (look σ2 m) j k
      else look σ2 m ez j k) := w3.look
    rw [l3, l2, l1]
    funext f j k
    cases f
    case er => simp only [Function.update_apply, reduceCtorEq, if_false, if_true, stepE]
    case et => simp [stepE]
    case ez =>
      simp only [Function.update_self, stepE]
      congr 1
      split_ifs
      · exact farA _ _ _ _ _
      · exact far _ _ _ _ _ _
    all_goals simp [stepE]
  · intro n hn
    rw [w3.look_other hn, w2.look_other hn, w1.look_other hn]

theorem bvecMode_ok {a : Args} {σ : Mem} (h : OkB a σ) {m : ℕ} (hm : m < a.nmodes) :
    ∃ τ, bvecMode a σ m = .ok τ ∧ Stepped m (stepB a m (look σ m)) σ τ := by
  classical
  obtain ⟨R1, R2, R3⟩ := h.room
  obtain ⟨σ1, e1, w1⟩ := exec_covers (nm := a.nmodes) (t := br) (m := m) (σ := σ) (covers_points a.r (brRhs a m)) (by
    intro j
    unfold brRhs
    split_ifs <;> simp) (by
    intro j k hi
    have H : ∀ f x y, j - 0 ≤ x ∧ x ≤ j + 1 → k - 0 ≤ y ∧ y ≤ k + 1 → (σ f).has a.nmodes x y m := fun f x y hx hy => room_has R1 hm f hi hx hy
    refine ⟨?_, H _ _ _ (by omega) (by omega)⟩
    have hn := h.node j hi.1.1 hi.1.2
    unfold brRhs
    split_ifs with h1 h2
    · simp
    · simp only [sub_safe, add_safe, mul_safe, rd_safe, cst_safe, k_safe, true_and]
      refine ⟨⟨?_, ⟨_, quot_ok h.hdr⟩, ?_⟩, ?_, ?_⟩ <;> exact H _ _ _ (by omega) (by omega)
    · simp only [sub_safe, add_safe, mul_safe, rd_safe, cst_safe, k_safe, true_and]
      refine ⟨⟨?_, ⟨_, quot_ok (hn.resolve_left fun hh => h1 ⟨hh.2, hh.1⟩)⟩, ?_⟩, ?_, ?_⟩ <;> exact H _ _ _ (by omega) (by omega))
  have R2' : RoomFor σ1 a.t 0 1 := room_congr R2 w1.box
  obtain ⟨σ2, e2, w2⟩ := exec_covers (nm := a.nmodes) (t := bt) (m := m) (σ := σ1) (covers_points a.t fun _ => btRhs a) (by simp [btRhs]) (by
    intro j k hi
    have H : ∀ f x y, j - 0 ≤ x ∧ x ≤ j + 1 → k - 0 ≤ y ∧ y ≤ k + 1 → (σ1 f).has a.nmodes x y m := fun f x y hx hy => room_has R2' hm f hi hx hy
    refine ⟨?_, H _ _ _ (by omega) (by omega)⟩
    simp only [btRhs, sub_safe, add_safe, mul_safe, rd_safe, cst_safe, true_and]
    refine ⟨⟨?_, ?_, ?_⟩, ?_, ?_⟩ <;> exact H _ _ _ (by omega) (by omega))
  have R3' : RoomFor σ2 a.z 0 1 := room_congr R3 fun f => (w2.box f).trans (w1.box f)
  obtain ⟨σ3, e3, w3⟩ := exec_covers (nm := a.nmodes) (t := bz) (m := m) (σ := σ2) (covers_points a.z (bzRhs a m)) (by simp [bzRhs]) (by
    intro j k hi
    have H : ∀ f x y, j - 0 ≤ x ∧ x ≤ j + 1 → k - 0 ≤ y ∧ y ≤ k + 1 → (σ2 f).has a.nmodes x y m := fun f x y hx hy => room_has R3' hm f hi hx hy
    have h0 := h.half j hi.1.1 hi.1.2
    have h0' : a.rmin + ((j : ℝ) + 0.5) * a.dr ≠ 0 := by
      unfold Args.rHalf at h0
      convert h0 using 1
      ring
    have q1 := ratio_ok (a := a) (s := 1) (x := (j : ℝ) + 0.5) h.hdr h0'
    have q2 := ratio_ok (a := a) (s := -1) (x := (j : ℝ) + 0.5) h.hdr h0'
    refine ⟨?_, H _ _ _ (by omega) (by omega)⟩
    simp only [bzRhs, sub_safe, mul_safe, rd_safe, cst_safe, k_safe, true_and]
    refine ⟨⟨?_, ⟨⟨_, q1⟩, ?_⟩, ⟨_, q2⟩, ?_⟩, ⟨_, quot_ok h0⟩, ?_⟩ <;> exact H _ _ _ (by omega) (by omega))
  refine ⟨σ3, ?_, ?_, ?_, ?_⟩
  · unfold bvecMode
    rw [e1, bind_ok, e2, bind_ok, e3]
  · intro f
    rw [w3.box, w2.box, w1.box]
  · have l1 : look σ1 m = Function.update (look σ m) br (fun j k => if InsideM a.r j k then (brRhs a m j).den (look σ m) j k else look σ m br j k) := w1.look
    have l2 : look σ2 m = Function.update (look σ1 m) bt (fun j k => if InsideM a.t j k then (btRhs a).den (look σ1 m) j k
      else look σ1 m bt j k) := w2.look
    have l3 : look σ3 m = Function.update (look σ2 m) bz (fun j k => if InsideM a.z j k then (bzRhs a m j).den (look σ2 m) j k
      else look σ2 m bz j k) := w3.look
    rw [l3, l2, l1]
    funext f j k
    cases f
    case br => simp only [Function.update_apply, reduceCtorEq, if_false, if_true, stepB]
    case bt => simp [stepB, btRhs]
    case bz => simp [stepB, bzRhs]
    all_goals simp [stepB]
  · intro n hn
    rw [w3.look_other hn, w2.look_other hn, w1.look_other hn]

/-- A loop over the modes. -/
theorem modes_ok {f : Mem → ℕ → Res Mem} {g : ℕ → Vals → Vals} {N : ℕ} (P : Mem → Prop) (hP : ∀ {σ τ}, P σ → (∀ f, (τ f).box = (σ f).box) → P τ)
    (H : ∀ σ m, P σ → m < N → ∃ τ, f σ m = .ok τ ∧ Stepped m (g m (look σ m)) σ τ) : ∀ (n : ℕ) (σ : Mem), P σ → n ≤ N →
    ∃ τ, (List.range n).foldlM f σ = .ok τ ∧ (∀ f, (τ f).box = (σ f).box) ∧ (∀ m, m < n → look τ m = g m (look σ m)) ∧ ∀ m, n ≤ m → look τ m = look σ m
  | 0, σ, _, _ => ⟨σ, rfl, fun _ => rfl, fun _ h => absurd h (Nat.not_lt_zero _), fun _ _ => rfl⟩
  | n + 1, σ, hσ, hn => by
    obtain ⟨τ, e, b, d, k⟩ := modes_ok P hP H n σ hσ (by omega)
    obtain ⟨ρ, e', s⟩ := H τ n (hP hσ b) (by omega)
    refine ⟨ρ, ?_, fun f => (s.box f).trans (b f), fun m hm => ?_, fun m hm => ?_⟩
    · rw [List.range_succ, List.foldlM_append, e, bind_ok]
      simp only [List.foldlM_cons, List.foldlM_nil]
      rw [e', bind_ok]
      rfl
    · rcases Nat.lt_succ_iff_lt_or_eq.1 hm with hm | rfl
      · rw [s.kept m (by omega), d m hm]
      · rw [s.done, k m le_rfl]
    · rw [s.kept m (by omega), k m (by omega)]

theorem evec_ok {a : Args} {σ : Mem} (h : OkE a σ) : ∃ τ, evec a σ = .ok τ ∧ (∀ f, (τ f).box = (σ f).box) ∧
    (∀ m, m < a.nmodes → look τ m = stepE a m (look σ m)) ∧ ∀ m, a.nmodes ≤ m → look τ m = look σ m :=
  modes_ok (OkE a) (fun h hb => h.congr hb) (fun _ _ h hm => evecMode_ok h hm) a.nmodes σ h le_rfl

theorem bvec_ok {a : Args} {σ : Mem} (h : OkB a σ) : ∃ τ, bvec a σ = .ok τ ∧ (∀ f, (τ f).box = (σ f).box) ∧
    (∀ m, m < a.nmodes → look τ m = stepB a m (look σ m)) ∧ ∀ m, a.nmodes ≤ m → look τ m = look σ m :=
  modes_ok (OkB a) (fun h hb => h.congr hb) (fun _ _ h hm => bvecMode_ok h hm) a.nmodes σ h le_rfl

/-! ### The equations -/

theorem okE_of {g : RzGrid} (hd : g.dr ≠ 0) (c mu0 dt : ℝ) {r t z : Box} {n : ℕ} {σ : Mem} (hr : ClearHalves g r) (hz : ClearNodes g z)
    (r1 : RoomFor σ r 1 0) (r2 : RoomFor σ t 1 0) (r3 : RoomFor σ z 1 0) : OkE (argsE g c mu0 dt r t z n) σ where
  hdr := hd
  room := ⟨r1, r2, r3⟩
  half j h1 h2 := by
    have := hr j h1 h2
    unfold RzGrid.half at this
    unfold Args.rHalf argsE
    convert this using 1
    simp only
    ring
  node j h1 h2 := hz j h1 h2

theorem okB_of {g : RzGrid} (hd : g.dr ≠ 0) (dt : ℝ) {r t z : Box} {n : ℕ} {σ : Mem} (hr : ClearNodes g r) (hz : ClearHalves g z)
    (r1 : RoomFor σ r 0 1) (r2 : RoomFor σ t 0 1) (r3 : RoomFor σ z 0 1) : OkB (argsB g dt r t z n) σ where
  hdr := hd
  room := ⟨r1, r2, r3⟩
  half j h1 h2 := by
    have := hz j h1 h2
    unfold RzGrid.half at this
    unfold Args.rHalf argsB
    convert this using 1
    simp only
    ring
  node j h1 h2 := hr j h1 h2

theorem cast_ne {x : ℝ} (h : x ≠ 0) : (x : ℂ) ≠ 0 := Complex.ofReal_ne_zero.2 h

section equations

variable {g : RzGrid} (hd : g.dr ≠ 0) (c mu0 dt : ℝ) {r t z : Box} {n m : ℕ} (v : Vals) {j k : ℤ}
include hd

omit hd in
theorem half_eq (j : ℤ) : g.rmin + j * g.dr + 0.5 * g.dr = g.half j := by
  unfold RzGrid.half
  ring

theorem stepE_er (hi : InsideM r j k) (h0 : g.half j ≠ 0) : stepE (argsE g c mu0 dt r t z n) m v er j k =
    v er j k + dt * (c ^ 2 * curlBr g m (v br) (v bt) (v bz) j k - mu0 * c ^ 2 * v jr j k) := by
  have hd' := cast_ne hd
  have e : (argsE g c mu0 dt r t z n).rHalf j = g.half j := half_eq j
  have hh := cast_ne h0
  simp only [stepE]
  rw [if_pos (show InsideM (argsE g c mu0 dt r t z n).r j k from hi)]
  simp only [erRhs, sub_den, mul_den, cst_den, rd_den, k_den, e, quot_ok h0, valOf]
  simp only [Args.imdt, argsE, curlBr, turn, add_zero]
  push_cast
  rw [show k + -1 = k - 1 by ring]
  generalize (g.half j : ℂ) = h at *
  field_simp
  ring

omit hd in
theorem stepE_et (hi : InsideM t j k) (h0 : ¬ OnAxisM g j) : stepE (argsE g c mu0 dt r t z n) m v et j k =
    v et j k + dt * (c ^ 2 * curlBt g (v br) (v bt) (v bz) j k - mu0 * c ^ 2 * v jt j k) := by
  have key : ∀ u : ℤ → ℤ → ℂ, (if j = 0 then etAxis (argsE g c mu0 dt r t z n) m else etBulk (argsE g c mu0 dt r t z n)).den (Function.update v er u) j k =
      v et j k + dt * (c ^ 2 * curlBt g (v br) (v bt) (v bz) j k - mu0 * c ^ 2 * v jt j k) := by
    intro u
    have e : (if j = 0 then etAxis (argsE g c mu0 dt r t z n) m else etBulk (argsE g c mu0 dt r t z n)) = etBulk (argsE g c mu0 dt r t z n) := by
      split_ifs with hj
      · unfold etAxis
        rw [if_pos]
        exact fun hr => h0 ⟨hr, hj⟩
      · rfl
    rw [e]
    simp only [etBulk, sub_den, add_den, mul_den, cst_den, rd_den, argsE, curlBt, add_zero, Function.update_apply, reduceCtorEq, if_false]
    push_cast
    rw [show k + -1 = k - 1 by ring, show j + -1 = j - 1 by ring]
    ring
  simp only [stepE]
  rw [if_pos (show InsideM (argsE g c mu0 dt r t z n).t j k from hi)]
  exact key _

theorem ratio_half (s : ℝ) (A : Args) (h1 : A.rmin = g.rmin) (h2 : A.dr = g.dr) (x : ℝ) (h0 : g.rmin + x * g.dr ≠ 0) :
    valOf (ratio A s x) = ((g.rmin + (x + s / 2) * g.dr : ℝ) : ℂ) / ((g.rmin + x * g.dr : ℝ) : ℂ) := by
  rw [ratio_ok (by rw [h2]; exact hd) (by rw [h1, h2]; exact h0), h1, h2]
  have hh := cast_ne h0
  show 1 + (s : ℂ) * _ = _
  rw [eq_div_iff hh]
  rw [add_mul, mul_assoc, div_mul_cancel₀ _ hh]
  push_cast
  ring

theorem stepE_ez (hi : InsideM z j k) (h0 : ¬ OnAxisM g j) (hn : g.node j ≠ 0) : stepE (argsE g c mu0 dt r t z n) m v ez j k =
    v ez j k + dt * (c ^ 2 * curlBz g m (v br) (v bt) (v bz) j k - mu0 * c ^ 2 * v jz j k) := by
  have hd' := cast_ne hd
  have hh := cast_ne hn
  have e : (if j = 0 then ezAxis (argsE g c mu0 dt r t z n) m else ezBulk (argsE g c mu0 dt r t z n) m j) = ezBulk (argsE g c mu0 dt r t z n) m j := by
    split_ifs with hj
    · unfold ezAxis
      rw [if_neg, hj]
      exact fun hr => h0 ⟨hr, hj⟩
    · rfl
  have q1 : valOf (ratio (argsE g c mu0 dt r t z n) 1 j) = g.half j / g.node j := ratio_half hd 1 (argsE g c mu0 dt r t z n) rfl rfl j hn
  have q2 : valOf (ratio (argsE g c mu0 dt r t z n) (-1) j) = g.half (j - 1) / g.node j := by
    rw [ratio_half hd (-1) (argsE g c mu0 dt r t z n) rfl rfl j hn]
    unfold RzGrid.half RzGrid.node
    push_cast
    congr 1
    ring
  have q3 : valOf (quot ((argsE g c mu0 dt r t z n).imdt m) ((argsE g c mu0 dt r t z n).rNode j)) = (argsE g c mu0 dt r t z n).imdt m / g.node j := by
    rw [show (argsE g c mu0 dt r t z n).rNode j = g.node j from rfl, quot_ok hn]
    rfl
  simp only [stepE]
  rw [if_pos (show InsideM (argsE g c mu0 dt r t z n).z j k from hi), e]
  simp only [ezBulk, sub_den, add_den, mul_den, cst_den, rd_den, k_den, q1, q2, q3, add_zero]
  simp only [Args.imdt, argsE, curlBz, turn]
  push_cast
  rw [show j + -1 = j - 1 by ring]
  generalize (g.node j : ℂ) = p at *
  field_simp
  ring

theorem stepB_br (hi : InsideM r j k) (h0 : ¬ OnAxisM g j) (hn : g.node j ≠ 0) : stepB (argsB g dt r t z n) m v br j k =
    v br j k - dt * curlEr g m (v er) (v et) (v ez) j k := by
  have hd' := cast_ne hd
  have hh := cast_ne hn
  have q3 : valOf (quot ((argsB g dt r t z n).imdt m) ((argsB g dt r t z n).rNode j)) = (argsB g dt r t z n).imdt m / g.node j := by
    rw [show (argsB g dt r t z n).rNode j = g.node j from rfl, quot_ok hn]
    rfl
  simp only [stepB]
  rw [if_pos (show InsideM (argsB g dt r t z n).r j k from hi)]
  unfold brRhs
  rw [if_neg (fun hc => h0 ⟨hc.2, hc.1⟩)]
  simp only [sub_den, add_den, mul_den, cst_den, rd_den, k_den, q3, add_zero]
  simp only [Args.imdt, argsB, curlEr, turn]
  push_cast
  generalize (g.node j : ℂ) = p at *
  field_simp
  ring

theorem stepB_bt (hi : InsideM t j k) : stepB (argsB g dt r t z n) m v bt j k = v bt j k - dt * curlEt g (v er) (v et) (v ez) j k := by
  have hd' := cast_ne hd
  simp only [stepB]
  rw [if_pos (show InsideM (argsB g dt r t z n).t j k from hi)]
  simp only [btRhs, sub_den, add_den, mul_den, cst_den, rd_den, add_zero, argsB, curlEt]
  push_cast
  ring

theorem stepB_bz (hi : InsideM z j k) (h0 : g.half j ≠ 0) : stepB (argsB g dt r t z n) m v bz j k =
    v bz j k - dt * curlEz g m (v er) (v et) (v ez) j k := by
  have hd' := cast_ne hd
  have hh := cast_ne h0
  have eh : g.rmin + ((j : ℝ) + 0.5) * g.dr = g.half j := by
    unfold RzGrid.half
    ring
  have h0' : g.rmin + ((j : ℝ) + 0.5) * g.dr ≠ 0 := by rw [eh]; exact h0
  have q1 : valOf (ratio (argsB g dt r t z n) 1 (j + 0.5)) = g.node (j + 1) / g.half j := by
    rw [ratio_half hd 1 (argsB g dt r t z n) rfl rfl _ h0', eh]
    unfold RzGrid.node
    congr 2
    push_cast
    ring
  have q2 : valOf (ratio (argsB g dt r t z n) (-1) (j + 0.5)) = g.node j / g.half j := by
    rw [ratio_half hd (-1) (argsB g dt r t z n) rfl rfl _ h0', eh]
    unfold RzGrid.node
    congr 2
    ring
  have q3 : valOf (quot ((argsB g dt r t z n).imdt m) ((argsB g dt r t z n).rHalf j)) = (argsB g dt r t z n).imdt m / g.half j := by
    rw [show (argsB g dt r t z n).rHalf j = g.half j from half_eq j, quot_ok h0]
    rfl
  simp only [stepB]
  rw [if_pos (show InsideM (argsB g dt r t z n).z j k from hi)]
  simp only [bzRhs, sub_den, mul_den, cst_den, rd_den, k_den, q1, q2, q3, add_zero]
  simp only [Args.imdt, argsB, curlEz, turn]
  push_cast
  generalize (g.half j : ℂ) = h at *
  field_simp
  ring

end equations

/-! ### Divergences -/

theorem div_faraday {g : RzGrid} (hd : g.dr ≠ 0) (hz : g.dz ≠ 0) (m : ℕ) (dt : ℝ) (er et ez br bt bz br' bt' bz' : ModeField) (j k : ℤ)
    (hh : g.half j ≠ 0) (hn1 : g.node (j + 1) ≠ 0)
    (e0 : (g.node j ≠ 0 ∧ br' j k = br j k - dt * curlEr g m er et ez j k) ∨ (g.node j = 0 ∧ (m = 0 ∨ ez j k = 0)))
    (e1 : br' (j + 1) k = br (j + 1) k - dt * curlEr g m er et ez (j + 1) k)
    (e2 : bt' j k = bt j k - dt * curlEt g er et ez j k) (e3 : bz' j k = bz j k - dt * curlEz g m er et ez j k)
    (e4 : bz' j (k + 1) = bz j (k + 1) - dt * curlEz g m er et ez j (k + 1)) :
    divCellM g m br' bt' bz' j k = divCellM g m br bt bz j k := by
  have hd' := cast_ne hd
  have hz' := cast_ne hz
  have hh' := cast_ne hh
  have hn' := cast_ne hn1
  have p0 : (g.node j : ℂ) * br' j k = g.node j * br j k - dt * (turn m (ez j k) - g.node j * ((et j (k + 1) - et j k) / g.dz)) := by
    rcases e0 with ⟨h0, e⟩ | ⟨h0, h⟩
    · have h0' := cast_ne h0
      rw [e]
      unfold curlEr
      generalize (g.node j : ℂ) = p at *
      field_simp
    · rw [h0]
      rcases h with rfl | h
      · simp [turn]
      · simp [turn, h]
  have p1 : (g.node (j + 1) : ℂ) * br' (j + 1) k =
      g.node (j + 1) * br (j + 1) k - dt * (turn m (ez (j + 1) k) - g.node (j + 1) * ((et (j + 1) (k + 1) - et (j + 1) k) / g.dz)) := by
    rw [e1]
    unfold curlEr
    generalize (g.node (j + 1) : ℂ) = p at *
    field_simp
  unfold divCellM
  rw [p0, p1, e2, e3, e4]
  unfold curlEt curlEz turn
  generalize (g.half j : ℂ) = h at *
  generalize (g.node (j + 1) : ℂ) = p at *
  generalize (g.node j : ℂ) = q at *
  field_simp
  ring

theorem div_ampere {g : RzGrid} (hd : g.dr ≠ 0) (hz : g.dz ≠ 0) (m : ℕ) (dt c mu0 : ℝ) (er et ez br bt bz jr jt jz er' et' ez' : ModeField) (j k : ℤ)
    (hh : g.half j ≠ 0) (hh1 : g.half (j - 1) ≠ 0) (hn : g.node j ≠ 0)
    (e0 : er' j k = er j k + dt * (c ^ 2 * curlBr g m br bt bz j k - mu0 * c ^ 2 * jr j k))
    (e1 : er' (j - 1) k = er (j - 1) k + dt * (c ^ 2 * curlBr g m br bt bz (j - 1) k - mu0 * c ^ 2 * jr (j - 1) k))
    (e2 : et' j k = et j k + dt * (c ^ 2 * curlBt g br bt bz j k - mu0 * c ^ 2 * jt j k))
    (e3 : ez' j k = ez j k + dt * (c ^ 2 * curlBz g m br bt bz j k - mu0 * c ^ 2 * jz j k))
    (e4 : ez' j (k - 1) = ez j (k - 1) + dt * (c ^ 2 * curlBz g m br bt bz j (k - 1) - mu0 * c ^ 2 * jz j (k - 1))) :
    divNodeM g m er' et' ez' j k = divNodeM g m er et ez j k - mu0 * c ^ 2 * dt * divNodeM g m jr jt jz j k := by
  have hd' := cast_ne hd
  have hz' := cast_ne hz
  have hh' := cast_ne hh
  have hh1' := cast_ne hh1
  have hn' := cast_ne hn
  unfold divNodeM
  rw [e0, e1, e2, e3, e4]
  unfold curlBr curlBt curlBz turn
  generalize (g.half j : ℂ) = h at *
  generalize (g.half (j - 1) : ℂ) = p at *
  generalize (g.node j : ℂ) = q at *
  field_simp
  ring

theorem div_axis {g : RzGrid} (hd : g.dr ≠ 0) (hz : g.dz ≠ 0) (dt c mu0 : ℝ) (er ez br bt bz jr jz er' ez' : ModeField) (k : ℤ)
    (e0 : er' 0 k = er 0 k + dt * (c ^ 2 * curlBr g 0 br bt bz 0 k - mu0 * c ^ 2 * jr 0 k))
    (e3 : ez' 0 k = ez 0 k + dt * (c ^ 2 * (4 * bt 0 k / g.dr) - mu0 * c ^ 2 * jz 0 k))
    (e4 : ez' 0 (k - 1) = ez 0 (k - 1) + dt * (c ^ 2 * (4 * bt 0 (k - 1) / g.dr) - mu0 * c ^ 2 * jz 0 (k - 1))) :
    divAxisM g er' ez' k = divAxisM g er ez k - mu0 * c ^ 2 * dt * divAxisM g jr jz k := by
  have hd' := cast_ne hd
  have hz' := cast_ne hz
  unfold divAxisM
  rw [e0, e3, e4]
  unfold curlBr turn
  simp only [Nat.cast_zero, mul_zero, neg_zero, zero_mul, zero_div]
  field_simp
  ring

end Picsar.Multimode
