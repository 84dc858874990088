import Verif.Model.GatherUnrolled
import Mathlib.Tactic.Ring
import Mathlib.Algebra.BigOperators.Ring.List

/-
Normal form of the unrolled gathering statements: every accumulated value as a list of monomials (shape factors times one field value).
-/
namespace Picsar.Gather
open Picsar Picsar.Grid

/-- Shape factors and field reference of one term. -/
structure Mono where
  shs : List Sh
  q : Comp
  x : Bool × ℤ
  y : Bool × ℤ
  z : Bool × ℤ
  deriving DecidableEq

/-- Order of the directions. -/
def Ax.ord : Ax → ℕ
  | .x => 0
  | .y => 1
  | .z => 2

/-- Insertion of a factor, by direction. -/
def insSh (s : Sh) : List Sh → List Sh
  | [] => [s]
  | t :: l => if s.ax.ord ≤ t.ax.ord then s :: t :: l else t :: insSh s l

/-- Terms of an expression, given those of `a`. -/
def GE.sym (pa : Option (List Mono)) : GE → Option (List Mono)
  | .fld q x y z => some [⟨[], q, x, y, z⟩]
  | .a => pa
  | .add e f =>
    match e.sym pa, f.sym pa with
    | some l, some m => some (l ++ m)
    | _, _ => none
  | .mulS s e => (e.sym pa).map (List.map fun m => { m with shs := insSh s m.shs })

/-- Terms added to each component, and all the terms met. -/
structure Acc where
  ex : List Mono := []
  ey : List Mono := []
  ez : List Mono := []
  bx : List Mono := []
  bY : List Mono := []
  bz : List Mono := []
  deriving DecidableEq

/-- Component of an `Acc`. -/
def Acc.get (t : Acc) : Comp → List Mono
  | .ex => t.ex
  | .ey => t.ey
  | .ez => t.ez
  | .bx => t.bx
  | .by' => t.bY
  | .bz => t.bz
  | _ => []

/-- Appends terms to a component. -/
def Acc.add (t : Acc) (q : Comp) (l : List Mono) : Acc :=
  match q with
  | .ex => { t with ex := t.ex ++ l }
  | .ey => { t with ey := t.ey ++ l }
  | .ez => { t with ez := t.ez ++ l }
  | .bx => { t with bx := t.bx ++ l }
  | .by' => { t with bY := t.bY ++ l }
  | .bz => { t with bz := t.bz ++ l }
  | _ => t

/-- Is a component one of the six. -/
def isField : Comp → Bool
  | .ex | .ey | .ez | .bx | .by' | .bz => true
  | _ => false

/-- Symbolic execution; `ok` is a check made on every term that is computed. -/
def GStmt.sym (ok : Mono → Bool) : List GStmt → Option (List Mono) → Acc → Option Acc
  | [], _, t => some t
  | .seta e :: ss, pa, t =>
    match e.sym pa with
    | some l => if l.all ok && !l.isEmpty then GStmt.sym ok ss (some l) t else none
    | none => none
  | .acc q e :: ss, pa, t =>
    match e.sym pa with
    | some l => if l.all ok && !l.isEmpty && isField q then GStmt.sym ok ss pa (t.add q l) else none
    | none => none

/-- Offsets of the stencil of order `n`: keys of `wts`. -/
def rngN : ℕ → List ℤ
  | 1 => [0, 1]
  | 2 => [-1, 0, 1]
  | 3 => [-1, 0, 1, 2]
  | _ => []

/-- Offsets of the stencil in one direction. -/
def rng (n : ℕ) (lower st : Bool) : List ℤ :=
  if st && lower then (if n = 1 then [0] else if n = 2 ∨ n = 3 then rngN (n - 1) else []) else rngN n

/-- Offsets along y. -/
def yrng (n : ℕ) (lower d2 st : Bool) : List ℤ := if d2 then [0] else rng n lower st

/-- Factor written by the unrolled routines in one direction (the weight 1 of the lowest order is not written in 3D). -/
def fac (n : ℕ) (lower d2 : Bool) (ax : Ax) (st : Bool) (i : ℤ) : List Sh :=
  if !d2 && lower && n == 1 && st then [] else [⟨ax, st, i⟩]

/-- Factor along y; there is none in 2D. -/
def yfac (n : ℕ) (lower d2 : Bool) (st : Bool) (i : ℤ) : List Sh := if d2 then [] else fac n lower d2 .y st i

/-- In 2D the `y` index is the constant one. -/
def yst (d2 st : Bool) : Bool := if d2 then false else st

/-- Terms of the tensor-product stencil of a component. -/
def stencil (n : ℕ) (lower d2 : Bool) (q : Comp) : List Mono :=
  (rng n lower (stag q).2.2).flatMap fun c => (yrng n lower d2 (stag q).2.1).flatMap fun b =>
    (rng n lower (stag q).1).map fun a =>
      ⟨fac n lower d2 .x (stag q).1 a ++ yfac n lower d2 (stag q).2.1 b ++ fac n lower d2 .z (stag q).2.2 c, q,
        ((stag q).1, a), (yst d2 (stag q).2.1, b), ((stag q).2.2, c)⟩

/-- Every shape factor and every field reference of the term is in the range of its stencil. -/
def okMono (n : ℕ) (lower d2 : Bool) (m : Mono) : Bool :=
  (m.shs.all fun s => match s.ax with
    | .y => (yrng n lower d2 s.st).contains s.i
    | _ => (rng n lower s.st).contains s.i) &&
  (m.x.1 == (stag m.q).1 && (rng n lower m.x.1).contains m.x.2) &&
  (m.y.1 == yst d2 (stag m.q).2.1 && (yrng n lower d2 m.y.1).contains m.y.2) &&
  (m.z.1 == (stag m.q).2.2 && (rng n lower m.z.1).contains m.z.2)

/-! ### Soundness of the normal form -/

/-- Value of a shape factor (0 when it is not assigned). -/
noncomputable def shv (v : GEnv) (s : Sh) : ℝ := ((v.wts s.ax s.st).find? (fun w => w.1 == s.i)).elim 0 (·.2)

/-- Grid point of a term. -/
def Mono.idx (v : GEnv) (m : Mono) : I3 := ⟨v.base .x m.x.1 + m.x.2, v.base .y m.y.1 + m.y.2, v.base .z m.z.1 + m.z.2⟩

/-- Value of a term. -/
noncomputable def mval (σ : Mem) (v : GEnv) (m : Mono) : ℝ := (m.shs.map (shv v)).prod * (σ m.q).val (m.idx v)

/-- Value of a list of terms. -/
noncomputable def pval (σ : Mem) (v : GEnv) (l : List Mono) : ℝ := (l.map (mval σ v)).sum

/-- The term can be computed: its factors are assigned and its field value is inside the array. -/
def MOk (σ : Mem) (v : GEnv) (m : Mono) : Prop := (∀ s ∈ m.shs, v.sh s = .ok (shv v s)) ∧ InBox (σ m.q).lo (σ m.q).hi (m.idx v)

theorem mem_insSh {s t : Sh} {l : List Sh} : t ∈ insSh s l ↔ t = s ∨ t ∈ l := by
  induction l with
  | nil => simp [insSh]
  | cons u l ih =>
    unfold insSh
    split_ifs
    · simp
    · simp only [List.mem_cons, ih]; tauto

theorem prod_insSh (f : Sh → ℝ) (s : Sh) (l : List Sh) : ((insSh s l).map f).prod = f s * (l.map f).prod := by
  induction l with
  | nil => simp [insSh]
  | cons u l ih =>
    unfold insSh
    split_ifs
    · simp
    · simp only [List.map_cons, List.prod_cons, ih]; ring

theorem pval_append (σ : Mem) (v : GEnv) (l m : List Mono) : pval σ v (l ++ m) = pval σ v l + pval σ v m := by
  simp [pval]

theorem eval_sym {σ : Mem} {v : GEnv} {pa : Option (List Mono)} {a : ℝ} (hpa : ∀ l, pa = some l → l ≠ [] ∧ a = pval σ v l) :
    ∀ (e : GE) (l : List Mono), e.sym pa = some l → (∀ m ∈ l, MOk σ v m) → l ≠ [] ∧ e.eval σ v a = .ok (pval σ v l) := by
  intro e
  induction e with
  | fld q x y z =>
    intro l hl hok
    simp only [GE.sym, Option.some.injEq] at hl
    subst hl
    refine ⟨by simp, ?_⟩
    have := (hok ⟨[], q, x, y, z⟩ (by simp)).2
    unfold GE.eval Arr.get
    unfold Mono.idx at this
    rw [if_pos this]
    simp [pval, mval, Mono.idx]
  | a =>
    intro l hl hok
    obtain ⟨h1, h2⟩ := hpa l hl
    refine ⟨h1, ?_⟩
    rw [← h2]; rfl
  | add e f ihe ihf =>
    intro l hl hok
    unfold GE.sym at hl
    split at hl
    · rename_i l1 l2 h1 h2
      simp only [Option.some.injEq] at hl
      subst hl
      obtain ⟨n1, e1⟩ := ihe l1 h1 fun m hm => hok m (by simp [hm])
      obtain ⟨n2, e2⟩ := ihf l2 h2 fun m hm => hok m (by simp [hm])
      refine ⟨by simp [n1], ?_⟩
      unfold GE.eval
      rw [e1, e2, pval_append]
      rfl
    · exact absurd hl (by simp)
  | mulS s e ih =>
    intro l hl hok
    simp only [GE.sym, Option.map_eq_some_iff] at hl
    obtain ⟨l1, h1, rfl⟩ := hl
    have hok' : ∀ m ∈ l1, MOk σ v m := by
      intro m hm
      obtain ⟨a1, a2⟩ := hok _ (List.mem_map.mpr ⟨m, hm, rfl⟩)
      exact ⟨fun t ht => a1 t (mem_insSh.mpr (Or.inr ht)), a2⟩
    obtain ⟨n1, e1⟩ := ih l1 h1 hok'
    refine ⟨by simpa using n1, ?_⟩
    have hs : v.sh s = .ok (shv v s) := by
      obtain ⟨m, hm⟩ := List.exists_mem_of_ne_nil l1 n1
      exact (hok _ (List.mem_map.mpr ⟨m, hm, rfl⟩)).1 s (mem_insSh.mpr (Or.inl rfl))
    unfold GE.eval
    rw [hs, e1]
    simp only [except_bind_ok, except_pure]
    congr 1
    unfold pval
    rw [List.map_map, ← List.sum_map_mul_left]
    congr 1
    refine List.map_congr_left fun m _ => ?_
    simp only [Function.comp, mval, Mono.idx]
    rw [prod_insSh]
    ring

theorem acc_get_add {t : Acc} {q r : Comp} {l : List Mono} (h : isField q = true) :
    (t.add q l).get r = if r = q then t.get r ++ l else t.get r := by
  cases q <;> simp [isField] at h <;> cases r <;> simp [Acc.add, Acc.get]

theorem run_sym {σ : Mem} {v : GEnv} {ok : Mono → Bool} (hok : ∀ m, ok m = true → MOk σ v m) (b : Comp → ℝ) :
    ∀ (ss : List GStmt) (pa : Option (List Mono)) (a : ℝ) (t t' : Acc) (out : Comp → ℝ),
      (∀ l, pa = some l → l ≠ [] ∧ a = pval σ v l) → (∀ q, out q = b q + pval σ v (t.get q)) →
      GStmt.sym ok ss pa t = some t' → GStmt.run σ v ss a out = .ok fun q => b q + pval σ v (t'.get q) := by
  intro ss
  induction ss with
  | nil =>
    intro pa a t t' out _ hout h
    simp only [GStmt.sym, Option.some.injEq] at h
    subst h
    unfold GStmt.run
    congr 1
    funext q
    exact hout q
  | cons s ss ih =>
    intro pa a t t' out hpa hout h
    cases s with
    | seta e =>
      unfold GStmt.sym at h
      split at h
      · rename_i l hl
        split_ifs at h with hc
        simp only [Bool.and_eq_true, List.all_eq_true, Bool.not_eq_true', List.isEmpty_eq_false_iff] at hc
        obtain ⟨-, ev⟩ := eval_sym hpa e l hl fun m hm => hok m (hc.1 m hm)
        unfold GStmt.run
        rw [ev]
        simp only [except_bind_ok]
        refine ih (some l) _ t t' out ?_ hout h
        intro l' hl'
        simp only [Option.some.injEq] at hl'
        subst hl'
        exact ⟨hc.2, rfl⟩
      · exact absurd h (by simp)
    | acc q e =>
      unfold GStmt.sym at h
      split at h
      · rename_i l hl
        split_ifs at h with hc
        simp only [Bool.and_eq_true, List.all_eq_true, Bool.not_eq_true', List.isEmpty_eq_false_iff] at hc
        obtain ⟨-, ev⟩ := eval_sym hpa e l hl fun m hm => hok m (hc.1.1 m hm)
        unfold GStmt.run
        rw [ev]
        simp only [except_bind_ok]
        refine ih pa a (t.add q l) t' _ hpa ?_ h
        intro r
        rw [acc_get_add hc.2]
        by_cases hr : r = q
        · subst hr
          rw [if_pos rfl, Function.update_self, pval_append, hout]
          ring
        · rw [if_neg hr, Function.update_of_ne hr, hout]
      · exact absurd h (by simp)

end Picsar.Gather
