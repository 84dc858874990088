import Verif.Lemmas.EngineHeapRun

namespace Picsar.EH
open Picsar.PV
open Picsar.EHSpec

variable {α : Type}

/-- A vector seen as `a` holds `l` in memory of kind `M`. -/
def Fits (M : Mem) (a : AObj α) (l : List α) : Prop :=
  a.cont = l.map some ∧
  match M with
  | .none => a.ptr = none ∧ a.man = true
  | .own => a.ptr ≠ none ∧ a.man = true
  | .foreign => a.man = false

def VFits (V : Nat → Option (AObj α)) (v : Nat) (M : Mem) (l : List α) : Prop := ∃ a, V v = some a ∧ Fits M a l

theorem own1_fits {M : Mem} {a : AObj α} {l : List α} (h : Fits M a l) : own1 (some a) = (leaked 1 M : ℤ) := by
  obtain ⟨p, c, m⟩ := a
  cases M with
  | none => obtain ⟨_, h1, h2⟩ := h; simp only at h1 h2; subst h1 h2; rfl
  | own =>
    obtain ⟨_, h1, h2⟩ := h
    simp only at h1 h2
    subst h2
    cases p with
    | none => exact absurd rfl h1
    | some b => rfl
  | foreign => obtain ⟨_, h1⟩ := h; simp only at h1; subst h1; cases p <;> rfl

/-- The tables of an engine whose vectors are numbered from `b`. -/
structure Match (V : Nat → Option (AObj α)) (b : Nat) (t : Tables α) : Prop where
  x : VFits V b t.rateMem t.rateX
  y : VFits V (b + 1) t.rateMem t.rateY
  cx : VFits V (b + 2) t.cumMem t.cumX
  cf : VFits V (b + 3) t.cumMem t.cumF
  cv : VFits V (b + 4) t.cumMem t.cumV

theorem Match.congr {V V' : Nat → Option (AObj α)} {b : Nat} {t : Tables α} (h : Match V b t)
    (hv : ∀ v, b ≤ v → v < b + 5 → V' v = V v) : Match V' b t := by
  obtain ⟨h1, h2, h3, h4, h5⟩ := h
  constructor
  · unfold VFits; rw [hv _ (by omega) (by omega)]; exact h1
  · unfold VFits; rw [hv _ (by omega) (by omega)]; exact h2
  · unfold VFits; rw [hv _ (by omega) (by omega)]; exact h3
  · unfold VFits; rw [hv _ (by omega) (by omega)]; exact h4
  · unfold VFits; rw [hv _ (by omega) (by omega)]; exact h5

/-- The engine whose vectors are numbered from `b`. -/
def eng (b : Nat) (t : Tables α) : Eng := ⟨b, b + 1, b + 2, b + 3, b + 4, t.rateReady, t.cumReady⟩

/-- The engines of the program against those of the description. -/
structure EInv (V : Nat → Option (AObj α)) (n : Nat) (E : List (Option Eng)) (W : List (Option (Tables α))) : Prop where
  len : E.length = W.length
  each : ∀ e, e < E.length → (E[e]? = some none ∧ W[e]? = some none) ∨
    ∃ b t, E[e]? = some (some (eng b t)) ∧ W[e]? = some (some t) ∧ Match V b t ∧ b + 5 ≤ n
  apart : ∀ (e e' : Nat) (g g' : Eng), E[e]? = some (some g) → E[e']? = some (some g') → e ≠ e' → g.rc + 5 ≤ g'.rc ∨ g'.rc + 5 ≤ g.rc

section
variable {V V' : Nat → Option (AObj α)} {n : Nat} {E : List (Option Eng)} {W : List (Option (Tables α))}

theorem EInv.get (i : EInv V n E W) {e : Nat} {g : Eng} (h : E[e]? = some (some g)) :
    ∃ b t, g = eng b t ∧ W[e]? = some (some t) ∧ Match V b t ∧ b + 5 ≤ n := by
  rcases i.each e (List.getElem?_eq_some_iff.mp h).1 with ⟨h1, _⟩ | ⟨b, t, h1, h2, h3, h4⟩
  · rw [h] at h1; cases h1
  · rw [h] at h1
    simp only [Option.some.injEq] at h1
    exact ⟨b, t, h1, h2, h3, h4⟩

theorem EInv.set (i : EInv V n E W) {e b : Nat} {t : Tables α} (he : E[e]? = some (some (eng b t)))
    (t' : Tables α) (hm : Match V' b t') (hb : b + 5 ≤ n)
    (hV : ∀ v, v < n → (v < b ∨ b + 5 ≤ v) → V' v = V v) :
    EInv V' n (E.set e (some (eng b t'))) (W.set e (some t')) := by
  have hlt := (List.getElem?_eq_some_iff.mp he).1
  refine ⟨by simp [i.len], ?_, ?_⟩
  · intro d hd
    rw [List.length_set] at hd
    by_cases hde : d = e
    · subst hde
      right
      exact ⟨b, t', by simp [hlt], by simp [← i.len, hlt], hm, hb⟩
    · rw [List.getElem?_set_ne (Ne.symm hde), List.getElem?_set_ne (Ne.symm hde)]
      rcases i.each d hd with h | ⟨c, u, h1, h2, h3, h4⟩
      · exact .inl h
      · right
        refine ⟨c, u, h1, h2, h3.congr ?_, h4⟩
        intro v hv hv'
        have := i.apart d e _ _ h1 he hde
        simp only [eng] at this
        exact hV v (by omega) (by omega)
  · intro d d' g g' h h' hne
    have key : ∀ (d : Nat) (g : Eng), (E.set e (some (eng b t')))[d]? = some (some g) → ∃ g0 : Eng, E[d]? = some (some g0) ∧ g0.rc = g.rc := by
      intro d g h
      by_cases hde : d = e
      · subst hde
        rw [List.getElem?_set_self hlt] at h
        simp only [Option.some.injEq] at h
        subst h
        exact ⟨_, he, rfl⟩
      · rw [List.getElem?_set_ne (Ne.symm hde)] at h
        exact ⟨g, h, rfl⟩
    obtain ⟨g0, q1, q2⟩ := key d g h
    obtain ⟨g0', q1', q2'⟩ := key d' g' h'
    rw [← q2, ← q2']
    exact i.apart d d' g0 g0' q1 q1' hne

theorem EInv.del (i : EInv V n E W) {e b : Nat} {t : Tables α} (he : E[e]? = some (some (eng b t)))
    (hV : ∀ v, (v < b ∨ b + 5 ≤ v) → V' v = V v) :
    EInv V' n (E.set e none) (W.set e none) := by
  have hlt := (List.getElem?_eq_some_iff.mp he).1
  refine ⟨by simp [i.len], ?_, ?_⟩
  · intro d hd
    rw [List.length_set] at hd
    by_cases hde : d = e
    · subst hde
      left
      exact ⟨by simp [hlt], by simp [← i.len, hlt]⟩
    · rw [List.getElem?_set_ne (Ne.symm hde), List.getElem?_set_ne (Ne.symm hde)]
      rcases i.each d hd with h | ⟨c, u, h1, h2, h3, h4⟩
      · exact .inl h
      · right
        refine ⟨c, u, h1, h2, h3.congr ?_, h4⟩
        intro v hv hv'
        have := i.apart d e _ _ h1 he hde
        simp only [eng] at this
        exact hV v (by omega)
  · intro d d' g g' h h' hne
    have key : ∀ (d : Nat) (g : Eng), (E.set e none)[d]? = some (some g) → E[d]? = some (some g) := by
      intro d g h
      by_cases hde : d = e
      · subst hde
        rw [List.getElem?_set_self hlt] at h
        cases h
      · rwa [List.getElem?_set_ne (Ne.symm hde)] at h
    exact i.apart d d' g g' (key _ _ h) (key _ _ h') hne

theorem EInv.add (i : EInv V n E W) (t' : Tables α) (hm : Match V' n t') {n' : Nat} (hn : n + 5 ≤ n')
    (hV : ∀ v, v < n → V' v = V v) : EInv V' n' (E ++ [some (eng n t')]) (W ++ [some t']) := by
  refine ⟨by simp [i.len], ?_, ?_⟩
  · intro d hd
    simp only [List.length_append, List.length_cons, List.length_nil] at hd
    by_cases hde : d < E.length
    · rw [List.getElem?_append_left hde, List.getElem?_append_left (i.len ▸ hde)]
      rcases i.each d hde with h | ⟨c, u, h1, h2, h3, h4⟩
      · exact .inl h
      · right
        exact ⟨c, u, h1, h2, h3.congr (fun v _ _ => hV v (by omega)), by omega⟩
    · have : d = E.length := by omega
      subst this
      right
      refine ⟨n, t', by simp, ?_, hm, hn⟩
      rw [i.len]
      simp
  · intro d d' g g' h h' hne
    have key : ∀ (d : Nat) (g : Eng), (E ++ [some (eng n t')])[d]? = some (some g) →
        (E[d]? = some (some g) ∧ g.rc + 5 ≤ n) ∨ (d = E.length ∧ g.rc = n) := by
      intro d g h
      by_cases hde : d < E.length
      · rw [List.getElem?_append_left hde] at h
        obtain ⟨b, t, rfl, _, _, hb⟩ := i.get h
        exact .inl ⟨h, hb⟩
      · right
        have hd := (List.getElem?_eq_some_iff.mp h).1
        simp only [List.length_append, List.length_cons, List.length_nil] at hd
        have : d = E.length := by omega
        subst this
        simp only [List.getElem?_concat_length, Option.some.injEq] at h
        subst h
        exact ⟨rfl, rfl⟩
    rcases key d g h with ⟨q1, q2⟩ | ⟨q1, q2⟩ <;> rcases key d' g' h' with ⟨q1', q2'⟩ | ⟨q1', q2'⟩
    · exact i.apart d d' g g' q1 q1' hne
    · omega
    · omega
    · omega

theorem EInv.mono (i : EInv V n E W) {n' : Nat} (hn : n ≤ n') : EInv V n' E W :=
  ⟨i.len, fun e he => (i.each e he).imp id (fun ⟨b, t, h1, h2, h3, h4⟩ => ⟨b, t, h1, h2, h3, by omega⟩), i.apart⟩

end

/-- Arrays owned by one engine. -/
def owned1 : Option (Tables α) → Nat
  | some t => leaked 2 t.rateMem + leaked 3 t.cumMem
  | none => 0

theorem arraysOwned_eq (w : World α) : arraysOwned w = (w.engines.map owned1).sum := rfl

theorem sum_set {W : List (Option (Tables α))} {e : Nat} {x : Option (Tables α)} (h : W[e]? = some x)
    (y : Option (Tables α)) :
    (((W.set e y).map owned1).sum : ℤ) = ((W.map owned1).sum : ℤ) - owned1 x + owned1 y := by
  induction W generalizing e with
  | nil => simp at h
  | cons a W ih =>
    cases e with
    | zero =>
      simp only [List.getElem?_cons_zero, Option.some.injEq] at h
      subst h
      simp only [List.set_cons_zero, List.map_cons, List.sum_cons]
      push_cast
      ring
    | succ e =>
      simp only [List.getElem?_cons_succ] at h
      have := ih h
      simp only [List.set_cons_succ, List.map_cons, List.sum_cons]
      push_cast
      linarith

theorem sum_add (W : List (Option (Tables α))) (y : Option (Tables α)) :
    (((W ++ [y]).map owned1).sum : ℤ) = ((W.map owned1).sum : ℤ) + owned1 y := by
  simp

/-- The invariant: the program's memory and engines are those of the description. -/
def Inv (s : EState α) (w : World α) : Prop :=
  ∃ n h V A, Rep s.mem n h V A ∧ EInv V n s.engs w.engines ∧ A = w.lost + (w.engines.map owned1).sum

theorem inv_init : Inv (EState.init : EState α) World.init := by
  refine ⟨0, 0, fun _ => none, 0, ⟨good_init, rfl, rfl, ?_, rfl⟩, ⟨rfl, ?_, ?_⟩, by simp [World.init]⟩
  · funext v
    simp [view, liveO, EState.init, State.init]
  · intro e he
    simp [EState.init] at he
  · intro e e' g g' h
    simp [EState.init] at h

theorem get_of {w : World α} {e : Nat} {t : Tables α} (h : w.engines[e]? = some (some t)) : w.get e = some t := by
  unfold World.get; rw [h]; rfl

theorem getEng_of {s : EState α} {e : Nat} {g : Eng} (h : s.engs[e]? = some (some g)) : getEng s e = .ok g := by
  unfold getEng; rw [h]

theorem vfits_mk {V : Nat → Option (AObj α)} {v : Nat} {p : Option Nat} {c : List (Option α)} {m : Bool} {M : Mem}
    {l : List α} (hv : V v = some ⟨p, c, m⟩) (hf : Fits M ⟨p, c, m⟩ l) : VFits V v M l := ⟨_, hv, hf⟩

theorem fits_own {l : List α} {b : Nat} {c : List (Option α)} (h : c = l.map some) : Fits .own ⟨some b, c, true⟩ l :=
  ⟨h, by simp, rfl⟩

theorem leaked2 (M : Mem) : (leaked 2 M : ℤ) = leaked 1 M + leaked 1 M := by cases M <;> rfl
theorem leaked3 (M : Mem) : (leaked 3 M : ℤ) = leaked 1 M + leaked 1 M + leaked 1 M := by cases M <;> rfl

theorem unlent_nw {s : EState α} {v : Nat} {a : AObj α} (hu : Unlent s v) (hv : view s.mem v = some a) :
    NW (view s.mem) v a := by
  obtain ⟨o, h1, h2, _, h4⟩ := view_live hv
  exact nw_of h2 h4 (hu o h1)

/-- No vector wraps memory of another. -/
def NoW (V : Nat → Option (AObj α)) : Prop := ∀ v b c, V v ≠ some ⟨some b, c, false⟩

theorem NoW.update {V : Nat → Option (AObj α)} (hV : NoW V) (k : Nat) (p : Option Nat) (c : List (Option α)) :
    NoW (Function.update V k (some ⟨p, c, true⟩)) := fun v b c' h => hV v b c' (wr_true v b c' h)

theorem five {P : Nat → Prop} {b : Nat} (h0 : P b) (h1 : P (b + 1)) (h2 : P (b + 2)) (h3 : P (b + 3)) (h4 : P (b + 4)) :
    ∀ v, b ≤ v → v < b + 5 → P v := by
  intro v hv hv'
  rcases (by omega : v = b ∨ v = b + 1 ∨ v = b + 2 ∨ v = b + 3 ∨ v = b + 4) with e | e | e | e | e <;> subst e <;>
    assumption

theorem five_true {V : Nat → Option (AObj α)} {n : Nat} {p1 p2 p3 p4 p5 : Option Nat} {c1 c2 c3 c4 c5 : List (Option α)}
    (h0 : V n = some ⟨p1, c1, true⟩) (h1 : V (n + 1) = some ⟨p2, c2, true⟩) (h2 : V (n + 2) = some ⟨p3, c3, true⟩)
    (h3 : V (n + 3) = some ⟨p4, c4, true⟩) (h4 : V (n + 4) = some ⟨p5, c5, true⟩) :
    ∀ v, n ≤ v → v < n + 5 → ∀ b c, V v ≠ some ⟨some b, c, false⟩ := by
  apply five <;> intro b c h <;> simp_all

/-- One operation of a disciplined program does what the description says. -/
theorem inv_step {s : EState α} {w : World α} (i : Inv s w) (op : EOp α) (hd : Disciplined s op) :
    ∃ s' w' t, estep s op = .ok (s', t) ∧ wstep w op = some (w', t) ∧ Inv s' w' ∧
      (Plain op → NoW (view s.mem) → NoW (view s'.mem)) := by
  obtain ⟨n, h, V, A, r, ei, hA⟩ := i
  cases op with
  | create =>
    obtain ⟨m', V', r', f1, f2, e1⟩ := rep_creates r (fun m =>
      (.ok ⟨m, s.engs ++ [some ⟨n, n + 1, n + 2, n + 3, n + 4, false, false⟩]⟩ : Res (EState α)))
    refine ⟨⟨m', s.engs ++ [some (eng n (Tables.empty : Tables α))]⟩, ⟨w.engines ++ [some .empty], w.lost⟩, false, ?_, rfl,
      ⟨n + 5, h, V', A, r', ei.add .empty ?_ (Nat.le_refl _) f1, ?_⟩, ?_⟩
    · have : create s = .ok ⟨m', s.engs ++ [some (eng n (Tables.empty : Tables α))]⟩ := by
        unfold create
        rw [r.olen]
        exact e1
      simp only [estep, this, except_bind_ok]
      rfl
    · have hf : Fits (α := α) .none ⟨none, [], true⟩ [] := ⟨rfl, rfl, rfl⟩
      exact ⟨vfits_mk (f2 _ (by omega) (by omega)) hf, vfits_mk (f2 _ (by omega) (by omega)) hf,
        vfits_mk (f2 _ (by omega) (by omega)) hf, vfits_mk (f2 _ (by omega) (by omega)) hf,
        vfits_mk (f2 _ (by omega) (by omega)) hf⟩
    · rw [sum_add, hA]
      simp [owned1, Tables.empty, leaked]
    · intro _ hw
      rw [r.vw] at hw
      rw [r'.vw]
      intro v b c hv
      have := r'.lt hv
      rcases Nat.lt_or_ge v n with l | l
      · rw [f1 v l] at hv; exact hw v b c hv
      · rw [f2 v l (by omega)] at hv; simp at hv
  | copy e =>
    obtain ⟨g, hg⟩ := hd
    obtain ⟨b, t, rfl, ht, ⟨⟨a1, h1, q1⟩, ⟨a2, h2, q2⟩, ⟨a3, h3, q3⟩, ⟨a4, h4, q4⟩, ⟨a5, h5, q5⟩⟩, hb⟩ := ei.get hg
    obtain ⟨m', V', r', f0, f1, f2, f3, f4, f5, e1⟩ := rep_copies r h1 h2 h3 h4 h5 (fun m =>
      (.ok ⟨m, s.engs ++ [some ⟨n, n + 1, n + 2, n + 3, n + 4, t.rateReady, t.cumReady⟩]⟩ : Res (EState α)))
    refine ⟨⟨m', s.engs ++ [some (eng n t.deep)]⟩, ⟨w.engines ++ [some t.deep], w.lost⟩, false, ?_,
      by simp only [wstep, get_of ht]; rfl,
      ⟨n + 5, h + 5, V', A + 5, r', ei.add t.deep ?_ (Nat.le_refl _) f0, ?_⟩, ?_⟩
    · have : copy s e = .ok ⟨m', s.engs ++ [some (eng n t.deep)]⟩ := by
        unfold copy
        rw [getEng_of hg, except_bind_ok, r.olen]
        exact e1
      simp only [estep, this, except_bind_ok]
      rfl
    · exact ⟨vfits_mk f1 (fits_own q1.1), vfits_mk f2 (fits_own q2.1), vfits_mk f3 (fits_own q3.1),
        vfits_mk f4 (fits_own q4.1), vfits_mk f5 (fits_own q5.1)⟩
    · rw [sum_add, hA]
      simp only [owned1, Tables.deep, leaked]
      push_cast
      ring
    · intro _ hw
      rw [r.vw] at hw
      rw [r'.vw]
      intro v b c hv
      have := r'.lt hv
      rcases Nat.lt_or_ge v n with l | l
      · rw [f0 v l] at hv; exact hw v b c hv
      · exact five_true f1 f2 f3 f4 f5 v l (by omega) b c hv
  | move e =>
    obtain ⟨g, hg⟩ := hd
    obtain ⟨b, t, rfl, ht, hm, hb⟩ := ei.get hg
    obtain ⟨⟨a1, h1, q1⟩, ⟨a2, h2, q2⟩, ⟨a3, h3, q3⟩, ⟨a4, h4, q4⟩, ⟨a5, h5, q5⟩⟩ := hm
    obtain ⟨m', V', r', f0, fe, f1, f2, f3, f4, f5, e1⟩ := rep_moves r h1 h2 h3 h4 h5 (fun m =>
      (.ok ⟨m, s.engs ++ [some ⟨n, n + 1, n + 2, n + 3, n + 4, t.rateReady, t.cumReady⟩]⟩ : Res (EState α)))
    have hf : Fits (α := α) .foreign ⟨none, [], false⟩ [] := ⟨rfl, rfl⟩
    have hme : Match V' b t.emptied :=
      ⟨vfits_mk (fe _ (by omega) (by omega)) hf, vfits_mk (fe _ (by omega) (by omega)) hf,
        vfits_mk (fe _ (by omega) (by omega)) hf, vfits_mk (fe _ (by omega) (by omega)) hf,
        vfits_mk (fe _ (by omega) (by omega)) hf⟩
    have es := ei.set hg t.emptied hme hb f0
    have ea := es.add (V' := V') t ⟨⟨a1, f1, q1⟩, ⟨a2, f2, q2⟩, ⟨a3, f3, q3⟩, ⟨a4, f4, q4⟩, ⟨a5, f5, q5⟩⟩
      (Nat.le_refl _) (fun _ _ => rfl)
    have hlt := (List.getElem?_eq_some_iff.mp hg).1
    have hself : s.engs.set e (some (eng b t.emptied)) = s.engs := by
      have : eng b t.emptied = eng b t := rfl
      rw [this]
      obtain ⟨hl, he⟩ := List.getElem?_eq_some_iff.mp hg
      rw [← he]
      exact List.set_getElem_self hl
    refine ⟨⟨m', s.engs ++ [some (eng n t)]⟩, ⟨w.engines.set e (some t.emptied) ++ [some t], w.lost⟩, false, ?_,
      by simp only [wstep, get_of ht]; rfl, ⟨n + 5, h, V', A, r', ?_, ?_⟩, ?_⟩
    · have : move s e = .ok ⟨m', s.engs ++ [some (eng n t)]⟩ := by
        unfold move
        rw [getEng_of hg, except_bind_ok, r.olen]
        exact e1
      simp only [estep, this, except_bind_ok]
      rfl
    · rw [hself] at ea
      exact ea
    · rw [sum_add, sum_set ht, hA]
      simp only [owned1, Tables.emptied, leaked]
      push_cast
      ring
    · intro _ hw
      rw [r.vw] at hw
      rw [r'.vw]
      intro v b' c hv
      have := r'.lt hv
      rcases Nat.lt_or_ge v n with l | l
      · by_cases hin : b ≤ v ∧ v < b + 5
        · rw [fe v hin.1 hin.2] at hv; simp at hv
        · rw [f0 v l (by omega)] at hv; exact hw v b' c hv
      · rw [← h1] at f1
        rw [← h2] at f2
        rw [← h3] at f3
        rw [← h4] at f4
        rw [← h5] at f5
        refine five (P := fun v => V' v ≠ some ⟨some b', c, false⟩) (b := n) ?_ ?_ ?_ ?_ ?_ v l (by omega) hv
        · rw [f1]; exact hw _ _ _
        · rw [f2]; exact hw _ _ _
        · rw [f3]; exact hw _ _ _
        · rw [f4]; exact hw _ _ _
        · rw [f5]; exact hw _ _ _
  | fromInnards e =>
    obtain ⟨g, hg, d1, d2⟩ := hd
    obtain ⟨b, t, rfl, ht, hm, hb⟩ := ei.get hg
    obtain ⟨⟨a1, h1, q1⟩, ⟨a2, h2, q2⟩, ⟨a3, h3, q3⟩, ⟨a4, h4, q4⟩, ⟨a5, h5, q5⟩⟩ := hm
    have live : ∀ {v : Nat} {a : AObj α}, V v = some a →
        ∃ o, Live s.mem v o ∧ getObj s.mem v = .ok o ∧ o.ptr = a.ptr ∧ o.size = a.cont.length := by
      intro v a hv
      rw [← r.vw] at hv
      obtain ⟨o, l1, l2, l3, _⟩ := view_live hv
      exact ⟨o, l1, getObj_live l1, l2, by rw [← l3, content_length (r.good.valid v o l1)]⟩
    obtain ⟨o1, l1, g1, p1, z1⟩ := live h1
    obtain ⟨o2, l2, g2, p2, z2⟩ := live h2
    obtain ⟨o3, l3, g3, p3, z3⟩ := live h3
    obtain ⟨o4, l4, g4, p4, z4⟩ := live h4
    obtain ⟨o5, l5, g5, p5, z5⟩ := live h5
    have k1 := d1 o1 o2 l1 l2
    have k2 := d2 o3 o4 o5 l3 l4 l5
    rw [z1, z2] at k1
    rw [z3, z4, z5] at k2
    obtain ⟨m', V', r', f0, f1, f2, f3, f4, f5, e1⟩ := rep_innards r h1 h2 h3 h4 h5 k1 k2 (fun m =>
      (.ok ⟨m, s.engs ++ [some ⟨n, n + 1, n + 2, n + 3, n + 4, true, true⟩]⟩ : Res (EState α)))
    refine ⟨⟨m', s.engs ++ [some (eng n t.seen)]⟩, ⟨w.engines ++ [some t.seen], w.lost⟩, false, ?_,
      by simp only [wstep, get_of ht]; rfl,
      ⟨n + 7, h, V', A, r', ei.add t.seen ?_ (by omega) f0, ?_⟩, fun hp => hp.elim⟩
    · have : fromInnards s e = .ok ⟨m', s.engs ++ [some (eng n t.seen)]⟩ := by
        unfold fromInnards
        rw [getEng_of hg, except_bind_ok, r.olen]
        simp only [eng]
        rw [g1, except_bind_ok, g2, except_bind_ok, g3, except_bind_ok, g4, except_bind_ok, g5, except_bind_ok,
          z1, z3, z4, p1, p2, p3, p4, p5]
        exact e1
      simp only [estep, this, except_bind_ok]
      rfl
    · have hl : ∀ {M : Mem} {a : AObj α} {l : List α}, Fits M a l → a.cont.length = l.length := by
        intro M a l hf; rw [hf.1]; simp
      refine ⟨vfits_mk f1 ⟨q1.1, rfl⟩, vfits_mk f2 ⟨?_, rfl⟩, vfits_mk f3 ⟨q3.1, rfl⟩, vfits_mk f4 ⟨q4.1, rfl⟩,
        vfits_mk f5 ⟨?_, rfl⟩⟩
      · simp only [Tables.seen]
        rw [q2.1, hl q1, List.map_take]
      · simp only [Tables.seen]
        rw [q5.1, hl q3, hl q4, List.map_take]
    · rw [sum_add, hA]
      simp [owned1, Tables.seen, leaked]
  | assign d e =>
    obtain ⟨⟨c, hc⟩, g, hg⟩ := hd
    obtain ⟨b, t, rfl, ht, hm, hb⟩ := ei.get hg
    obtain ⟨b', t', rfl, ht', hm', hb'⟩ := ei.get hc
    by_cases hde : d = e
    · refine ⟨s, w, false, ?_, ?_, ⟨n, h, V, A, r, ei, hA⟩, fun _ hw => hw⟩
      · have : assign s d e = .ok s := by
          unfold assign
          rw [getEng_of hc, except_bind_ok, getEng_of hg, except_bind_ok, if_pos hde]
          rfl
        simp only [estep, this, except_bind_ok]
        rfl
      · simp only [wstep, get_of ht, get_of ht', Option.bind_eq_bind, Option.bind_some, if_pos hde]
    · have hap := ei.apart d e _ _ hc hg hde
      simp only [eng] at hap
      obtain ⟨⟨a1, h1, q1⟩, ⟨a2, h2, q2⟩, ⟨a3, h3, q3⟩, ⟨a4, h4, q4⟩, ⟨a5, h5, q5⟩⟩ := hm
      obtain ⟨⟨b1, j1, i1⟩, ⟨b2, j2, i2⟩, ⟨b3, j3, i3⟩, ⟨b4, j4, i4⟩, ⟨b5, j5, i5⟩⟩ := hm'
      obtain ⟨m', V', r', f0, f1, f2, f3, f4, f5, e1⟩ := rep_assigns r hap h1 h2 h3 h4 h5 j1 j2 j3 j4 j5 (fun m =>
        (.ok ⟨m, s.engs.set d (some ⟨b', b' + 1, b' + 2, b' + 3, b' + 4, t.rateReady, t.cumReady⟩)⟩ : Res (EState α)))
      refine ⟨⟨m', s.engs.set d (some (eng b' t.deep))⟩,
        ⟨w.engines.set d (some t.deep), w.lost + leaked 2 t'.rateMem + leaked 3 t'.cumMem⟩, false, ?_, ?_,
        ⟨n, h + 5, V', A + 5, r', ei.set hc t.deep ?_ hb' f0, ?_⟩, ?_⟩
      · have : assign s d e = .ok ⟨m', s.engs.set d (some (eng b' t.deep))⟩ := by
          unfold assign
          rw [getEng_of hc, except_bind_ok, getEng_of hg, except_bind_ok, if_neg hde]
          exact e1
        simp only [estep, this, except_bind_ok]
        rfl
      · simp only [wstep, get_of ht, get_of ht', Option.bind_eq_bind, Option.bind_some, if_neg hde]
      · exact ⟨vfits_mk f1 (fits_own q1.1), vfits_mk f2 (fits_own q2.1), vfits_mk f3 (fits_own q3.1),
          vfits_mk f4 (fits_own q4.1), vfits_mk f5 (fits_own q5.1)⟩
      · rw [sum_set ht', hA]
        simp only [owned1, Tables.deep]
        push_cast
        simp only [leaked]
        push_cast
        ring
      · intro _ hw
        rw [r.vw] at hw
        rw [r'.vw]
        intro v b c hv
        have := r'.lt hv
        by_cases hin : b' ≤ v ∧ v < b' + 5
        · exact five_true f1 f2 f3 f4 f5 v hin.1 hin.2 b c hv
        · rw [f0 v (by omega) (by omega)] at hv; exact hw v b c hv
  | computeRate e xs ys =>
    obtain ⟨g, hg⟩ := hd
    obtain ⟨b, t, rfl, ht, ⟨⟨a1, h1, q1⟩, ⟨a2, h2, q2⟩, h3, h4, h5⟩, hb⟩ := ei.get hg
    obtain ⟨m', r', e1⟩ := rep_computeRate r h1 h2 (by omega) xs ys (fun m =>
      (.ok ⟨m, s.engs.set e (some { eng b t with rateInit := true })⟩ : Res (EState α)))
    refine ⟨⟨m', s.engs.set e (some (eng b { t with rateX := xs, rateY := ys, rateReady := true, rateMem := .own }))⟩,
      ⟨w.engines.set e (some { t with rateX := xs, rateY := ys, rateReady := true, rateMem := .own }),
        w.lost + leaked 2 t.rateMem⟩, false, ?_,
      by simp only [wstep, get_of ht]; rfl,
      ⟨n + 6, h + 8, _, A + 2, r', (ei.set hg _ ?_ hb ?_).mono (by omega), ?_⟩, ?_⟩
    · have : computeRate s e xs ys = .ok ⟨m', s.engs.set e (some (eng b { t with
          rateX := xs, rateY := ys, rateReady := true, rateMem := .own }))⟩ := by
        unfold computeRate
        rw [getEng_of hg, except_bind_ok, r.olen]
        exact e1
      simp only [estep, this, except_bind_ok]
      rfl
    · refine ⟨vfits_mk (by look) (fits_own rfl), vfits_mk (by look) (fits_own rfl), ?_, ?_, ?_⟩
      · obtain ⟨a, k1, k2⟩ := h3; exact ⟨a, by look, k2⟩
      · obtain ⟨a, k1, k2⟩ := h4; exact ⟨a, by look, k2⟩
      · obtain ⟨a, k1, k2⟩ := h5; exact ⟨a, by look, k2⟩
    · intro v hv hv'; look
    · rw [sum_set ht, hA]
      simp only [owned1]
      push_cast
      simp only [leaked]
      push_cast
      ring
    · intro _ hw
      rw [r.vw] at hw
      rw [r'.vw]
      exact (hw.update _ _ _).update _ _ _
  | computeCum e xs fs vs =>
    obtain ⟨g, hg⟩ := hd
    obtain ⟨b, t, rfl, ht, ⟨h1, h2, ⟨a3, h3, q3⟩, ⟨a4, h4, q4⟩, ⟨a5, h5, q5⟩⟩, hb⟩ := ei.get hg
    obtain ⟨m', r', e1⟩ := rep_computeCum r h3 h4 h5 (by omega) (by omega) (by omega) xs fs vs (fun m =>
      (.ok ⟨m, s.engs.set e (some { eng b t with cumInit := true })⟩ : Res (EState α)))
    refine ⟨⟨m', s.engs.set e (some (eng b { t with cumX := xs, cumF := fs, cumV := vs, cumReady := true, cumMem := .own }))⟩,
      ⟨w.engines.set e (some { t with cumX := xs, cumF := fs, cumV := vs, cumReady := true, cumMem := .own }),
        w.lost + leaked 3 t.cumMem⟩, false, ?_,
      by simp only [wstep, get_of ht]; rfl,
      ⟨n + 11, h + 14, _, A + 3, r', (ei.set hg _ ?_ hb ?_).mono (by omega), ?_⟩, ?_⟩
    · have : computeCum s e xs fs vs = .ok ⟨m', s.engs.set e (some (eng b { t with
          cumX := xs, cumF := fs, cumV := vs, cumReady := true, cumMem := .own }))⟩ := by
        unfold computeCum
        rw [getEng_of hg, except_bind_ok, r.olen]
        exact e1
      simp only [estep, this, except_bind_ok]
      rfl
    · refine ⟨?_, ?_, vfits_mk (by look) (fits_own rfl), vfits_mk (by look) (fits_own rfl),
        vfits_mk (by look) (fits_own rfl)⟩
      · obtain ⟨a, k1, k2⟩ := h1; exact ⟨a, by look, k2⟩
      · obtain ⟨a, k1, k2⟩ := h2; exact ⟨a, by look, k2⟩
    · intro v hv hv'; look
    · rw [sum_set ht, hA]
      simp only [owned1]
      push_cast
      simp only [leaked]
      push_cast
      ring
    · intro _ hw
      rw [r.vw] at hw
      rw [r'.vw]
      exact ((hw.update _ _ _).update _ _ _).update _ _ _
  | readRate e xs ys =>
    obtain ⟨g, hg, u1, u2⟩ := hd
    obtain ⟨b, t, rfl, ht, hm, hb⟩ := ei.get hg
    obtain ⟨⟨a1, h1, q1⟩, ⟨a2, h2, q2⟩, h3, h4, h5⟩ := hm
    by_cases hf : t.rateMem = .foreign
    · rw [hf] at q1
      refine ⟨s, w, true, ?_, by simp only [wstep, get_of ht, Option.map_some, if_pos hf], ⟨n, h, V, A, r, ei, hA⟩, fun _ hw => hw⟩
      simp only [estep, readRate, getEng_of hg, except_bind_ok, eng, rep_refused r h1 q1.2, if_true]
      rfl
    · have hman : ∀ {a : AObj α} {l : List α}, Fits t.rateMem a l → a.man = true := by
        intro a l q
        cases hM : t.rateMem with
        | none => rw [hM] at q; exact q.2.2
        | own => rw [hM] at q; exact q.2.2
        | foreign => exact absurd hM hf
      have n1 : NW V b a1 := by
        have := unlent_nw u1 (a := a1) (by rw [r.vw]; exact h1)
        rwa [r.vw] at this
      have n2 : NW V (b + 1) a2 := by
        have := unlent_nw u2 (a := a2) (by rw [r.vw]; exact h2)
        rwa [r.vw] at this
      obtain ⟨m1, e1, r1⟩ := rep_readVec r h1 n1 (hman q1) xs
      obtain ⟨m2, e2, r2⟩ := rep_readVec r1 (v := b + 1) (a := a2) (by look) (n2.mono wr_true) (hman q2) ys
      refine ⟨⟨m2, s.engs.set e (some (eng b { t with rateX := xs, rateY := ys, rateReady := true, rateMem := .own }))⟩,
        ⟨w.engines.set e (some { t with rateX := xs, rateY := ys, rateReady := true, rateMem := .own }), w.lost⟩, false, ?_,
        by simp only [wstep, get_of ht, Option.map_some, if_neg hf],
        ⟨n, h + 1 + 1, _, _, r2, ei.set hg _ ?_ hb ?_, ?_⟩, ?_⟩
      · simp only [estep, readRate, getEng_of hg, except_bind_ok]
        simp only [eng, e1, e2, except_bind_ok, Bool.false_eq_true, if_false]
        rfl
      · refine ⟨vfits_mk (by look) (fits_own rfl), vfits_mk (by look) (fits_own rfl), ?_, ?_, ?_⟩
        · obtain ⟨a, k1, k2⟩ := h3; exact ⟨a, by look, k2⟩
        · obtain ⟨a, k1, k2⟩ := h4; exact ⟨a, by look, k2⟩
        · obtain ⟨a, k1, k2⟩ := h5; exact ⟨a, by look, k2⟩
      · intro v hv hv'; look
      · rw [sum_set ht, hA, own1_fits q1, own1_fits q2]
        simp only [owned1]
        push_cast
        rw [leaked2 t.rateMem]
        simp only [leaked]
        push_cast
        ring
      · intro _ hw
        rw [r.vw] at hw
        rw [r2.vw]
        exact (hw.update _ _ _).update _ _ _
  | readCum e xs fs vs =>
    obtain ⟨g, hg, u1, u2, u3⟩ := hd
    obtain ⟨b, t, rfl, ht, hm, hb⟩ := ei.get hg
    obtain ⟨h1, h2, ⟨a3, h3, q3⟩, ⟨a4, h4, q4⟩, ⟨a5, h5, q5⟩⟩ := hm
    by_cases hf : t.cumMem = .foreign
    · rw [hf] at q3
      refine ⟨s, w, true, ?_, by simp only [wstep, get_of ht, Option.map_some, if_pos hf], ⟨n, h, V, A, r, ei, hA⟩, fun _ hw => hw⟩
      simp only [estep, readCum, getEng_of hg, except_bind_ok, eng, rep_refused r h3 q3.2, if_true]
      rfl
    · have hman : ∀ {a : AObj α} {l : List α}, Fits t.cumMem a l → a.man = true := by
        intro a l q
        cases hM : t.cumMem with
        | none => rw [hM] at q; exact q.2.2
        | own => rw [hM] at q; exact q.2.2
        | foreign => exact absurd hM hf
      have n3 : NW V (b + 2) a3 := by
        have := unlent_nw u1 (a := a3) (by rw [r.vw]; exact h3)
        rwa [r.vw] at this
      have n4 : NW V (b + 3) a4 := by
        have := unlent_nw u2 (a := a4) (by rw [r.vw]; exact h4)
        rwa [r.vw] at this
      have n5 : NW V (b + 4) a5 := by
        have := unlent_nw u3 (a := a5) (by rw [r.vw]; exact h5)
        rwa [r.vw] at this
      obtain ⟨m1, e1, r1⟩ := rep_readVec r h3 n3 (hman q3) xs
      obtain ⟨m2, e2, r2⟩ := rep_readVec r1 (v := b + 3) (a := a4) (by look) (n4.mono wr_true) (hman q4) fs
      obtain ⟨m3, e3, r3⟩ := rep_readVec r2 (v := b + 4) (a := a5) (by look) ((n5.mono wr_true).mono wr_true) (hman q5) vs
      refine ⟨⟨m3, s.engs.set e (some (eng b { t with cumX := xs, cumF := fs, cumV := vs, cumReady := true, cumMem := .own }))⟩,
        ⟨w.engines.set e (some { t with cumX := xs, cumF := fs, cumV := vs, cumReady := true, cumMem := .own }), w.lost⟩,
        false, ?_, by simp only [wstep, get_of ht, Option.map_some, if_neg hf],
        ⟨n, h + 1 + 1 + 1, _, _, r3, ei.set hg _ ?_ hb ?_, ?_⟩, ?_⟩
      · simp only [estep, readCum, getEng_of hg, except_bind_ok]
        simp only [eng, e1, e2, e3, except_bind_ok, Bool.false_eq_true, if_false]
        rfl
      · refine ⟨?_, ?_, vfits_mk (by look) (fits_own rfl), vfits_mk (by look) (fits_own rfl),
          vfits_mk (by look) (fits_own rfl)⟩
        · obtain ⟨a, k1, k2⟩ := h1; exact ⟨a, by look, k2⟩
        · obtain ⟨a, k1, k2⟩ := h2; exact ⟨a, by look, k2⟩
      · intro v hv hv'; look
      · rw [sum_set ht, hA, own1_fits q3, own1_fits q4, own1_fits q5]
        simp only [owned1]
        push_cast
        rw [leaked3 t.cumMem]
        simp only [leaked]
        push_cast
        ring
      · intro _ hw
        rw [r.vw] at hw
        rw [r3.vw]
        exact ((hw.update _ _ _).update _ _ _).update _ _ _
  | destroy e =>
    obtain ⟨g, hg, u1, u2, u3, u4, u5⟩ := hd
    obtain ⟨b, t, rfl, ht, hm, hb⟩ := ei.get hg
    obtain ⟨⟨a1, h1, q1⟩, ⟨a2, h2, q2⟩, ⟨a3, h3, q3⟩, ⟨a4, h4, q4⟩, ⟨a5, h5, q5⟩⟩ := hm
    have nw : ∀ {v : Nat} {a : AObj α}, Unlent s v → V v = some a → NW V v a := by
      intro v a hu hv
      have := unlent_nw hu (a := a) (by rw [r.vw]; exact hv)
      rwa [r.vw] at this
    obtain ⟨m', V', r', f0, f1, e1⟩ := rep_dtors r h1 h2 h3 h4 h5 (nw u1 h1) (nw u2 h2) (nw u3 h3) (nw u4 h4) (nw u5 h5)
      (fun m => (.ok ⟨m, s.engs.set e none⟩ : Res (EState α)))
    refine ⟨⟨m', s.engs.set e none⟩, ⟨w.engines.set e none, w.lost⟩, false, ?_,
      by simp only [wstep, get_of ht]; rfl, ⟨n, h, V', _, r', ei.del hg f0, ?_⟩, ?_⟩
    · have : destroy s e = .ok ⟨m', s.engs.set e none⟩ := by
        unfold destroy
        rw [getEng_of hg, except_bind_ok]
        exact e1
      simp only [estep, this, except_bind_ok]
      rfl
    · rw [sum_set ht, hA, own1_fits q1, own1_fits q2, own1_fits q3, own1_fits q4, own1_fits q5]
      simp only [owned1]
      push_cast
      rw [leaked2 t.rateMem, leaked3 t.cumMem]
      ring
    · intro _ hw
      rw [r.vw] at hw
      rw [r'.vw]
      intro v b' c hv
      by_cases hin : b ≤ v ∧ v < b + 5
      · rw [f1 v hin.1 hin.2] at hv; cases hv
      · rw [f0 v (by omega)] at hv; exact hw v b' c hv

theorem inv_run : ∀ (ops : List (EOp α)) (s : EState α) (w : World α), Inv s w → DisciplinedRun s ops →
    ∃ s' w' ts, erun s ops = .ok (s', ts) ∧ wrun w ops = some (w', ts) ∧ Inv s' w' := by
  intro ops
  induction ops with
  | nil => intro s w i _; exact ⟨s, w, [], rfl, rfl, i⟩
  | cons op ops ih =>
    intro s w i hd
    obtain ⟨d1, d2⟩ := hd
    obtain ⟨s1, w1, t, e1, e2, i1, _⟩ := inv_step i op d1
    rw [e1] at d2
    obtain ⟨s2, w2, ts, e3, e4, i2⟩ := ih s1 w1 i1 d2
    refine ⟨s2, w2, t :: ts, ?_, ?_, i2⟩
    · simp only [erun, e1, except_bind_ok, e3]
      rfl
    · simp only [wrun, e2, Option.bind_eq_bind, Option.bind_some, e4]

theorem unlent_noW {s : EState α} (h : NoW (view s.mem)) (v : Nat) : Unlent s v := by
  intro o _ _ b w o' _ hl hm hp
  exact absurd (by rw [live_view hl, hp, hm]) (h w b (content s.mem o'))

theorem get_alive {s : EState α} {w : World α} (i : Inv s w) {e : Nat} {t : Tables α} (h : w.get e = some t) :
    ∃ g, Alive s e g := by
  obtain ⟨n, k, V, A, r, ei, _⟩ := i
  unfold World.get at h
  cases hx : w.engines[e]? with
  | none => rw [hx] at h; cases h
  | some x =>
    have hlt := (List.getElem?_eq_some_iff.mp hx).1
    rw [← ei.len] at hlt
    rcases ei.each e hlt with ⟨_, h2⟩ | ⟨b, t', h1, _⟩
    · rw [h2] at h; cases h
    · exact ⟨_, h1⟩

/-- A program that does not rebuild engines from innards only has to name engines that are alive. -/
theorem plain_disciplined {s : EState α} {w : World α} (i : Inv s w) (hw : NoW (view s.mem)) (op : EOp α) (hp : Plain op)
    (hs : (wstep w op).isSome) : Disciplined s op := by
  have key : ∀ {e : Nat} {β : Type} {f : Tables α → β}, ((w.get e).map f).isSome → ∃ g, Alive s e g := by
    intro e β f h
    cases hx : w.get e with
    | none => rw [hx] at h; cases h
    | some t => exact get_alive i hx
  cases op with
  | create => trivial
  | copy e => exact key hs
  | move e => exact key hs
  | fromInnards e => exact hp.elim
  | assign d e =>
    simp only [wstep] at hs
    cases hx : w.get d with
    | none => rw [hx] at hs; cases hs
    | some a =>
      cases hy : w.get e with
      | none => rw [hx, hy] at hs; cases hs
      | some b => exact ⟨get_alive i hx, get_alive i hy⟩
  | computeRate e xs ys => exact key hs
  | computeCum e xs fs vs => exact key hs
  | readRate e xs ys =>
    obtain ⟨g, hg⟩ := key hs
    exact ⟨g, hg, unlent_noW hw _, unlent_noW hw _⟩
  | readCum e xs fs vs =>
    obtain ⟨g, hg⟩ := key hs
    exact ⟨g, hg, unlent_noW hw _, unlent_noW hw _, unlent_noW hw _⟩
  | destroy e =>
    obtain ⟨g, hg⟩ := key hs
    exact ⟨g, hg, unlent_noW hw _, unlent_noW hw _, unlent_noW hw _, unlent_noW hw _, unlent_noW hw _⟩

theorem plain_run : ∀ (ops : List (EOp α)) (s : EState α) (w : World α), Inv s w → NoW (view s.mem) →
    (∀ op ∈ ops, Plain op) → (wrun w ops).isSome → DisciplinedRun s ops := by
  intro ops
  induction ops with
  | nil => intro s w _ _ _ _; trivial
  | cons op ops ih =>
    intro s w i hw hp hs
    have hs1 : (wstep w op).isSome := by
      cases hx : wstep w op with
      | none => simp [wrun, hx] at hs
      | some y => rfl
    have hd := plain_disciplined i hw op (hp op (by simp)) hs1
    obtain ⟨s1, w1, t, e1, e2, i1, n1⟩ := inv_step i op hd
    refine ⟨hd, ?_⟩
    rw [e1]
    refine ih s1 w1 i1 (n1 (hp op (by simp)) hw) (fun o ho => hp o (by simp [ho])) ?_
    cases hx : wrun w1 ops with
    | none => simp [wrun, e2, hx] at hs
    | some y => rfl

theorem noW_init : NoW (view (EState.init : EState α).mem) := by
  intro v b c h
  simp [view, liveO, EState.init, State.init] at h

theorem inv_agrees {s : EState α} {w : World α} (i : Inv s w) : Agrees s w := by
  obtain ⟨n, h, V, A, r, ei, _⟩ := i
  refine ⟨ei.len, ?_⟩
  intro e
  by_cases he : e < s.engs.length
  · rcases ei.each e he with ⟨h1, h2⟩ | ⟨b, t, h1, h2, h3, _⟩
    · left
      refine ⟨by unfold World.get; rw [h2]; rfl, ?_⟩
      intro g hg
      unfold Alive at hg
      rw [h1] at hg
      cases hg
    · right
      refine ⟨eng b t, t, h1, get_of h2, ?_⟩
      have key : ∀ {v : Nat} {M : Mem} {l : List α}, VFits V v M l → Holds s.mem v (l.map some) := by
        intro v M l ⟨a, hv, hf⟩
        rw [← r.vw] at hv
        obtain ⟨o, l1, _, l3, _⟩ := view_live hv
        have := content_holds l1 (r.good.valid v o l1)
        rwa [l3, hf.1] at this
      exact ⟨key h3.x, key h3.y, key h3.cx, key h3.cf, key h3.cv, rfl, rfl⟩
  · left
    refine ⟨?_, ?_⟩
    · unfold World.get
      rw [List.getElem?_eq_none (by rw [← ei.len]; omega)]
      rfl
    · intro g hg
      exact he (List.getElem?_eq_some_iff.mp hg).1

theorem inv_count {s : EState α} {w : World α} (i : Inv s w) : arraysAlive s = w.lost + arraysOwned w := by
  obtain ⟨n, h, V, A, r, ei, hA⟩ := i
  have := r.cnt
  rw [hA] at this
  unfold alv at this
  unfold arraysAlive
  rw [arraysOwned_eq]
  exact_mod_cast this

/-! What an operation does not name stays as it is. -/

theorem get_append {w : World α} {e : Nat} {t : Tables α} (h : w.get e = some t) (W : List (Option (Tables α))) (l : Nat) :
    (⟨w.engines ++ W, l⟩ : World α).get e = some t := by
  unfold World.get at *
  cases hx : w.engines[e]? with
  | none => rw [hx] at h; cases h
  | some x =>
    simp only
    rw [List.getElem?_append_left (List.getElem?_eq_some_iff.mp hx).1]
    exact h

theorem get_set_ne {w : World α} {e d : Nat} {t : Tables α} (h : w.get e = some t) (hne : d ≠ e) (x : Option (Tables α))
    (l : Nat) : (⟨w.engines.set d x, l⟩ : World α).get e = some t := by
  unfold World.get at *
  simp only
  rw [List.getElem?_set_ne hne]
  exact h

theorem wstep_frame {w w' : World α} {op : EOp α} {th : Bool} (hs : wstep w op = some (w', th)) {e : Nat} {t : Tables α}
    (h : w.get e = some t) (hn : ¬ Touches op e) : w'.get e = some t := by
  cases op with
  | create => simp only [wstep, Option.some.injEq, Prod.mk.injEq] at hs; rw [← hs.1]; exact get_append h _ _
  | copy d =>
    simp only [wstep, Option.map_eq_some_iff] at hs
    obtain ⟨u, _, hu⟩ := hs
    cases hu
    exact get_append h _ _
  | move d =>
    simp only [wstep, Option.map_eq_some_iff] at hs
    obtain ⟨u, _, hu⟩ := hs
    cases hu
    exact get_append (w := ⟨w.engines.set d (some u.emptied), w.lost⟩) (get_set_ne h (fun q => hn q) _ _) _ _
  | fromInnards d =>
    simp only [wstep, Option.map_eq_some_iff] at hs
    obtain ⟨u, _, hu⟩ := hs
    cases hu
    exact get_append h _ _
  | assign d c =>
    simp only [wstep] at hs
    cases hx : w.get d with
    | none => rw [hx] at hs; cases hs
    | some a =>
      cases hy : w.get c with
      | none => rw [hx, hy] at hs; cases hs
      | some b =>
        rw [hx, hy] at hs
        simp only [Option.bind_eq_bind, Option.bind_some] at hs
        split at hs
        · cases hs; exact h
        · cases hs; exact get_set_ne h (fun q => hn q) _ _
  | computeRate d xs ys =>
    simp only [wstep, Option.map_eq_some_iff] at hs
    obtain ⟨u, _, hu⟩ := hs
    cases hu
    exact get_set_ne h (fun q => hn q) _ _
  | computeCum d xs fs vs =>
    simp only [wstep, Option.map_eq_some_iff] at hs
    obtain ⟨u, _, hu⟩ := hs
    cases hu
    exact get_set_ne h (fun q => hn q) _ _
  | readRate d xs ys =>
    simp only [wstep, Option.map_eq_some_iff] at hs
    obtain ⟨u, _, hu⟩ := hs
    split at hu
    · cases hu; exact h
    · cases hu; exact get_set_ne h (fun q => hn q) _ _
  | readCum d xs fs vs =>
    simp only [wstep, Option.map_eq_some_iff] at hs
    obtain ⟨u, _, hu⟩ := hs
    split at hu
    · cases hu; exact h
    · cases hu; exact get_set_ne h (fun q => hn q) _ _
  | destroy d =>
    simp only [wstep, Option.map_eq_some_iff] at hs
    obtain ⟨u, _, hu⟩ := hs
    cases hu
    exact get_set_ne h (fun q => hn q) _ _

theorem shows_same {s s' : EState α} {g g' : Eng} {t u : Tables α} (h : Shows s g t) (hu : Shows s g u) (h' : Shows s' g' u) :
    Shows s' g' t := by
  obtain ⟨h1, h2, h3, h4, h5, h6, h7⟩ := h
  obtain ⟨u1, u2, u3, u4, u5, u6, u7⟩ := hu
  obtain ⟨v1, v2, v3, v4, v5, v6, v7⟩ := h'
  refine ⟨?_, ?_, ?_, ?_, ?_, v6.trans (u6.symm.trans h6), v7.trans (u7.symm.trans h7)⟩
  · rw [Good.holds_unique h1 u1]; exact v1
  · rw [Good.holds_unique h2 u2]; exact v2
  · rw [Good.holds_unique h3 u3]; exact v3
  · rw [Good.holds_unique h4 u4]; exact v4
  · rw [Good.holds_unique h5 u5]; exact v5

/-! Histories in two parts. -/

theorem erun_append (s : EState α) (ops ops' : List (EOp α)) :
    erun s (ops ++ ops') = (do
      let (s1, ts) ← erun s ops
      let (s2, ts') ← erun s1 ops'
      pure (s2, ts ++ ts')) := by
  induction ops generalizing s with
  | nil =>
    simp only [List.nil_append, erun, except_bind_ok]
    cases erun s ops' <;> rfl
  | cons op ops ih =>
    simp only [List.cons_append, erun]
    cases h : estep s op with
    | error f => rfl
    | ok y =>
      simp only [except_bind_ok, ih]
      cases h2 : erun y.1 ops with
      | error f => rfl
      | ok z =>
        have hp : (pure (z.1, y.2 :: z.2) : Res (EState α × List Bool)) = .ok (z.1, y.2 :: z.2) := rfl
        simp only [except_bind_ok, hp]
        cases h3 : erun z.1 ops' <;> rfl

theorem disciplined_append : ∀ (ops ops' : List (EOp α)) (s s1 : EState α) (ts : List Bool),
    erun s ops = .ok (s1, ts) → DisciplinedRun s ops → DisciplinedRun s1 ops' → DisciplinedRun s (ops ++ ops') := by
  intro ops ops'
  induction ops with
  | nil => intro s s1 ts h _ h'; cases h; exact h'
  | cons op ops ih =>
    intro s s1 ts h hd h'
    obtain ⟨d1, d2⟩ := hd
    refine ⟨d1, ?_⟩
    simp only [erun] at h
    cases e : estep s op with
    | error f => trivial
    | ok y =>
      rw [e] at h d2
      simp only [except_bind_ok] at h
      cases e2 : erun y.1 ops with
      | error f => rw [e2] at h; cases h
      | ok z =>
        rw [e2] at h
        cases h
        exact ih y.1 z.1 z.2 e2 d2 h'

/-- Every state of a disciplined history is described. -/
theorem inv_of_run {ops : List (EOp α)} (hd : DisciplinedRun EState.init ops) {s : EState α} {ts : List Bool}
    (h : erun EState.init ops = .ok (s, ts)) : ∃ w, wrun World.init ops = some (w, ts) ∧ Inv s w := by
  obtain ⟨s', w, ts', h1, h2, h3⟩ := inv_run ops _ _ inv_init hd
  rw [h] at h1
  cases h1
  exact ⟨w, h2, h3⟩

/-! Moved-from engines. -/

theorem front_null {s : State α} {v : Nat} {o : Obj} (h : Live s v o) (hp : o.ptr = none) : front s v = .error .nullDeref := by
  unfold front PV.read
  have hg : getObj s v = .ok o := by unfold getObj; unfold Live at h; rw [h]
  rw [hg, except_bind_ok, hp]
  rfl

theorem move_null {s : EState α} {w : World α} (hi : Inv s w) {e : Nat} {g : Eng} (ha : Alive s e g) :
    ∃ s', estep s (.move e) = .ok (s', false) ∧ Alive s' e g ∧ front s'.mem g.rc = .error .nullDeref ∧
      front s'.mem g.c0 = .error .nullDeref := by
  obtain ⟨n, h, V, A, r, hE, hA⟩ := hi
  obtain ⟨b, t, rfl, hW, hm, hb⟩ := hE.get ha
  obtain ⟨⟨a1, f1, _⟩, ⟨a2, f2, _⟩, ⟨a3, f3, _⟩, ⟨a4, f4, _⟩, ⟨a5, f5, _⟩⟩ := hm
  obtain ⟨m', V', r', _, k2, _, _, _, _, _, k8⟩ := rep_moves r f1 f2 f3 f4 f5
    (fun m => (.ok ⟨m, s.engs ++ [some ⟨s.mem.objs.length, s.mem.objs.length + 1, s.mem.objs.length + 2, s.mem.objs.length + 3,
      s.mem.objs.length + 4, t.rateReady, t.cumReady⟩]⟩ : Res (EState α)))
  refine ⟨⟨m', s.engs ++ [some ⟨s.mem.objs.length, s.mem.objs.length + 1, s.mem.objs.length + 2, s.mem.objs.length + 3,
      s.mem.objs.length + 4, t.rateReady, t.cumReady⟩]⟩, ?_, ?_, ?_, ?_⟩
  · have e1 : move s e = .ok ⟨m', s.engs ++ [some ⟨s.mem.objs.length, s.mem.objs.length + 1, s.mem.objs.length + 2,
        s.mem.objs.length + 3, s.mem.objs.length + 4, t.rateReady, t.cumReady⟩]⟩ := by
      unfold move
      rw [getEng_of ha, except_bind_ok]
      exact k8
    simp only [estep]
    rw [e1, except_bind_ok]
    rfl
  · unfold Alive at *
    simp only
    rw [List.getElem?_append_left (List.getElem?_eq_some_iff.mp ha).1]
    exact ha
  · have q := k2 b (by omega) (by omega)
    rw [← r'.vw] at q
    obtain ⟨o, h1, h2, _⟩ := view_live q
    exact front_null h1 h2
  · have q := k2 (b + 2) (by omega) (by omega)
    rw [← r'.vw] at q
    obtain ⟨o, h1, h2, _⟩ := view_live q
    exact front_null h1 h2

theorem foreign_unlent {s : EState α} {w : World α} (hi : Inv s w) {e : Nat} {g : Eng} (ha : Alive s e g) {t : Tables α}
    (hg : w.get e = some t) :
    (t.rateMem = .foreign → Unlent s g.rc ∧ Unlent s g.rd) ∧
    (t.cumMem = .foreign → Unlent s g.c0 ∧ Unlent s g.c1 ∧ Unlent s g.cd) := by
  obtain ⟨n, h, V, A, r, hE, hA⟩ := hi
  obtain ⟨b, t', rfl, hW, hm, hb⟩ := hE.get ha
  rw [get_of hW] at hg
  cases hg
  have key : ∀ {v : Nat} {l : List α} {M : Mem}, VFits V v M l → M = .foreign → Unlent s v := by
    intro v l M hv hM o ho hman
    subst hM
    obtain ⟨a, hva, hf⟩ := hv
    rw [← r.vw] at hva
    rw [live_view ho] at hva
    cases hva
    rw [hman] at hf
    cases hf.2
  exact ⟨fun q => ⟨key hm.x q, key hm.y q⟩, fun q => ⟨key hm.cx q, key hm.cf q, key hm.cv q⟩⟩

/-! No replacement, no loss. -/

theorem lost_zero : ∀ (ops : List (EOp α)) (w w' : World α) (ts : List Bool), w.lost = 0 → NoReplaceRun w ops →
    wrun w ops = some (w', ts) → w'.lost = 0 := by
  intro ops
  induction ops with
  | nil => intro w w' ts h _ hr; cases hr; exact h
  | cons op ops ih =>
    intro w w' ts h hn hr
    obtain ⟨n1, n2⟩ := hn
    simp only [wrun] at hr
    cases hx : wstep w op with
    | none => rw [hx] at hr; cases hr
    | some y =>
      obtain ⟨w1, t⟩ := y
      rw [hx] at hr n2
      simp only [Option.bind_eq_bind, Option.bind_some] at hr
      cases hy : wrun w1 ops with
      | none => rw [hy] at hr; cases hr
      | some z =>
        rw [hy] at hr
        cases hr
        refine ih w1 z.1 z.2 ?_ n2 hy
        have lk : ∀ {k : Nat} {M : Mem}, M ≠ .own → leaked k M = 0 := by
          intro k M hM; cases M <;> first | rfl | exact absurd rfl hM
        cases op with
        | create => cases hx; exact h
        | copy d =>
          simp only [wstep, Option.map_eq_some_iff] at hx
          obtain ⟨u, _, hu⟩ := hx; cases hu; exact h
        | move d =>
          simp only [wstep, Option.map_eq_some_iff] at hx
          obtain ⟨u, _, hu⟩ := hx; cases hu; exact h
        | fromInnards d =>
          simp only [wstep, Option.map_eq_some_iff] at hx
          obtain ⟨u, _, hu⟩ := hx; cases hu; exact h
        | assign d c =>
          simp only [wstep] at hx
          cases ha : w.get d with
          | none => rw [ha] at hx; cases hx
          | some a =>
            cases hb : w.get c with
            | none => rw [ha, hb] at hx; cases hx
            | some b =>
              rw [ha, hb] at hx
              simp only [Option.bind_eq_bind, Option.bind_some] at hx
              split at hx
              · cases hx; exact h
              · rename_i hne
                cases hx
                obtain ⟨q1, q2⟩ := n1 hne a ha
                simp [h, lk q1, lk q2]
        | computeRate d xs ys =>
          simp only [wstep, Option.map_eq_some_iff] at hx
          obtain ⟨u, hg, hu⟩ := hx; cases hu
          simp [h, lk (n1 u hg)]
        | computeCum d xs fs vs =>
          simp only [wstep, Option.map_eq_some_iff] at hx
          obtain ⟨u, hg, hu⟩ := hx; cases hu
          simp [h, lk (n1 u hg)]
        | readRate d xs ys =>
          simp only [wstep, Option.map_eq_some_iff] at hx
          obtain ⟨u, _, hu⟩ := hx
          split at hu <;> cases hu <;> exact h
        | readCum d xs fs vs =>
          simp only [wstep, Option.map_eq_some_iff] at hx
          obtain ⟨u, _, hu⟩ := hx
          split at hu <;> cases hu <;> exact h
        | destroy d =>
          simp only [wstep, Option.map_eq_some_iff] at hx
          obtain ⟨u, _, hu⟩ := hx; cases hu; exact h

/-! An executable check of the discipline, for the concrete examples. -/

def unlentB (s : EState α) (v : Nat) : Bool :=
  match liveO s.mem v with
  | none => true
  | some o => !o.manage || noWrapperB s.mem v o

theorem unlentB_sound {s : EState α} {v : Nat} (h : unlentB s v = true) : Unlent s v := by
  intro o ho hm
  unfold unlentB at h
  rw [liveO_iff.mpr ho] at h
  simp only [hm, Bool.not_true, Bool.false_or] at h
  exact noWrapperB_sound h

def sizeB (s : EState α) (v : Nat) : Nat := ((liveO s.mem v).map Obj.size).getD 0

theorem sizeB_live {s : EState α} {v : Nat} {o : Obj} (h : Live s.mem v o) : sizeB s v = o.size := by
  unfold sizeB; rw [liveO_iff.mpr h]; rfl

def engB (s : EState α) (e : Nat) : Option Eng := (s.engs[e]?).join

theorem engB_alive {s : EState α} {e : Nat} {g : Eng} (h : engB s e = some g) : Alive s e g := by
  unfold engB at h
  unfold Alive
  cases hx : s.engs[e]? with
  | none => rw [hx] at h; cases h
  | some y =>
    rw [hx] at h
    simp only [Option.join_some] at h
    rw [h]

def disciplinedB (s : EState α) : EOp α → Bool
  | .create => true
  | .copy e | .move e | .computeRate e _ _ | .computeCum e _ _ _ => (engB s e).isSome
  | .assign d e => (engB s d).isSome && (engB s e).isSome
  | .fromInnards e =>
    match engB s e with
    | none => false
    | some g => decide (sizeB s g.rc ≤ sizeB s g.rd) && decide (sizeB s g.c0 * sizeB s g.c1 ≤ sizeB s g.cd)
  | .readRate e _ _ =>
    match engB s e with
    | none => false
    | some g => unlentB s g.rc && unlentB s g.rd
  | .readCum e _ _ _ =>
    match engB s e with
    | none => false
    | some g => unlentB s g.c0 && unlentB s g.c1 && unlentB s g.cd
  | .destroy e =>
    match engB s e with
    | none => false
    | some g => unlentB s g.rc && unlentB s g.rd && unlentB s g.c0 && unlentB s g.c1 && unlentB s g.cd

theorem disciplinedB_sound {s : EState α} {op : EOp α} (h : disciplinedB s op = true) : Disciplined s op := by
  have key : ∀ {e : Nat}, (engB s e).isSome = true → ∃ g, Alive s e g := by
    intro e h
    obtain ⟨g, hg⟩ := Option.isSome_iff_exists.mp h
    exact ⟨g, engB_alive hg⟩
  cases op with
  | create => trivial
  | copy e => exact key h
  | move e => exact key h
  | computeRate e xs ys => exact key h
  | computeCum e xs fs vs => exact key h
  | assign d e =>
    simp only [disciplinedB, Bool.and_eq_true] at h
    exact ⟨key h.1, key h.2⟩
  | fromInnards e =>
    simp only [disciplinedB] at h
    cases hg : engB s e with
    | none => rw [hg] at h; cases h
    | some g =>
      rw [hg] at h
      simp only [Bool.and_eq_true, decide_eq_true_eq] at h
      refine ⟨g, engB_alive hg, ?_, ?_⟩
      · intro x y hx hy
        rw [← sizeB_live hx, ← sizeB_live hy]
        exact h.1
      · intro x y z hx hy hz
        rw [← sizeB_live hx, ← sizeB_live hy, ← sizeB_live hz]
        exact h.2
  | readRate e xs ys =>
    simp only [disciplinedB] at h
    cases hg : engB s e with
    | none => rw [hg] at h; cases h
    | some g =>
      rw [hg] at h
      simp only [Bool.and_eq_true] at h
      exact ⟨g, engB_alive hg, unlentB_sound h.1, unlentB_sound h.2⟩
  | readCum e xs fs vs =>
    simp only [disciplinedB] at h
    cases hg : engB s e with
    | none => rw [hg] at h; cases h
    | some g =>
      rw [hg] at h
      simp only [Bool.and_eq_true] at h
      exact ⟨g, engB_alive hg, unlentB_sound h.1.1, unlentB_sound h.1.2, unlentB_sound h.2⟩
  | destroy e =>
    simp only [disciplinedB] at h
    cases hg : engB s e with
    | none => rw [hg] at h; cases h
    | some g =>
      rw [hg] at h
      simp only [Bool.and_eq_true] at h
      exact ⟨g, engB_alive hg, unlentB_sound h.1.1.1.1, unlentB_sound h.1.1.1.2, unlentB_sound h.1.1.2, unlentB_sound h.1.2,
        unlentB_sound h.2⟩

def disciplinedRunB (s : EState α) : List (EOp α) → Bool
  | [] => true
  | op :: ops => disciplinedB s op &&
    match estep s op with
    | .ok (s', _) => disciplinedRunB s' ops
    | .error _ => true

theorem disciplinedRunB_sound : ∀ (ops : List (EOp α)) (s : EState α), disciplinedRunB s ops = true → DisciplinedRun s ops := by
  intro ops
  induction ops with
  | nil => intro s _; trivial
  | cons op ops ih =>
    intro s h
    simp only [disciplinedRunB, Bool.and_eq_true] at h
    refine ⟨disciplinedB_sound h.1, ?_⟩
    cases e : estep s op with
    | error f => trivial
    | ok y =>
      have h2 := h.2
      rw [e] at h2
      exact ih y.1 h2

end Picsar.EH
