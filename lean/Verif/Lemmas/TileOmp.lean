import Verif.Model.TileOmp
import Verif.Spec.TileOmp
import Verif.Lemmas.Tiling
/-
Interleavings of threads that access disjoint sets of tiles.
-/
namespace Picsar.Tiling
open Picsar Picsar.Grid
open Classical

variable {n : ℕ} {nt : I3} {inTile : I3 → Part n → Prop} {inDom : Part n → Prop} {idx : Part n → I3}

/-- Thread of tile `u` running alone for `k` steps until it is finished, accessing only tiles of `F`. -/
inductive Tr (nt : I3) (inTile : I3 → Part n → Prop) (inDom : Part n → Prop) (idx : Part n → I3) (F : I3 → Prop) (u : I3) :
    PC n → (I3 → Tile n) → (I3 → Tile n) → ℕ → Prop
  | done {σ : I3 → Tile n} : Tr nt inTile inDom idx F u .done σ σ 0
  | step {pc pc' : PC n} {σ σ' : I3 → Tile n} {t : Tile n} {k : ℕ} : pc ≠ .done → F (pc.access idx u) → InBox ⟨1, 1, 1⟩ nt (pc.access idx u) →
      pc.act inTile inDom u (σ (pc.access idx u)) = .ok (t, pc') → Tr nt inTile inDom idx F u pc' (Function.update σ (pc.access idx u) t) σ' k →
      Tr nt inTile inDom idx F u pc σ σ' (k + 1)

theorem Tr.congr {F : I3 → Prop} {u : I3} {pc : PC n} {σ σ' : I3 → Tile n} {k : ℕ} (h : Tr nt inTile inDom idx F u pc σ σ' k) :
    ∀ τ : I3 → Tile n, (∀ T, F T → τ T = σ T) → ∃ τ', Tr nt inTile inDom idx F u pc τ τ' k ∧ ∀ T, F T → τ' T = σ' T := by
  induction h with
  | done => exact fun τ ht => ⟨τ, .done, ht⟩
  | @step pc pc' σ σ' t k h1 h2 h3 h4 _ ih =>
    intro τ ht
    obtain ⟨τ', h, e⟩ := ih (Function.update τ (pc.access idx u) t) (fun T hT => by
      by_cases hq : T = pc.access idx u
      · rw [hq, Function.update_self, Function.update_self]
      · rw [Function.update_of_ne hq, Function.update_of_ne hq, ht T hT])
    exact ⟨τ', .step h1 h2 h3 (by rw [ht _ h2]; exact h4) h, e⟩

theorem loop_zero : (PC.loop 0 : PC n) = .done := rfl
theorem loop_succ (k : ℕ) : (PC.loop ((k : ℤ) + 1) : PC n) = .look (k + 1) := by
  unfold PC.loop
  rw [if_pos (by omega)]

theorem upd_self {σ : I3 → Tile n} (u : I3) : Function.update σ u (σ u) = σ := Function.update_eq_self u σ

theorem move_trace (hs : Sorts nt inTile inDom idx) {F : I3 → Prop} {u : I3} (hu : InBox ⟨1, 1, 1⟩ nt u) (hF : F u) {l : List (Part n)} :
    ∀ (k : ℕ), k ≤ l.length → (∀ p ∈ l.take k, inDom p → ¬ inTile u p → F (idx p)) →
      ∀ (S : Species n) (L : I3 → List (Part n)) (r : List (Part n)), S.nt = nt → HoldsAll S L → L u = l.take k ++ r →
    ∃ S' m, (irange 1 (k : ℤ)).reverse.foldlM (fun S i => moveOne inTile inDom idx u i S) S = .ok S' ∧
      Tr nt inTile inDom idx F u (.loop k) S.tiles S'.tiles m := by
  intro k
  induction k with
  | zero =>
    intro _ _ S L r hnt h hL
    exact ⟨S, 0, by rw [show ((0 : ℕ) : ℤ) = 0 from rfl, irange_zero]; rfl, .done⟩
  | succ k ih =>
    intro hk hadj S L r hnt h hL
    have hkl : k < l.length := by omega
    have hlen : (l.take k).length = k := List.length_take_of_le hkl.le
    have hmem : l[k] ∈ l.take (k + 1) := by
      rw [← List.take_append_getElem hkl]
      exact List.mem_append_right _ List.mem_cons_self
    have hadj' : ∀ p ∈ l.take k, inDom p → ¬ inTile u p → F (idx p) := fun p hp => hadj p (by
      rw [← List.take_append_getElem hkl]; exact List.mem_append_left _ hp)
    rw [← List.take_append_getElem hkl, List.append_assoc, List.singleton_append] at hL
    have hku : k < (L u).length := by rw [hL]; simp; omega
    have hget : (L u)[k] = l[k] := by
      simp only [hL]
      rw [List.getElem_append_right (by omega)]
      simp [hlen]
    have htu := h u (hnt ▸ hu)
    have hread := readPart_ok htu hku
    rw [hget] at hread
    rw [irange_rev_succ, List.foldlM_cons]
    rw [show ((k + 1 : ℕ) : ℤ) = (k : ℤ) + 1 by push_cast; rfl, loop_succ]
    have hpred : (k : ℤ) + 1 - 1 = k := by ring
    by_cases hd : inTile u l[k] ∨ ¬ inDom l[k]
    · rw [moveOne_stay htu hku (by rw [hget]; exact hd)]
      simp only [except_bind_ok]
      obtain ⟨S', m, e', tr⟩ := ih (by omega) hadj' S L _ hnt h hL
      refine ⟨S', m + 1, e', .step (t := S.tiles u) (by simp) hF hu ?_ (by
        show Tr nt inTile inDom idx F u _ (Function.update S.tiles u (S.tiles u)) _ _
        rw [upd_self]; exact tr)⟩
      show (readPart (S.tiles u) (k + 1) >>= _) = _
      rw [hread]
      simp only [except_bind_ok, hpred]
      by_cases h1 : inTile u l[k]
      · rw [if_pos h1]; rfl
      · rw [if_neg h1, if_pos (by tauto)]; rfl
    · push Not at hd
      rw [moveOne_go htu hku (by rw [hget]; exact hd.1) (by rw [hget]; exact hd.2), hget]
      have hne : idx l[k] ≠ u := fun e => hd.1 (e ▸ hs.home _ hd.2)
      obtain ⟨t1, et1, ht1, at1⟩ := rmTile_ok htu hku
      obtain ⟨S1, e1, h1, n1, np1⟩ := atTile_ok h (hnt ▸ hu) ⟨t1, et1, ht1, at1⟩
      have hib : InBox ⟨1, 1, 1⟩ S1.nt (idx l[k]) := by rw [n1, hnt]; exact hs.box _ hd.2
      obtain ⟨t2, et2, ht2, at2⟩ := addTile_ok (h1 _ hib) l[k]
      obtain ⟨S2, e2, h2, n2, np2⟩ := atTile_ok h1 hib ⟨t2, et2, ht2, at2⟩
      have hrm : rmAt u (k + 1) S = .ok S1 := e1
      have hadd : addAt (idx l[k]) l[k] S1 = .ok S2 := e2
      rw [hrm]
      simp only [except_bind_ok]
      rw [hadd]
      simp only [except_bind_ok]
      obtain ⟨b', hb, eb⟩ := swapRm_split (l.take k) r l[k]
      rw [hlen, ← hL] at eb
      obtain ⟨S', m, e', tr⟩ := ih (by omega) hadj' S2 _ b' (by rw [n2, n1, hnt]) h2 (by
        rw [Function.update_of_ne (Ne.symm hne), Function.update_self, eb])
      have s1 : S1.tiles = Function.update S.tiles u t1 := by
        unfold atTile at e1
        rw [if_pos (hnt ▸ hu), et1] at e1
        injection e1 with e1
        rw [← e1]
      have s2 : S2.tiles = Function.update S1.tiles (idx l[k]) t2 := by
        unfold atTile at e2
        rw [if_pos hib, et2] at e2
        injection e2 with e2
        rw [← e2]
      refine ⟨S', m + 1 + 1 + 1, e', ?_⟩
      have tr3 : Tr nt inTile inDom idx F u (.add (k + 1) l[k]) S1.tiles S'.tiles (m + 1) := by
        refine .step (t := t2) (pc' := .loop k) (by simp) (hadj _ hmem hd.2 hd.1) (hs.box _ hd.2) ?_ (by
          show Tr nt inTile inDom idx F u _ (Function.update S1.tiles (idx l[k]) t2) _ _
          rw [← s2]; exact tr)
        show (addTile l[k] (S1.tiles (idx l[k])) >>= _) = _
        rw [et2]
        simp only [except_bind_ok, hpred]
      have tr2 : Tr nt inTile inDom idx F u (.rm (k + 1) l[k]) S.tiles S'.tiles (m + 1 + 1) := by
        refine .step (t := t1) (pc' := .add (k + 1) l[k]) (by simp) hF hu ?_ (by
          show Tr nt inTile inDom idx F u _ (Function.update S.tiles u t1) _ _
          rw [← s1]; exact tr3)
        show (rmTile (k + 1) (S.tiles u) >>= _) = _
        rw [et1]
        rfl
      refine .step (t := S.tiles u) (pc' := .rm (k + 1) l[k]) (by simp) hF hu ?_ (by
        show Tr nt inTile inDom idx F u _ (Function.update S.tiles u (S.tiles u)) _ _
        rw [upd_self]; exact tr2)
      show (readPart (S.tiles u) (k + 1) >>= _) = _
      rw [hread]
      simp only [except_bind_ok]
      rw [if_neg hd.1, if_neg (not_not.mpr hd.2)]
      rfl

theorem moveTile_trace (hs : Sorts nt inTile inDom idx) {F : I3 → Prop} {u : I3} (hu : InBox ⟨1, 1, 1⟩ nt u) (hF : F u)
    {S S' : Species n} {L : I3 → List (Part n)} (hnt : S.nt = nt) (h : HoldsAll S L) (hadj : ∀ p ∈ L u, inDom p → ¬ inTile u p → F (idx p))
    (e : moveTile inTile inDom idx u S = .ok S') : ∃ m, Tr nt inTile inDom idx F u .start S.tiles S'.tiles m := by
  obtain ⟨S'', m, e', tr⟩ := move_trace hs hu hF (l := L u) _ le_rfl (fun p hp => hadj p (List.mem_of_mem_take hp)) S L [] hnt h (by simp)
  have hc := (h u (hnt ▸ hu)).count
  unfold moveTile at e
  rw [hc, e'] at e
  injection e with e
  subst e
  refine ⟨m + 1, .step (t := S.tiles u) (pc' := .loop (L u).length) (by simp) hF hu ?_ (by
    show Tr nt inTile inDom idx F u _ (Function.update S.tiles u (S.tiles u)) _ _
    rw [upd_self]; exact tr)⟩
  show Except.ok (S.tiles u, PC.loop (S.tiles u).np) = _
  rw [hc]

/-- A complete trace of one thread, as steps of the interleaving. -/
theorem Tr.steps {F : I3 → Prop} {u : I3} {ws : List I3} (hu : u ∈ ws) {pc : PC n} {σ σ' : I3 → Tile n} {k : ℕ}
    (h : Tr nt inTile inDom idx F u pc σ σ' k) : ∀ (c0 c : Cfg n) (j : ℕ), Steps inTile inDom idx ws j c0 c → c.S.nt = nt → c.S.tiles = σ → c.pc u = pc →
      ∃ j', Steps inTile inDom idx ws j' c0 ⟨⟨nt, σ', c.S.npart⟩, Function.update c.pc u .done⟩ := by
  induction h with
  | done =>
    intro c0 c j hst hnt ht hpc
    refine ⟨j, ?_⟩
    rw [← hpc, Function.update_eq_self, ← hnt, ← ht]
    exact hst
  | @step pc pc' σ σ' t k h1 h2 h3 h4 _ ih =>
    intro c0 c j hst hnt ht hpc
    have he : c.step inTile inDom idx u = .ok ⟨⟨c.S.nt, Function.update c.S.tiles (pc.access idx u) t, c.S.npart⟩, Function.update c.pc u pc'⟩ := by
      unfold Cfg.step
      dsimp only
      rw [hpc, hnt, if_pos h3, ht, h4]
      rfl
    obtain ⟨j', hj⟩ := ih c0 _ (j + 1) (.step hst hu (by rw [hpc]; exact h1) he) hnt (by rw [← ht]) (by simp)
    refine ⟨j', ?_⟩
    simpa using hj

/-- Invariant of one parallel loop. -/
structure Inv (nt : I3) (inTile : I3 → Part n → Prop) (inDom : Part n → Prop) (idx : Part n → I3) (F : I3 → I3 → Prop) (ws : List I3)
    (np : ℤ) (σ0 : I3 → Tile n) (fin : I3 → I3 → Tile n) (k : I3 → ℕ) (c : Cfg n) : Prop where
  hnt : c.S.nt = nt
  hnp : c.S.npart = np
  tr : ∀ u ∈ ws, ∃ σ', Tr nt inTile inDom idx (F u) u (c.pc u) c.S.tiles σ' (k u) ∧ ∀ T, F u T → σ' T = fin u T
  out : ∀ T, (∀ u ∈ ws, ¬ F u T) → c.S.tiles T = σ0 T

theorem Inv.next {F : I3 → I3 → Prop} {ws : List I3} {np : ℤ} {σ0 : I3 → Tile n} {fin : I3 → I3 → Tile n} {k : I3 → ℕ} {c : Cfg n}
    (hdis : ∀ u ∈ ws, ∀ v ∈ ws, u ≠ v → ∀ T, F u T → ¬ F v T)
    (h : Inv nt inTile inDom idx F ws np σ0 fin k c) {u : I3} (hu : u ∈ ws) (hd : c.pc u ≠ .done) :
    F u ((c.pc u).access idx u) ∧ 0 < k u ∧ ∃ c', c.step inTile inDom idx u = .ok c' ∧
      Inv nt inTile inDom idx F ws np σ0 fin (Function.update k u (k u - 1)) c' := by
  obtain ⟨σ', tr, hfin⟩ := h.tr u hu
  generalize hpc : c.pc u = pc at tr hd
  generalize hk : k u = m at tr
  cases tr with
  | done => exact absurd rfl hd
  | @step _ pc' _ _ t m h1 h2 h3 h4 h5 =>
    refine ⟨h2, by omega, ⟨⟨c.S.nt, Function.update c.S.tiles (pc.access idx u) t, c.S.npart⟩, Function.update c.pc u pc'⟩, ?_, h.hnt, h.hnp, fun v hv => ?_, fun T hT => ?_⟩
    · unfold Cfg.step
      dsimp only
      rw [hpc, h.hnt, if_pos h3, h4]
      rfl
    · dsimp only
      by_cases hvu : v = u
      · subst hvu
        rw [Function.update_self, Function.update_self]
        exact ⟨σ', by simpa using h5, hfin⟩
      · rw [Function.update_of_ne hvu, Function.update_of_ne hvu]
        obtain ⟨ρ, trv, hv'⟩ := h.tr v hv
        obtain ⟨ρ', trv', hρ⟩ := trv.congr (Function.update c.S.tiles (pc.access idx u) t) (fun T hT => by
          rw [Function.update_of_ne]
          rintro rfl
          exact hdis u hu v hv (Ne.symm hvu) _ h2 hT)
        exact ⟨ρ', trv', fun T hT => by rw [hρ T hT, hv' T hT]⟩
    · dsimp only
      rw [Function.update_of_ne (by rintro rfl; exact hT u hu h2), h.out T hT]

theorem sum_update {ws : List I3} (hn : ws.Nodup) {k : I3 → ℕ} {u : I3} (hu : u ∈ ws) (h : 0 < k u) :
    (ws.map (Function.update k u (k u - 1))).sum + 1 = (ws.map k).sum := by
  induction ws with
  | nil => simp at hu
  | cons w ws ih =>
    rw [List.nodup_cons] at hn
    simp only [List.map_cons, List.sum_cons]
    by_cases hw : w = u
    · subst hw
      have : ws.map (Function.update k w (k w - 1)) = ws.map k := List.map_congr_left fun v hv => by
        have : v ≠ w := fun e => hn.1 (e ▸ hv)
        rw [Function.update_of_ne this]
      rw [this, Function.update_self]
      omega
    · rw [Function.update_of_ne hw]
      have := ih hn.2 (by rcases List.mem_cons.mp hu with e | e; exact absurd e.symm hw; exact e)
      omega

theorem Inv.steps {F : I3 → I3 → Prop} {ws : List I3} {np : ℤ} {σ0 : I3 → Tile n} {fin : I3 → I3 → Tile n} {k0 : I3 → ℕ} {c0 c : Cfg n} {m : ℕ}
    (hn : ws.Nodup) (hdis : ∀ u ∈ ws, ∀ v ∈ ws, u ≠ v → ∀ T, F u T → ¬ F v T) (h : Inv nt inTile inDom idx F ws np σ0 fin k0 c0)
    (hs : Steps inTile inDom idx ws m c0 c) : ∃ k, Inv nt inTile inDom idx F ws np σ0 fin k c ∧ (ws.map k).sum + m = (ws.map k0).sum := by
  induction hs with
  | refl => exact ⟨k0, h, rfl⟩
  | step _ hu hd e ih =>
    obtain ⟨k, hi, hk⟩ := ih h
    obtain ⟨-, hp, c', e', hi'⟩ := hi.next hdis hu hd
    rw [e'] at e
    injection e with e
    subst e
    have := sum_update hn hu hp
    exact ⟨_, hi', by omega⟩

theorem Inv.final {F : I3 → I3 → Prop} {ws : List I3} {np : ℤ} {σ0 : I3 → Tile n} {fin : I3 → I3 → Tile n} {k k' : I3 → ℕ} {c c' : Cfg n}
    (h : Inv nt inTile inDom idx F ws np σ0 fin k c) (h' : Inv nt inTile inDom idx F ws np σ0 fin k' c') (hd : ∀ u ∈ ws, c.pc u = .done)
    (hd' : ∀ u ∈ ws, c'.pc u = .done) : c.S = c'.S := by
  have key : ∀ {k : I3 → ℕ} {c : Cfg n}, Inv nt inTile inDom idx F ws np σ0 fin k c → (∀ u ∈ ws, c.pc u = .done) → ∀ u ∈ ws, ∀ T, F u T →
      c.S.tiles T = fin u T := by
    intro k c h hd u hu T hT
    obtain ⟨σ', tr, e⟩ := h.tr u hu
    rw [hd u hu] at tr
    generalize hpc : (PC.done : PC n) = pc at tr
    generalize hσ : c.S.tiles = σ at tr ⊢
    generalize k u = m at tr
    cases tr with
    | done => exact e T hT
    | step h1 => exact absurd hpc.symm h1
  have ht : c.S.tiles = c'.S.tiles := by
    funext T
    by_cases hT : ∃ u ∈ ws, F u T
    · obtain ⟨u, hu, hF⟩ := hT
      rw [key h hd u hu T hF, key h' hd' u hu T hF]
    · push Not at hT
      rw [h.out T hT, h'.out T hT]
  have a := h.hnt.trans h'.hnt.symm
  have b := h.hnp.trans h'.hnp.symm
  cases c with
  | mk S pc =>
    cases c' with
    | mk S' pc' =>
      cases S
      cases S'
      simp_all

/-- Particles that leave a tile go to tiles of its footprint. -/
def AdjF (nt : I3) (inTile : I3 → Part n → Prop) (inDom : Part n → Prop) (idx : Part n → I3) (F : I3 → I3 → Prop) (L : I3 → List (Part n)) : Prop :=
  ∀ u, InBox ⟨1, 1, 1⟩ nt u → ∀ p ∈ L u, inDom p → ¬ inTile u p → F u (idx p)

theorem adj_move (hs : Sorts nt inTile inDom idx) {F : I3 → I3 → Prop} {u : I3} (_hu : InBox ⟨1, 1, 1⟩ nt u) {L L' : I3 → List (Part n)}
    (h : AdjF nt inTile inDom idx F L)
    (m : ∀ T, (L' T : Multiset (Part n)) = (if T = u then 0 else (L T : Multiset (Part n))) +
        (L u : Multiset (Part n)).filter (fun p => dest inTile inDom idx u p = T)) : AdjF nt inTile inDom idx F L' := by
  intro T hT p hp hd hi
  have hp' : p ∈ (L' T : Multiset (Part n)) := hp
  rw [m T, Multiset.mem_add] at hp'
  rcases hp' with q | q
  · by_cases hTu : T = u
    · rw [if_pos hTu] at q; simp at q
    · rw [if_neg hTu] at q
      exact h T hT p q hd hi
  · obtain ⟨q1, q2⟩ := Multiset.mem_filter.mp q
    unfold dest at q2
    by_cases h1 : inTile u p
    · rw [if_pos h1] at q2
      exact absurd (q2 ▸ h1) hi
    · rw [if_neg h1, if_neg (not_not.mpr hd)] at q2
      exact absurd (q2 ▸ hs.home p hd) hi

/-- The sequential loop over the tiles as an interleaving. -/
theorem seq_steps (hs : Sorts nt inTile inDom idx) {ws : List I3} {c0 : Cfg n} : ∀ (us : List I3), us.Nodup → (∀ u ∈ us, u ∈ ws ∧ InBox ⟨1, 1, 1⟩ nt u) →
    ∀ (c : Cfg n) (L : I3 → List (Part n)) (j : ℕ), Steps inTile inDom idx ws j c0 c → c.S.nt = nt → HoldsAll c.S L → (∀ u ∈ us, c.pc u = .start) →
    ∃ S' j', us.foldlM (fun S u => moveTile inTile inDom idx u S) c.S = .ok S' ∧
      Steps inTile inDom idx ws j' c0 ⟨S', fun u => if u ∈ us then .done else c.pc u⟩ := by
  intro us
  induction us with
  | nil =>
    intro _ _ c L j hst hnt h _
    exact ⟨c.S, j, rfl, by simpa using hst⟩
  | cons u us ih =>
    intro hn hb c L j hst hnt h hpc
    rw [List.nodup_cons] at hn
    obtain ⟨S1, L1, e1, n1, np1, h1, -⟩ := moveTile_ok hs (hb u List.mem_cons_self).2 hnt h
    obtain ⟨m, tr⟩ := moveTile_trace hs (F := fun _ => True) (hb u List.mem_cons_self).2 trivial hnt h (fun _ _ _ _ => trivial) e1
    obtain ⟨j1, st1⟩ := tr.steps (hb u List.mem_cons_self).1 c0 c j hst hnt rfl (hpc u List.mem_cons_self)
    have hS1 : (⟨nt, S1.tiles, c.S.npart⟩ : Species n) = S1 := by rw [← n1, ← np1]
    rw [hS1] at st1
    obtain ⟨S', j', e', st'⟩ := ih hn.2 (fun v hv => hb v (List.mem_cons_of_mem _ hv)) _ L1 j1 st1 n1 h1 (fun v hv => by
      have : v ≠ u := fun e => hn.1 (e ▸ hv)
      dsimp only
      rw [Function.update_of_ne this]
      exact hpc v (List.mem_cons_of_mem _ hv))
    refine ⟨S', j', by rw [List.foldlM_cons, e1]; exact e', ?_⟩
    have : (fun v => if v ∈ u :: us then (PC.done : PC n) else c.pc v) = fun v => if v ∈ us then .done else Function.update c.pc u .done v := by
      funext v
      by_cases hvu : v = u
      · subst hvu; simp
      · by_cases hv : v ∈ us <;> simp [hv, hvu]
    rw [this]
    exact st'

/-- One parallel loop. -/
theorem phase_ok (hs : Sorts nt inTile inDom idx) {F : I3 → I3 → Prop} {ws : List I3} (hn : ws.Nodup)
    (hb : ∀ u ∈ ws, InBox ⟨1, 1, 1⟩ nt u ∧ F u u) (hdis : ∀ u ∈ ws, ∀ v ∈ ws, u ≠ v → ∀ T, F u T → ¬ F v T)
    {S : Species n} {L : I3 → List (Part n)} (hnt : S.nt = nt) (h : HoldsAll S L) (ha : AdjF nt inTile inDom idx F L) :
    ∃ S' N, ws.foldlM (fun S u => moveTile inTile inDom idx u S) S = .ok S' ∧
      (∃ j c, Steps inTile inDom idx ws j ⟨S, fun _ => .start⟩ c ∧ (∀ u ∈ ws, c.pc u = .done)) ∧
      ∀ j c, Steps inTile inDom idx ws j ⟨S, fun _ => .start⟩ c → j ≤ N ∧
        (∀ u ∈ ws, c.pc u ≠ .done → F u ((c.pc u).access idx u) ∧ ∃ c', c.step inTile inDom idx u = .ok c') ∧
        ((∀ u ∈ ws, c.pc u = .done) → c.S = S') := by
  obtain ⟨S', j0, e, st0⟩ := seq_steps hs ws hn (fun u hu => ⟨hu, (hb u hu).1⟩) ⟨S, fun _ => .start⟩ L 0 .refl hnt h (fun _ _ => rfl)
  -- final states of single threads
  have hex : ∀ u, ∃ (σ' : I3 → Tile n) (m : ℕ), u ∈ ws → Tr nt inTile inDom idx (F u) u .start S.tiles σ' m := by
    intro u
    by_cases hu : u ∈ ws
    · obtain ⟨S1, -, e1, -⟩ := moveTile_ok hs (hb u hu).1 hnt h
      obtain ⟨m, tr⟩ := moveTile_trace hs (F := F u) (hb u hu).1 (hb u hu).2 hnt h (ha u (hb u hu).1) e1
      exact ⟨_, m, fun _ => tr⟩
    · exact ⟨S.tiles, 0, fun q => absurd q hu⟩
  choose fin k0 hfin using hex
  have inv0 : Inv nt inTile inDom idx F ws S.npart S.tiles fin k0 ⟨S, fun _ => .start⟩ :=
    ⟨hnt, rfl, fun u hu => ⟨fin u, hfin u hu, fun _ _ => rfl⟩, fun _ _ => rfl⟩
  refine ⟨S', (ws.map k0).sum, e, ⟨j0, _, st0, fun u hu => by simp [hu]⟩, fun j c st => ?_⟩
  obtain ⟨k, hi, hk⟩ := inv0.steps hn hdis st
  refine ⟨by omega, fun u hu hd => ?_, fun hd => ?_⟩
  · obtain ⟨a, -, c', e', -⟩ := hi.next hdis hu hd
    exact ⟨a, c', e'⟩
  · obtain ⟨k', hi', -⟩ := inv0.steps hn hdis st0
    exact hi.final hi' hd (fun u hu => by simp [hu])

theorem adj_moves (hs : Sorts nt inTile inDom idx) {F : I3 → I3 → Prop} : ∀ (us : List I3), (∀ u ∈ us, InBox ⟨1, 1, 1⟩ nt u) → ∀ (S : Species n)
    (L : I3 → List (Part n)), S.nt = nt → HoldsAll S L → AdjF nt inTile inDom idx F L →
    ∃ S' L', us.foldlM (fun S u => moveTile inTile inDom idx u S) S = .ok S' ∧ S'.nt = nt ∧ HoldsAll S' L' ∧ AdjF nt inTile inDom idx F L' := by
  intro us
  induction us with
  | nil => exact fun _ S L hnt h ha => ⟨S, L, rfl, hnt, h, ha⟩
  | cons u us ih =>
    intro hb S L hnt h ha
    obtain ⟨S1, L1, e1, n1, -, h1, m1⟩ := moveTile_ok hs (hb u List.mem_cons_self) hnt h
    obtain ⟨S', L', e', n', h', a'⟩ := ih (fun v hv => hb v (List.mem_cons_of_mem _ hv)) S1 L1 n1 h1 (adj_move hs (hb u List.mem_cons_self) ha m1)
    exact ⟨S', L', by rw [List.foldlM_cons, e1]; exact e', n', h', a'⟩

theorem mem_colourTiles {nt c u : I3} : u ∈ colourTiles nt c ↔ InBox c nt u ∧ 3 ∣ u.j - c.j ∧ 3 ∣ u.k - c.k ∧ 3 ∣ u.l - c.l := by
  unfold colourTiles
  rw [List.mem_filter, mem_box]
  simp

theorem nodup_colourTiles (nt c : I3) : (colourTiles nt c).Nodup := (nodup_box _ _).filter _

theorem colour_disjoint {nt c u v T : I3} (hu : u ∈ colourTiles nt c) (hv : v ∈ colourTiles nt c) (hne : u ≠ v) (h1 : Near u T) : ¬ Near v T := by
  intro h2
  obtain ⟨-, a1, a2, a3⟩ := mem_colourTiles.mp hu
  obtain ⟨-, b1, b2, b3⟩ := mem_colourTiles.mp hv
  obtain ⟨x1, x2, x3⟩ := h1
  obtain ⟨y1, y2, y3⟩ := h2
  rw [abs_le] at x1 x2 x3 y1 y2 y3
  refine hne ?_
  have e1 : u.j = v.j := by omega
  have e2 : u.k = v.k := by omega
  have e3 : u.l = v.l := by omega
  cases u
  cases v
  simp_all

theorem colours_perm (nt : I3) : ((colours.map (colourTiles nt)).flatten).Perm (box ⟨1, 1, 1⟩ nt) := by
  refine (List.perm_ext_iff_of_nodup ?_ (nodup_box _ _)).mpr fun u => ?_
  · rw [List.nodup_flatten]
    refine ⟨fun l hl => ?_, ?_⟩
    · obtain ⟨c, -, rfl⟩ := List.mem_map.mp hl
      exact nodup_colourTiles nt c
    · rw [List.pairwise_map]
      have hn : colours.Nodup := nodup_box _ _
      refine (hn.imp_of_mem fun {a b} ha hb hne => ?_)
      intro u hu hv
      obtain ⟨-, a1, a2, a3⟩ := mem_colourTiles.mp hu
      obtain ⟨-, b1, b2, b3⟩ := mem_colourTiles.mp hv
      have ha' := mem_box.mp ha
      have hb' := mem_box.mp hb
      unfold InBox at ha' hb'
      dsimp only at ha' hb'
      refine hne ?_
      have e1 : a.j = b.j := by omega
      have e2 : a.k = b.k := by omega
      have e3 : a.l = b.l := by omega
      cases a
      cases b
      simp_all
  · rw [List.mem_flatten, mem_box]
    constructor
    · rintro ⟨l, hl, hu⟩
      obtain ⟨c, hc, rfl⟩ := List.mem_map.mp hl
      have hc' := mem_box.mp hc
      have := (mem_colourTiles.mp hu).1
      unfold InBox at this hc' ⊢
      dsimp only at hc' ⊢
      omega
    · intro hu
      refine ⟨_, List.mem_map.mpr ⟨⟨(u.j - 1) % 3 + 1, (u.k - 1) % 3 + 1, (u.l - 1) % 3 + 1⟩, ?_, rfl⟩, ?_⟩
      · refine mem_box.mpr ?_
        unfold InBox
        dsimp only
        omega
      · rw [mem_colourTiles]
        unfold InBox at hu ⊢
        dsimp only at hu ⊢
        omega

end Picsar.Tiling
