import Verif.Lemmas.PartBuffers
import Mathlib.Data.List.Nodup
import Mathlib.Data.List.Perm.Basic
/-
Which message meets which receive when several directions lead to the same process.
-/
namespace Picsar.PartExchange
open Picsar Picsar.Grid Picsar.Tiling Picsar.ParticleBcs

variable {n : ℕ} {R : Type} [DecidableEq R]

theorem nodup_dirs : dirs.Nodup := (nodup_box _ _).filter _

theorem mem_dirs {d : I3} : d ∈ dirs ↔ InBox ⟨-1, -1, -1⟩ ⟨1, 1, 1⟩ d ∧ ¬ (|d.j| + |d.k| + |d.l| = 0) := by
  unfold dirs
  rw [List.mem_filter, mem_box]
  simp

theorem neg_neg' (d : I3) : neg (neg d) = d := by unfold neg; simp

theorem neg_mem {d : I3} (h : d ∈ dirs) : neg d ∈ dirs := by
  rw [mem_dirs] at h ⊢
  obtain ⟨⟨a, b, c, e, f, g⟩, h2⟩ := h
  unfold neg
  refine ⟨⟨?_, ?_, ?_, ?_, ?_, ?_⟩, by simpa using h2⟩ <;> dsimp only at * <;> omega

/-- The directions from `s` to `r`. -/
def toR (nb : R → I3 → R) (s r : R) : List I3 := dirs.filter fun d => nb s d = r

theorem mem_toR {nb : R → I3 → R} {s r : R} {d : I3} : d ∈ toR nb s r ↔ d ∈ dirs ∧ nb s d = r := by
  unfold toR; rw [List.mem_filter]; simp

theorem nodup_toR (nb : R → I3 → R) (s r : R) : (toR nb s r).Nodup := nodup_dirs.filter _

theorem toR_le {nb : R → I3 → R} (hm : Mutual nb) (s r : R) : (toR nb s r).length ≤ (toR nb r s).length := by
  have hn : ((toR nb s r).map neg).Nodup := (nodup_toR nb s r).map fun a b h => by rw [← neg_neg' a, h, neg_neg']
  have hs : (toR nb s r).map neg ⊆ toR nb r s := by
    intro e he
    obtain ⟨d, hd, rfl⟩ := List.mem_map.mp he
    obtain ⟨h1, h2⟩ := mem_toR.mp hd
    exact mem_toR.mpr ⟨neg_mem h1, by rw [← h2]; exact hm s d h1⟩
  have := (List.subperm_of_subset hn hs).length_le
  rwa [List.length_map] at this

theorem toR_length {nb : R → I3 → R} (hm : Mutual nb) (s r : R) : (toR nb s r).length = (toR nb r s).length :=
  le_antisymm (toR_le hm s r) (toR_le hm r s)

/-- The direction in which the sender sent the message that arrives in slot `e` of process `r`. -/
def md (nb : R → I3 → R) (r : R) (e : I3) : I3 := (toR nb (nb r e) r).getD ((toR nb r (nb r e)).idxOf e) ⟨0, 0, 0⟩

theorem map_md {nb : R → I3 → R} (hm : Mutual nb) (r s : R) : (toR nb r s).map (md nb r) = toR nb s r := by
  refine List.ext_getElem (by rw [List.length_map, toR_length hm]) fun i h1 h2 => ?_
  rw [List.length_map] at h1
  rw [List.getElem_map]
  have hs := (mem_toR.mp (List.getElem_mem h1)).2
  unfold md
  rw [hs, (nodup_toR nb r s).idxOf_getElem i h1, List.getD_eq_getElem?_getD, List.getElem?_eq_getElem h2, Option.getD_some]

theorem md_spec {nb : R → I3 → R} (hm : Mutual nb) {r : R} {e : I3} (he : e ∈ dirs) : md nb r e ∈ dirs ∧ nb (nb r e) (md nb r e) = r := by
  have : md nb r e ∈ toR nb (nb r e) r := by
    rw [← map_md hm]
    exact List.mem_map_of_mem (mem_toR.mpr ⟨he, rfl⟩)
  exact mem_toR.mp this

/-- Slots and opposite directions describe the same messages. -/
theorem md_perm {nb : R → I3 → R} (hm : Mutual nb) (r : R) :
    (dirs.map fun e => (nb r e, md nb r e)).Perm (dirs.map fun d => (nb r (neg d), d)) := by
  rw [List.perm_ext_iff_of_nodup]
  · rintro ⟨s, d⟩
    rw [List.mem_map, List.mem_map]
    constructor
    · rintro ⟨e, he, h⟩
      obtain ⟨rfl, rfl⟩ := Prod.mk.inj h
      obtain ⟨h1, h2⟩ := md_spec hm he
      refine ⟨md nb r e, h1, ?_⟩
      have := hm (nb r e) (md nb r e) h1
      rw [h2] at this
      rw [this]
    · rintro ⟨d', hd, h⟩
      obtain ⟨rfl, rfl⟩ := Prod.mk.inj h
      have h1 : d' ∈ toR nb (nb r (neg d')) r := mem_toR.mpr ⟨hd, by simpa [neg_neg'] using hm r (neg d') (neg_mem hd)⟩
      rw [← map_md hm, List.mem_map] at h1
      obtain ⟨e, he, hed⟩ := h1
      obtain ⟨h2, h3⟩ := mem_toR.mp he
      exact ⟨e, h2, by rw [h3, hed]⟩
  · refine nodup_dirs.map_on fun e he e' he' h => ?_
    obtain ⟨h1, h2⟩ := Prod.mk.inj h
    have hn : ((toR nb r (nb r e)).map (md nb r)).Nodup := by rw [map_md hm]; exact nodup_toR _ _ _
    exact List.inj_on_of_nodup_map hn (mem_toR.mpr ⟨he, rfl⟩) (mem_toR.mpr ⟨he', h1.symm⟩) h2
  · exact nodup_dirs.map fun a b h => (Prod.mk.inj h).2

/-- Particles are sent in one of the 26 directions. -/
theorem scan_dir {m : Mode} (hm : m ≠ .combined) {A : Ax → Axis} {T : TileLim} {p q : Part n} {d : I3} (h : scan m A T p = .sent d q) : d ∈ dirs := by
  have hset : ∀ (d : I3) (a : Ax) (v : ℤ), InBox ⟨-1, -1, -1⟩ ⟨1, 1, 1⟩ d → -1 ≤ v → v ≤ 1 → InBox ⟨-1, -1, -1⟩ ⟨1, 1, 1⟩ (setDir d a v) := by
    rintro d a v ⟨h1, h2, h3, h4, h5, h6⟩ h7 h8
    cases a <;> exact ⟨by assumption, by assumption, by assumption, by assumption, by assumption, by assumption⟩
  have hcase : ∀ (a : Ax) (s k : ℤ) (w x0 : ℝ) (p : Part n) (d : I3) (rm : Bool), InBox ⟨-1, -1, -1⟩ ⟨1, 1, 1⟩ d →
      (∃ p' d' rm', cases m A T a s k w x0 p d rm = .go p' d' rm' ∧ InBox ⟨-1, -1, -1⟩ ⟨1, 1, 1⟩ d') ∨
      cases m A T a s k w x0 p d rm = .stop .removed ∨ ∃ p', cases m A T a s k w x0 p d rm = .stop (.kept p') := by
    intro a s k w x0 p d rm hd
    unfold cases
    by_cases h1 : k = 1
    · rw [if_pos h1]
      cases m with
      | nonBlocking => exact .inl ⟨_, _, _, rfl, hd⟩
      | blocking => exact .inr (.inl rfl)
      | nonBlocking2d => exact .inr (.inl rfl)
      | combined => exact .inr (.inl rfl)
    rw [if_neg h1]
    by_cases h2 : k = 2 ∧ (m = .blocking ∨ m = .nonBlocking)
    · rw [if_pos h2]
      exact .inl ⟨_, _, _, rfl, hset _ _ _ hd (by norm_num) (by norm_num)⟩
    rw [if_neg h2]
    by_cases h3 : k = 3
    · rw [if_pos h3]; exact .inr (.inr ⟨_, rfl⟩)
    · rw [if_neg h3]; exact .inl ⟨_, _, _, rfl, hd⟩
  let good : Scan n → Prop := fun s => (∃ p' d' rm', s = .go p' d' rm' ∧ InBox ⟨-1, -1, -1⟩ ⟨1, 1, 1⟩ d') ∨ s = .stop .removed ∨ ∃ p', s = .stop (.kept p')
  have hthen : ∀ (s : Scan n) (f : Part n → I3 → Bool → Scan n), good s → (∀ p d rm, InBox ⟨-1, -1, -1⟩ ⟨1, 1, 1⟩ d → good (f p d rm)) → good (s.andThen f) := by
    rintro s f (⟨p, d, rm, rfl, hd⟩ | rfl | ⟨p, rfl⟩) hf
    · exact hf p d rm hd
    · exact .inr (.inl rfl)
    · exact .inr (.inr ⟨p, rfl⟩)
  have hface : ∀ (a : Ax) (s : ℤ) (x0 : ℝ) (p : Part n) (d : I3) (rm : Bool), (s = -1 ∨ s = 1) → InBox ⟨-1, -1, -1⟩ ⟨1, 1, 1⟩ d → good (face m A T a s x0 p d rm) := by
    intro a s x0 p d rm hs hd
    have hsd := hset d a s hd (by omega) (by omega)
    unfold face
    generalize (if s = -1 then (A a).bmin else (A a).bmax) = fl
    by_cases hfl : fl = true
    · rw [if_pos hfl]; exact hcase _ _ _ _ _ _ _ _ hsd
    · rw [if_neg hfl]; exact .inl ⟨_, _, _, rfl, hsd⟩
  have haxis : ∀ (a : Ax) (p : Part n) (d : I3) (rm : Bool), InBox ⟨-1, -1, -1⟩ ⟨1, 1, 1⟩ d → good (axis m A T a p d rm) := by
    intro a p d rm hd
    unfold axis
    dsimp only
    by_cases h1 : a = .y ∧ m = .nonBlocking2d
    · rw [if_pos h1]; exact .inl ⟨_, _, _, rfl, hd⟩
    rw [if_neg h1, if_neg hm]
    refine hthen _ _ ?_ fun p' d' rm' hd' => ?_
    · by_cases h2 : pos p a < (A a).lo
      · rw [if_pos h2]; exact hface _ _ _ _ _ _ (.inl rfl) hd
      · rw [if_neg h2]; exact .inl ⟨_, _, _, rfl, hd⟩
    · by_cases h2 : pos p a ≥ (A a).hi
      · rw [if_pos h2]; exact hface _ _ _ _ _ _ (.inr rfl) hd'
      · rw [if_neg h2]; exact .inl ⟨_, _, _, rfl, hd'⟩
  have hall := hthen _ (axis m A T .z) (hthen _ (axis m A T .y) (haxis .x p ⟨0, 0, 0⟩ false (by unfold InBox; decide)) (haxis .y)) (haxis .z)
  unfold scan at h
  rw [if_neg (fun hc => hm hc.1)] at h
  rcases hall with ⟨p', d', rm', e, hd'⟩ | e | ⟨p', e⟩
  · rw [e] at h
    unfold finish at h
    dsimp only at h
    rw [if_neg hm] at h
    by_cases hpos : |d'.j| + |d'.k| + |d'.l| > 0
    · rw [if_pos hpos] at h
      cases rm' with
      | true => simp at h
      | false =>
        simp only [Bool.false_eq_true, if_false] at h
        obtain ⟨rfl, -⟩ := Outcome.sent.inj h
        exact mem_dirs.mpr ⟨hd', by omega⟩
    · rw [if_neg hpos] at h
      exact absurd h (by simp)
  · rw [e] at h; exact absurd h (by simp [finish])
  · rw [e] at h; exact absurd h (by simp [finish])

/-- Nothing is handed over in other directions. -/
theorem handed_dirs {m : Mode} (hm : m ≠ .combined) {P : Proc n} {nt : I3} {L : I3 → List (Part n)} {d : I3} {q : Part n} (h : q ∈ handed m P nt L d) : d ∈ dirs := by
  unfold handed at h
  obtain ⟨x, hx, hq⟩ := mem_listSum.mp h
  obtain ⟨u, -, rfl⟩ := List.mem_map.mp hx
  by_cases hb : P.border u = true
  · rw [if_pos hb] at hq
    obtain ⟨p, -, hp⟩ := List.mem_filterMap.mp (Multiset.mem_coe.mp hq)
    cases hs : scan m P.A (P.T u) p with
    | removed => rw [hs] at hp; simp [sends] at hp
    | kept q => rw [hs] at hp; simp [sends] at hp
    | sent e q =>
      rw [hs] at hp
      unfold sends at hp
      by_cases he : e = d
      · subst he; exact scan_dir hm hs
      · simp [he] at hp
  · rw [if_neg hb] at hq; simp at hq

end Picsar.PartExchange
