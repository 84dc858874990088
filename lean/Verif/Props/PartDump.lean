import Verif.Lemmas.PartDump

/-
C102: the particle dumps.
-/
namespace Picsar.Props
open Picsar Picsar.PartDump

/-- C102, memory. If `species_npart` is at least the number of particles in the tiles, the dump of a process stays inside its arrays,
for every distribution over the tiles, and writes seven blocks with as many elements as there are asked particles, one at each position. -/
theorem C102_safe (W : Window) (narr : ℕ) (tiles : List (List Part)) (h : tiles.flatten.length ≤ narr) :
    ∃ ws, writesOf W narr tiles = .ok ws ∧ ws.map Prod.fst = List.range (7 * (tiles.flatten.filter W.sel).length) ∧
      ∀ p, W.sel p = true ↔ Asked W p := by
  obtain ⟨-, ws, -, -, e, hk, -⟩ := file_ok W narr tiles h
  exact ⟨ws, e, hk, fun p => sel_iff W p⟩

/-- C102, content, for one process with all its particles in one tile: the file has the seven variables of exactly the asked particles,
whatever the order of the writes, and nothing else is changed. Missing: several tiles and several processes, where it is false. -/
theorem C102_one_tile_partial (W : Window) (narr : ℕ) (ps : List Part) (a b : ℕ) (h : ps.length ≤ narr) :
    ∃ (ws : List Write) (asked : List Part), writesOf W narr (List.replicate a [] ++ ps :: List.replicate b []) = .ok ws ∧
      asked.Sublist ps ∧ (∀ p, p ∈ asked ↔ p ∈ ps ∧ Asked W p) ∧ (ps.Nodup → asked.Nodup) ∧
      ∀ order, order.Perm ws → ∀ f, Contains (written f order) asked ∧ ∀ k, 7 * asked.length ≤ k → written f order k = f k := by
  have hf : (List.replicate a [] ++ ps :: List.replicate b []).flatten = ps := by
    rw [List.flatten_append, List.flatten_cons]
    simp
  obtain ⟨mask, ws, h1, h2, e, hk, hw⟩ := file_ok W narr (List.replicate a [] ++ ps :: List.replicate b []) (by rw [hf]; exact h)
  rw [hf] at h2 hk hw
  have hm : ∀ i (hi : i < ps.length), mask i = W.sel ps[i] := by
    intro i hi
    rw [Bool.eq_iff_iff, h1]
    constructor
    · rintro ⟨t, ht, hi', hs⟩
      rcases List.mem_append.mp ht with ht | ht
      · rw [List.eq_of_mem_replicate ht] at hi'
        exact absurd hi' (by simp)
      · rcases List.mem_cons.mp ht with rfl | ht
        · exact hs
        · rw [List.eq_of_mem_replicate ht] at hi'
          exact absurd hi' (by simp)
    · intro hs
      exact ⟨ps, by simp, hi, hs⟩
  have hc : ∀ (k : ℕ) (qs : List Part), (∀ i (hi : i < qs.length), mask (k + i) = W.sel qs[i]) → chosen mask k qs = qs.filter W.sel := by
    intro k qs
    induction qs generalizing k with
    | nil => intro _; rfl
    | cons q qs ih =>
      intro hq
      have h0 := hq 0 (by simp)
      rw [Nat.add_zero] at h0
      have h' := ih (k + 1) fun i hi => by
        have := hq (i + 1) (by simpa using hi)
        rw [show k + 1 + i = k + (i + 1) by omega]
        exact this
      rw [chosen, h', h0, List.filter_cons]
      rfl
  have hc := hc 0 ps fun i hi => by rw [Nat.zero_add]; exact hm i hi
  refine ⟨ws, ps.filter W.sel, e, List.filter_sublist, fun p => ?_, fun hn => hn.filter _, fun order ho f => ⟨fun v i hi => ?_, (hw order ho f).2⟩⟩
  · rw [List.mem_filter, sel_iff]
  · rw [(hw order ho f).1 v i hi, hc]
    unfold column
    rw [List.getElem?_eq_getElem hi]
    rfl

/-- Three particles at 1, 2 and 3 on the x axis and the window from 1.5 to 4: the last two are asked. -/
example : (⟨2, 0, 0, 0, 0, 0, 1⟩ : Part) ∈ ([⟨1, 0, 0, 0, 0, 0, 1⟩, ⟨2, 0, 0, 0, 0, 0, 1⟩, ⟨3, 0, 0, 0, 0, 0, 1⟩] : List Part) ∧
    Asked ⟨![3 / 2, -1, -1, -1, -1, -1], ![4, 1, 1, 1, 1, 1]⟩ ⟨2, 0, 0, 0, 0, 0, 1⟩ ∧
    ¬ Asked ⟨![3 / 2, -1, -1, -1, -1, -1], ![4, 1, 1, 1, 1, 1]⟩ ⟨1, 0, 0, 0, 0, 0, 1⟩ := by
  refine ⟨by simp, fun k => ?_, fun h => ?_⟩
  · fin_cases k <;> norm_num
  · have := (h 0).1
    norm_num at this

/-- C102, refuted for two tiles: a particle that is not asked is dumped in place of the one that is. -/
theorem C102_wrong_particle_refuted (W : Window) (p q : Part) (hp : ¬ Asked W p) (hq : Asked W q) (f : File) :
    ∃ ws, writesOf W 2 [[p], [q]] = .ok ws ∧ Contains (written f ws) [p] ∧ (p.x ≠ q.x → ¬ Contains (written f ws) [q]) := by
  rw [← sel_iff, Bool.not_eq_true] at hp
  rw [← sel_iff] at hq
  obtain ⟨mask, ws, h1, -, e, -, hw⟩ := file_ok W 2 [[p], [q]] (by simp)
  have hf : ([[p], [q]] : List (List Part)).flatten.filter W.sel = [q] := by
    simp [hp, hq]
  have m0 : mask 0 = true := (h1 0).mpr ⟨[q], by simp, by simp, hq⟩
  have m1 : mask 1 = false := by
    rw [← Bool.not_eq_true, h1 1]
    rintro ⟨t, ht, hi, -⟩
    simp only [List.mem_cons, List.not_mem_nil, or_false] at ht
    rcases ht with rfl | rfl <;> simp at hi
  have hc : chosen mask 0 ([[p], [q]] : List (List Part)).flatten = [p] := by
    simp [chosen, m0, m1]
  have key : Contains (written f ws) [p] := by
    intro v i hi
    obtain rfl : i = 0 := by simpa using hi
    have := (hw ws (List.Perm.refl _) f).1 v 0 (by rw [hf]; simp)
    rw [hf, hc] at this
    exact this
  refine ⟨ws, e, key, fun hne hk => hne ?_⟩
  have a : written f ws 0 = some (some p.x) := key 0 0 (by simp)
  have b : written f ws 0 = some (some q.x) := hk 0 0 (by simp)
  rw [b] at a
  exact (Option.some.inj (Option.some.inj a)).symm

/-- C102, refuted for two tiles with one asked particle each: the second particle is missing, and its place in every block has no value. -/
theorem C102_lost_refuted (W : Window) (p q : Part) (hp : Asked W p) (hq : Asked W q) (f : File) :
    ∃ ws, writesOf W 2 [[p], [q]] = .ok ws ∧ ∀ v : Fin 7, written f ws (v * 2 + 1) = some none := by
  rw [← sel_iff] at hp hq
  obtain ⟨mask, ws, h1, -, e, -, hw⟩ := file_ok W 2 [[p], [q]] (by simp)
  have hf : ([[p], [q]] : List (List Part)).flatten.filter W.sel = [p, q] := by
    simp [hp, hq]
  have m0 : mask 0 = true := (h1 0).mpr ⟨[q], by simp, by simp, hq⟩
  have m1 : mask 1 = false := by
    rw [← Bool.not_eq_true, h1 1]
    rintro ⟨t, ht, hi, -⟩
    simp only [List.mem_cons, List.not_mem_nil, or_false] at ht
    rcases ht with rfl | rfl <;> simp at hi
  have hc : chosen mask 0 ([[p], [q]] : List (List Part)).flatten = [p] := by
    simp [chosen, m0, m1]
  refine ⟨ws, e, fun v => ?_⟩
  have := (hw ws (List.Perm.refl _) f).1 v 1 (by rw [hf]; simp)
  rw [hf, hc] at this
  rw [show (v : ℕ) * 2 + 1 = v * ([p, q] : List Part).length + 1 from rfl, this]
  rfl

theorem PartDump_allWrites_ok (W : Window) (ps : List Proc) (h : ∀ p ∈ ps, p.tiles.flatten.length ≤ p.narr) :
    ∃ ws, allWrites W ps = .ok ws ∧ ∀ k ∈ ws.map Prod.fst, ∃ p ∈ ps, k < 7 * (p.tiles.flatten.filter W.sel).length := by
  induction ps with
  | nil => exact ⟨[], rfl, by simp⟩
  | cons p ps ih =>
    obtain ⟨b, e2, h2⟩ := ih fun q hq => h q (List.mem_cons_of_mem _ hq)
    obtain ⟨-, a, -, -, e1, h1, -⟩ := file_ok W p.narr p.tiles (h p List.mem_cons_self)
    refine ⟨a ++ b, ?_, ?_⟩
    · unfold allWrites
      rw [e1, except_bind_ok, e2]
      rfl
    · intro k hk
      rw [List.map_append, List.mem_append, h1, List.mem_range] at hk
      rcases hk with hk | hk
      · exact ⟨p, List.mem_cons_self, hk⟩
      · obtain ⟨q, hq, hk⟩ := h2 k hk
        exact ⟨q, List.mem_cons_of_mem _ hq, hk⟩

/-- C102, refuted for every run in which at least two processes have asked particles: all of them write at the same offsets, and no order
of the writes gives a file with all the particles. -/
theorem C102_processes_refuted (W : Window) (ps : List Proc) (h : ∀ p ∈ ps, p.tiles.flatten.length ≤ p.narr) (p q : Proc)
    (hpq : ([p, q] : List Proc).Sublist ps) (hp : ∃ a ∈ p.tiles.flatten, Asked W a) (hq : ∃ a ∈ q.tiles.flatten, Asked W a) :
    ∃ ws, allWrites W ps = .ok ws ∧ ∀ order, order.Perm ws → ∀ all : List Part,
      all.length = (ps.map fun r => (r.tiles.flatten.filter W.sel).length).sum → ¬ Contains (written (fun _ => none) order) all := by
  obtain ⟨ws, e, hk⟩ := PartDump_allWrites_ok W ps h
  refine ⟨ws, e, fun order ho all hl hc => ?_⟩
  have pos : ∀ r : Proc, (∃ a ∈ r.tiles.flatten, Asked W a) → 0 < (r.tiles.flatten.filter W.sel).length := by
    rintro r ⟨a, ha, hs⟩
    exact List.length_pos_of_mem (List.mem_filter.mpr ⟨ha, (sel_iff W a).mpr hs⟩)
  have lt : ∀ r ∈ ps, (r.tiles.flatten.filter W.sel).length < all.length := by
    intro r hr
    rw [hl]
    set g : Proc → ℕ := fun r => (r.tiles.flatten.filter W.sel).length
    have two : ∀ (l : List Proc), ([p, q] : List Proc).Sublist l → r ∈ l → g r < (l.map g).sum := by
      intro l hs hr
      have one : ∀ (l : List Proc) (s : Proc), s ∈ l → g s ≤ (l.map g).sum := fun l s hs =>
        List.single_le_sum (by simp) _ (List.mem_map_of_mem hs)
      induction l with
      | nil => exact absurd hr List.not_mem_nil
      | cons s l ih =>
        rw [List.map_cons, List.sum_cons]
        rcases List.mem_cons.mp hr with rfl | hr'
        · have : q ∈ l ∨ p ∈ l := by
            cases hs with
            | cons _ hs => exact Or.inr (hs.subset List.mem_cons_self)
            | cons_cons _ hs => exact Or.inl (hs.subset List.mem_cons_self)
          rcases this with h' | h'
          · have := one l _ h'
            have := pos q hq
            simp only [g] at *
            omega
          · have := one l _ h'
            have := pos p hp
            simp only [g] at *
            omega
        · cases hs with
          | cons _ hs =>
            have := ih hs hr'
            omega
          | cons_cons _ hs =>
            have := one l _ hr'
            have := pos p hp
            simp only [g] at *
            omega
    exact two ps hpq hr
  have hpos : 0 < all.length := lt_of_le_of_lt (Nat.zero_le _) (lt p (hpq.subset (by simp)))
  have := hc 6 (all.length - 1) (by omega)
  rw [written_out] at this
  · exact absurd this (by simp)
  · rw [(ho.map Prod.fst).mem_iff]
    intro hm
    obtain ⟨r, hr, hlt⟩ := hk _ hm
    have := lt r hr
    have h6 : ((6 : Fin 7) : ℕ) = 6 := rfl
    rw [h6] at hlt
    omega

/-! ### Steps and names -/

/-- C102, steps: a dump is due at the multiples of its period. -/
theorem C102_due (d : Dump) (it : ℕ) : d.due it = true ↔ 1 ≤ d.period ∧ ∃ k : ℕ, (it : ℤ) = k * d.period := by
  unfold Dump.due
  rw [Bool.and_eq_true, decide_eq_true_iff, decide_eq_true_iff]
  refine and_congr_right fun h => ?_
  rw [← Int.dvd_iff_tmod_eq_zero]
  constructor
  · rintro ⟨k, hk⟩
    have : 0 ≤ k := by
      by_contra hn
      have : d.period * k < 0 := mul_neg_of_pos_of_neg (by omega) (by omega)
      omega
    exact ⟨k.toNat, by rw [Int.toNat_of_nonneg this, hk]; ring⟩
  · rintro ⟨k, hk⟩
    exact ⟨k, by rw [hk]; ring⟩

/-- C102, names. Up to step 99999 dumps of different species or at different steps go to different files. -/
theorem C102_names_partial (s s' : List Char) (it it' : ℕ) (h : it < 100000) (h' : it' < 100000) (e : name s it = name s' it') :
    s = s' ∧ it = it' := by
  unfold name at e
  have e := List.append_cancel_left e
  unfold FieldFile.i5 at e
  rw [if_pos ((FieldFile.decimal_length it).mpr h), if_pos ((FieldFile.decimal_length it').mpr h')] at e
  have tk : ∀ (s : List Char) (n : ℕ),
      (s ++ ("_it_".toList ++ FieldFile.decimal n)).reverse.takeWhile (fun c => c != '_') = (FieldFile.decimal n).reverse := by
    intro s n
    rw [List.reverse_append, List.reverse_append, List.append_assoc, List.takeWhile_append_of_pos]
    · rw [show ("_it_".toList).reverse = '_' :: ['t', 'i', '_'] by decide, List.cons_append, List.takeWhile_cons_of_neg (by decide),
        List.append_nil]
    · intro c hc
      rw [List.mem_reverse] at hc
      exact decimal_no_underscore n c hc
  have d : it = it' := by
    apply FieldFile.decimal_inj
    have := tk s it
    rw [e, tk s' it'] at this
    exact (List.reverse_inj.mp this).symm
  subst d
  exact ⟨List.append_cancel_right e, rfl⟩

example : name "electron".toList 20 = "./RESULTS/electron_it_20".toList := by decide

/-- C102, a step of a run with one process: a file changes only if a dump of its species is due, and if no two due dumps have the same
species, the file of each of them receives what this dump writes. -/
theorem C102_step (parts : List Char → Proc) (hn : ∀ s, (parts s).tiles.flatten.length ≤ (parts s).narr) (it : ℕ) (hit : it < 100000)
    (ds : List Dump) (hd : (ds.filter fun d => d.due it).Pairwise fun a b => a.species ≠ b.species) (fs : List Char → File) :
    ∃ fs', writeParticles parts it ds fs = .ok fs' ∧
      (∀ n, (∀ d ∈ ds, d.due it = true → name d.species it ≠ n) → fs' n = fs n) ∧
      ∀ d ∈ ds, d.due it = true → ∃ ws, writesOf d.W (parts d.species).narr (parts d.species).tiles = .ok ws ∧
        fs' (name d.species it) = written (fs (name d.species it)) ws := by
  induction ds generalizing fs with
  | nil => exact ⟨fs, rfl, fun _ _ => rfl, by simp⟩
  | cons d ds ih =>
    unfold writeParticles
    by_cases h : d.due it = true
    · rw [if_pos h]
      rw [List.filter_cons_of_pos (p := fun d : Dump => d.due it) h, List.pairwise_cons] at hd
      obtain ⟨-, ws, -, -, e, -, -⟩ := file_ok d.W (parts d.species).narr (parts d.species).tiles (hn d.species)
      rw [e, except_bind_ok]
      have ne : ∀ d' ∈ ds, d'.due it = true → name d'.species it ≠ name d.species it := fun d' hd' h' heq =>
        hd.1 d' (List.mem_filter.mpr ⟨hd', h'⟩) (C102_names_partial _ _ it it hit hit heq).1.symm
      obtain ⟨fs', e', h1, h2⟩ := ih hd.2 (Function.update fs (name d.species it) (written (fs (name d.species it)) ws))
      refine ⟨fs', e', fun n hne => ?_, fun d' hd' h' => ?_⟩
      · rw [h1 n fun d' hd' => hne d' (List.mem_cons_of_mem _ hd')]
        exact Function.update_of_ne (hne d List.mem_cons_self h).symm _ _
      · rcases List.mem_cons.mp hd' with rfl | hd'
        · exact ⟨ws, e, by rw [h1 _ ne]; exact Function.update_self _ _ _⟩
        · obtain ⟨ws', a, b⟩ := h2 d' hd' h'
          refine ⟨ws', a, ?_⟩
          rw [b, Function.update_of_ne (ne d' hd' h')]
    · rw [if_neg h]
      rw [List.filter_cons_of_neg (p := fun d : Dump => d.due it) h] at hd
      obtain ⟨fs', e', h1, h2⟩ := ih hd fs
      refine ⟨fs', e', fun n hne => h1 n fun d' hd' => hne d' (List.mem_cons_of_mem _ hd'), fun d' hd' h' => ?_⟩
      rcases List.mem_cons.mp hd' with rfl | hd'
      · exact absurd h' h
      · exact h2 d' hd' h'

/-- C102, refuted for two dumps of the same species at the same step: they have the same file, and as far as the second one reaches,
nothing of the first one is left. -/
theorem C102_two_dumps_refuted (parts : List Char → Proc) (hn : ∀ s, (parts s).tiles.flatten.length ≤ (parts s).narr) (it : ℕ)
    (d d' : Dump) (hs : d.species = d'.species) (h : d.due it = true) (h' : d'.due it = true) (fs : List Char → File) :
    ∃ fs1 fs2, writeParticles parts it [d, d'] fs = .ok fs1 ∧ writeParticles parts it [d'] fs = .ok fs2 ∧
      ∀ k, k < 7 * ((parts d'.species).tiles.flatten.filter d'.W.sel).length →
        fs1 (name d.species it) k = fs2 (name d.species it) k := by
  obtain ⟨-, ws, -, -, e, -, -⟩ := file_ok d.W (parts d.species).narr (parts d.species).tiles (hn d.species)
  obtain ⟨-, ws', -, -, e', hk, -⟩ := file_ok d'.W (parts d'.species).narr (parts d'.species).tiles (hn d'.species)
  have e2 : ∀ gs, writeParticles parts it [d'] gs =
      .ok (Function.update gs (name d'.species it) (written (gs (name d'.species it)) ws')) := by
    intro gs
    unfold writeParticles
    rw [if_pos h', e', except_bind_ok]
    unfold writeParticles
    rfl
  have e1 : writeParticles parts it [d, d'] fs =
      writeParticles parts it [d'] (Function.update fs (name d.species it) (written (fs (name d.species it)) ws)) := by
    rw [writeParticles, if_pos h, e, except_bind_ok]
  refine ⟨_, _, e1.trans (e2 _), e2 _, ?_⟩
  · intro k hlt
    rw [hs, Function.update_self, Function.update_self, Function.update_self]
    have hmem : k ∈ ws'.map Prod.fst := by rw [hk, List.mem_range]; exact hlt
    obtain ⟨⟨a, v⟩, hm, rfl⟩ := List.mem_map.mp hmem
    rw [written_in hm (by rw [hk]; exact List.nodup_range), written_in hm (by rw [hk]; exact List.nodup_range)]

end Picsar.Props
