import Verif.Lemmas.Input

/-
Helper lemmas for the input file as a whole.
-/
namespace Picsar.Lemmas.InputL
open Picsar Picsar.Input Picsar.Spec.Input

theorem lines_cons {F : Flags} {K : Consts} {rd : Reader} {l : List Char} {r : List (List Char)} {last : List Char} {st st' : St}
    (h : line F K rd st l = .ok st') : lines F K rd (l :: r) last st = lines F K rd r l st' := by
  rw [lines, h]; rfl

/-- A line outside the sections. -/
theorem line_outside (F : Flags) (K : Consts) (rd : Reader) {st : St} (hm : st.mode = none) {l : List Char} (hl : Outside l) :
    line F K rd st l = .ok st := by
  unfold line
  simp only [hm]
  rw [if_neg]
  rw [index_pos (by simp)]
  intro h
  have h1 : c!"section::" <:+: l ++ List.replicate stringLength ' ' := h.trans (List.take_prefix _ _).isInfix
  exact hl ((infix_pad (by decide) _).mp h1)

theorem lines_outside (F : Flags) (K : Consts) (rd : Reader) {st : St} (hm : st.mode = none) :
    ∀ (ls : List (List Char)) (r : List (List Char)) (last : List Char), (∀ l ∈ ls, Outside l) →
      ∃ last', lines F K rd (ls ++ r) last st = lines F K rd r last' st
  | [], r, last, _ => ⟨last, rfl⟩
  | l :: ls, r, last, h => by
    obtain ⟨last', h'⟩ := lines_outside F K rd hm ls r l (fun x hx => h x (by simp [hx]))
    refine ⟨last', ?_⟩
    rw [List.cons_append, lines_cons (line_outside F K rd hm (h l (by simp)))]
    exact h'

theorem indexFrom_blanks (k : List Char) (hk : k ≠ []) (hb : ' ' ∉ k) : ∀ (a t : List Char) (i : ℕ), Blanks a →
    indexFrom k (a ++ (k ++ t)) i = i + a.length
  | [], t, i, _ => by
    cases hkt : k ++ t with
    | nil => simp at hkt; exact absurd hkt.1 hk
    | cons c s =>
      have : k.isPrefixOf (c :: s) = true := by rw [← hkt]; simp
      simp only [List.nil_append, indexFrom, this, if_true, List.length_nil, Nat.add_zero]
  | c :: a, t, i, ha => by
    have hc : c = ' ' := ha c (by simp)
    subst hc
    rw [List.cons_append]
    unfold indexFrom
    rw [if_neg, indexFrom_blanks k hk hb a t (i + 1) (fun c hc => ha c (by simp [hc]))]
    · simp only [List.length_cons]; omega
    · rw [List.isPrefixOf_iff_prefix]
      intro h
      cases k with
      | nil => exact hk rfl
      | cons x k =>
        rw [List.cons_prefix_cons] at h
        exact hb (by rw [← h.1]; simp)

theorem trim_blanks (w b : List Char) (hw : w.reverse.dropWhile (fun c => decide (c = ' ')) = w.reverse) (hb : Blanks b) : trim (w ++ b) = w := by
  unfold trim
  rw [List.reverse_append, List.dropWhile_append_of_pos, hw, List.reverse_reverse]
  intro c hc
  exact decide_eq_true (hb c (List.mem_reverse.mp hc))

theorem secOf_name (s : Sec) : secOf (c!"section::" ++ secName s) = some s := by
  cases s <;> decide +kernel

theorem secName_trim (s : Sec) : (c!"section::" ++ secName s).reverse.dropWhile (fun c => decide (c = ' ')) = (c!"section::" ++ secName s).reverse := by
  cases s <;> decide +kernel

/-- The header of a section calls its reader. -/
theorem line_header (F : Flags) (K : Consts) (rd : Reader) {st : St} (hm : st.mode = none) {s : Sec} {l : List Char} (hl : Header s l) :
    line F K rd st l = enter K s st := by
  obtain ⟨a, b, ha, hb, rfl, hlen⟩ := hl
  have hbuf : toBuffer (a ++ (c!"section::" ++ secName s) ++ b) =
      a ++ (c!"section::" ++ (secName s ++ (b ++ List.replicate (stringLength - (a ++ (c!"section::" ++ secName s) ++ b).length) ' '))) := by
    rw [toBuffer_short hlen]; simp only [List.append_assoc]
  have hix : index (toBuffer (a ++ (c!"section::" ++ secName s) ++ b)) c!"section::" = 1 + a.length := by
    rw [hbuf]
    exact indexFrom_blanks c!"section::" (by simp) (by decide) a _ 1 ha
  unfold line
  simp only [hm, hix]
  rw [if_pos (by omega), hbuf]
  have : (1 + a.length - 1) = a.length := by omega
  rw [this, List.drop_left, ← List.append_assoc, trim_blanks _ _ (secName_trim s), secOf_name]
  intro c hc
  rcases List.mem_append.mp hc with h | h
  · exact hb c h
  · exact blanks_replicate _ c h

theorem inSection_global (F : Flags) (K : Consts) (rd : Reader) {s : Sec} (hs : Sec.many s = false) (buf : List Char) (st : St) {e : Env} {b : Bool}
    (h : body rd (tableOf F K s) (endKey s) buf st.env = .ok (e, b)) : inSection F K rd s buf st = .ok ({ st with env := e }, b) := by
  cases s <;> first | (exact absurd hs (by decide)) | (unfold inSection; simp only [h, except_bind_ok])

theorem items_global (F : Flags) (K : Consts) (rd : Reader) (hr : Trailing rd) {s : Sec} (hs : Sec.many s = false) :
    ∀ (is : List Item) (r : List (List Char)) (last : List Char) (env : Env) (sp du : List Env) (ended : Sec → Bool), (∀ i ∈ is, i.Ok F rd s) →
      ∃ last', lines F K rd (is.map Item.line ++ r) last ⟨env, sp, du, ended, some s⟩ =
        lines F K rd r last' ⟨settings K is env, sp, du, ended, some s⟩ ∧
        (last' = last ∧ is = [] ∨ ∃ i ∈ is, i.line = last' ∧ settings K is env = i.apply K (settings K is env))
  | [], r, last, env, sp, du, ended, _ => ⟨last, rfl, Or.inl ⟨rfl, rfl⟩⟩
  | i :: is, r, last, env, sp, du, ended, h => by
    have hi := body_item F K rd hr s (h i (by simp)) env
    have hline : line F K rd ⟨env, sp, du, ended, some s⟩ i.line = .ok ⟨i.apply K env, sp, du, ended, some s⟩ := by
      unfold line
      dsimp only
      rw [inSection_global F K rd hs _ ⟨env, sp, du, ended, some s⟩ hi]
      rfl
    obtain ⟨last', h', hl⟩ := items_global F K rd hr hs is r i.line (i.apply K env) sp du ended (fun x hx => h x (by simp [hx]))
    refine ⟨last', ?_, ?_⟩
    · rw [List.map_cons, List.cons_append, lines_cons hline]
      exact h'
    · right
      rcases hl with ⟨rfl, rfl⟩ | ⟨j, hj, hjl, hjs⟩
      · refine ⟨i, by simp, rfl, ?_⟩
        show i.apply K env = i.apply K (i.apply K env)
        cases i with
        | comment l => rfl
        | idle l => rfl
        | set l d v =>
          funext n
          show d.apply K v env n = d.apply K v (d.apply K v env) n
          unfold Doc.apply
          split
          · rfl
          · split <;> rfl
      · exact ⟨j, by simp [hj], hjl, hjs⟩

theorem getLastD_append (l : List Env) (e d : Env) : (l ++ [e]).getLastD d = e := by simp [List.getLastD_eq_getLast?]

theorem setLast_append (l : List Env) (e e' : Env) : setLast (l ++ [e]) e' = l ++ [e'] := by simp [setLast]

theorem inSection_object (F : Flags) (K : Consts) (rd : Reader) {s : Sec} (hs : s = .species ∨ s = .antenna) (buf : List Char) (env : Env)
    (sp du : List Env) (ended : Sec → Bool) (m : Option Sec) {e e' : Env} {b : Bool}
    (h : body rd (tableOf F K s) (endKey s) buf e = .ok (e', b)) :
    inSection F K rd s buf ⟨env, sp ++ [e], du, ended, m⟩ = .ok (⟨env, sp ++ [e'], du, ended, m⟩, b) := by
  rcases hs with rfl | rfl
  all_goals
    unfold inSection
    dsimp only
    rw [getLastD_append, h]
    simp only [except_bind_ok, setLast_append]

theorem items_object (F : Flags) (K : Consts) (rd : Reader) (hr : Trailing rd) {s : Sec} (hs : s = .species ∨ s = .antenna) :
    ∀ (is : List Item) (r : List (List Char)) (last : List Char) (e env : Env) (sp du : List Env) (ended : Sec → Bool), (∀ i ∈ is, i.Ok F rd s) →
      ∃ last', lines F K rd (is.map Item.line ++ r) last ⟨env, sp ++ [e], du, ended, some s⟩ =
        lines F K rd r last' ⟨env, sp ++ [settings K is e], du, ended, some s⟩
  | [], r, last, e, env, sp, du, ended, _ => ⟨last, rfl⟩
  | i :: is, r, last, e, env, sp, du, ended, h => by
    have hi := body_item F K rd hr s (h i (by simp)) e
    have hline : line F K rd ⟨env, sp ++ [e], du, ended, some s⟩ i.line = .ok ⟨env, sp ++ [i.apply K e], du, ended, some s⟩ := by
      unfold line
      dsimp only
      rw [inSection_object F K rd hs _ env sp du ended _ hi]
      rfl
    obtain ⟨last', h'⟩ := items_object F K rd hr hs is r i.line (i.apply K e) env sp du ended (fun x hx => h x (by simp [hx]))
    refine ⟨last', ?_⟩
    rw [List.map_cons, List.cons_append, lines_cons hline]
    exact h'

theorem dumpDocs_param : ∀ d ∈ dumpDocs, d.key ≠ c!"species_name" → d.param ≠ c!"dump_name" ∧ d.more = .nothing := by
  decide +kernel

theorem item_dump_name (F : Flags) (K : Consts) (rd : Reader) {i : Item} (hi : i.Ok F rd .dump) {e : Env} (he : e c!"dump_name" = none) :
    i.apply K e c!"dump_name" = none := by
  cases i with
  | comment l => exact he
  | idle l => exact he
  | set l d v =>
    obtain ⟨hd, _, hne, _⟩ := hi
    obtain ⟨hp, hm⟩ := dumpDocs_param d hd (fun h => hne ⟨rfl, h⟩)
    show d.apply K v e c!"dump_name" = none
    unfold Doc.apply
    rw [hm]
    show (if c!"dump_name" = d.param then _ else e c!"dump_name") = none
    rw [if_neg (fun h => hp h.symm), he]

theorem lookup_none (sp : List Env) {e : Env} (he : e c!"dump_name" = none) : lookup sp e = .ok e := by
  unfold lookup
  rw [he]

theorem inSection_dump (F : Flags) (K : Consts) (rd : Reader) (buf : List Char) (env : Env)
    (sp du : List Env) (ended : Sec → Bool) (m : Option Sec) {e e' : Env} {b : Bool}
    (h : body rd (tableOf F K .dump) (endKey .dump) buf e = .ok (e', b)) (he : e' c!"dump_name" = none) :
    inSection F K rd .dump buf ⟨env, sp, du ++ [e], ended, m⟩ = .ok (⟨env, sp, du ++ [e'], ended, m⟩, b) := by
  unfold inSection
  dsimp only
  rw [getLastD_append, h]
  simp only [except_bind_ok, setLast_append, lookup_none sp he]

theorem items_dump (F : Flags) (K : Consts) (rd : Reader) (hr : Trailing rd) :
    ∀ (is : List Item) (r : List (List Char)) (last : List Char) (e env : Env) (sp du : List Env) (ended : Sec → Bool), (∀ i ∈ is, i.Ok F rd .dump) →
      e c!"dump_name" = none →
      (∃ last', lines F K rd (is.map Item.line ++ r) last ⟨env, sp, du ++ [e], ended, some .dump⟩ =
        lines F K rd r last' ⟨env, sp, du ++ [settings K is e], ended, some .dump⟩) ∧ settings K is e c!"dump_name" = none
  | [], r, last, e, env, sp, du, ended, _, he => ⟨⟨last, rfl⟩, he⟩
  | i :: is, r, last, e, env, sp, du, ended, h, he => by
    have hi := body_item F K rd hr .dump (h i (by simp)) e
    have he' := item_dump_name F K rd (h i (by simp)) he
    have hline : line F K rd ⟨env, sp, du ++ [e], ended, some .dump⟩ i.line = .ok ⟨env, sp, du ++ [i.apply K e], ended, some .dump⟩ := by
      unfold line
      dsimp only
      rw [inSection_dump F K rd _ env sp du ended _ hi he']
      rfl
    obtain ⟨⟨last', h'⟩, hn⟩ := items_dump F K rd hr is r i.line (i.apply K e) env sp du ended (fun x hx => h x (by simp [hx])) he'
    refine ⟨⟨last', ?_⟩, hn⟩
    rw [List.map_cons, List.cons_append, lines_cons hline]
    exact h'

/-- `end_section` of a reader that has met its end mark. -/
def mark (ended : Sec → Bool) (s : Sec) : Sec → Bool := fun s' => if s' = s then true else ended s'

theorem absorb_eq (e : Env) : absorbing e = absorb e := by
  funext n
  unfold absorbing absorb
  by_cases h : e c!"absorbing_bcs_x" = some (.logic true) ∨ e c!"absorbing_bcs_y" = some (.logic true) ∨ e c!"absorbing_bcs_z" = some (.logic true)
  · rw [if_pos h, set_apply]
    by_cases hn : n = c!"absorbing_bcs"
    · rw [if_pos hn, if_pos ⟨hn, h⟩]
    · rw [if_neg hn, if_neg (fun x => hn x.1)]
  · rw [if_neg h, if_neg (fun x => h x.2)]

theorem dumpInit_name (e : Env) : dumpInit e c!"dump_name" = none := by
  have h : ∀ (l : List (Name × Val)) (e : Env), (∀ a ∈ l, a.1 ≠ c!"dump_name") → e c!"dump_name" = none → e.sets l c!"dump_name" = none := by
    intro l
    induction l with
    | nil => intro e _ he; exact he
    | cons a l ih =>
      intro e hl he
      refine ih _ (fun x hx => hl x (by simp [hx])) ?_
      show (if _ = a.1 then _ else _) = _
      rw [if_neg (fun x => hl a (by simp) x.symm), he]
  apply h _ _ _ rfl
  have hcopy : ∀ (n m : Name), m ≠ c!"dump_name" → ∀ a ∈ copy e n m, a.1 ≠ c!"dump_name" := by
    intro n m hm a ha
    unfold copy at ha
    split at ha
    · simp only [List.mem_singleton] at ha; rw [ha]; exact hm
    · simp at ha
  intro a ha
  simp only [List.mem_append] at ha
  rcases ha with ((((((h | h) | h) | h) | h) | h) | h) | h
  · simp only [List.mem_singleton] at h; rw [h]; decide
  · exact hcopy _ _ (by decide) a h
  · exact hcopy _ _ (by decide) a h
  · exact hcopy _ _ (by decide) a h
  · exact hcopy _ _ (by decide) a h
  · exact hcopy _ _ (by decide) a h
  · exact hcopy _ _ (by decide) a h
  · revert a; decide

/-- A whole section. -/
theorem block_run (F : Flags) (K : Consts) (rd : Reader) (hr : Trailing rd) {b : Block} (hb : b.Ok F rd) (d : Deck) (ended : Sec → Bool)
    (hn : Sec.many b.sec = false → ended b.sec = false)
    (hsp : d.species.length + nSpecies [b] ≤ nspeciesMax) (hdu : d.dumps.length + nDumps [b] ≤ nspeciesMax) (r : List (List Char)) (last : List Char) :
    ∃ last', lines F K rd (b.lines ++ r) last ⟨d.env, d.species, d.dumps, ended, none⟩ =
      lines F K rd r last' ⟨(b.meaning K d).env, (b.meaning K d).species, (b.meaning K d).dumps, mark ended b.sec, none⟩ := by
  obtain ⟨sec, header, items, close, after⟩ := b
  obtain ⟨hT, hH, hI, hC, hA⟩ := hb
  dsimp only at hT hH hI hC hA hn
  have hlines : ∀ r, Block.lines ⟨sec, header, items, close, after⟩ ++ r = header :: (items.map Item.line ++ (close :: (after ++ r))) := by
    intro r; simp [Block.lines]
  rw [hlines]
  have hclose := fun e => body_close F K rd sec hT hC e
  cases hmany : Sec.many sec with
  | false =>
    -- settings of the simulation
    have henter : enter K sec ⟨d.env, d.species, d.dumps, ended, none⟩ = .ok ⟨d.env, d.species, d.dumps, ended, some sec⟩ := by
      have := hn hmany
      cases sec <;> first | (exact absurd hmany (by decide)) | (unfold enter; simp only [this]; rfl)
    rw [lines_cons (by rw [line_header F K rd rfl hH, henter])]
    obtain ⟨last1, h1, _⟩ := items_global F K rd hr hmany items (close :: (after ++ r)) header d.env d.species d.dumps ended hI
    rw [h1]
    have hline : line F K rd ⟨settings K items d.env, d.species, d.dumps, ended, some sec⟩ close =
        leave sec ⟨settings K items d.env, d.species, d.dumps, mark ended sec, some sec⟩ := by
      unfold line
      dsimp only
      rw [inSection_global F K rd hmany _ ⟨settings K items d.env, d.species, d.dumps, ended, some sec⟩ (hclose _)]
      rfl
    have hleave : ∃ env', leave sec ⟨settings K items d.env, d.species, d.dumps, mark ended sec, some sec⟩ =
        .ok ⟨env', d.species, d.dumps, mark ended sec, none⟩ ∧
        Block.meaning K ⟨sec, header, items, close, after⟩ d = ⟨env', d.species, d.dumps⟩ := by
      cases sec <;> first
        | (exact absurd hmany (by decide))
        | exact ⟨settings K items d.env, rfl, rfl⟩
        | exact ⟨absorb (settings K items d.env), by unfold leave; simp only [absorb_eq], rfl⟩
    obtain ⟨env', hle, hmean⟩ := hleave
    rw [lines_cons (by rw [hline, hle]), hmean]
    exact lines_outside F K rd rfl after r close hA
  | true =>
    cases sec with
    | species =>
      have hg : grow d.species (speciesInit K) = .ok (d.species ++ [speciesInit K]) := by
        unfold grow; rw [if_pos]; simp only [nSpecies, List.map_cons, List.map_nil, List.sum_cons, List.sum_nil] at hsp; omega
      have henter : enter K .species ⟨d.env, d.species, d.dumps, ended, none⟩ =
          .ok ⟨d.env, d.species ++ [speciesInit K], d.dumps, ended, some .species⟩ := by
        unfold enter; simp only [hg, except_bind_ok]
      rw [lines_cons (by rw [line_header F K rd rfl hH, henter])]
      obtain ⟨last1, h1⟩ := items_object F K rd hr (Or.inl rfl) items (close :: (after ++ r)) header (speciesInit K) d.env d.species d.dumps ended hI
      rw [h1]
      have hline : line F K rd ⟨d.env, d.species ++ [settings K items (speciesInit K)], d.dumps, ended, some .species⟩ close =
          .ok ⟨d.env, d.species ++ [settings K items (speciesInit K)], d.dumps, mark ended .species, none⟩ := by
        unfold line
        dsimp only
        rw [inSection_object F K rd (Or.inl rfl) _ d.env d.species d.dumps ended _ (hclose _)]
        rfl
      rw [lines_cons hline]
      exact lines_outside F K rd rfl after r close hA
    | antenna =>
      have hlen : d.species.length + 2 ≤ nspeciesMax := by
        simpa only [nSpecies, List.map_cons, List.map_nil, List.sum_cons, List.sum_nil, Nat.add_zero] using hsp
      have hg : grow d.species (antennaInit K) = .ok (d.species ++ [antennaInit K]) := by
        unfold grow; rw [if_pos (by omega)]
      have henter : enter K .antenna ⟨d.env, d.species, d.dumps, ended, none⟩ =
          .ok ⟨d.env, d.species ++ [antennaInit K], d.dumps, ended, some .antenna⟩ := by
        unfold enter; simp only [hg, except_bind_ok]
      rw [lines_cons (by rw [line_header F K rd rfl hH, henter])]
      obtain ⟨last1, h1⟩ := items_object F K rd hr (Or.inr rfl) items (close :: (after ++ r)) header (antennaInit K) d.env d.species d.dumps ended hI
      rw [h1]
      have hline : line F K rd ⟨d.env, d.species ++ [settings K items (antennaInit K)], d.dumps, ended, some .antenna⟩ close =
          .ok ⟨d.env, d.species ++ [settings K items (antennaInit K)] ++ [(settings K items (antennaInit K)).set c!"charge" (.real (-1))], d.dumps,
            mark ended .antenna, none⟩ := by
        unfold line
        dsimp only
        rw [inSection_object F K rd (Or.inr rfl) _ d.env d.species d.dumps ended _ (hclose _)]
        show leave .antenna ⟨d.env, d.species ++ [settings K items (antennaInit K)], d.dumps, mark ended .antenna, some .antenna⟩ = _
        unfold leave
        dsimp only
        rw [List.getLast?_append]
        show (grow _ _ >>= _) = _
        unfold grow
        rw [if_pos (by simp only [List.length_append, List.length_singleton]; omega)]
        rfl
      rw [lines_cons hline, List.append_assoc]
      exact lines_outside F K rd rfl after r close hA
    | dump =>
      have hg : grow d.dumps (dumpInit d.env) = .ok (d.dumps ++ [dumpInit d.env]) := by
        unfold grow; rw [if_pos]
        have : nDumps [(⟨.dump, header, items, close, after⟩ : Block)] = 1 := rfl
        omega
      have henter : enter K .dump ⟨d.env, d.species, d.dumps, ended, none⟩ =
          .ok ⟨d.env, d.species, d.dumps ++ [dumpInit d.env], ended, some .dump⟩ := by
        unfold enter; simp only [hg, except_bind_ok]
      rw [lines_cons (by rw [line_header F K rd rfl hH, henter])]
      obtain ⟨⟨last1, h1⟩, hn⟩ := items_dump F K rd hr items (close :: (after ++ r)) header (dumpInit d.env) d.env d.species d.dumps ended hI
        (dumpInit_name _)
      rw [h1]
      have hline : line F K rd ⟨d.env, d.species, d.dumps ++ [settings K items (dumpInit d.env)], ended, some .dump⟩ close =
          .ok ⟨d.env, d.species, d.dumps ++ [settings K items (dumpInit d.env)], mark ended .dump, none⟩ := by
        unfold line
        dsimp only
        rw [inSection_dump F K rd _ d.env d.species d.dumps ended _ (hclose _) hn]
        rfl
      rw [lines_cons hline]
      exact lines_outside F K rd rfl after r close hA
    | _ => exact absurd hmany (by decide)

theorem nSpecies_cons (b : Block) (bs : List Block) : nSpecies (b :: bs) = nSpecies [b] + nSpecies bs := by
  simp [nSpecies]

theorem nDumps_cons (b : Block) (bs : List Block) : nDumps (b :: bs) = nDumps [b] + nDumps bs := by
  unfold nDumps
  rw [show b :: bs = [b] ++ bs from rfl, List.filter_append, List.length_append]

theorem meaning_species (K : Consts) (b : Block) (d : Deck) : (b.meaning K d).species.length = d.species.length + nSpecies [b] := by
  obtain ⟨sec, header, items, close, after⟩ := b
  cases sec <;> simp [Block.meaning, nSpecies]

theorem meaning_dumps (K : Consts) (b : Block) (d : Deck) : (b.meaning K d).dumps.length = d.dumps.length + nDumps [b] := by
  obtain ⟨sec, header, items, close, after⟩ := b
  cases sec <;> simp [Block.meaning, nDumps]

/-- All the sections of a file. -/
theorem blocks_run (F : Flags) (K : Consts) (rd : Reader) (hr : Trailing rd) : ∀ (bs : List Block) (d : Deck) (ended : Sec → Bool),
    (∀ b ∈ bs, b.Ok F rd) → NoRepeat bs → (∀ b ∈ bs, Sec.many b.sec = false → ended b.sec = false) →
    d.species.length + nSpecies bs ≤ nspeciesMax → d.dumps.length + nDumps bs ≤ nspeciesMax → ∀ (r : List (List Char)) (last : List Char),
    ∃ last' ended', lines F K rd (bs.flatMap Block.lines ++ r) last ⟨d.env, d.species, d.dumps, ended, none⟩ =
      lines F K rd r last' ⟨(meaning K bs d).env, (meaning K bs d).species, (meaning K bs d).dumps, ended', none⟩ ∧
      ∀ s, (∀ b ∈ bs, b.sec ≠ s) → ended' s = ended s
  | [], d, ended, _, _, _, _, _, r, last => ⟨last, ended, rfl, fun _ _ => rfl⟩
  | b :: bs, d, ended, hok, hnr, he, hsp, hdu, r, last => by
    rw [nSpecies_cons] at hsp
    rw [nDumps_cons] at hdu
    obtain ⟨last1, h1⟩ := block_run F K rd hr (hok b (by simp)) d ended (he b (by simp)) (by omega) (by omega) (bs.flatMap Block.lines ++ r) last
    have hnr' : NoRepeat bs := by
      unfold NoRepeat at hnr ⊢
      rw [List.map_cons, List.filter_cons] at hnr
      split at hnr
      · exact (List.nodup_cons.mp hnr).2
      · exact hnr
    have he' : ∀ c ∈ bs, Sec.many c.sec = false → mark ended b.sec c.sec = false := by
      intro c hc hm
      unfold mark
      rw [if_neg, he c (by simp [hc]) hm]
      intro heq
      unfold NoRepeat at hnr
      rw [List.map_cons, List.filter_cons, if_pos (by rw [← heq, hm]; rfl)] at hnr
      apply (List.nodup_cons.mp hnr).1
      rw [← heq, List.mem_filter]
      exact ⟨List.mem_map_of_mem hc, by rw [hm]; rfl⟩
    obtain ⟨last2, ended2, h2, h3⟩ := blocks_run F K rd hr bs (b.meaning K d) (mark ended b.sec) (fun c hc => hok c (by simp [hc])) hnr' he'
      (by rw [meaning_species]; omega) (by rw [meaning_dumps]; omega) r last1
    refine ⟨last2, ended2, ?_, ?_⟩
    · rw [List.flatMap_cons, List.append_assoc, h1, h2]
      rfl
    · intro s hs
      rw [h3 s (fun c hc => hs c (by simp [hc]))]
      unfold mark
      rw [if_neg (fun h => hs b (by simp) h.symm)]

end Picsar.Lemmas.InputL
