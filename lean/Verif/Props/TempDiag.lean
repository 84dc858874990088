import Verif.Lemmas.TempDiag
import Mathlib.Tactic.IntervalCases

/-
C103: the temporal diagnostics.
-/
namespace Picsar.Props
open Picsar Picsar.TempDiag

/-- C103, values. For every selection of the ten diagnostics and every number of species, what would be written for a diagnostic that is
switched on is the sum over the processes of its local values, under a root for the norms: the values of different diagnostics do not
overlap in the buffer, and no element is left unset. -/
theorem C103_values (act : ℕ → Option ℤ) (hg : Given act) (ns : ℕ) :
    ∃ L, initLayout act ns = .ok L ∧ ∀ qs, ∃ g, globalValues act ns L qs = .ok g ∧ ∀ d, On act d → slice L g d = .ok (record ns d qs) := by
  obtain ⟨L, e, hL⟩ := initLayout_ok hg ns
  refine ⟨L, e, fun qs => ?_⟩
  obtain ⟨g, e', h⟩ := global_ok hg hL qs
  refine ⟨g, e', fun d hd => ?_⟩
  obtain ⟨a, b, c⟩ := on_iff.mpr hd
  exact h d a b c

/-- Kinetic energy of two species on two processes, and the norm of `rho` (9). -/
example : record 2 1 [fun _ k => k + 1, fun _ _ => 10] = [some 11, some 12] ∧ record 2 9 [fun _ _ => 9, fun _ _ => 16] = [some 5] := by
  refine ⟨?_, ?_⟩
  · simp [record, value, List.range_succ]
    norm_num
  · have h : √(25 : ℝ) = 5 := by rw [show (25 : ℝ) = 5 ^ 2 by norm_num]; exact Real.sqrt_sq (by norm_num)
    simp [record, value, List.range_succ]
    norm_num
    exact h

/-- C103, files. If the diagnostics switched on are the first `m` of the list, and there are fewer than `m` processes, or exactly `m` and
no field is ever dumped, then every diagnostic switched on has a file with its head and one record per output, in order; nothing goes
elsewhere. Missing: other selections, more processes, and field dumps with exactly `m` processes, where it is false. -/
theorem C103_files_partial (act : ℕ → Option ℤ) (hg : Given act) (m : ℕ) (hm : ∀ d, On act d ↔ 1 ≤ d ∧ d ≤ m) (ns : ℕ) (period : ℝ) (nproc : ℕ)
    (es : List Event) (h : nproc < m ∨ nproc = m ∧ Event.field ∉ es) :
    ∃ w, run act ns period nproc es = .ok w ∧ w.fort = [] ∧
      (∀ d, On act d → w.file d = some (.head (some (if d = 1 then ns else 1)) period :: records ns d es)) ∧
      ∀ d, ¬ On act d → w.file d = none := by
  obtain ⟨L, e, hL⟩ := initLayout_ok hg ns
  have m10 : m ≤ 10 := by
    by_contra hlt
    have := ((hm 11).mpr ⟨by omega, by omega⟩).2.1
    omega
  have hnb : L.nb = m := by
    rw [hL.nb, nbOn_prefix hm 10 le_rfl]
    omega
  have hon : ∀ d, 1 ≤ d → d ≤ m → on act d = true := fun d a b => (on_iff.mpr ((hm d).mpr ⟨a, b⟩)).2.2
  obtain ⟨w0, e0, f0, h1, h2⟩ := openFiles_ok hg hL period nproc
  rw [hnb] at h1 h2
  have key : ∀ (es : List Event) (w : World) (R : ℕ → List Rec), (nproc < m ∨ nproc = m ∧ Event.field ∉ es) → w.fort = [] →
      (∀ d, 1 ≤ d → d ≤ m → w.file d = some (R d)) → (∀ d, ¬ (1 ≤ d ∧ d ≤ m) → w.file d = none) →
      (∀ d, 1 ≤ d → d ≤ m → (m ≤ nproc → w.unit (d - 1) 42 = some d) ∧ (nproc < m → w.unit 0 (42 + d) = some d)) →
      ∃ w', es.foldlM (event act ns L nproc) w = .ok w' ∧ w'.fort = [] ∧
        (∀ d, 1 ≤ d → d ≤ m → w'.file d = some (R d ++ records ns d es)) ∧ ∀ d, ¬ (1 ≤ d ∧ d ≤ m) → w'.file d = none := by
    intro es
    induction es with
    | nil => exact fun w R _ hf hr hr' _ => ⟨w, rfl, hf, fun d a b => by rw [hr d a b]; simp [records], hr'⟩
    | cons ev es ih =>
      intro w R h hf hr hr' hu
      have h' : nproc < m ∨ nproc = m ∧ Event.field ∉ es := by
        rcases h with h | h
        · exact Or.inl h
        · exact Or.inr ⟨h.1, fun hh => h.2 (List.mem_cons_of_mem _ hh)⟩
      rw [List.foldlM_cons]
      cases ev with
      | field =>
        have hlt : nproc < m := by
          rcases h with h | h
          · exact h
          · exact absurd List.mem_cons_self h.2
        show ∃ w', (Except.ok _ >>= fun w => es.foldlM (event act ns L nproc) w) = .ok w' ∧ _
        rw [except_bind_ok]
        obtain ⟨w', a, b, c, d⟩ := ih { w with unit := Function.update w.unit 0 (Function.update (w.unit 0) 42 none) } R h' hf hr hr' (fun d a b => ⟨fun hh => by omega, fun _ => by
          show Function.update w.unit 0 (Function.update (w.unit 0) 42 none) 0 (42 + d) = some d
          rw [Function.update_self, Function.update_of_ne (by omega)]
          exact (hu d a b).2 hlt⟩)
        exact ⟨w', a, b, c, d⟩
      | out qs =>
        obtain ⟨g, eg, hs⟩ := global_ok hg hL qs
        have ho : ∃ w1, output L nproc g w = .ok w1 ∧ (∀ d, 1 ≤ d → d ≤ m → w1.file d = some (R d ++ [.vals (record ns d qs)])) ∧
            (∀ d, ¬ (1 ≤ d ∧ d ≤ m) → w1.file d = none) ∧ w1.unit = w.unit ∧ w1.fort = w.fort := by
          unfold output
          rw [hnb]
          rcases Nat.lt_or_ge nproc m with hlt | hge
          · rw [if_neg (by omega)]
            obtain ⟨w1, a, b, c, d, f⟩ := writes_ok (fun w i => do
                let l ← slice L g i
                .ok (write w 0 (42 + i) (.vals l))) (fun _ => 0) (fun i => 42 + i) (fun i => i) (fun d => record ns d qs) (List.range' 1 m)
              List.nodup_range' (fun w i hi => by
                rw [List.mem_range'_1] at hi
                rw [hs i hi.1 (by omega) (hon i hi.1 (by omega)), except_bind_ok]) (fun x _ y _ hxy => hxy) w
              (fun i hi => by
                rw [List.mem_range'_1] at hi
                exact (hu i hi.1 (by omega)).2 hlt)
            refine ⟨w1, a, fun k h1 h2 => ?_, fun k hk => ?_, d, f⟩
            · rw [b k (List.mem_range'_1.mpr ⟨h1, by omega⟩), hr k h1 h2]
              rfl
            · rw [c k fun i hi he => hk (by rw [List.mem_range'_1] at hi; omega)]
              exact hr' k hk
          · rw [if_pos hge]
            have hnm : nproc = m := by
              rcases h' with h' | h'
              · omega
              · exact h'.1
            subst hnm
            obtain ⟨w1, a, b, c, d, f⟩ := writes_ok (fun w r => if r ≤ nproc then do
                let l ← slice L g (r + 1)
                .ok (write w r 42 (.vals l)) else .ok w) (fun r => r) (fun _ => 42) (fun r => r + 1) (fun d => record ns d qs)
              (List.range nproc) List.nodup_range (fun w r hr => by
                rw [List.mem_range] at hr
                simp only [if_pos (Nat.le_of_lt hr)]
                rw [hs (r + 1) (by omega) (by omega) (hon (r + 1) (by omega) (by omega)), except_bind_ok]) (fun x _ y _ hxy => by omega) w
              (fun r hr => by
                rw [List.mem_range] at hr
                exact (hu (r + 1) (by omega) (by omega)).1 le_rfl)
            refine ⟨w1, a, fun k h1 h2 => ?_, fun k hk => ?_, d, f⟩
            · obtain ⟨r, rfl⟩ : ∃ r, k = r + 1 := ⟨k - 1, by omega⟩
              rw [b r (List.mem_range.mpr (by omega)), hr _ h1 h2]
              rfl
            · rw [c k fun i hi he => hk (by rw [List.mem_range] at hi; omega)]
              exact hr' k hk
        obtain ⟨w1, a1, a2, a3, a4, a5⟩ := ho
        have ee : event act ns L nproc w (.out qs) = .ok w1 := by
          show (globalValues act ns L qs >>= fun g => output L nproc g w) = _
          rw [eg, except_bind_ok, a1]
        rw [ee, except_bind_ok]
        obtain ⟨w', b1, b2, b3, b4⟩ := ih w1 (fun d => R d ++ [.vals (record ns d qs)]) h' (by rw [a5, hf]) a2 a3 (by rw [a4]; exact hu)
        refine ⟨w', b1, b2, fun d x y => ?_, b4⟩
        rw [b3 d x y, List.append_assoc]
        rfl
  obtain ⟨w, a, b, c, d⟩ := key es w0 (fun d => [.head (some (nbValues ns d)) period]) h f0
    (fun d x y => (h1 d x y (hon d x y)).1) (fun d hd => h2 d fun hh => hd ⟨hh.1, hh.2.1⟩) (fun d x y => (h1 d x y (hon d x y)).2)
  refine ⟨w, ?_, b, fun k hk => ?_, fun k hk => d k fun hh => hk ((hm k).mpr hh)⟩
  · unfold run
    rw [e, except_bind_ok, e0, except_bind_ok, a]
  · obtain ⟨x, y⟩ := (hm k).mp hk
    rw [c k x y]
    rfl

/-- The first three diagnostics on, two processes, two outputs and a field dump between them. -/
example : ∃ act : ℕ → Option ℤ, Given act ∧ (∀ d, On act d ↔ 1 ≤ d ∧ d ≤ 3) ∧ 2 < 3 := by
  refine ⟨fun d => some (if 1 ≤ d ∧ d ≤ 3 then 1 else 0), fun d _ _ => by simp, fun d => ?_, by norm_num⟩
  constructor
  · rintro ⟨-, -, a, e, h⟩
    simp only [Option.some.injEq] at e
    subst e
    by_contra hn
    rw [if_neg hn] at h
    exact absurd h (by norm_num)
  · intro h
    exact ⟨h.1, by omega, 1, by simp only [if_pos h], one_pos⟩

theorem TempDiag_output_fault {act : ℕ → Option ℤ} {ns : ℕ} {L : Layout} (hL : IsLayout act ns L) {nproc d : ℕ} (g : Vals) (w : World)
    (hd : ¬ On act d) (h1 : 1 ≤ d) (h2 : d ≤ L.nb + 1) (h3 : L.nb ≤ nproc → d ≤ nproc) (h4 : nproc < L.nb → d ≤ L.nb) :
    output L nproc g w = .error .uninitialised := by
  have hs := slice_unset hL (fun h => hd (on_iff.mp h)) g
  unfold output
  by_cases hp : nproc ≥ L.nb
  · rw [if_pos hp]
    apply foldlM_fault
    · intro s r _
      by_cases hr : r ≤ L.nb
      · simp only [if_pos hr]
        rcases slice_cases hL (r + 1) g with ⟨l, e⟩ | e
        · rw [e, except_bind_ok]
          exact Or.inl ⟨_, rfl⟩
        · rw [e]
          exact Or.inr rfl
      · simp only [if_neg hr]
        exact Or.inl ⟨_, rfl⟩
    · refine ⟨d - 1, List.mem_range.mpr (by have := h3 hp; omega), fun s => ?_⟩
      simp only [if_pos (show d - 1 ≤ L.nb by omega)]
      rw [show d - 1 + 1 = d by omega, hs]
      rfl
  · rw [if_neg hp]
    apply foldlM_fault
    · intro s r _
      rcases slice_cases hL r g with ⟨l, e⟩ | e
      · rw [e, except_bind_ok]
        exact Or.inl ⟨_, rfl⟩
      · rw [e]
        exact Or.inr rfl
    · refine ⟨d, List.mem_range'_1.mpr ⟨h1, by have := h4 (by omega); omega⟩, fun s => ?_⟩
      rw [hs]
      rfl

theorem TempDiag_run_fault {act : ℕ → Option ℤ} (hg : Given act) {ns : ℕ} (period : ℝ) {nproc d : ℕ} {L : Layout} (e : initLayout act ns = .ok L)
    (hL : IsLayout act ns L)
    (hd : ¬ On act d) (h1 : 1 ≤ d) (h2 : d ≤ L.nb + 1) (h3 : L.nb ≤ nproc → d ≤ nproc) (h4 : nproc < L.nb → d ≤ L.nb)
    (es : List Event) (he : ∃ qs, Event.out qs ∈ es) : run act ns period nproc es = .error .uninitialised := by
  obtain ⟨w0, e0, -, -, -⟩ := openFiles_ok hg hL period nproc
  unfold run
  rw [e, except_bind_ok, e0, except_bind_ok]
  have step : ∀ (w : World) qs, event act ns L nproc w (.out qs) = .error .uninitialised := by
    intro w qs
    obtain ⟨g, eg, -⟩ := global_ok hg hL qs
    show (globalValues act ns L qs >>= fun g => output L nproc g w) = _
    rw [eg, except_bind_ok]
    exact TempDiag_output_fault hL g w hd h1 h2 h3 h4
  apply foldlM_fault
  · intro w ev _
    cases ev with
    | field => exact Or.inl ⟨_, rfl⟩
    | out qs => exact Or.inr (step w qs)
  · obtain ⟨qs, hq⟩ := he
    exact ⟨_, hq, fun w => step w qs⟩

/-- C103, refuted for a selection that leaves out a diagnostic before one that is switched on: the first output reads indices that have
never been set, whatever the number of processes. -/
theorem C103_gap_refuted (act : ℕ → Option ℤ) (hg : Given act) (a b : ℕ) (ha : 1 ≤ a) (hab : a < b) (hna : ¬ On act a) (hb : On act b)
    (ns : ℕ) (period : ℝ) (nproc : ℕ) (es : List Event) (he : ∃ qs, Event.out qs ∈ es) :
    run act ns period nproc es = .error .uninitialised := by
  obtain ⟨L, e, hL⟩ := initLayout_ok hg ns
  have hmin : ∃ c, 1 ≤ c ∧ c ≤ a ∧ ¬ On act c ∧ ∀ j, j < c → nbOn act j = j := by
    clear hab hb he e hL
    induction a using Nat.strong_induction_on with
    | _ a ih =>
      by_cases hx : ∃ c, 1 ≤ c ∧ c < a ∧ ¬ On act c
      · obtain ⟨c, h1, h2, h3⟩ := hx
        obtain ⟨c', x1, x2, x3, x4⟩ := ih c h2 h1 h3
        exact ⟨c', x1, by omega, x3, x4⟩
      · refine ⟨a, ha, le_rfl, hna, fun j hj => ?_⟩
        induction j with
        | zero => rfl
        | succ j ihj =>
          rw [nbOn, ihj (by omega), if_pos]
          by_contra hn
          exact hx ⟨j + 1, by omega, hj, fun h => hn (on_iff.mpr h).2.2⟩
  obtain ⟨c, h1, h2, h3, h4⟩ := hmin
  obtain ⟨b1, b2, b3⟩ := on_iff.mpr hb
  have hge : c ≤ L.nb := by
    rw [hL.nb]
    refine le_trans ?_ (nbOn_le act b2)
    obtain ⟨b', rfl⟩ : ∃ b', b = b' + 1 := ⟨b - 1, by omega⟩
    rw [nbOn, if_pos b3]
    have := nbOn_le act (show c - 1 ≤ b' by omega)
    rw [h4 (c - 1) (by omega)] at this
    omega
  exact TempDiag_run_fault hg period e hL h3 h1 (by omega) (fun h => by omega) (fun _ => hge) es he

/-- C103, refuted for such selections: if one of the earlier diagnostics is off, the last one that is switched on has no file, as long as
the run survives. -/
theorem C103_no_file_refuted (act : ℕ → Option ℤ) (hg : Given act) (a b : ℕ) (ha : 1 ≤ a) (hab : a < b) (hna : ¬ On act a) (hb : On act b)
    (hl : ∀ d, On act d → d ≤ b) (ns : ℕ) (period : ℝ) (nproc : ℕ) (es : List Event) (w : World) (hw : run act ns period nproc es = .ok w) :
    w.file b = none := by
  obtain ⟨L, e, hL⟩ := initLayout_ok hg ns
  obtain ⟨w0, e', -, -, h⟩ := openFiles_ok hg hL period nproc
  have grow : ∀ c, a ≤ c → nbOn act c < c := by
    intro c hc
    induction c with
    | zero => omega
    | succ c ih =>
      rw [nbOn]
      rcases Nat.lt_or_ge c a with hlt | hge
      · obtain rfl : a = c + 1 := by omega
        have hb10 := hb.2.1
        rw [if_neg fun h => hna (on_iff.mp ⟨ha, by omega, h⟩)]
        have := nbOn_le_self act c
        omega
      · have := ih hge
        split <;> omega
  have top : ∀ c, b ≤ c → c ≤ 10 → nbOn act c = nbOn act b := by
    intro c hc h10
    induction c with
    | zero => rw [show b = 0 by omega]
    | succ c ih =>
      rcases Nat.lt_or_ge c b with hlt | hge
      · rw [show b = c + 1 by omega]
      · rw [nbOn, if_neg fun h => by have := hl _ (on_iff.mp ⟨by omega, h10, h⟩); omega]
        exact ih hge (by omega)
  have hnb : L.nb < b := by
    rw [hL.nb, top 10 hb.2.1 le_rfl]
    exact grow b (by omega)
  have h0 : w0.file b = none := h b (by omega)
  have hno : ∀ qs, Event.out qs ∉ es := by
    intro qs hq
    rw [C103_gap_refuted act hg a b ha hab hna hb ns period nproc es ⟨qs, hq⟩] at hw
    exact absurd hw (by simp)
  have keep : ∀ (es : List Event) (w w' : World), (∀ qs, Event.out qs ∉ es) → w.file b = none →
      es.foldlM (event act ns L nproc) w = .ok w' → w'.file b = none := by
    intro es
    induction es with
    | nil =>
      intro w w' _ hn hr
      obtain rfl : w = w' := Except.ok.inj hr
      exact hn
    | cons ev es ih =>
      intro w w' hx hn hr
      cases ev with
      | field =>
        exact ih { w with unit := Function.update w.unit 0 (Function.update (w.unit 0) 42 none) } w'
          (fun qs hq => hx qs (List.mem_cons_of_mem _ hq)) hn hr
      | out qs => exact absurd List.mem_cons_self (hx qs)
  unfold run at hw
  rw [e, except_bind_ok, e', except_bind_ok] at hw
  exact keep es w0 w hno h0 hw

/-- Only the kinetic energy and the norm of `rho`. -/
example : ∃ act : ℕ → Option ℤ, Given act ∧ On act 1 ∧ ¬ On act 2 ∧ On act 9 :=
  ⟨fun d => some (if d = 1 ∨ d = 9 then 1 else 0), fun _ _ _ => by simp, ⟨by norm_num, by norm_num, 1, by simp, one_pos⟩,
    by rintro ⟨-, -, a, e, h⟩; simp at e; omega, ⟨by norm_num, by norm_num, 1, by simp, one_pos⟩⟩

/-- C103, refuted with more processes than diagnostics: the test `rank.le.temdiag_nb` lets one process too many write, with indices that
have never been set. -/
theorem C103_extra_process_refuted (act : ℕ → Option ℤ) (hg : Given act) (m : ℕ) (hm : ∀ d, On act d ↔ 1 ≤ d ∧ d ≤ m) (ns : ℕ) (period : ℝ)
    (nproc : ℕ) (hp : m < nproc) (es : List Event) (he : ∃ qs, Event.out qs ∈ es) : run act ns period nproc es = .error .uninitialised := by
  obtain ⟨L, e, hL⟩ := initLayout_ok hg ns
  have m10 : m ≤ 10 := by
    by_contra hlt
    have := ((hm 11).mpr ⟨by omega, by omega⟩).2.1
    omega
  have hnb : L.nb = m := by
    rw [hL.nb, nbOn_prefix hm 10 le_rfl]
    omega
  exact TempDiag_run_fault hg period e hL (d := m + 1) (fun h => by have := ((hm _).mp h).2; omega) (by omega) (by omega)
    (fun _ => by omega) (fun h => by omega) es he

/-- C103, refuted when there are as many processes as diagnostics and a field is dumped: the dump takes unit 42 from the first
diagnostic, and all its later records go to the file of an unconnected unit. -/
theorem C103_unit_refuted (act : ℕ → Option ℤ) (hg : Given act) (hm : ∀ d, On act d ↔ d = 1) (ns : ℕ) (period : ℝ) (qs : List (ℕ → ℕ → ℝ)) :
    ∃ w, run act ns period 1 [.field, .out qs] = .ok w ∧ w.file 1 = some [.head (some ns) period] ∧ w.fort = [.vals (record ns 1 qs)] := by
  obtain ⟨L, e, hL⟩ := initLayout_ok hg ns
  have hm' : ∀ d, On act d ↔ 1 ≤ d ∧ d ≤ 1 := fun d => (hm d).trans (by omega)
  have hnb : L.nb = 1 := by
    rw [hL.nb, nbOn_prefix hm' 10 le_rfl]
    rfl
  have ho : on act 1 = true := (on_iff.mpr ((hm 1).mpr rfl)).2.2
  obtain ⟨w0, e0, f0, h1, -⟩ := openFiles_ok hg hL period 1
  obtain ⟨x, -, -⟩ := h1 1 le_rfl (by omega) ho
  obtain ⟨g, eg, hs⟩ := global_ok hg hL qs
  refine ⟨{ file := w0.file, unit := Function.update w0.unit 0 (Function.update (w0.unit 0) 42 none), fort := [.vals (record ns 1 qs)] }, ?_, x, rfl⟩
  unfold run
  rw [e, except_bind_ok, e0, except_bind_ok, List.foldlM_cons]
  show (Except.ok _ >>= fun w => List.foldlM (event act ns L 1) w [Event.out qs]) = _
  rw [except_bind_ok, List.foldlM_cons]
  have ee : event act ns L 1 { w0 with unit := Function.update w0.unit 0 (Function.update (w0.unit 0) 42 none) } (.out qs) =
      .ok { file := w0.file, unit := Function.update w0.unit 0 (Function.update (w0.unit 0) 42 none), fort := [.vals (record ns 1 qs)] } := by
    show (globalValues act ns L qs >>= fun g => output L 1 g _) = _
    rw [eg, except_bind_ok]
    unfold output
    rw [hnb, if_pos le_rfl, show List.range 1 = [0] from rfl, List.foldlM_cons, if_pos (by norm_num), hs 1 le_rfl (by norm_num) ho,
      except_bind_ok]
    show Except.ok (write _ 0 42 _) = _
    unfold write
    simp only [Function.update_self, f0, List.nil_append]
  rw [ee]
  rfl

/-- C103, refuted for an input file that does not mention all ten diagnostics: the setting has no value when it is tested. -/
theorem C103_default_refuted (act : ℕ → Option ℤ) (d : ℕ) (h1 : 1 ≤ d) (h2 : d ≤ 10) (h : act d = none) (ns : ℕ) (period : ℝ) (nproc : ℕ)
    (es : List Event) : run act ns period nproc es = .error .uninitialised := by
  have : initLayout act ns = .error .uninitialised := by
    apply foldlM_fault
    · intro L k _
      unfold layoutStep
      cases act k with
      | none => exact Or.inr rfl
      | some a =>
        left
        by_cases hp : a > 0
        · exact ⟨_, if_pos hp⟩
        · exact ⟨_, if_neg hp⟩
    · refine ⟨d, List.mem_range'_1.mpr ⟨h1, by omega⟩, fun L => ?_⟩
      unfold layoutStep
      rw [h]
  unfold run
  rw [this]
  rfl

/-- C103, steps: outputs are due at the multiples of the frequency, never if it is zero or negative. -/
theorem C103_due (freq : ℤ) (it : ℕ) : due freq it = true ↔ 0 < freq ∧ ∃ k : ℕ, (it : ℤ) = k * freq := by
  unfold due
  rw [Bool.and_eq_true, decide_eq_true_iff, decide_eq_true_iff]
  refine and_congr_right fun h => ?_
  rw [← Int.dvd_iff_tmod_eq_zero]
  constructor
  · rintro ⟨k, hk⟩
    have : 0 ≤ k := by
      by_contra hn
      have : freq * k < 0 := mul_neg_of_pos_of_neg h (by omega)
      omega
    exact ⟨k.toNat, by rw [Int.toNat_of_nonneg this, hk]; ring⟩
  · rintro ⟨k, hk⟩
    exact ⟨k, by rw [hk]; ring⟩

end Picsar.Props
