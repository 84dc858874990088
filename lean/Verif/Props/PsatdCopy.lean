import Verif.Lemmas.PsatdCopy

/-
Property C110: the copies between the fields and the arrays of the transform.
-/
namespace Picsar.Props
open Picsar Picsar.Grid Picsar.PsatdCopy

/-- Forward copy with currents that have at least as many guard cells as the fields. -/
theorem PsatdCopy_forward (nf : ℕ) (D : Dims) (M R : Local) (h : Shaped D M R) (hg : D.g.j ≤ D.gj.j ∧ D.g.k ≤ D.gj.k ∧ D.g.l ≤ D.gj.l) :
    ∃ R', forward nf M R = .ok R' ∧ ∀ i, InBox (R.fields 0).lo (R.fields 0).hi i →
      (∀ c, c < nf → (R'.fields c).val i = (M.fields c).val i) ∧
      ∀ c, c < 5 → (R'.sources c).val i = (M.sources c).val ⟨i.j + D.g.j - D.gj.j, i.k + D.g.k - D.gj.k, i.l + D.g.l - D.gj.l⟩ := by
  obtain ⟨vf, ef⟩ := Classical.axiomOfChoice h.mf
  obtain ⟨vs, es⟩ := Classical.axiomOfChoice h.ms
  obtain ⟨wf, er⟩ := Classical.axiomOfChoice h.rf
  obtain ⟨ws, et⟩ := Classical.axiomOfChoice h.rs
  have sf : ∀ i, InBox (fftArr D (wf 0)).lo (fftArr D (wf 0)).hi i → shift (fftArr D (wf 0)).lo (fieldArr D (vf 0)).lo i = i := by
    intro i hi
    refine (shift_fft h i (wf 0) D.g (fun h2 => (h.two h2).1) hi).trans ?_
    cases i
    simp only [I3.mk.injEq]
    omega
  have ss : ∀ i, InBox (fftArr D (wf 0)).lo (fftArr D (wf 0)).hi i → shift (fftArr D (wf 0)).lo (sourceArr D (vs 0)).lo i =
      ⟨i.j + D.g.j - D.gj.j, i.k + D.g.k - D.gj.k, i.l + D.g.l - D.gj.l⟩ :=
    fun i hi => shift_fft h i (wf 0) D.gj (fun h2 => (h.two h2).2) hi
  have hf : ∀ c, ∃ a, copyLoop (M.fields c) (shift (R.fields 0).lo (M.fields 0).lo) id (box (R.fields 0).lo (R.fields 0).hi) (R.fields c) = .ok a ∧
      ∀ i, InBox (R.fields 0).lo (R.fields 0).hi i → a.val i = (M.fields c).val i := by
    intro c
    rw [ef, ef, er, er]
    obtain ⟨v, e, ha, _⟩ := copyLoop_ok (fieldArr D (vf c)) (shift (fftArr D (wf 0)).lo (fieldArr D (vf 0)).lo) id (box (fftArr D (wf 0)).lo (fftArr D (wf 0)).hi)
      (nodup_box _ _) (fun _ _ h => h) (fftArr D (wf c)) (fun i hi => by
        rw [mem_box] at hi
        rw [sf i hi]
        have := in_fft h i _ hi
        unfold InBox fieldArr
        simp only
        omega) (fun i hi => by
        rw [mem_box] at hi
        exact hi)
    refine ⟨_, e, fun i hi => ?_⟩
    have := ha i (mem_box.mpr hi)
    rw [sf i hi] at this
    exact this
  have hs : ∀ c, ∃ a, copyLoop (M.sources c) (shift (R.fields 0).lo (M.sources 0).lo) id (box (R.fields 0).lo (R.fields 0).hi) (R.sources c) = .ok a ∧
      ∀ i, InBox (R.fields 0).lo (R.fields 0).hi i → a.val i = (M.sources c).val ⟨i.j + D.g.j - D.gj.j, i.k + D.g.k - D.gj.k, i.l + D.g.l - D.gj.l⟩ := by
    intro c
    rw [es, es, er, et]
    obtain ⟨v, e, ha, _⟩ := copyLoop_ok (sourceArr D (vs c)) (shift (fftArr D (wf 0)).lo (sourceArr D (vs 0)).lo) id (box (fftArr D (wf 0)).lo (fftArr D (wf 0)).hi)
      (nodup_box _ _) (fun _ _ h => h) (fftArr D (ws c)) (fun i hi => by
        rw [mem_box] at hi
        rw [ss i hi]
        have := in_fft h i _ hi
        unfold InBox sourceArr
        simp only
        omega) (fun i hi => by
        rw [mem_box] at hi
        exact hi)
    refine ⟨_, e, fun i hi => ?_⟩
    have := ha i (mem_box.mpr hi)
    rw [ss i hi] at this
    exact this
  obtain ⟨f, f1⟩ := Classical.axiomOfChoice hf
  obtain ⟨s, s1⟩ := Classical.axiomOfChoice hs
  refine ⟨⟨fun c => if c < nf then f c else R.fields c, fun c => if c < 5 then s c else R.sources c⟩, ?_, fun i hi => ⟨fun c hc => ?_, fun c hc => ?_⟩⟩
  · unfold forward
    rw [arrays_ok (fun c a => copyLoop (M.fields c) (shift (R.fields 0).lo (M.fields 0).lo) id (box (R.fields 0).lo (R.fields 0).hi) a) nf R.fields f fun c _ => (f1 c).1]
    simp only [except_bind_ok]
    rw [arrays_ok (fun c a => copyLoop (M.sources c) (shift (R.fields 0).lo (M.sources 0).lo) id (box (R.fields 0).lo (R.fields 0).hi) a) 5 R.sources s fun c _ => (s1 c).1]
    rfl
  · simp only [if_pos hc]
    exact (f1 c).2 i hi
  · simp only [if_pos hc]
    exact (s1 c).2 i hi

/-- C110, fields and currents with the same numbers of guard cells: before a transform, every array of the transform holds at each of its points the
value of its field, current or charge density at the same point. Missing: different numbers of guard cells, where this is false. -/
theorem C110_forward_partial (nf : ℕ) (D : Dims) (M R : Local) (h : Shaped D M R) (hg : D.gj = D.g) :
    ∃ R', forward nf M R = .ok R' ∧ ∀ i, InBox (R.fields 0).lo (R.fields 0).hi i →
      (∀ c, c < nf → (R'.fields c).val i = (M.fields c).val i) ∧ ∀ c, c < 5 → (R'.sources c).val i = (M.sources c).val i := by
  obtain ⟨R', e, hv⟩ := PsatdCopy_forward nf D M R h (by rw [hg]; simp)
  refine ⟨R', e, fun i hi => ⟨(hv i hi).1, fun c hc => ?_⟩⟩
  rw [(hv i hi).2 c hc, hg]
  cases i
  simp

/-- C110: after the transform back, the fields have at each point of the arrays of the transform the value of these, and everything else is as
before. -/
theorem C110_backward (nf : ℕ) (D : Dims) (M R : Local) (h : Shaped D M R) :
    ∃ M', backward nf R M = .ok M' ∧ M'.sources = M.sources ∧ ∀ c, (M'.fields c).lo = (M.fields c).lo ∧ (M'.fields c).hi = (M.fields c).hi ∧
      ∀ i, (c < nf → InBox (R.fields 0).lo (R.fields 0).hi i → (M'.fields c).val i = (R.fields c).val i) ∧
        (¬ (c < nf ∧ InBox (R.fields 0).lo (R.fields 0).hi i) → (M'.fields c).val i = (M.fields c).val i) := by
  obtain ⟨vf, ef⟩ := Classical.axiomOfChoice h.mf
  obtain ⟨wf, er⟩ := Classical.axiomOfChoice h.rf
  have sf : ∀ i, InBox (fftArr D (wf 0)).lo (fftArr D (wf 0)).hi i → shift (fftArr D (wf 0)).lo (fieldArr D (vf 0)).lo i = i := by
    intro i hi
    refine (shift_fft h i (wf 0) D.g (fun h2 => (h.two h2).1) hi).trans ?_
    cases i
    simp only [I3.mk.injEq]
    omega
  have hf : ∀ c, ∃ a, copyLoop (R.fields c) id (shift (R.fields 0).lo (M.fields 0).lo) (box (R.fields 0).lo (R.fields 0).hi) (M.fields c) = .ok a ∧
      a.lo = (M.fields c).lo ∧ a.hi = (M.fields c).hi ∧
      ∀ i, (InBox (R.fields 0).lo (R.fields 0).hi i → a.val i = (R.fields c).val i) ∧ (¬ InBox (R.fields 0).lo (R.fields 0).hi i → a.val i = (M.fields c).val i) := by
    intro c
    rw [ef, ef, er, er]
    obtain ⟨v, e, ha, hb⟩ := copyLoop_ok (fftArr D (wf c)) id (shift (fftArr D (wf 0)).lo (fieldArr D (vf 0)).lo) (box (fftArr D (wf 0)).lo (fftArr D (wf 0)).hi)
      (nodup_box _ _) (shift_inj _ _) (fieldArr D (vf c)) (fun i hi => by
        rw [mem_box] at hi
        exact hi) (fun i hi => by
        rw [mem_box] at hi
        rw [sf i hi]
        have := in_fft h i _ hi
        unfold InBox fieldArr
        simp only
        omega)
    refine ⟨_, e, rfl, rfl, fun i => ⟨fun hi => ?_, fun hi => ?_⟩⟩
    · have := ha i (mem_box.mpr hi)
      rw [sf i hi] at this
      exact this
    · refine hb i fun j hj he => hi ?_
      rw [mem_box] at hj
      rw [sf j hj] at he
      exact he ▸ hj
  obtain ⟨f, f1⟩ := Classical.axiomOfChoice hf
  refine ⟨⟨fun c => if c < nf then f c else M.fields c, M.sources⟩, ?_, rfl, fun c => ?_⟩
  · unfold backward
    rw [arrays_ok (fun c a => copyLoop (R.fields c) id (shift (R.fields 0).lo (M.fields 0).lo) (box (R.fields 0).lo (R.fields 0).hi) a) nf M.fields f fun c _ => (f1 c).1]
    rfl
  · by_cases hc : c < nf
    · simp only [if_pos hc]
      exact ⟨(f1 c).2.1, (f1 c).2.2.1, fun i => ⟨fun _ hi => ((f1 c).2.2.2 i).1 hi, fun hi => ((f1 c).2.2.2 i).2 fun h' => hi ⟨hc, h'⟩⟩⟩
    · simp only [if_neg hc]
      exact ⟨trivial, trivial, fun i => ⟨fun h' => absurd h' hc, fun _ => trivial⟩⟩

/-- C110 fails if the currents have more guard cells than the fields: the arrays of the transform hold the currents and the charge densities of
other points. -/
theorem C110_shift_refuted (nf : ℕ) (D : Dims) (M R : Local) (h : Shaped D M R) (hg : D.g.j ≤ D.gj.j ∧ D.g.k ≤ D.gj.k ∧ D.g.l ≤ D.gj.l) :
    ∃ R', forward nf M R = .ok R' ∧ ∀ i, InBox (R.fields 0).lo (R.fields 0).hi i →
      (∀ c, c < nf → (R'.fields c).val i = (M.fields c).val i) ∧
      ∀ c, c < 5 → (R'.sources c).val i = (M.sources c).val ⟨i.j - (D.gj.j - D.g.j), i.k - (D.gj.k - D.g.k), i.l - (D.gj.l - D.g.l)⟩ := by
  obtain ⟨R', e, hv⟩ := PsatdCopy_forward nf D M R h hg
  refine ⟨R', e, fun i hi => ⟨(hv i hi).1, fun c hc => ?_⟩⟩
  rw [(hv i hi).2 c hc]
  congr 1
  rw [I3.mk.injEq]
  omega

/-- C110 fails if the currents have fewer guard cells than the fields along the first axis: their arrays are read outside of their bounds. -/
theorem C110_short_refuted (nf : ℕ) (D : Dims) (M R : Local) (h : Shaped D M R) (hg : D.gj.j < D.g.j) : forward nf M R = .error .outOfBounds := by
  obtain ⟨vf, ef⟩ := Classical.axiomOfChoice h.mf
  obtain ⟨vs, es⟩ := Classical.axiomOfChoice h.ms
  obtain ⟨wf, er⟩ := Classical.axiomOfChoice h.rf
  have sf : ∀ i, InBox (fftArr D (wf 0)).lo (fftArr D (wf 0)).hi i → shift (fftArr D (wf 0)).lo (fieldArr D (vf 0)).lo i = i := by
    intro i hi
    refine (shift_fft h i (wf 0) D.g (fun h2 => (h.two h2).1) hi).trans ?_
    cases i
    simp only [I3.mk.injEq]
    omega
  have hf : ∀ c, ∃ a, copyLoop (M.fields c) (shift (R.fields 0).lo (M.fields 0).lo) id (box (R.fields 0).lo (R.fields 0).hi) (R.fields c) = .ok a := by
    intro c
    rw [ef, ef, er, er]
    obtain ⟨v, e, _⟩ := copyLoop_ok (fieldArr D (vf c)) (shift (fftArr D (wf 0)).lo (fieldArr D (vf 0)).lo) id (box (fftArr D (wf 0)).lo (fftArr D (wf 0)).hi)
      (nodup_box _ _) (fun _ _ h => h) (fftArr D (wf c)) (fun i hi => by
        rw [mem_box] at hi
        rw [sf i hi]
        have := in_fft h i _ hi
        unfold InBox fieldArr
        simp only
        omega) (fun i hi => by
        rw [mem_box] at hi
        exact hi)
    exact ⟨_, e⟩
  obtain ⟨f, f1⟩ := Classical.axiomOfChoice hf
  unfold forward
  rw [arrays_ok (fun c a => copyLoop (M.fields c) (shift (R.fields 0).lo (M.fields 0).lo) id (box (R.fields 0).lo (R.fields 0).hi) a) nf R.fields f fun c _ => f1 c]
  simp only [except_bind_ok]
  rw [arrays_fault (fun c a => copyLoop (M.sources c) (shift (R.fields 0).lo (M.sources 0).lo) id (box (R.fields 0).lo (R.fields 0).hi) a) .outOfBounds 5 R.sources ?_ (by norm_num)]
  · rfl
  · beta_reduce
    rw [es, er]
    have hn := h.n
    have hgg := h.g
    have hk : InBox (fftArr D (wf 0)).lo (fftArr D (wf 0)).hi ⟨D.n.j + D.g.j - 1, 0, 0⟩ := by
      unfold InBox fftArr
      simp only
      split_ifs <;> omega
    refine copyLoop_oob _ _ _ _ _ ⟨⟨D.n.j + D.g.j - 1, 0, 0⟩, mem_box.mpr hk, ?_⟩
    have e := shift_fft h ⟨D.n.j + D.g.j - 1, 0, 0⟩ (wf 0) D.gj (fun h2 => (h.two h2).2) hk
    intro hin
    have e' : shift (fftArr D (wf 0)).lo (sourceArr D (vs 0)).lo ⟨D.n.j + D.g.j - 1, 0, 0⟩ = _ := e
    rw [e'] at hin
    unfold InBox sourceArr at hin
    simp only at hin
    omega

/-- The guard cells that the input file line `nguardsx = 8` (with `nguardsy`, `nguardsz`) gives with interpolation of order 3: eight for the fields and
three for the currents. -/
example (vf vs wf ws : ℕ → I3 → ℝ) :
    let D : Dims := ⟨⟨64, 64, 64⟩, ⟨8, 8, 8⟩, ⟨3, 3, 3⟩, false⟩
    forward 6 ⟨fun c => fieldArr D (vf c), fun c => sourceArr D (vs c)⟩ ⟨fun c => fftArr D (wf c), fun c => fftArr D (ws c)⟩ = .error .outOfBounds :=
  C110_short_refuted 6 _ _ _ ⟨fun c => ⟨vf c, rfl⟩, fun c => ⟨vs c, rfl⟩, fun c => ⟨wf c, rfl⟩, fun c => ⟨ws c, rfl⟩, by decide, by decide, by decide, by decide⟩
    (by decide)

/-- Equal guard cells in two dimensions. -/
example (vf vs wf ws : ℕ → I3 → ℝ) :
    let D : Dims := ⟨⟨64, 1, 64⟩, ⟨8, 0, 8⟩, ⟨8, 0, 8⟩, true⟩
    ∃ R', forward 6 ⟨fun c => fieldArr D (vf c), fun c => sourceArr D (vs c)⟩ ⟨fun c => fftArr D (wf c), fun c => fftArr D (ws c)⟩ = .ok R' := by
  intro D
  obtain ⟨R', e, _⟩ := C110_forward_partial 6 D ⟨fun c => fieldArr D (vf c), fun c => sourceArr D (vs c)⟩ ⟨fun c => fftArr D (wf c), fun c => fftArr D (ws c)⟩
    ⟨fun c => ⟨vf c, rfl⟩, fun c => ⟨vs c, rfl⟩, fun c => ⟨wf c, rfl⟩, fun c => ⟨ws c, rfl⟩, by decide, by decide, by decide, by decide⟩ rfl
  exact ⟨R', e⟩

end Picsar.Props
