import Verif.Model.TileReduce
import Verif.Lemmas.Esirkepov

namespace Picsar.TileReduce
open Picsar Picsar.Grid Picsar.Deposition

/-- What a list of additions adds to every element. -/
noncomputable def con (l : List Add) (c : Comp) (i : I3) : ℝ := (l.map fun a => if c = a.c ∧ i = a.i then a.v else 0).sum

/-- The elements exist. -/
def Fits (σ : Mem) (l : List Add) : Prop := ∀ a ∈ l, InBox (σ a.c).lo (σ a.c).hi a.i

theorem con_nil : con [] = fun _ _ => 0 := rfl

theorem con_cons (a : Add) (l : List Add) : con (a :: l) = fun c i => pt a.c a.i a.v c i + con l c i := by
  funext c i
  simp only [con, List.map_cons, List.sum_cons, pt]

theorem con_append (l m : List Add) (c : Comp) (i : I3) : con (l ++ m) c i = con l c i + con m c i := by
  simp [con]

theorem addF_zero (σ : Mem) : addF σ (fun _ _ => 0) = σ := by funext c; simp [addF]

theorem addF_add (σ : Mem) (f g : Comp → I3 → ℝ) : addF (addF σ f) g = addF σ (fun c i => f c i + g c i) := by
  funext c; simp [addF, add_assoc]

theorem bumpMem_add {σ : Mem} {a : Add} (h : InBox (σ a.c).lo (σ a.c).hi a.i) :
    bumpMem σ a.c a.i a.v = .ok (addF σ (pt a.c a.i a.v)) := by
  have := bumpMem_ok (σ := σ) (f := fun _ _ => 0) (v := a.v) h
  rw [addF_zero] at this
  rw [this]
  congr 2
  funext c p; ring

theorem fits_addF {σ : Mem} {f : Comp → I3 → ℝ} {l : List Add} : Fits (addF σ f) l ↔ Fits σ l := Iff.rfl

theorem adds_fold : ∀ (l : List Add) (σ : Mem), Fits σ l →
    l.foldlM (fun (σ : Mem) (a : Add) => bumpMem σ a.c a.i a.v) σ = (.ok (addF σ (con l)) : Res Mem)
  | [], σ, _ => by rw [con_nil, addF_zero]; rfl
  | a :: l, σ, h => by
    rw [List.foldlM_cons, bumpMem_add (h a (by simp))]
    simp only [except_bind_ok]
    rw [adds_fold l (addF σ (pt a.c a.i a.v)) (fun b hb => h b (by simp [hb])), addF_add, con_cons]

/-! ### Executions of a parallel loop -/

/-- A number of steps. -/
inductive Steps (us : List I3) : Cfg → Cfg → Prop
  | refl {s : Cfg} : Steps us s s
  | step {s s' s'' : Cfg} {u : I3} : u ∈ us → step u s = some (.ok s') → Steps us s' s'' → Steps us s s''

theorem Steps.trans {us : List I3} {a b c : Cfg} (h : Steps us a b) (h' : Steps us b c) : Steps us a c := by
  induction h with
  | refl => exact h'
  | step hu e _ ih => exact .step hu e (ih h')

theorem Steps.run {us : List I3} {a b : Cfg} {r : Res Mem} (h : Steps us a b) (h' : Run us b r) : Run us a r := by
  induction h with
  | refl => exact h'
  | step hu e _ ih => exact .step hu e (ih h')

theorem step_read {u : I3} {s : Cfg} {a : Add} {r : List Add} (h : s.thr u = ⟨a :: r, none⟩) (hb : InBox (s.mem a.c).lo (s.mem a.c).hi a.i) :
    step u s = some (.ok ⟨s.mem, Function.update s.thr u ⟨a :: r, some ((s.mem a.c).val a.i)⟩⟩) := by
  unfold step
  rw [h]
  simp only [Option.some.injEq]
  have : (s.mem a.c).get a.i = .ok ((s.mem a.c).val a.i) := if_pos hb
  rw [this]
  rfl

/-- Memory with one element replaced. -/
noncomputable def setAt (σ : Mem) (c : Comp) (i : I3) (v : ℝ) : Mem :=
  Function.update σ c ⟨(σ c).lo, (σ c).hi, Function.update (σ c).val i v⟩

theorem step_write {u : I3} {s : Cfg} {a : Add} {r : List Add} {x : ℝ} (h : s.thr u = ⟨a :: r, some x⟩)
    (hb : InBox (s.mem a.c).lo (s.mem a.c).hi a.i) :
    step u s = some (.ok ⟨setAt s.mem a.c a.i (x + a.v), Function.update s.thr u ⟨r, none⟩⟩) := by
  unfold step
  rw [h]
  simp only [Option.some.injEq]
  have : (s.mem a.c).set a.i (x + a.v) = .ok ⟨(s.mem a.c).lo, (s.mem a.c).hi, Function.update (s.mem a.c).val a.i (x + a.v)⟩ := if_pos hb
  rw [this]
  rfl

theorem step_done {u : I3} {s : Cfg} {x : Option ℝ} (h : s.thr u = ⟨[], x⟩) : step u s = none := by
  unfold step; rw [h]

theorem setAt_eq (σ : Mem) (a : Add) : setAt σ a.c a.i ((σ a.c).val a.i + a.v) = addF σ (pt a.c a.i a.v) := by
  funext c
  unfold setAt addF pt
  by_cases hc : c = a.c
  · subst hc
    rw [Function.update_self]
    simp only [Arr.mk.injEq, true_and]
    funext p
    by_cases hp : p = a.i
    · subst hp; simp
    · simp [hp]
  · rw [Function.update_of_ne hc]
    simp [hc]

/-- A thread that is not disturbed adds its values. -/
theorem steps_alone {us : List I3} {u : I3} (hu : u ∈ us) : ∀ (l : List Add) (m : List Add) (s : Cfg), s.thr u = ⟨l ++ m, none⟩ →
    Fits s.mem l → Steps us s ⟨addF s.mem (con l), Function.update s.thr u ⟨m, none⟩⟩
  | [], m, s, h, _ => by
    have : (⟨addF s.mem (con []), Function.update s.thr u ⟨m, none⟩⟩ : Cfg) = s := by
      rw [con_nil, addF_zero, ← (show s.thr u = ⟨m, none⟩ from h), Function.update_eq_self]
    rw [this]
    exact .refl
  | a :: l, m, s, h, hf => by
    have ha := hf a (by simp)
    refine .step hu (step_read (a := a) (r := l ++ m) h ha) (.step hu (step_write (a := a) (r := l ++ m)
      (x := (s.mem a.c).val a.i) (Function.update_self _ _ _) ha) ?_)
    dsimp only
    rw [Function.update_idem, setAt_eq]
    have := steps_alone hu l m ⟨addF s.mem (pt a.c a.i a.v), Function.update s.thr u ⟨l ++ m, none⟩⟩ (Function.update_self _ _ _)
      (fun b hb => hf b (by simp [hb]))
    dsimp only at this
    rw [Function.update_idem, addF_add, ← con_cons] at this
    exact this

/-- Threads one after the other. -/
theorem steps_serial {us : List I3} (p : I3 → List Add) : ∀ (vs : List I3) (s : Cfg), vs.Nodup → (∀ v ∈ vs, v ∈ us) →
    (∀ v ∈ vs, s.thr v = ⟨p v, none⟩) → (∀ v ∈ vs, Fits s.mem (p v)) →
    Steps us s ⟨addF s.mem (fun c i => (vs.map fun v => con (p v) c i).sum), fun v => if v ∈ vs then ⟨[], none⟩ else s.thr v⟩
  | [], s, _, _, _, _ => by
    have : (⟨addF s.mem (fun c i => (([] : List I3).map fun v => con (p v) c i).sum),
        fun v => if v ∈ ([] : List I3) then ⟨[], none⟩ else s.thr v⟩ : Cfg) = s := by
      simp [addF_zero]
    rw [this]
    exact .refl
  | v :: vs, s, hn, hm, ht, hf => by
    rw [List.nodup_cons] at hn
    have h1 := steps_alone (hm v (by simp)) (p v) [] s (by rw [List.append_nil]; exact ht v (by simp)) (hf v (by simp))
    refine h1.trans ?_
    have h2 := steps_serial p vs ⟨addF s.mem (con (p v)), Function.update s.thr v ⟨[], none⟩⟩ hn.2 (fun w hw => hm w (by simp [hw]))
      (fun w hw => by
        dsimp only
        rw [Function.update_of_ne (by rintro rfl; exact hn.1 hw)]
        exact ht w (by simp [hw]))
      (fun w hw => hf w (by simp [hw]))
    dsimp only at h2
    rw [addF_add] at h2
    have e : (fun w => if w ∈ v :: vs then (⟨[], none⟩ : Thr) else s.thr w) =
        fun w => if w ∈ vs then ⟨[], none⟩ else Function.update s.thr v ⟨[], none⟩ w := by
      funext w
      by_cases hw : w = v
      · subst hw; simp
      · simp [hw]
    rw [e]
    simp only [List.map_cons, List.sum_cons]
    exact h2

/-- A loop of one thread. -/
theorem serialLoop_ok (p : I3 → List Add) : ∀ (vs : List I3) (σ : Mem), (∀ v ∈ vs, Fits σ (p v)) →
    serialLoop vs p σ = .ok (addF σ (fun c i => (vs.map fun v => con (p v) c i).sum))
  | [], σ, _ => by simp [serialLoop, addF_zero]
  | v :: vs, σ, hf => by
    unfold serialLoop
    rw [List.foldlM_cons, adds_fold _ _ (hf v (by simp))]
    simp only [except_bind_ok]
    have := serialLoop_ok p vs (addF σ (con (p v))) (fun w hw => hf w (by simp [hw]))
    unfold serialLoop at this
    rw [this, addF_add]
    simp only [List.map_cons, List.sum_cons]

/-- Some execution adds everything. -/
theorem run_exists {us : List I3} (hn : us.Nodup) (p : I3 → List Add) (σ : Mem) (hf : ∀ v ∈ us, Fits σ (p v)) :
    Run us ⟨σ, fun u => ⟨p u, none⟩⟩ (.ok (addF σ (fun c i => (us.map fun v => con (p v) c i).sum))) := by
  have h := steps_serial (us := us) p us ⟨σ, fun u => ⟨p u, none⟩⟩ hn (fun _ h => h) (fun _ _ => rfl) hf
  refine h.run ?_
  have := Run.done (us := us) (s := ⟨addF σ (fun c i => (us.map fun v => con (p v) c i).sum),
    fun v => if v ∈ us then ⟨[], none⟩ else ⟨p v, none⟩⟩) (fun u hu => by dsimp only; rw [if_pos hu])
  exact this

/-! ### Threads with disjoint footprints -/

/-- No element is used by two tiles. -/
def Apart (us : List I3) (p : I3 → List Add) : Prop :=
  ∀ u ∈ us, ∀ v ∈ us, u ≠ v → ∀ a ∈ p u, ∀ b ∈ p v, ¬ (a.c = b.c ∧ a.i = b.i)

/-- Invariant of the executions when the footprints are disjoint. -/
def Inv (us : List I3) (p : I3 → List Add) (σ : Mem) (s : Cfg) : Prop :=
  ∃ d : I3 → List Add, (∀ u ∈ us, p u = d u ++ (s.thr u).todo) ∧
    s.mem = addF σ (fun c i => (us.map fun v => con (d v) c i).sum) ∧
    ∀ u ∈ us, ∀ x, (s.thr u).reg = some x → ∃ a r, (s.thr u).todo = a :: r ∧ x = (s.mem a.c).val a.i

theorem sum_update {us : List I3} (hn : us.Nodup) {u : I3} (hu : u ∈ us) (d : I3 → List Add) (l : List Add) (c : Comp) (i : I3) :
    (us.map fun v => con (Function.update d u (d u ++ l) v) c i).sum = (us.map fun v => con (d v) c i).sum + con l c i := by
  induction us with
  | nil => simp at hu
  | cons w us ih =>
    rw [List.nodup_cons] at hn
    simp only [List.map_cons, List.sum_cons]
    rcases List.mem_cons.mp hu with rfl | hu
    · rw [Function.update_self, con_append]
      have : (us.map fun v => con (Function.update d u (d u ++ l) v) c i) = us.map fun v => con (d v) c i := by
        apply List.map_congr_left
        intro v hv
        rw [Function.update_of_ne (by rintro rfl; exact hn.1 hv)]
      rw [this]; ring
    · rw [Function.update_of_ne (by rintro rfl; exact hn.1 hu), ih hn.2 hu]
      ring

theorem inv_step {us : List I3} (hn : us.Nodup) {p : I3 → List Add} {σ : Mem} (hf : ∀ v ∈ us, Fits σ (p v)) (ha : Apart us p) {s : Cfg}
    (hi : Inv us p σ s) {u : I3} (hu : u ∈ us) {r : Res Cfg} (hs : step u s = some r) : ∃ s', r = .ok s' ∧ Inv us p σ s' := by
  obtain ⟨d, hd, hm, hr⟩ := hi
  match ht : s.thr u with
  | ⟨[], x⟩ => rw [step_done ht] at hs; exact absurd hs (by simp)
  | ⟨a :: l, none⟩ =>
    have hp := hd u hu
    rw [ht] at hp
    have hb : InBox (s.mem a.c).lo (s.mem a.c).hi a.i := by rw [hm]; exact hf u hu a (by rw [hp]; simp)
    rw [step_read ht hb] at hs
    refine ⟨_, (Option.some.inj hs).symm, d, ?_, hm, ?_⟩
    · intro v hv
      by_cases hvu : v = u
      · subst hvu
        dsimp only
        rw [Function.update_self]; exact hp
      · dsimp only
        rw [Function.update_of_ne hvu]; exact hd v hv
    · intro v hv x hx
      dsimp only at hx ⊢
      by_cases hvu : v = u
      · subst hvu
        rw [Function.update_self] at hx ⊢
        exact ⟨a, l, rfl, (Option.some.inj hx).symm⟩
      · rw [Function.update_of_ne hvu] at hx ⊢
        exact hr v hv x hx
  | ⟨a :: l, some x⟩ =>
    have hp := hd u hu
    rw [ht] at hp
    have hb : InBox (s.mem a.c).lo (s.mem a.c).hi a.i := by rw [hm]; exact hf u hu a (by rw [hp]; simp)
    rw [step_write ht hb] at hs
    obtain ⟨b, l', e, hx⟩ := hr u hu x (by rw [ht])
    rw [ht] at e
    obtain ⟨rfl, rfl⟩ := List.cons.inj e
    rw [hx, setAt_eq] at hs
    refine ⟨_, (Option.some.inj hs).symm, Function.update d u (d u ++ [a]), ?_, ?_, ?_⟩
    · intro v hv
      dsimp only
      by_cases hvu : v = u
      · subst hvu
        rw [Function.update_self, Function.update_self]; simpa using hp
      · rw [Function.update_of_ne hvu, Function.update_of_ne hvu]; exact hd v hv
    · dsimp only
      rw [hm, addF_add]
      congr 1
      funext c i
      rw [sum_update hn hu, con_cons, con_nil]
      ring
    · intro v hv y hy
      dsimp only at hy ⊢
      by_cases hvu : v = u
      · subst hvu
        rw [Function.update_self] at hy
        exact absurd hy (by simp)
      · rw [Function.update_of_ne hvu] at hy ⊢
        obtain ⟨b, l', e, hy'⟩ := hr v hv y hy
        refine ⟨b, l', e, ?_⟩
        have hne := ha v hv u hu hvu b (by rw [hd v hv, e]; simp) a (by rw [hp]; simp)
        rw [hy']
        simp [addF, pt, hne]

/-- Every execution adds everything. -/
theorem run_apart {us : List I3} (hn : us.Nodup) {p : I3 → List Add} {σ : Mem} (hf : ∀ v ∈ us, Fits σ (p v)) (ha : Apart us p) {s : Cfg}
    {r : Res Mem} (h : Run us s r) (hi : Inv us p σ s) : r = .ok (addF σ (fun c i => (us.map fun v => con (p v) c i).sum)) := by
  induction h with
  | @done s hd =>
    obtain ⟨d, h1, h2, _⟩ := hi
    rw [h2]
    congr 2
    funext c i
    congr 1
    apply List.map_congr_left
    intro v hv
    rw [h1 v hv, hd v hv, List.append_nil]
  | fault hu hs =>
    obtain ⟨s', e, _⟩ := inv_step hn hf ha hi hu hs
    exact absurd e (by simp)
  | step hu hs _ ih =>
    obtain ⟨s', e, hi'⟩ := inv_step hn hf ha hi hu hs
    obtain rfl := Except.ok.inj e
    exact ih hi'

theorem inv_init (us : List I3) (p : I3 → List Add) (σ : Mem) : Inv us p σ ⟨σ, fun u => ⟨p u, none⟩⟩ := by
  refine ⟨fun _ => [], fun _ _ => rfl, ?_, fun _ _ x hx => absurd hx (by simp)⟩
  have : (fun (c : Comp) (i : I3) => (us.map fun (_ : I3) => con [] c i).sum) = fun _ _ => 0 := by
    funext c i
    simp [con_nil]
  dsimp only
  rw [this, addF_zero]

/-! ### A lost update -/

theorem setAt_same (σ : Mem) (c : Comp) (i : I3) (v : ℝ) : ((setAt σ c i v) c).val i = v := by
  unfold setAt
  rw [Function.update_self]
  simp

theorem setAt_bounds (σ : Mem) (c : Comp) (i : I3) (v : ℝ) (c' : Comp) :
    ((setAt σ c i v) c').lo = (σ c').lo ∧ ((setAt σ c i v) c').hi = (σ c').hi := by
  unfold setAt
  by_cases h : c' = c
  · subst h; rw [Function.update_self]; exact ⟨rfl, rfl⟩
  · rw [Function.update_of_ne h]; exact ⟨rfl, rfl⟩

theorem fits_congr {σ τ : Mem} (h : ∀ c, (τ c).lo = (σ c).lo ∧ (τ c).hi = (σ c).hi) {l : List Add} (hf : Fits σ l) : Fits τ l := by
  intro a ha
  rw [(h a.c).1, (h a.c).2]
  exact hf a ha

/-- If two tiles use the same element, some execution loses what the second adds to it. -/
theorem run_lost {us : List I3} (hn : us.Nodup) {p : I3 → List Add} {σ : Mem} (hf : ∀ v ∈ us, Fits σ (p v)) {u v : I3} (hu : u ∈ us) (hv : v ∈ us)
    (huv : u ≠ v) {a : Add} (ha : a ∈ p u) :
    ∃ τ, Run us ⟨σ, fun u => ⟨p u, none⟩⟩ (.ok τ) ∧ (∀ c, (τ c).lo = (σ c).lo ∧ (τ c).hi = (σ c).hi) ∧
      (τ a.c).val a.i = (σ a.c).val a.i + (us.map fun w => con (p w) a.c a.i).sum - con (p v) a.c a.i := by
  obtain ⟨pre, post, e⟩ := List.append_of_mem ha
  set s0 : Cfg := ⟨σ, fun u => ⟨p u, none⟩⟩ with hs0
  have fu := hf u hu
  rw [e] at fu
  have fa : InBox (σ a.c).lo (σ a.c).hi a.i := fu a (by simp)
  -- the first tile up to the read
  have h1 := steps_alone hu pre (a :: post) s0 (by rw [hs0]; dsimp only; rw [e]) (fun b hb => fu b (by simp [hb]))
  set s1 : Cfg := ⟨addF s0.mem (con pre), Function.update s0.thr u ⟨a :: post, none⟩⟩ with hs1
  have h2 : Steps us s1 ⟨s1.mem, Function.update s1.thr u ⟨a :: post, some ((s1.mem a.c).val a.i)⟩⟩ :=
    .step hu (step_read (Function.update_self _ _ _) fa) .refl
  set s2 : Cfg := ⟨s1.mem, Function.update s1.thr u ⟨a :: post, some ((s1.mem a.c).val a.i)⟩⟩ with hs2
  -- the second tile
  have hv2 : s2.thr v = ⟨p v ++ [], none⟩ := by
    rw [hs2, hs1, hs0]
    dsimp only
    rw [Function.update_of_ne huv.symm, Function.update_of_ne huv.symm, List.append_nil]
  have h3 := steps_alone hv (p v) [] s2 hv2 (hf v hv)
  set s3 : Cfg := ⟨addF s2.mem (con (p v)), Function.update s2.thr v ⟨[], none⟩⟩ with hs3
  -- the write
  have hu3 : s3.thr u = ⟨a :: post, some ((s1.mem a.c).val a.i)⟩ := by
    rw [hs3, hs2]
    dsimp only
    rw [Function.update_of_ne huv, Function.update_self]
  have h4 : Steps us s3 ⟨setAt s3.mem a.c a.i ((s1.mem a.c).val a.i + a.v), Function.update s3.thr u ⟨post, none⟩⟩ :=
    .step hu (step_write hu3 fa) .refl
  set s4 : Cfg := ⟨setAt s3.mem a.c a.i ((s1.mem a.c).val a.i + a.v), Function.update s3.thr u ⟨post, none⟩⟩ with hs4
  have b4 : ∀ c, (s4.mem c).lo = (σ c).lo ∧ (s4.mem c).hi = (σ c).hi := by
    intro c
    have := setAt_bounds s3.mem a.c a.i ((s1.mem a.c).val a.i + a.v) c
    exact this
  -- the rest of the first tile
  have h5 := steps_alone hu post [] s4 (by rw [hs4, List.append_nil]; exact Function.update_self _ _ _)
    (fits_congr b4 fun b hb => fu b (by simp [hb]))
  set s5 : Cfg := ⟨addF s4.mem (con post), Function.update s4.thr u ⟨[], none⟩⟩ with hs5
  -- the other tiles
  have ho : ∀ w, w ≠ u → w ≠ v → s5.thr w = ⟨p w, none⟩ := by
    intro w h1 h2
    rw [hs5, hs4, hs3, hs2, hs1, hs0]
    dsimp only
    rw [Function.update_of_ne h1, Function.update_of_ne h1, Function.update_of_ne h2, Function.update_of_ne h1, Function.update_of_ne h1]
  have hmem : ∀ w, w ∈ (us.erase u).erase v ↔ w ∈ us ∧ w ≠ u ∧ w ≠ v := by
    intro w
    rw [(hn.erase u).mem_erase_iff, hn.mem_erase_iff]
    tauto
  have h6 := steps_serial (us := us) p ((us.erase u).erase v) s5 ((hn.erase u).erase v) (fun w hw => ((hmem w).mp hw).1)
    (fun w hw => ho w ((hmem w).mp hw).2.1 ((hmem w).mp hw).2.2)
    (fun w hw => fits_congr (σ := σ) b4 (hf w ((hmem w).mp hw).1))
  set s6 : Cfg := ⟨addF s5.mem (fun c i => (((us.erase u).erase v).map fun v => con (p v) c i).sum),
    fun w => if w ∈ (us.erase u).erase v then ⟨[], none⟩ else s5.thr w⟩ with hs6
  have hd : ∀ w ∈ us, (s6.thr w).todo = [] := by
    intro w hw
    rw [hs6]
    dsimp only
    split_ifs with h
    · rfl
    · have : w = u ∨ w = v := by
        by_contra hc
        exact h ((hmem w).mpr ⟨hw, by tauto, by tauto⟩)
      rcases this with rfl | rfl
      · rw [hs5]; dsimp only; rw [Function.update_self]
      · rw [hs5, hs4, hs3]; dsimp only
        rw [Function.update_of_ne huv.symm, Function.update_of_ne huv.symm, Function.update_self]
  refine ⟨s6.mem, ((((h1.trans h2).trans h3).trans h4).trans (h5.trans h6)).run (.done hd), fun c => b4 c, ?_⟩
  have v6 : (s6.mem a.c).val a.i = (s1.mem a.c).val a.i + a.v + con post a.c a.i + (((us.erase u).erase v).map fun v => con (p v) a.c a.i).sum := by
    have : (s4.mem a.c).val a.i = (s1.mem a.c).val a.i + a.v := setAt_same _ _ _ _
    rw [← this]
    rfl
  have v1 : (s1.mem a.c).val a.i = (σ a.c).val a.i + con pre a.c a.i := rfl
  have hsum : (us.map fun w => con (p w) a.c a.i).sum =
      con (p u) a.c a.i + (con (p v) a.c a.i + (((us.erase u).erase v).map fun v => con (p v) a.c a.i).sum) := by
    have e1 := (List.perm_cons_erase hu).map (fun w => con (p w) a.c a.i) |>.sum_eq
    have hv' : v ∈ us.erase u := (hn.mem_erase_iff).mpr ⟨huv.symm, hv⟩
    have e2 := (List.perm_cons_erase hv').map (fun w => con (p w) a.c a.i) |>.sum_eq
    rw [e1, List.map_cons, List.sum_cons, e2, List.map_cons, List.sum_cons]
  rw [v6, v1, hsum, e, con_append, con_cons]
  simp only [pt, and_self, if_true]
  ring

end Picsar.TileReduce
