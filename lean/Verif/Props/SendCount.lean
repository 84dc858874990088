import Verif.Model.SendCount
import Verif.Lemmas.TileOmp
/-
C64: sizes of the send buffers of the combined exchange.
-/
namespace Picsar.Props
open Picsar Picsar.Grid Picsar.Tiling Picsar.SendCount

theorem sc_steps_trans {nt : I3} {n : Counts} {ws : List I3} {a b c : SendCount.Cfg} (h1 : SendCount.Steps nt n ws a b)
    (h2 : SendCount.Steps nt n ws b c) : SendCount.Steps nt n ws a c := by
  induction h2 with
  | refl => exact h1
  | step _ hu st ih => exact .step ih hu st

/-- The tiles `us` one after the other. -/
theorem sc_serial {nt : I3} {n : Counts} {ws : List I3} : ∀ (us : List I3), us.Nodup → (∀ u ∈ us, u ∈ ws) → ∀ c : SendCount.Cfg, (∀ u ∈ us, c.pos u = .start) →
    SendCount.Steps nt n ws c ⟨serial nt n us c.npart, fun u => if u ∈ us then .done else c.pos u⟩ := by
  intro us
  induction us with
  | nil => intro _ _ c _; simpa [serial] using SendCount.Steps.refl
  | cons u us ih =>
    intro hn hw c hs
    rw [List.nodup_cons] at hn
    have hpos : ∀ p : I3 → Pos, p = Function.update c.pos u .done → (fun v => if v ∈ u :: us then Pos.done else c.pos v) = fun v => if v ∈ us then .done else p v := by
      rintro p rfl
      funext v
      by_cases hv : v = u
      · subst hv; simp
      · simp [hv]
    have hst : ∀ p : I3 → Pos, p = Function.update c.pos u .done → ∀ v ∈ us, p v = .start := by
      rintro p rfl v hv
      have : v ≠ u := fun e => hn.1 (e ▸ hv)
      rw [Function.update_of_ne this]
      exact hs v (List.mem_cons_of_mem _ hv)
    have s0 := hs u List.mem_cons_self
    by_cases hb : Border nt u
    · have s1 : SendCount.Steps nt n ws c ⟨c.npart, Function.update c.pos u (.read c.npart)⟩ := .step .refl (hw u List.mem_cons_self) (.read s0 hb)
      have s2 : SendCount.Steps nt n ws c ⟨fun ib => c.npart ib + n u ib, Function.update c.pos u .done⟩ := by
        refine .step s1 (hw u List.mem_cons_self) ?_
        have := SendCount.Step.write (nt := nt) (n := n) (c := ⟨c.npart, Function.update c.pos u (.read c.npart)⟩) (u := u) (v := c.npart) (by simp)
        simpa using this
      have s3 := ih hn.2 (fun v hv => hw v (List.mem_cons_of_mem _ hv)) ⟨fun ib => c.npart ib + n u ib, Function.update c.pos u .done⟩ (hst _ rfl)
      rw [hpos _ rfl]
      have e : serial nt n (u :: us) c.npart = serial nt n us (fun ib => c.npart ib + n u ib) := by
        simp [serial, hb]
      rw [e]
      exact sc_steps_trans s2 s3
    · have s2 : SendCount.Steps nt n ws c ⟨c.npart, Function.update c.pos u .done⟩ := .step .refl (hw u List.mem_cons_self) (.skip s0 hb)
      have s3 := ih hn.2 (fun v hv => hw v (List.mem_cons_of_mem _ hv)) ⟨c.npart, Function.update c.pos u .done⟩ (hst _ rfl)
      rw [hpos _ rfl]
      have e : serial nt n (u :: us) c.npart = serial nt n us c.npart := by
        simp [serial, hb]
      rw [e]
      exact sc_steps_trans s2 s3

theorem sc_run_serial {nt : I3} {n : Counts} : ∀ (cs : List I3) (v : ℤ → ℤ), Run nt n cs v (serial nt n ((cs.map (colourTiles nt)).flatten) v) := by
  intro cs
  induction cs with
  | nil => exact fun v => .nil
  | cons col cs ih =>
    intro v
    have s := sc_serial (nt := nt) (n := n) (ws := colourTiles nt col) (colourTiles nt col) (nodup_colourTiles nt col) (fun u hu => hu) ⟨v, fun _ => .start⟩ (fun _ _ => rfl)
    refine .cons s (fun u hu => by simp [hu]) ?_
    have := ih (serial nt n (colourTiles nt col) v)
    rw [List.map_cons, List.flatten_cons]
    unfold serial at this ⊢
    rw [List.foldl_append]
    exact this

theorem sc_run_append {nt : I3} {n : Counts} {as bs : List I3} {v w z : ℤ → ℤ} (h1 : Run nt n as v w) (h2 : Run nt n bs w z) : Run nt n (as ++ bs) v z := by
  induction h1 with
  | nil => exact h2
  | cons s d _ ih => exact .cons s d (ih h2)

/-- The sum kept by a run without interleaving. -/
theorem serial_sum {nt : I3} {n : Counts} (hz : ∀ u, ¬ Border nt u → n u = fun _ => 0) : ∀ (us : List I3) (v : ℤ → ℤ) (ib : ℤ),
    serial nt n us v ib = v ib + (us.map fun u => n u ib).sum := by
  intro us
  induction us with
  | nil => intro v ib; simp [serial]
  | cons u us ih =>
    intro v ib
    have e : serial nt n (u :: us) v = serial nt n us (fun ib => v ib + n u ib) := by
      by_cases hb : Border nt u
      · simp [serial, hb]
      · simp [serial, hb, hz u hb]
    rw [e, ih, List.map_cons, List.sum_cons]
    ring

theorem bufSize_aux (v : ℤ → ℤ) : ∀ (l : List ℤ) (m : ℤ), m ≤ l.foldl (fun m ib => max m (v ib)) m ∧ ∀ ib ∈ l, v ib ≤ l.foldl (fun m ib => max m (v ib)) m := by
  intro l
  induction l with
  | nil => intro m; simp
  | cons a l ih =>
    intro m
    obtain ⟨h1, h2⟩ := ih (max m (v a))
    refine ⟨le_trans (le_max_left _ _) h1, fun ib hib => ?_⟩
    rcases List.mem_cons.mp hib with rfl | h
    · exact le_trans (le_max_right _ _) h1
    · exact h2 ib h

theorem bufSize_le {v : ℤ → ℤ} {B : ℤ} (h0 : 0 ≤ B) (h : ∀ ib, 1 ≤ ib → ib ≤ 27 → v ib ≤ B) : bufSize v ≤ B := by
  have : ∀ (l : List ℤ) (m : ℤ), m ≤ B → (∀ ib ∈ l, v ib ≤ B) → l.foldl (fun m ib => max m (v ib)) m ≤ B := by
    intro l
    induction l with
    | nil => intro m hm _; exact hm
    | cons a l ih => exact fun m hm hl => ih _ (max_le hm (hl a List.mem_cons_self)) fun ib hib => hl ib (List.mem_cons_of_mem _ hib)
  exact this _ 0 h0 fun ib hib => by
    rw [mem_irange] at hib
    exact h ib hib.1 hib.2

theorem copyDir_ok {size : ℤ} {n : Counts} {ib : ℤ} : ∀ (us : List I3) (j : ℤ), (∀ u ∈ us, 0 ≤ n u ib) → j + (us.map fun u => n u ib).sum ≤ size →
    copyDir size n ib us j = .ok (j + (us.map fun u => n u ib).sum) := by
  intro us
  induction us with
  | nil => intro j _ _; simp [copyDir]
  | cons u us ih =>
    intro j h0 hs
    rw [List.map_cons, List.sum_cons] at hs ⊢
    have hu := h0 u List.mem_cons_self
    have hr : 0 ≤ (us.map fun u => n u ib).sum := List.sum_nonneg fun x hx => by
      obtain ⟨w, hw, rfl⟩ := List.mem_map.mp hx
      exact h0 w (List.mem_cons_of_mem _ hw)
    have := ih (j + n u ib) (fun w hw => h0 w (List.mem_cons_of_mem _ hw)) (by omega)
    unfold copyDir at this ⊢
    rw [List.foldlM_cons]
    by_cases hz : n u ib = 0
    · rw [if_pos hz]
      simp only [except_bind_ok]
      rw [hz] at this ⊢
      simpa using this
    · rw [if_neg hz, if_pos (by omega)]
      simp only [except_bind_ok]
      rw [this]
      congr 1
      ring

/-- C64 with one thread per species (the tiles one after the other, in the order of the 27 loops): this is a possible run; the buffers hold all
particles to be sent in every direction, and filling them stays inside. Missing: several threads, see `C64_lost_update_refuted`. -/
theorem C64_one_thread_partial (nt : I3) (n : Counts) (h0 : ∀ u ib, 0 ≤ n u ib) (hz : ∀ u, ¬ Border nt u → n u = fun _ => 0) :
    ∃ w, Run nt n colours (fun _ => 0) w ∧ (∀ ib, w ib = ((box ⟨1, 1, 1⟩ nt).map fun u => n u ib).sum) ∧
      copyAll (bufSize w) n nt = .ok () := by
  refine ⟨_, sc_run_serial colours fun _ => 0, fun ib => ?_, ?_⟩
  · rw [serial_sum hz, zero_add]
    exact ((colours_perm nt).map _).sum_eq
  · have hw : ∀ ib, serial nt n ((colours.map (colourTiles nt)).flatten) (fun _ => 0) ib = ((box ⟨1, 1, 1⟩ nt).map fun u => n u ib).sum := fun ib => by
      rw [serial_sum hz, zero_add]
      exact ((colours_perm nt).map _).sum_eq
    generalize hwe : serial nt n ((colours.map (colourTiles nt)).flatten) (fun _ => 0) = w at hw ⊢
    unfold copyAll
    have key : ∀ l : List ℤ, (∀ ib ∈ l, w ib ≤ bufSize w) → l.forM (fun ib => if ib = 14 then (.ok () : Res Unit) else do
        let _ ← copyDir (bufSize w) n ib (box ⟨1, 1, 1⟩ nt) 0
        .ok ()) = .ok () := by
      intro l
      induction l with
      | nil => intro _; rfl
      | cons ib l ih =>
        intro hl
        rw [List.forM_eq_forM] at ih ⊢
        rw [List.forM_cons]
        have e : (if ib = 14 then (.ok () : Res Unit) else do
            let _ ← copyDir (bufSize w) n ib (box ⟨1, 1, 1⟩ nt) 0
            .ok ()) = .ok () := by
          by_cases h14 : ib = 14
          · rw [if_pos h14]
          · rw [if_neg h14, copyDir_ok _ _ (fun u _ => h0 u ib) (by rw [zero_add, ← hw ib]; exact hl ib List.mem_cons_self)]
            rfl
        rw [e]
        exact ih fun b hb => hl b (List.mem_cons_of_mem _ hb)
    exact key _ fun ib hib => (bufSize_aux w _ 0).2 ib hib

/-- Only tiles `u` and `v` send particles, in direction `d`. -/
def twoTiles (u v : I3) (d a b : ℤ) : Counts := fun w ib => if ib = d then (if w = u then a else if w = v then b else 0) else 0

theorem serial_zero {nt : I3} {n : Counts} : ∀ (us : List I3), (∀ u ∈ us, n u = fun _ => 0) → ∀ v, serial nt n us v = v := by
  intro us
  induction us with
  | nil => intro _ v; rfl
  | cons u us ih =>
    intro h v
    have e : serial nt n (u :: us) v = serial nt n us v := by
      by_cases hb : Border nt u
      · simp [serial, hb, h u List.mem_cons_self]
      · simp [serial, hb]
    rw [e]
    exact ih (fun w hw => h w (List.mem_cons_of_mem _ hw)) v

theorem copyDir_bad {size : ℤ} {n : Counts} {ib : ℤ} : ∀ (us : List I3) (j : ℤ), j ≤ size → (∀ u ∈ us, 0 ≤ n u ib) → size < j + (us.map fun u => n u ib).sum →
    copyDir size n ib us j = .error .outOfBounds := by
  intro us
  induction us with
  | nil => intro j hj _ hs; simp at hs; omega
  | cons u us ih =>
    intro j hj h0 hs
    rw [List.map_cons, List.sum_cons] at hs
    have hu := h0 u List.mem_cons_self
    unfold copyDir at ih ⊢
    rw [List.foldlM_cons]
    by_cases hz : n u ib = 0
    · rw [if_pos hz]
      exact ih j hj (fun w hw => h0 w (List.mem_cons_of_mem _ hw)) (by omega)
    · rw [if_neg hz]
      by_cases hf : j + n u ib ≤ size
      · rw [if_pos hf]
        exact ih _ hf (fun w hw => h0 w (List.mem_cons_of_mem _ hw)) (by omega)
      · rw [if_neg hf]
        rfl

/-- C64 is false of the code: whenever two border tiles of the same parallel loop have particles to send in the same direction (and no other
tile has any), some schedule loses the count of one of them, and filling the send buffer writes past its end. -/
theorem C64_lost_update_refuted (nt col u v : I3) (hc : InBox ⟨1, 1, 1⟩ ⟨3, 3, 3⟩ col) (hu : u ∈ colourTiles nt col) (hv : v ∈ colourTiles nt col)
    (hne : u ≠ v) (bu : Border nt u) (bv : Border nt v) (d a b : ℤ) (hd : 1 ≤ d ∧ d ≤ 27 ∧ d ≠ 14) (ha : 0 < a) (hb : 0 < b) :
    ∃ w, Run nt (twoTiles u v d a b) colours (fun _ => 0) w ∧ copyAll (bufSize w) (twoTiles u v d a b) nt = .error .outOfBounds := by
  have n0 : ∀ w ib, 0 ≤ twoTiles u v d a b w ib := by
    intro w ib; unfold twoTiles; split_ifs <;> omega
  have nz : ∀ w, w ≠ u → w ≠ v → twoTiles u v d a b w = fun _ => 0 := by
    intro w h1 h2; funext ib; unfold twoTiles; simp [h1, h2]
  generalize hn : twoTiles u v d a b = n at n0 nz ⊢
  have nu : n u d = a := by rw [← hn]; simp [twoTiles]
  have nv : n v d = b := by rw [← hn]; simp [twoTiles, Ne.symm hne]
  have nvz : ∀ ib, ib ≠ d → n v ib = 0 := by intro ib h; rw [← hn]; simp [twoTiles, h]
  -- the loop that loses an update
  obtain ⟨pre, post, hcs⟩ := List.append_of_mem (show col ∈ colours from mem_box.mpr hc)
  have hnd : colours.Nodup := nodup_box _ _
  rw [hcs] at hnd
  have others : ∀ c, c ∈ colours → c ≠ col → ∀ w ∈ colourTiles nt c, n w = fun _ => 0 := by
    intro c hcm hcne w hw
    have hww : ∀ x : I3, x ∈ colourTiles nt col → w ≠ x := by
      rintro x hx rfl
      refine hcne ?_
      obtain ⟨-, a1, a2, a3⟩ := mem_colourTiles.mp hw
      obtain ⟨-, b1, b2, b3⟩ := mem_colourTiles.mp hx
      have hc' := mem_box.mp hcm
      unfold InBox at hc hc'
      dsimp only at hc hc'
      have e1 : c.j = col.j := by omega
      have e2 : c.k = col.k := by omega
      have e3 : c.l = col.l := by omega
      cases c; cases col; simp_all
    exact nz w (hww u hu) (hww v hv)
  have quiet : ∀ cs : List I3, (∀ c ∈ cs, c ∈ colours ∧ c ≠ col) → ∀ x, Run nt n cs x x := by
    intro cs h x
    have := sc_run_serial (nt := nt) (n := n) cs x
    rwa [serial_zero _ (fun w hw => by
      obtain ⟨l, hl, hw⟩ := List.mem_flatten.mp hw
      obtain ⟨c, hcm, rfl⟩ := List.mem_map.mp hl
      exact others c (h c hcm).1 (h c hcm).2 w hw)] at this
  have hpre : ∀ c ∈ pre, c ∈ colours ∧ c ≠ col := fun c h => by
    refine ⟨by rw [hcs]; simp [h], ?_⟩
    rintro rfl
    rw [List.nodup_append] at hnd
    exact hnd.2.2 c h c List.mem_cons_self rfl
  have hpost : ∀ c ∈ post, c ∈ colours ∧ c ≠ col := fun c h => by
    refine ⟨by rw [hcs]; simp [h], ?_⟩
    rintro rfl
    rw [List.nodup_append] at hnd
    exact (List.nodup_cons.mp hnd.2.1).1 h
  let p1 := Function.update (fun _ : I3 => Pos.start) u (.read fun _ => 0)
  let p2 := Function.update p1 v (.read fun _ => 0)
  let p3 := Function.update p2 u .done
  let p4 := Function.update p3 v .done
  have t1 : SendCount.Steps nt n (colourTiles nt col) ⟨fun _ => 0, fun _ => .start⟩ ⟨fun _ => 0, p1⟩ := .step .refl hu (.read rfl bu)
  have t2 : SendCount.Steps nt n (colourTiles nt col) ⟨fun _ => 0, fun _ => .start⟩ ⟨fun _ => 0, p2⟩ :=
    .step t1 hv (.read (by simp [p1, Function.update_of_ne (Ne.symm hne)]) bv)
  have t3 : SendCount.Steps nt n (colourTiles nt col) ⟨fun _ => 0, fun _ => .start⟩ ⟨fun ib => 0 + n u ib, p3⟩ :=
    .step t2 hu (.write (v := fun _ => 0) (by simp [p2, p1, Function.update_of_ne hne]))
  have t4 : SendCount.Steps nt n (colourTiles nt col) ⟨fun _ => 0, fun _ => .start⟩ ⟨fun ib => 0 + n v ib, p4⟩ :=
    .step t3 hv (.write (v := fun _ => 0) (by simp [p3, p2, Function.update_of_ne (Ne.symm hne)]))
  have hrest : ∀ w ∈ (colourTiles nt col).filter (fun w => w ≠ u ∧ w ≠ v), w ∈ colourTiles nt col ∧ w ≠ u ∧ w ≠ v := fun w hw => by
    simpa using hw
  have t5 := sc_serial (nt := nt) (n := n) (ws := colourTiles nt col) ((colourTiles nt col).filter (fun w => w ≠ u ∧ w ≠ v))
    ((nodup_colourTiles nt col).filter _) (fun w hw => (hrest w hw).1) ⟨fun ib => 0 + n v ib, p4⟩ (fun w hw => by
      have := hrest w hw
      simp [p4, p3, p2, p1, this.2.1, this.2.2])
  rw [serial_zero _ (fun w hw => nz w (hrest w hw).2.1 (hrest w hw).2.2)] at t5
  have run : Run nt n colours (fun _ => 0) (fun ib => 0 + n v ib) := by
    rw [hcs]
    refine sc_run_append (quiet pre hpre _) (.cons (sc_steps_trans t4 t5) (fun w hw => ?_) (quiet post hpost _))
    by_cases h1 : w = u
    · subst h1; simp [p4, p3, hne]
    · by_cases h2 : w = v
      · subst h2; simp [p4]
      · simp [hw, h1, h2]
  refine ⟨_, run, ?_⟩
  -- the buffer is too small in direction d
  have hsz : bufSize (fun ib => 0 + n v ib) ≤ b := bufSize_le hb.le fun ib _ _ => by
    by_cases h : ib = d
    · rw [h, nv]; omega
    · simp only [nvz ib h]; omega
  have hsz0 : 0 ≤ bufSize (fun ib => 0 + n v ib) := (bufSize_aux _ _ 0).1
  have hsum : bufSize (fun ib => 0 + n v ib) < 0 + ((box ⟨1, 1, 1⟩ nt).map fun w => n w d).sum := by
    have hub : ∀ x, x ∈ colourTiles nt col → x ∈ box ⟨1, 1, 1⟩ nt := fun x hx => by
      rw [mem_box]
      have := (mem_colourTiles.mp hx).1
      unfold InBox at this hc ⊢
      dsimp only at hc ⊢
      omega
    have : n u d + n v d ≤ ((box ⟨1, 1, 1⟩ nt).map fun w => n w d).sum := by
      have hperm := List.perm_cons_erase (hub u hu)
      rw [(hperm.map fun w => n w d).sum_eq, List.map_cons, List.sum_cons]
      have hv' : v ∈ (box ⟨1, 1, 1⟩ nt).erase u := (List.mem_erase_of_ne (Ne.symm hne)).mpr (hub v hv)
      have hperm2 := List.perm_cons_erase hv'
      rw [(hperm2.map fun w => n w d).sum_eq, List.map_cons, List.sum_cons]
      have : 0 ≤ ((((box ⟨1, 1, 1⟩ nt).erase u).erase v).map fun w => n w d).sum := List.sum_nonneg fun x hx => by
        obtain ⟨w, -, rfl⟩ := List.mem_map.mp hx
        exact n0 w d
      omega
    omega
  have hbad := copyDir_bad (box ⟨1, 1, 1⟩ nt) 0 hsz0 (fun w _ => n0 w d) hsum
  generalize hszg : bufSize (fun ib => 0 + n v ib) = size at hbad hsz0 hsz hsum
  unfold copyAll
  have key : ∀ l : List ℤ, d ∈ l → l.forM (fun ib => if ib = 14 then (.ok () : Res Unit) else do
      let _ ← copyDir size n ib (box ⟨1, 1, 1⟩ nt) 0
      .ok ()) = .error .outOfBounds := by
    intro l
    induction l with
    | nil => intro h; simp at h
    | cons ib l ih =>
      intro hm
      rw [List.forM_eq_forM] at ih ⊢
      rw [List.forM_cons]
      by_cases h : ib = d
      · subst h
        rw [if_neg hd.2.2, hbad]
        rfl
      · have hm' : d ∈ l := by
          rcases List.mem_cons.mp hm with e | e
          · exact absurd e.symm h
          · exact e
        have hz : ∀ w, n w ib = 0 := by intro w; rw [← hn]; simp [twoTiles, h]
        have e : (if ib = 14 then (.ok () : Res Unit) else do
            let _ ← copyDir size n ib (box ⟨1, 1, 1⟩ nt) 0
            .ok ()) = .ok () := by
          by_cases h14 : ib = 14
          · rw [if_pos h14]
          · rw [if_neg h14, copyDir_ok _ _ (fun w _ => n0 w ib) (by simp [hz]; exact hsz0)]
            rfl
        rw [e]
        exact ih hm'
  exact key _ (by rw [mem_irange]; exact ⟨hd.1, hd.2.1⟩)

/-- Four tiles in x: tiles 1 and 4 belong to the same loop and are both at the border. -/
example : ∃ w, Run ⟨4, 1, 1⟩ (twoTiles ⟨1, 1, 1⟩ ⟨4, 1, 1⟩ 11 3 2) colours (fun _ => 0) w ∧
    copyAll (bufSize w) (twoTiles ⟨1, 1, 1⟩ ⟨4, 1, 1⟩ 11 3 2) ⟨4, 1, 1⟩ = .error .outOfBounds :=
  C64_lost_update_refuted ⟨4, 1, 1⟩ ⟨1, 1, 1⟩ ⟨1, 1, 1⟩ ⟨4, 1, 1⟩ (by decide) (by decide) (by decide) (by decide) (by decide) (by decide) 11 3 2 (by norm_num)
    (by norm_num) (by norm_num)

/-- The same counts with one thread. -/
example : ∃ w, Run ⟨4, 1, 1⟩ (twoTiles ⟨1, 1, 1⟩ ⟨4, 1, 1⟩ 11 3 2) colours (fun _ => 0) w ∧
    copyAll (bufSize w) (twoTiles ⟨1, 1, 1⟩ ⟨4, 1, 1⟩ 11 3 2) ⟨4, 1, 1⟩ = .ok () := by
  obtain ⟨w, h1, -, h2⟩ := C64_one_thread_partial ⟨4, 1, 1⟩ (twoTiles ⟨1, 1, 1⟩ ⟨4, 1, 1⟩ 11 3 2)
    (fun u ib => by unfold twoTiles; split_ifs <;> norm_num) (fun u hu => by
      funext ib
      unfold twoTiles
      have h1 : u ≠ ⟨1, 1, 1⟩ := by rintro rfl; exact hu (by decide)
      have h2 : u ≠ ⟨4, 1, 1⟩ := by rintro rfl; exact hu (by decide)
      simp [h1, h2])
  exact ⟨w, h1, h2⟩

end Picsar.Props
