import Verif.Spec.Retile
import Verif.Lemmas.PartBuffers
import Verif.Lemmas.TileSplit
/-
Moving all particles from one set of tiles to another.
-/
namespace Picsar.Retile
open Picsar Picsar.Grid Picsar.Tiling

variable {n : ℕ}

/-- Particles of tile lists `M'` are those of `M` or come from `src`, at the place `dst`. -/
def From (M M' : I3 → List (Part n)) (src : Part n → I3 → Prop) : Prop := ∀ T p, p ∈ M' T → p ∈ M T ∨ src p T

theorem add_total {nt u : I3} (hu : InBox ⟨1, 1, 1⟩ nt u) (L : I3 → List (Part n)) (p : Part n) :
    total nt (Function.update L u (L u ++ [p])) = total nt L + {p} := by
  have h := PartExchange.total_upd hu L (L u ++ [p])
  rw [← Multiset.coe_add, Multiset.coe_singleton] at h
  have : total nt (Function.update L u (L u ++ [p])) + (L u : Multiset (Part n)) = (total nt L + {p}) + (L u : Multiset (Part n)) := by
    rw [h]; abel
  exact add_right_cancel this

theorem swapRm_last {α : Type} (l : List α) (x : α) : swapRm (l ++ [x]) l.length = l := by
  obtain ⟨b, hb, e⟩ := swapRm_split l [] x
  rw [e, List.perm_nil.mp hb, List.append_nil]

theorem shift_loop {nt : I3} {dst : Part n → I3} {u : I3} {l : List (Part n)} (hd : ∀ p ∈ l, InBox ⟨1, 1, 1⟩ nt (dst p)) :
    ∀ (k : ℕ), k ≤ l.length → ∀ (A B : Species n) (LA LB : I3 → List (Part n)), InBox ⟨1, 1, 1⟩ A.nt u → HoldsAll A LA → LA u = l.take k →
      B.nt = nt → HoldsAll B LB →
    ∃ A' B' LB', (irange 1 (k : ℤ)).reverse.foldlM (fun x i => shift dst u i x) (A, B) = .ok (A', B') ∧ A'.nt = A.nt ∧
      HoldsAll A' (Function.update LA u []) ∧ B'.nt = nt ∧ HoldsAll B' LB' ∧ B'.npart = B.npart + k ∧
      total nt LB' = total nt LB + (l.take k : List (Part n)) ∧ From LB LB' fun p T => p ∈ l ∧ dst p = T := by
  intro k
  induction k with
  | zero =>
    intro _ A B LA LB hu hA hl hB hLB
    refine ⟨A, B, LB, by rw [show ((0 : ℕ) : ℤ) = 0 from rfl, irange_zero]; rfl, rfl, ?_, hB, hLB, by simp, by simp, fun T p hp => Or.inl hp⟩
    rw [show ([] : List (Part n)) = LA u by rw [hl]; simp, Function.update_eq_self]
    exact hA
  | succ k ih =>
    intro hk A B LA LB hu hA hl hB hLB
    have hkl : k < l.length := by omega
    have hlen : (l.take k).length = k := List.length_take_of_le hkl.le
    have hl' : LA u = l.take k ++ [l[k]] := by rw [hl, List.take_append_getElem hkl]
    have hku : k < (LA u).length := by rw [hl']; simp; omega
    have hget : (LA u)[k] = l[k] := by
      simp only [hl']
      rw [List.getElem_append_right (by omega)]
      simp
    have hmem : l[k] ∈ l := List.getElem_mem hkl
    have hbox : InBox ⟨1, 1, 1⟩ B.nt (dst l[k]) := hB ▸ hd _ hmem
    obtain ⟨B1, e1, h1, n1, np1⟩ := atTile_ok hLB hbox (addTile_ok (hLB _ hbox) l[k])
    obtain ⟨A1, e2, h2, n2, np2⟩ := atTile_ok hA hu (rmTile_ok (hA u hu) hku)
    have estep : shift dst u ((k : ℤ) + 1) (A, B) = .ok (⟨A1.nt, A1.tiles, A1.npart - 1⟩, ⟨B1.nt, B1.tiles, B1.npart + 1⟩) := by
      unfold shift
      dsimp only
      rw [readPart_ok (hA u hu) hku, except_bind_ok, hget]
      have ea : addAt (dst l[k]) l[k] B = .ok B1 := e1
      rw [ea, except_bind_ok]
      have er : rmAt u ((k : ℤ) + 1) A = .ok A1 := e2
      unfold rmSpecies
      rw [er]
      rfl
    have hsw : swapRm (LA u) k = l.take k := by
      rw [hl']
      have := swapRm_last (l.take k) l[k]
      rwa [hlen] at this
    rw [hsw] at h2
    obtain ⟨A', B', LB', e', nA', hA', nB', hB', np', t', f'⟩ := ih (by omega) ⟨A1.nt, A1.tiles, A1.npart - 1⟩ ⟨B1.nt, B1.tiles, B1.npart + 1⟩
      (Function.update LA u (l.take k)) (Function.update LB (dst l[k]) (LB (dst l[k]) ++ [l[k]])) (by rw [n2]; exact hu) h2 (by rw [Function.update_self])
      (n1.trans hB) h1
    refine ⟨A', B', LB', ?_, by rw [nA', n2], by rwa [Function.update_idem] at hA', nB', hB', ?_, ?_, ?_⟩
    · rw [irange_rev_succ, List.foldlM_cons, estep]
      exact e'
    · rw [np', np1]; push_cast; ring
    · rw [t', add_total (hd _ hmem), ← List.take_append_getElem hkl, ← Multiset.coe_add, Multiset.coe_singleton]
      abel
    · intro T p hp
      rcases f' T p hp with h | h
      · by_cases hT : T = dst l[k]
        · subst hT
          rw [Function.update_self, List.mem_append] at h
          rcases h with h | h
          · exact Or.inl h
          · rw [List.mem_singleton] at h
            subst h
            exact Or.inr ⟨hmem, rfl⟩
        · rw [Function.update_of_ne hT] at h
          exact Or.inl h
      · exact Or.inr h

theorem shiftTile_ok {nt : I3} {dst : Part n → I3} {u : I3} {A B : Species n} {LA LB : I3 → List (Part n)} (hu : InBox ⟨1, 1, 1⟩ A.nt u)
    (hA : HoldsAll A LA) (hd : ∀ p ∈ LA u, InBox ⟨1, 1, 1⟩ nt (dst p)) (hB : B.nt = nt) (hLB : HoldsAll B LB) :
    ∃ A' B' LB', shiftTile dst u (A, B) = .ok (A', B') ∧ A'.nt = A.nt ∧ HoldsAll A' (Function.update LA u []) ∧ B'.nt = nt ∧ HoldsAll B' LB' ∧
      B'.npart = B.npart + (LA u).length ∧ total nt LB' = total nt LB + (LA u : Multiset (Part n)) ∧ From LB LB' fun p T => p ∈ LA u ∧ dst p = T := by
  obtain ⟨A', B', LB', e, h1, h2, h3, h4, h5, h6, h7⟩ := shift_loop hd (LA u).length le_rfl A B LA LB hu hA (by simp) hB hLB
  refine ⟨A', B', LB', ?_, h1, h2, h3, h4, h5, by rw [h6, List.take_length], h7⟩
  unfold shiftTile
  rw [show (A, B).1 = A from rfl, (hA u hu).count]
  exact e

theorem shifts_ok {nt : I3} {dst : I3 → Part n → I3} {L : I3 → List (Part n)} : ∀ (us : List I3), us.Nodup → ∀ (A B : Species n)
    (LA LB : I3 → List (Part n)), (∀ u ∈ us, InBox ⟨1, 1, 1⟩ A.nt u ∧ LA u = L u ∧ ∀ p ∈ L u, InBox ⟨1, 1, 1⟩ nt (dst u p)) → HoldsAll A LA → B.nt = nt →
      HoldsAll B LB →
    ∃ A' B' LB', us.foldlM (fun x u => shiftTile (dst u) u x) (A, B) = .ok (A', B') ∧ B'.nt = nt ∧ HoldsAll B' LB' ∧
      B'.npart = B.npart + Multiset.card (us.map fun u => (L u : Multiset (Part n))).sum ∧
      total nt LB' = total nt LB + (us.map fun u => (L u : Multiset (Part n))).sum ∧ From LB LB' fun p T => ∃ u ∈ us, p ∈ L u ∧ dst u p = T := by
  intro us
  induction us with
  | nil => intro _ A B LA LB _ _ hB hLB; exact ⟨A, B, LB, rfl, hB, hLB, by simp, by simp, fun T p hp => Or.inl hp⟩
  | cons u us ih =>
    intro hn A B LA LB hu hA hB hLB
    rw [List.nodup_cons] at hn
    obtain ⟨hu1, hu2, hu3⟩ := hu u List.mem_cons_self
    obtain ⟨A1, B1, LB1, e1, nA, hA1, nB, hB1, np1, t1, f1⟩ := shiftTile_ok (dst := dst u) hu1 hA (by rw [hu2]; exact hu3) hB hLB
    obtain ⟨A2, B2, LB2, e2, nB2, hB2, np2, t2, f2⟩ := ih hn.2 A1 B1 _ LB1 (fun v hv => by
      obtain ⟨a, b, d⟩ := hu v (List.mem_cons_of_mem _ hv)
      refine ⟨nA ▸ a, ?_, d⟩
      have hne : v ≠ u := fun e => hn.1 (by rw [← e]; exact hv)
      rw [Function.update_of_ne hne, b]) hA1 nB hB1
    refine ⟨A2, B2, LB2, ?_, nB2, hB2, ?_, ?_, ?_⟩
    · rw [List.foldlM_cons, e1]
      exact e2
    · rw [np2, np1, hu2, List.map_cons, List.sum_cons, Multiset.card_add, Multiset.coe_card]
      push_cast; ring
    · rw [t2, t1, hu2, List.map_cons, List.sum_cons, add_assoc]
    · intro T p hp
      rcases f2 T p hp with h | ⟨v, hv, h⟩
      · rcases f1 T p h with h | h
        · exact Or.inl h
        · exact Or.inr ⟨u, List.mem_cons_self, hu2 ▸ h.1, h.2⟩
      · exact Or.inr ⟨v, List.mem_cons_of_mem _ hv, h⟩

/-! ### One species -/

theorem total_nil (nt : I3) : total nt (fun _ => ([] : List (Part n))) = 0 := by
  unfold total
  simp

theorem blank_holds (nt : I3) (j : Junk) (i : Info) : HoldsAll (blank (n := n) nt j i).core fun _ => [] := by
  intro u _
  exact ⟨rfl, le_rfl, fun h => absurd h (by simp [blank, blankTile]), fun _ => rfl, fun _ _ i hi => absurd hi (Nat.not_lt_zero i)⟩

theorem initSpc_holds (g : Geo) (skip : Bool) (nt : I3) (j : Junk) (i : Info) : (initSpc (n := n) g skip (blank nt j i)).info = i ∧
    (initSpc (n := n) g skip (blank nt j i)).flags = ⟨false, true, false, j.period, j.start, j.name⟩ ∧
    (initSpc (n := n) g skip (blank nt j i)).core.nt = nt ∧ HoldsAll (initSpc (n := n) g skip (blank nt j i)).core (fun _ => []) ∧
    (initSpc (n := n) g skip (blank nt j i)).core.npart = if skip then j.npart else 0 := by
  cases skip
  · refine ⟨rfl, rfl, rfl, fun u _ => ?_, rfl⟩
    refine ⟨rfl, ?_, fun _ a => ?_, fun _ => rfl, fun _ _ i hi => absurd hi (Nat.not_lt_zero i)⟩
    · show (0 : ℤ) ≤ max _ 1
      exact le_trans (by norm_num) (le_max_right _ _)
    · rfl
  · exact ⟨rfl, rfl, rfl, blank_holds nt j i, rfl⟩

theorem stage_ok {g : Geo} {skip : Bool} {nt : I3} {dst : I3 → Part n → I3} {j : ℕ → Junk} {S : Spc n} {k : ℕ} {L : I3 → List (Part n)}
    (hnt : S.core.nt = nt) (h : HoldsAll S.core L) (hd : ∀ u, InBox ⟨1, 1, 1⟩ nt u → ∀ p ∈ L u, InBox ⟨1, 1, 1⟩ (counts g) (dst u p)) :
    ∃ S' L', stage g skip nt dst j (S, k) = .ok S' ∧ S'.info = S.info ∧ S'.flags = ⟨false, true, false, (j k).period, (j k).start, (j k).name⟩ ∧
      S'.core.nt = counts g ∧ HoldsAll S'.core L' ∧ S'.core.npart = (if skip then (j k).npart else 0) + Multiset.card (total nt L) ∧
      total (counts g) L' = total nt L ∧ ∀ T p, p ∈ L' T → ∃ u, InBox ⟨1, 1, 1⟩ nt u ∧ p ∈ L u ∧ dst u p = T := by
  obtain ⟨b1, b2, b3, b4, b5⟩ := initSpc_holds (n := n) g skip (counts g) (j k) S.info
  obtain ⟨A', B', L', e, h1, h2, h3, h4, h5⟩ := shifts_ok (dst := dst) (L := L) (box ⟨1, 1, 1⟩ nt) (nodup_box _ _) S.core
    (initSpc (n := n) g skip (blank (counts g) (j k) S.info)).core L (fun _ => []) (fun u hu => ⟨hnt ▸ mem_box.mp hu, rfl, hd u (mem_box.mp hu)⟩) h b3 b4
  refine ⟨{ initSpc (n := n) g skip (blank (counts g) (j k) S.info) with core := B' }, L', ?_, b1, b2, h1, h2, ?_, ?_, ?_⟩
  · unfold stage shiftAll
    dsimp only
    rw [e]
    rfl
  · rw [h3, b5]; rfl
  · rw [h4, total_nil, zero_add]; rfl
  · intro T p hp
    rcases h5 T p hp with h | ⟨u, hu, h⟩
    · exact absurd h (by simp)
    · exact ⟨u, mem_box.mp hu, h⟩

/-! ### All species -/

theorem mapM_ok {α β : Type} {f : α → Res β} {R : α → β → Prop} : ∀ (l : List α), (∀ a ∈ l, ∃ b, f a = .ok b ∧ R a b) →
    ∃ l', l.mapM f = .ok l' ∧ List.Forall₂ R l l' := by
  intro l
  induction l with
  | nil => intro _; exact ⟨[], rfl, .nil⟩
  | cons a l ih =>
    intro h
    obtain ⟨b, e, r⟩ := h a List.mem_cons_self
    obtain ⟨l', e', r'⟩ := ih fun c hc => h c (List.mem_cons_of_mem _ hc)
    refine ⟨b :: l', ?_, .cons r r'⟩
    rw [List.mapM_cons, e, except_bind_ok, e']
    rfl

/-- Pointwise version for the species with their numbers. -/
theorem mapM_idx {α β : Type} {f : α × ℕ → Res β} {R : ℕ → α → β → Prop} (l : List α) (h : ∀ i a, l[i]? = some a → ∃ b, f (a, i) = .ok b ∧ R i a b) :
    ∃ l', l.zipIdx.mapM f = .ok l' ∧ l'.length = l.length ∧ ∀ i b, l'[i]? = some b → ∃ a, l[i]? = some a ∧ R i a b := by
  obtain ⟨l', e, r⟩ := mapM_ok (f := f) (R := fun x b => R x.2 x.1 b) l.zipIdx (fun x hx => by
    obtain ⟨a, i⟩ := x
    exact h i a (List.mk_mem_zipIdx_iff_getElem?.mp hx))
  have hlen := r.length_eq
  rw [List.length_zipIdx] at hlen
  refine ⟨l', e, hlen.symm, fun i b hb => ?_⟩
  obtain ⟨hi, rfl⟩ := List.getElem?_eq_some_iff.mp hb
  have hi' : i < l.zipIdx.length := by simp; omega
  have := List.Forall₂.get r hi' hi
  simp at this
  exact ⟨l[i], List.getElem?_eq_getElem (by omega), this⟩

/-! ### Geometry -/

theorem split1_ok {nt m : ℤ} (h : 1 ≤ nt) : ∃ s, split1 nt m = .ok s := by
  unfold split1
  rw [if_neg (by omega)]
  exact ⟨_, rfl⟩

/-- A second split with the number of tiles of a first one gives the same tiles. -/
theorem split_twice {nt m : ℤ} (h1 : 1 ≤ nt) (h2 : 1 ≤ m) {s : Split1} (h : split1 nt m = .ok s) : 1 ≤ s.nt ∧ ∃ s', split1 s.nt m = .ok s' ∧ s'.nt = s.nt ∧
    ∀ xmin xmax dx i, tileExt s' xmin xmax dx i = tileExt s xmin xmax dx i ∨ ¬ (1 ≤ i ∧ i ≤ s.nt) := by
  rcases split_cases h1 h2 h with ⟨a, b⟩ | ⟨a, b, -⟩
  · refine ⟨by omega, ?_⟩
    obtain ⟨s', e'⟩ := split1_ok (nt := s.nt) (m := m) (by omega)
    rcases split_cases (by omega) h2 e' with ⟨c, d⟩ | ⟨c, d, -⟩
    · refine ⟨s', e', by omega, fun xmin xmax dx i => ?_⟩
      by_cases hi : i = 1
      · left
        subst hi
        unfold tileExt
        rw [if_pos c.symm, if_pos a.symm, b, d]
        simp
      · right; omega
    · omega
  · refine ⟨by omega, s, b ▸ h, rfl, fun _ _ _ _ => Or.inl rfl⟩

theorem newCounts_pos (c : Setup) : 1 ≤ (newCounts c).j ∧ 1 ≤ (newCounts c).k ∧ 1 ≤ (newCounts c).l := by
  unfold newCounts
  split_ifs <;> simp

theorem geo1_ok {s : Split1} {a : Lim} {nt m : ℤ} (h1 : 1 ≤ nt) (h : a.Ok m) (hs : split1 nt m = .ok s) :
    Geo1.Ok ⟨s, a.xmin, a.xmax, a.dx, a.xmin, a.xmax⟩ nt m := ⟨h1, h.1, hs, h.2.1, h.2.2, le_rfl, le_rfl⟩

/-- The two splits of the routine: they succeed, fit the subdomain and give the same tiles. -/
theorem splits_ok {c : Setup} (hc : c.Ok) : ∃ g1 g2, split3 c (newCounts c) = .ok g1 ∧ split3 c (counts g1) = .ok g2 ∧ counts g2 = counts g1 ∧
    Fits g1 (counts g1) ∧ Fits g2 (counts g2) ∧ (g1.x.xmin = c.x.xmin ∧ g1.x.xmax = c.x.xmax ∧ g1.x.pmin = c.x.xmin ∧ g1.x.pmax = c.x.xmax) ∧
    (g1.y.xmin = c.y.xmin ∧ g1.y.xmax = c.y.xmax ∧ g1.y.pmin = c.y.xmin ∧ g1.y.pmax = c.y.xmax) ∧
    (g1.z.xmin = c.z.xmin ∧ g1.z.xmax = c.z.xmax ∧ g1.z.pmin = c.z.xmin ∧ g1.z.pmax = c.z.xmax) ∧
    (g2.x.xmin = c.x.xmin ∧ g2.x.xmax = c.x.xmax ∧ g2.x.dx = c.x.dx) ∧ (g2.y.xmin = c.y.xmin ∧ g2.y.xmax = c.y.xmax ∧ g2.y.dx = c.y.dx) ∧
    (g2.z.xmin = c.z.xmin ∧ g2.z.xmax = c.z.xmax ∧ g2.z.dx = c.z.dx) ∧
    ∀ T, InBox ⟨1, 1, 1⟩ (counts g1) T → g2.x.ext T.j = g1.x.ext T.j ∧ g2.y.ext T.k = g1.y.ext T.k ∧ g2.z.ext T.l = g1.z.ext T.l := by
  obtain ⟨cx, cy, cz⟩ := hc
  obtain ⟨px, py, pz⟩ := newCounts_pos c
  obtain ⟨sx, ex⟩ := split1_ok (m := c.grid.j) px
  obtain ⟨sy, ey⟩ := split1_ok (m := c.grid.k) py
  obtain ⟨sz, ez⟩ := split1_ok (m := c.grid.l) pz
  obtain ⟨qx, tx, fx, nx, ux⟩ := split_twice px cx.1 ex
  obtain ⟨qy, ty, fy, ny, uy⟩ := split_twice py cy.1 ey
  obtain ⟨qz, tz, fz, nz, uz⟩ := split_twice pz cz.1 ez
  refine ⟨⟨⟨sx, c.x.xmin, c.x.xmax, c.x.dx, c.x.xmin, c.x.xmax⟩, ⟨sy, c.y.xmin, c.y.xmax, c.y.dx, c.y.xmin, c.y.xmax⟩,
      ⟨sz, c.z.xmin, c.z.xmax, c.z.dx, c.z.xmin, c.z.xmax⟩⟩,
    ⟨⟨tx, c.x.xmin, c.x.xmax, c.x.dx, c.x.xmin, c.x.xmax⟩, ⟨ty, c.y.xmin, c.y.xmax, c.y.dx, c.y.xmin, c.y.xmax⟩,
      ⟨tz, c.z.xmin, c.z.xmax, c.z.dx, c.z.xmin, c.z.xmax⟩⟩, ?_, ?_, ?_, ?_, ?_, ⟨rfl, rfl, rfl, rfl⟩, ⟨rfl, rfl, rfl, rfl⟩, ⟨rfl, rfl, rfl, rfl⟩,
    ⟨rfl, rfl, rfl⟩, ⟨rfl, rfl, rfl⟩, ⟨rfl, rfl, rfl⟩, ?_⟩
  · unfold split3; rw [ex, except_bind_ok, ey, except_bind_ok, ez]; rfl
  · unfold split3 counts; dsimp only; rw [fx, except_bind_ok, fy, except_bind_ok, fz]; rfl
  · unfold counts; dsimp only; rw [nx, ny, nz]
  · exact ⟨⟨_, _, geo1_ok px cx ex⟩, ⟨_, _, geo1_ok py cy ey⟩, ⟨_, _, geo1_ok pz cz ez⟩, rfl⟩
  · exact ⟨⟨_, _, geo1_ok qx cx fx⟩, ⟨_, _, geo1_ok qy cy fy⟩, ⟨_, _, geo1_ok qz cz fz⟩, rfl⟩
  · intro T hT
    obtain ⟨a1, a2, b1, b2, c1, c2⟩ := hT
    exact ⟨(ux _ _ _ _).resolve_right (not_not.mpr ⟨a1, a2⟩), (uy _ _ _ _).resolve_right (not_not.mpr ⟨b1, b2⟩),
      (uz _ _ _ _).resolve_right (not_not.mpr ⟨c1, c2⟩)⟩

theorem counts_pos {g : Geo} (h : Fits g (counts g)) : 1 ≤ g.x.s.nt ∧ 1 ≤ g.y.s.nt ∧ 1 ≤ g.z.s.nt := by
  obtain ⟨⟨_, _, hx⟩, ⟨_, _, hy⟩, ⟨_, _, hz⟩, -⟩ := h
  refine ⟨?_, ?_, ?_⟩
  · rcases split_cases hx.tiles hx.grid hx.split with ⟨q, -⟩ | ⟨q, -⟩ <;> omega
  · rcases split_cases hy.tiles hy.grid hy.split with ⟨q, -⟩ | ⟨q, -⟩ <;> omega
  · rcases split_cases hz.tiles hz.grid hz.split with ⟨q, -⟩ | ⟨q, -⟩ <;> omega

theorem inDom1 {g : Geo1} {x : ℝ} : g.inDom x ↔ g.pmin ≤ x ∧ x < g.pmax := by
  unfold Geo1.inDom
  push Not
  rfl

/-- The place of a particle. -/
theorem place_ok {c : Setup} {g : Geo} (hg : Fits g (counts g)) (hx : g.x.pmin = c.x.xmin ∧ g.x.pmax = c.x.xmax)
    (hy : g.y.pmin = c.y.xmin ∧ g.y.pmax = c.y.xmax) (hz : g.z.pmin = c.z.xmin ∧ g.z.pmax = c.z.xmax) (p : Part n) :
    InBox ⟨1, 1, 1⟩ (counts g) (place c g p) ∧ (Inside c p → InTileOf c g (place c g p) p) ∧ (¬ Inside c p → place c g p = ⟨1, 1, 1⟩) := by
  obtain ⟨px, py, pz⟩ := counts_pos hg
  obtain ⟨⟨_, _, ox⟩, ⟨_, _, oy⟩, ⟨_, _, oz⟩, -⟩ := hg
  have h1 : InBox ⟨1, 1, 1⟩ (counts g) ⟨1, 1, 1⟩ := ⟨le_rfl, px, le_rfl, py, le_rfl, pz⟩
  unfold place Inside InTileOf
  cases hd : c.dim2
  · have hi : g.inDom p ↔ ((c.x.xmin ≤ p.x ∧ p.x < c.x.xmax) ∧ (c.y.xmin ≤ p.y ∧ p.y < c.y.xmax) ∧ (c.z.xmin ≤ p.z ∧ p.z < c.z.xmax)) := by
      unfold Geo.inDom
      rw [inDom1, inDom1, inDom1, hx.1, hx.2, hy.1, hy.2, hz.1, hz.2]
    simp only [Bool.false_eq_true, if_false, forall_true_left]
    by_cases hin : g.inDom p
    · rw [if_pos hin]
      have x1 := inDom_bounds ox hin.1
      have y1 := inDom_bounds oy hin.2.1
      have z1 := inDom_bounds oz hin.2.2
      have ix := idx_range ox x1.1
      have iy := idx_range oy y1.1
      have iz := idx_range oz z1.1
      exact ⟨⟨ix.1, ix.2, iy.1, iy.2, iz.1, iz.2⟩, fun _ => ⟨idx_home ox x1, idx_home oy y1, idx_home oz z1⟩, fun h => absurd (hi.mp hin) h⟩
    · rw [if_neg hin]
      exact ⟨h1, fun h => absurd (hi.mpr h) hin, fun _ => rfl⟩
  · have hi : g.inDom2 p ↔ ((c.x.xmin ≤ p.x ∧ p.x < c.x.xmax) ∧ (c.z.xmin ≤ p.z ∧ p.z < c.z.xmax)) := by
      unfold Geo.inDom2
      rw [inDom1, inDom1, hx.1, hx.2, hz.1, hz.2]
    simp only [if_true, Bool.true_eq_false, false_imp_iff, true_and]
    by_cases hin : g.inDom2 p
    · rw [if_pos hin]
      have x1 := inDom_bounds ox hin.1
      have z1 := inDom_bounds oz hin.2
      have ix := idx_range ox x1.1
      have iz := idx_range oz z1.1
      exact ⟨⟨ix.1, ix.2, le_rfl, py, iz.1, iz.2⟩, fun _ => ⟨idx_home ox x1, idx_home oz z1⟩, fun h => absurd (hi.mp hin) h⟩
    · rw [if_neg hin]
      exact ⟨h1, fun h => absurd (hi.mpr h) hin, fun _ => rfl⟩

/-! ### The routine -/

/-- Everything about one call. -/
theorem newTileSplit_ok {c : Setup} (hc : c.Ok) (j1 j2 : ℕ → Junk) {st : St n} {L : ℕ → I3 → List (Part n)} (h : Stores st L) :
    ∃ st' L', newTileSplit c j1 j2 st = .ok st' ∧ st'.sp.length = st.sp.length ∧ Covers c st' ∧ Stores st' L' ∧ (∀ T, st'.grid T = false) ∧
      ∀ i S', st'.sp[i]? = some S' → ∃ S, st.sp[i]? = some S ∧ total st'.nt (L' i) = total st.nt (L i) ∧ S'.info = S.info ∧
        S'.flags = ⟨false, true, false, (j2 i).period, (j2 i).start, (j2 i).name⟩ ∧ S'.core.npart = (j2 i).npart + Multiset.card (total st.nt (L i)) ∧
        ∀ T p, p ∈ L' i T → (Inside c p → InTileOf c st'.geo T p) ∧ (¬ Inside c p → T = ⟨1, 1, 1⟩) := by
  obtain ⟨g1, g2, e1, e2, en, f1, f2, x1, y1, z1, x2, y2, z2, ext⟩ := splits_ok hc
  have hpl := fun p : Part n => place_ok f1 x1.2.2 y1.2.2 z1.2.2 p
  -- first stage
  have st1 : ∀ i S, st.sp[i]? = some S → ∃ S', stage g1 st.inited st.nt (fun _ p => place c g1 p) j1 (S, i) = .ok S' ∧ ∃ M : I3 → List (Part n), S'.info = S.info ∧
      S'.core.nt = counts g1 ∧ HoldsAll S'.core M ∧ total (counts g1) M = total st.nt (L i) ∧ ∀ T p, p ∈ M T → place c g1 p = T := by
    intro i S hS
    obtain ⟨hn, hh⟩ := h i S hS
    obtain ⟨S', M, a1, a2, -, a4, a5, -, a7, a8⟩ := stage_ok (g := g1) (skip := st.inited) (dst := fun _ p => place c g1 p) (j := j1) (k := i) hn hh (fun u _ p _ => (hpl p).1)
    refine ⟨S', a1, M, a2, a4, a5, a7, fun T p hp => ?_⟩
    obtain ⟨u, -, -, h3⟩ := a8 T p hp
    exact h3
  obtain ⟨sp1, m1, len1, r1⟩ := mapM_idx (R := fun i (S S' : Spc n) => ∃ M : I3 → List (Part n), S'.info = S.info ∧ S'.core.nt = counts g1 ∧ HoldsAll S'.core M ∧
    total (counts g1) M = total st.nt (L i) ∧ ∀ T p, p ∈ M T → place c g1 p = T) st.sp st1
  -- second stage
  have hskip : sp1 ≠ [] → (initGrid st.sp.length st.inited).2 = true := by
    intro hne
    have : st.sp.length ≠ 0 := by rw [← len1]; exact fun h => hne (List.length_eq_zero_iff.mp h)
    unfold initGrid
    rw [if_neg this]
    split_ifs <;> rfl
  have st2 : ∀ i S, sp1[i]? = some S → ∃ S', stage g2 (initGrid st.sp.length st.inited).2 (counts g1) (fun u _ => u) j2 (S, i) = .ok S' ∧
      ∃ S0, st.sp[i]? = some S0 ∧ ∃ M : I3 → List (Part n), S'.info = S0.info ∧ S'.flags = ⟨false, true, false, (j2 i).period, (j2 i).start, (j2 i).name⟩ ∧
      S'.core.nt = counts g2 ∧ HoldsAll S'.core M ∧ S'.core.npart = (j2 i).npart + Multiset.card (total st.nt (L i)) ∧ total (counts g2) M = total st.nt (L i) ∧
      ∀ T p, p ∈ M T → InBox ⟨1, 1, 1⟩ (counts g1) T ∧ place c g1 p = T := by
    intro i S hS
    obtain ⟨S0, hS0, M, b1, b2, b3, b4, b5⟩ := r1 i S hS
    obtain ⟨S', M', a1, a2, a3, a4, a5, a6, a7, a8⟩ := stage_ok (g := g2) (skip := (initGrid st.sp.length st.inited).2) (dst := fun u _ => u) (j := j2) (k := i) b2 b3
      (fun u hu p _ => by rw [en]; exact hu)
    have hs : (initGrid st.sp.length st.inited).2 = true := hskip (fun e => by simp [e] at hS)
    rw [if_pos hs, b4] at a6
    refine ⟨S', a1, S0, hS0, M', by rw [a2, b1], a3, a4, a5, a6, by rw [a7, b4], fun T p hp => ?_⟩
    obtain ⟨u, h1, h2, h3⟩ := a8 T p hp
    subst h3
    exact ⟨h1, b5 _ p h2⟩
  obtain ⟨sp2, m2, len2, r2⟩ := mapM_idx (R := fun i (_ S' : Spc n) => ∃ S0, st.sp[i]? = some S0 ∧ ∃ M : I3 → List (Part n), S'.info = S0.info ∧
      S'.flags = ⟨false, true, false, (j2 i).period, (j2 i).start, (j2 i).name⟩ ∧
      S'.core.nt = counts g2 ∧ HoldsAll S'.core M ∧ S'.core.npart = (j2 i).npart + Multiset.card (total st.nt (L i)) ∧ total (counts g2) M = total st.nt (L i) ∧
      ∀ T p, p ∈ M T → InBox ⟨1, 1, 1⟩ (counts g1) T ∧ place c g1 p = T) sp1 st2
  have hgrid : (initGrid sp1.length (initGrid st.sp.length st.inited).2).1 = false := by
    by_cases h0 : sp1 = []
    · rw [h0]; rfl
    · rw [hskip h0]
      unfold initGrid
      by_cases hl : sp1.length = 0
      · rw [if_pos hl]
      · rw [if_neg hl, if_pos rfl]
  have key : ∀ i, ∃ M : I3 → List (Part n), ∀ S', sp2[i]? = some S' → ∃ S0, st.sp[i]? = some S0 ∧ S'.info = S0.info ∧
      S'.flags = ⟨false, true, false, (j2 i).period, (j2 i).start, (j2 i).name⟩ ∧
      S'.core.nt = counts g2 ∧ HoldsAll S'.core M ∧ S'.core.npart = (j2 i).npart + Multiset.card (total st.nt (L i)) ∧ total (counts g2) M = total st.nt (L i) ∧
      ∀ T p, p ∈ M T → InBox ⟨1, 1, 1⟩ (counts g1) T ∧ place c g1 p = T := by
    intro i
    cases hi : sp2[i]? with
    | none => exact ⟨fun _ => [], fun S' h => by simp at h⟩
    | some S' =>
      obtain ⟨-, -, S0, k0, M, k1⟩ := r2 i S' hi
      refine ⟨M, fun S'' h => ?_⟩
      injection h with h
      subst h
      exact ⟨S0, k0, k1⟩
  choose M hM using key
  refine ⟨⟨sp2, counts g2, g2, fun _ => (initGrid sp1.length (initGrid st.sp.length st.inited).2).1,
    (initGrid sp1.length (initGrid st.sp.length st.inited).2).2⟩, M, ?_, len2.trans len1, ⟨f2, x2, y2, z2⟩, ?_, fun _ => hgrid, ?_⟩
  · unfold newTileSplit
    rw [e1, except_bind_ok]
    dsimp only
    rw [m1, except_bind_ok, e2, except_bind_ok, m2]
    rfl
  · intro i S hS
    obtain ⟨S0, k0, k1, k2, k3, k4, -⟩ := hM i S hS
    exact ⟨k3, k4⟩
  · intro i S hS
    obtain ⟨S0, k0, k1, k2, k3, k4, k5, k6, k7⟩ := hM i S hS
    refine ⟨S0, k0, k6, k1, k2, k5, fun T p hp => ?_⟩
    obtain ⟨q1, q2⟩ := k7 T p hp
    obtain ⟨w1, w2, w3⟩ := ext T q1
    obtain ⟨-, v2, v3⟩ := hpl p
    rw [q2] at v2 v3
    refine ⟨fun hin => ?_, v3⟩
    have := v2 hin
    unfold InTileOf at this ⊢
    dsimp only
    rw [w1, w2, w3]
    exact this

end Picsar.Retile
