import Verif.Lemmas.TileCurrent

/-
When the deposition leaves the arrays: the only fault it can raise is an access out of bounds, and it raises it as soon as one of the nodes it loops
over is outside.
-/
namespace Picsar.Deposition
open Picsar Picsar.Grid Picsar.Spec

/-- No fault but an access out of bounds. -/
def Only {α : Type} (r : Res α) : Prop := ∀ e, r = .error e → e = .outOfBounds

theorem Only.ok {α : Type} {a : α} : Only (.ok a : Res α) := fun _ h => by cases h
theorem Only.pure {α : Type} {a : α} : Only (pure a : Res α) := fun _ h => by cases h
theorem Only.out {α : Type} : Only (.error .outOfBounds : Res α) := fun _ h => by cases h; rfl

theorem Only.bind {α β : Type} {r : Res α} {f : α → Res β} (h : Only r) (hf : ∀ a, Only (f a)) : Only (r >>= f) := by
  intro e he
  rcases r with e' | a
  · change (Except.error e' : Res β) = .error e at he
    cases he
    exact h _ rfl
  · exact hf a e he

theorem Only.foldlM {α S : Type} {f : S → α → Res S} (hf : ∀ s a, Only (f s a)) : ∀ (l : List α) (s : S), Only (l.foldlM f s)
  | [], s => Only.ok
  | a :: l, s => by
    rw [List.foldlM_cons]
    exact (hf s a).bind fun s' => Only.foldlM hf l s'

theorem Only.mapM {α β : Type} {f : α → Res β} (hf : ∀ a, Only (f a)) : ∀ (l : List α), Only (l.mapM f)
  | [] => by rw [List.mapM_nil]; exact Only.pure
  | a :: l => by
    rw [List.mapM_cons]
    exact (hf a).bind fun b => (Only.mapM hf l).bind fun bs => Only.pure

theorem get_only (a : Arr) (i : I3) : Only (a.get i) := by
  unfold Arr.get; split
  · exact Only.ok
  · exact Only.out

theorem set_only (a : Arr) (i : I3) (v : ℝ) : Only (a.set i v) := by
  unfold Arr.set; split
  · exact Only.ok
  · exact Only.out

theorem bump_only (a : Arr) (i : I3) (v : ℝ) : Only (bump a i v) := (get_only a i).bind fun _ => set_only _ _ _

theorem bumpMem_only (σ : Mem) (c : Comp) (i : I3) (v : ℝ) : Only (bumpMem σ c i v) := (bump_only _ _ _).bind fun _ => Only.pure

theorem doX_only (L : Loc) (i j k : ℤ) (s : Acc) : Only (doX L i j k s) := by
  unfold doX; split
  · exact (bumpMem_only _ _ _ _).bind fun _ => Only.pure
  · exact Only.pure

theorem doY_only (L : Loc) (i j k : ℤ) (s : Acc) : Only (doY L i j k s) := by
  unfold doY; split
  · exact (bumpMem_only _ _ _ _).bind fun _ => Only.pure
  · exact Only.pure

theorem doZ_only (L : Loc) (i j k : ℤ) (s : Acc) : Only (doZ L i j k s) := by
  unfold doZ; split
  · exact (bumpMem_only _ _ _ _).bind fun _ => Only.pure
  · exact Only.pure

theorem cell_only (n : ℕ) (L : Loc) (i j k : ℤ) (s : Acc) : Only (cell n L i j k s) := by
  unfold cell; split
  · exact (doX_only _ _ _ _ _).bind fun _ => (doY_only _ _ _ _ _).bind fun _ => (doZ_only _ _ _ _ _).bind fun _ => Only.pure
  · exact Only.out

theorem volume_only (n : ℕ) (L : Loc) (s : Acc) : Only (volume n L s) := by
  unfold volume
  refine Only.foldlM (fun s k => ?_) _ _
  unfold plane
  refine (Only.foldlM (fun s j => ?_) _ _).bind fun _ => Only.pure
  unfold row
  exact (Only.foldlM (fun s i => cell_only _ _ _ _ _ _) _ _).bind fun _ => Only.pure

theorem fill_only (n : ℕ) (d : ℤ) (ws : List (ℤ × ℝ)) : Only (fill n d ws) := by
  unfold fill
  refine Only.foldlM (fun s w => ?_) _ _
  split
  · exact Only.ok
  · exact Only.out

theorem prep_only (n : ℕ) (g : Geo) (p : Part) : Only (prep n g p) := by
  unfold prep
  exact (fill_only _ _ _).bind fun _ => (fill_only _ _ _).bind fun _ => (fill_only _ _ _).bind fun _ => (fill_only _ _ _).bind fun _ =>
    (fill_only _ _ _).bind fun _ => (fill_only _ _ _).bind fun _ => Only.pure

theorem deposeLoop_only (n : ℕ) (g : Geo) : ∀ (ps : List Part) (s : Acc), Only (deposeLoop n g ps s)
  | [], s => Only.ok
  | p :: ps, s => by
    unfold deposeLoop
    exact (prep_only n g p).bind fun L => (volume_only n L s).bind fun s' => deposeLoop_only n g ps s'

theorem deposeJ_only (n : ℕ) (g : Geo) (ps : List Part) (σ : Mem) : Only (deposeJ n g ps σ) := by
  unfold deposeJ
  exact (deposeLoop_only n g ps _).bind fun _ => Only.pure

/-! ### A successful deposition stayed inside -/

theorem bind_eq_ok {α β : Type} {r : Res α} {f : α → Res β} {b : β} (h : (r >>= f) = .ok b) : ∃ a, r = .ok a ∧ f a = .ok b := by
  rcases r with e | a
  · cases h
  · exact ⟨a, rfl, h⟩

/-- Every step of a successful loop succeeded, in a state satisfying the invariant. -/
theorem fold_all {α S : Type} {f : S → α → Res S} {P : S → Prop} (hP : ∀ s a s', P s → f s a = .ok s' → P s') :
    ∀ (l : List α) (s s' : S), P s → l.foldlM f s = .ok s' → P s' ∧ ∀ a ∈ l, ∃ s1 s2, P s1 ∧ f s1 a = .ok s2
  | [], s, s', hs, h => by
    cases h
    exact ⟨hs, by simp⟩
  | a :: l, s, s', hs, h => by
    rw [List.foldlM_cons] at h
    obtain ⟨s1, e1, h⟩ := bind_eq_ok h
    obtain ⟨i1, i2⟩ := fold_all hP l s1 s' (hP s a s1 hs e1) h
    refine ⟨i1, fun b hb => ?_⟩
    rcases List.mem_cons.mp hb with rfl | hb
    · exact ⟨s, s1, hs, e1⟩
    · exact i2 b hb

/-- Bounds of the arrays. -/
def Same (σ τ : Mem) : Prop := ∀ c, (τ c).lo = (σ c).lo ∧ (τ c).hi = (σ c).hi

theorem bump_inv {a b : Arr} {i : I3} {v : ℝ} (h : bump a i v = .ok b) : InBox a.lo a.hi i ∧ b.lo = a.lo ∧ b.hi = a.hi := by
  by_cases hi : InBox a.lo a.hi i
  · rw [bump_ok hi] at h
    cases h
    exact ⟨hi, rfl, rfl⟩
  · exfalso
    unfold bump Arr.get at h
    rw [if_neg hi] at h
    cases h

theorem bumpMem_inv {σ τ ρ : Mem} {c : Comp} {i : I3} {v : ℝ} (hs : Same σ τ) (h : bumpMem τ c i v = .ok ρ) :
    InBox (σ c).lo (σ c).hi i ∧ Same σ ρ := by
  unfold bumpMem at h
  obtain ⟨a, e, h⟩ := bind_eq_ok h
  cases h
  obtain ⟨b1, b2, b3⟩ := bump_inv e
  rw [(hs c).1, (hs c).2] at b1
  refine ⟨b1, fun c' => ?_⟩
  by_cases hc : c' = c
  · subst hc
    rw [Function.update_self, b2, b3]
    exact hs c'
  · rw [Function.update_of_ne hc]
    exact hs c'

theorem doX_inv {σ : Mem} {L : Loc} {i j k : ℤ} {s s' : Acc} (hs : Same σ s.mem) (h : doX L i j k s = .ok s') :
    Same σ s'.mem ∧ (i < L.xh → InBox (σ .jx).lo (σ .jx).hi ⟨L.i0 + i, L.j0 + j, L.k0 + k⟩) := by
  unfold doX at h
  by_cases hi : i < L.xh
  · rw [if_pos hi] at h
    obtain ⟨m, e, h⟩ := bind_eq_ok h
    cases h
    obtain ⟨b1, b2⟩ := bumpMem_inv hs e
    exact ⟨b2, fun _ => b1⟩
  · rw [if_neg hi] at h
    cases h
    exact ⟨hs, fun h => absurd h hi⟩

theorem doY_inv {σ : Mem} {L : Loc} {i j k : ℤ} {s s' : Acc} (hs : Same σ s.mem) (h : doY L i j k s = .ok s') :
    Same σ s'.mem ∧ (j < L.yh → InBox (σ .jy).lo (σ .jy).hi ⟨L.i0 + i, L.j0 + j, L.k0 + k⟩) := by
  unfold doY at h
  by_cases hi : j < L.yh
  · rw [if_pos hi] at h
    obtain ⟨m, e, h⟩ := bind_eq_ok h
    cases h
    obtain ⟨b1, b2⟩ := bumpMem_inv hs e
    exact ⟨b2, fun _ => b1⟩
  · rw [if_neg hi] at h
    cases h
    exact ⟨hs, fun h => absurd h hi⟩

theorem doZ_inv {σ : Mem} {L : Loc} {i j k : ℤ} {s s' : Acc} (hs : Same σ s.mem) (h : doZ L i j k s = .ok s') :
    Same σ s'.mem ∧ (k < L.zh → InBox (σ .jz).lo (σ .jz).hi ⟨L.i0 + i, L.j0 + j, L.k0 + k⟩) := by
  unfold doZ at h
  by_cases hi : k < L.zh
  · rw [if_pos hi] at h
    obtain ⟨m, e, h⟩ := bind_eq_ok h
    cases h
    obtain ⟨b1, b2⟩ := bumpMem_inv hs e
    exact ⟨b2, fun _ => b1⟩
  · rw [if_neg hi] at h
    cases h
    exact ⟨hs, fun h => absurd h hi⟩

/-- The accesses of the innermost loop are inside the arrays. -/
def Touched (σ : Mem) (L : Loc) (i j k : ℤ) : Prop :=
  (i < L.xh → InBox (σ .jx).lo (σ .jx).hi ⟨L.i0 + i, L.j0 + j, L.k0 + k⟩) ∧
  (j < L.yh → InBox (σ .jy).lo (σ .jy).hi ⟨L.i0 + i, L.j0 + j, L.k0 + k⟩) ∧
  (k < L.zh → InBox (σ .jz).lo (σ .jz).hi ⟨L.i0 + i, L.j0 + j, L.k0 + k⟩)

theorem cell_inv {σ : Mem} {n : ℕ} {L : Loc} {i j k : ℤ} {s s' : Acc} (hs : Same σ s.mem) (h : cell n L i j k s = .ok s') :
    Same σ s'.mem ∧ Touched σ L i j k := by
  unfold cell at h
  split at h
  · obtain ⟨s1, e1, h⟩ := bind_eq_ok h
    obtain ⟨s2, e2, h⟩ := bind_eq_ok h
    obtain ⟨s3, e3, h⟩ := bind_eq_ok h
    cases h
    obtain ⟨a1, b1⟩ := doX_inv hs e1
    obtain ⟨a2, b2⟩ := doY_inv a1 e2
    obtain ⟨a3, b3⟩ := doZ_inv a2 e3
    exact ⟨a3, b1, b2, b3⟩
  · cases h

theorem row_inv {σ : Mem} {n : ℕ} {L : Loc} {j k : ℤ} {s s' : Acc} (hs : Same σ s.mem) (h : row n L j k s = .ok s') :
    Same σ s'.mem ∧ ∀ i ∈ irange L.xl L.xh, Touched σ L i j k := by
  unfold row at h
  obtain ⟨s1, e1, h⟩ := bind_eq_ok h
  cases h
  obtain ⟨a, b⟩ := fold_all (P := fun s : Acc => Same σ s.mem) (fun s i s' p q => (cell_inv p q).1) _ _ _ hs e1
  exact ⟨a, fun i hi => by obtain ⟨s1, s2, p, q⟩ := b i hi; exact (cell_inv p q).2⟩

theorem plane_inv {σ : Mem} {n : ℕ} {L : Loc} {k : ℤ} {s s' : Acc} (hs : Same σ s.mem) (h : plane n L k s = .ok s') :
    Same σ s'.mem ∧ ∀ j ∈ irange L.yl L.yh, ∀ i ∈ irange L.xl L.xh, Touched σ L i j k := by
  unfold plane at h
  obtain ⟨s1, e1, h⟩ := bind_eq_ok h
  cases h
  obtain ⟨a, b⟩ := fold_all (P := fun s : Acc => Same σ s.mem) (fun s i s' p q => (row_inv p q).1) _ _ _ hs e1
  exact ⟨a, fun j hj => by obtain ⟨s1, s2, p, q⟩ := b j hj; exact (row_inv p q).2⟩

theorem volume_inv {σ : Mem} {n : ℕ} {L : Loc} {s s' : Acc} (hs : Same σ s.mem) (h : volume n L s = .ok s') :
    Same σ s'.mem ∧ ∀ k ∈ irange L.zl L.zh, ∀ j ∈ irange L.yl L.yh, ∀ i ∈ irange L.xl L.xh, Touched σ L i j k := by
  unfold volume at h
  obtain ⟨a, b⟩ := fold_all (P := fun s : Acc => Same σ s.mem) (fun s i s' p q => (plane_inv p q).1) _ _ _ hs h
  exact ⟨a, fun k hk => by obtain ⟨s1, s2, p, q⟩ := b k hk; exact (plane_inv p q).2⟩

theorem deposeLoop_inv {σ : Mem} {n : ℕ} {g : Geo} : ∀ (ps : List Part) (s s' : Acc), Same σ s.mem → deposeLoop n g ps s = .ok s' →
    Same σ s'.mem ∧ ∀ p ∈ ps, ∀ L, prep n g p = .ok L →
      ∀ k ∈ irange L.zl L.zh, ∀ j ∈ irange L.yl L.yh, ∀ i ∈ irange L.xl L.xh, Touched σ L i j k
  | [], s, s', hs, h => by cases h; exact ⟨hs, by simp⟩
  | p :: ps, s, s', hs, h => by
    unfold deposeLoop at h
    obtain ⟨L, e1, h⟩ := bind_eq_ok h
    obtain ⟨s1, e2, h⟩ := bind_eq_ok h
    obtain ⟨a, b⟩ := volume_inv hs e2
    obtain ⟨c, d⟩ := deposeLoop_inv ps s1 s' a h
    refine ⟨c, fun p' hp' L' hL' => ?_⟩
    rcases List.mem_cons.mp hp' with rfl | hp'
    · rw [e1] at hL'
      cases hL'
      exact b
    · exact d p' hp' L' hL'

theorem deposeJ_inv {σ τ : Mem} {n : ℕ} {g : Geo} {ps : List Part} (h : deposeJ n g ps σ = .ok τ) :
    Same σ τ ∧ ∀ p ∈ ps, ∀ L, prep n g p = .ok L →
      ∀ k ∈ irange L.zl L.zh, ∀ j ∈ irange L.yl L.yh, ∀ i ∈ irange L.xl L.xh, Touched σ L i j k := by
  unfold deposeJ at h
  obtain ⟨s, e, h⟩ := bind_eq_ok h
  cases h
  exact deposeLoop_inv ps _ _ (fun _ => ⟨rfl, rfl⟩) e

/-- Limits of the loops in x. -/
theorem prep_limits {n : ℕ} {g : Geo} {p : Part} {L : Loc} (hg : Geo.Ok g) (h : prep n g p = .ok L) :
    L.i0 = node n ((p.x - g.xmin) / g.dx) ∧
    L.xl = min 0 (node n (((before g p).x - g.xmin) / g.dx) - L.i0) - ((n / 2 : ℕ) : ℤ) ∧
    L.xh = max 0 (node n (((before g p).x - g.xmin) / g.dx) - L.i0) + (((n + 1) / 2 : ℕ) : ℤ) ∧
    (L.yl ≤ 0 ∧ ((n + 1) / 2 : ℕ) ≤ L.yh) ∧ (L.zl ≤ 0 ∧ ((n + 1) / 2 : ℕ) ≤ L.zh) := by
  obtain ⟨gx, -, -⟩ := hg
  have x1 : (p.x - g.xmin) * (1 / g.dx) = (p.x - g.xmin) / g.dx := by ring
  have x2 : (p.x - g.xmin) * (1 / g.dx) - g.dt * (1 / g.dx) * (p.ux * p.gaminv) = ((before g p).x - g.xmin) / g.dx := by
    simp only [before]
    field_simp
    ring
  unfold prep at h
  simp only [x2] at h
  simp only [x1] at h
  obtain ⟨_, _, h⟩ := bind_eq_ok h
  obtain ⟨_, _, h⟩ := bind_eq_ok h
  obtain ⟨_, _, h⟩ := bind_eq_ok h
  obtain ⟨_, _, h⟩ := bind_eq_ok h
  obtain ⟨_, _, h⟩ := bind_eq_ok h
  obtain ⟨_, _, h⟩ := bind_eq_ok h
  cases h
  refine ⟨rfl, rfl, rfl, ⟨?_, ?_⟩, ?_, ?_⟩
  all_goals dsimp only
  all_goals omega

end Picsar.Deposition

namespace Picsar.TileReduce
open Picsar Picsar.Grid Picsar.Deposition Picsar.Spec

theorem tileJ_only (n : ℕ) (g : Geo) (t : GTile) : ∀ (ss : List Spc) (τ : Mem), Only (tileJ n g t ss τ)
  | [], τ => Only.ok
  | s :: ss, τ => by
    unfold tileJ
    split
    · exact tileJ_only n g t ss τ
    split
    · exact tileJ_only n g t ss τ
    · exact (deposeJ_only _ _ _ _).bind fun τ => tileJ_only n g t ss τ

theorem tileJ_inv {n : ℕ} {g : Geo} {t : GTile} {σ : Mem} : ∀ (ss : List Spc) (τ ρ : Mem), Same σ τ → tileJ n g t ss τ = .ok ρ →
    ∀ s ∈ ss, s.depos = true → ∀ p ∈ s.ps, ∀ L, prep n (tileGeo g t s) p = .ok L →
      ∀ k ∈ irange L.zl L.zh, ∀ j ∈ irange L.yl L.yh, ∀ i ∈ irange L.xl L.xh, Touched σ L i j k
  | [], τ, ρ, hs, h => by simp
  | s :: ss, τ, ρ, hs, h => by
    unfold tileJ at h
    intro s' hs' hd p hp
    split at h
    · rename_i hd'
      rcases List.mem_cons.mp hs' with rfl | hs'
      · simp [hd] at hd'
      · exact tileJ_inv ss τ ρ hs h s' hs' hd p hp
    split at h
    · rename_i he
      rcases List.mem_cons.mp hs' with rfl | hs'
      · rw [List.isEmpty_iff] at he
        rw [he] at hp
        simp at hp
      · exact tileJ_inv ss τ ρ hs h s' hs' hd p hp
    · obtain ⟨τ', e, h⟩ := bind_eq_ok h
      obtain ⟨a, b⟩ := deposeJ_inv e
      have hs1 : Same σ τ' := fun c => ⟨(a c).1.trans (hs c).1, (a c).2.trans (hs c).2⟩
      rcases List.mem_cons.mp hs' with rfl | hs'
      · intro L hL k hk j hj i hi
        have := b p hp L hL k hk j hj i hi
        unfold Touched at this ⊢
        rw [(hs .jx).1, (hs .jx).2, (hs .jy).1, (hs .jy).2, (hs .jz).1, (hs .jz).2] at this
        exact this
      · exact tileJ_inv ss τ' ρ hs1 h s' hs' hd p hp

/-- If a particle reaches, in the loops, a node beyond the upper end in x of the tile with its guard cells, the deposition leaves the array. -/
theorem tileJ_overflow {n : ℕ} (hn : n = 1 ∨ n = 2 ∨ n = 3) {g : Geo} (hg : Geo.Ok g) {t : GTile} {s : Spc} (hs : s ∈ t.species) (hd : s.depos = true)
    {p : Part} (hp : p ∈ s.ps) (hsl : Slow g p)
    (h : t.cells.j + t.g.j < max (node n (cells p.x t.xmin g.dx)) (node n (cells (before g p).x t.xmin g.dx)) + (((n + 1) / 2 : ℕ) : ℤ)) :
    tileJ n g t t.species t.zero = .error .outOfBounds := by
  have hg' : Geo.Ok (tileGeo g t s) := hg
  obtain ⟨L, hL, P⟩ := prep_ok (g := tileGeo g t s) hn hg' (p := p) hsl
  obtain ⟨l1, -, l3, ⟨l4, l5⟩, l6, l7⟩ := prep_limits hg' hL
  have n1 : 1 ≤ (n + 1) / 2 := by omega
  have hx : L.xl ≤ L.xh := P.good.x
  cases e : tileJ n g t t.species t.zero with
  | error x => rw [tileJ_only n g t t.species t.zero x e]
  | ok τ =>
    exfalso
    have := (tileJ_inv t.species t.zero τ (σ := t.zero) (fun _ => ⟨rfl, rfl⟩) e s hs hd p hp L hL 0 (mem_irange.mpr ⟨l6, by omega⟩) 0
      (mem_irange.mpr ⟨l4, by omega⟩) L.xh (mem_irange.mpr ⟨hx, le_refl _⟩)).2.1 (by omega)
    obtain ⟨-, h2, -⟩ := this
    have e1 : ((t.zero .jy).hi).j = t.cells.j + t.g.j := rfl
    have e2 : (cells p.x t.xmin g.dx) = (p.x - (tileGeo g t s).xmin) / (tileGeo g t s).dx := rfl
    have e3 : (cells (before g p).x t.xmin g.dx) = ((before (tileGeo g t s) p).x - (tileGeo g t s).xmin) / (tileGeo g t s).dx := rfl
    rw [e1] at h2
    rw [e2, e3] at h
    dsimp only at h2
    omega

end Picsar.TileReduce
