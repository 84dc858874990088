import Verif.Lemmas.EsirkClosed

/-
C84: what the Esirkepov current deposition adds to the grid.
-/
namespace Picsar.Props
open Picsar Picsar.Grid Picsar.Deposition Picsar.Spec

/-- **C84** Current deposition of order 1, 2 or 3, any particles: it stays inside the arrays and adds, at every node, exactly Esirkepov's
current of the particles; the arrays of the electric and magnetic fields are untouched. -/
theorem C84_deposits_current (n : ℕ) (hn : n = 1 ∨ n = 2 ∨ n = 3) (g : Geo) (hg : Geo.Ok g) (ps : List Part) (σ : Mem)
    (hs : ∀ p ∈ ps, Slow g p) (hr : ∀ p ∈ ps, ∀ c, c = .jx ∨ c = .jy ∨ c = .jz → Room n g (σ c).lo (σ c).hi p) :
    ∃ τ, deposeJ n g ps σ = .ok τ ∧
      (∀ c, (τ c).lo = (σ c).lo ∧ (τ c).hi = (σ c).hi ∧ ∀ i, (τ c).val i = (σ c).val i + currents n g ps c i) ∧
      ∀ c, c ≠ .jx → c ≠ .jy → c ≠ .jz → τ c = σ c := by
  refine ⟨_, deposeJ_closed hn hg hs hr, fun c => ⟨rfl, rfl, fun _ => rfl⟩, fun c h1 h2 h3 => ?_⟩
  have h0 : ∀ i, currents n g ps c i = 0 := by
    intro i
    apply List.sum_eq_zero
    intro x hx
    obtain ⟨p, _, rfl⟩ := List.mem_map.mp hx
    cases c <;> first | rfl | contradiction
  simp [addF, h0]

/-- **C84** The total current on the grid is the sum of charge times weight times velocity: nothing is lost and nothing is created, whatever the
positions of the particles in their cells. -/
theorem C84_total_current (n : ℕ) (hn : n = 1 ∨ n = 2 ∨ n = 3) (g : Geo) (hg : Geo.Ok g) (hdt : g.dt ≠ 0) (ps : List Part) (σ τ : Mem)
    (hs : ∀ p ∈ ps, Slow g p) (lo hi : I3) (hb : ∀ c, c = .jx ∨ c = .jy ∨ c = .jz → (σ c).lo = lo ∧ (σ c).hi = hi)
    (hr : ∀ p ∈ ps, Room n g lo hi p) (h : deposeJ n g ps σ = .ok τ) :
    (∑ j ∈ Finset.Icc lo.j hi.j, ∑ k ∈ Finset.Icc lo.k hi.k, ∑ l ∈ Finset.Icc lo.l hi.l,
        ((τ .jx).val ⟨j, k, l⟩ - (σ .jx).val ⟨j, k, l⟩)) * (g.dx * g.dy * g.dz) =
      (ps.map fun p => g.q * p.w * (p.ux * p.gaminv)).sum ∧
    (∑ j ∈ Finset.Icc lo.j hi.j, ∑ k ∈ Finset.Icc lo.k hi.k, ∑ l ∈ Finset.Icc lo.l hi.l,
        ((τ .jy).val ⟨j, k, l⟩ - (σ .jy).val ⟨j, k, l⟩)) * (g.dx * g.dy * g.dz) =
      (ps.map fun p => g.q * p.w * (p.uy * p.gaminv)).sum ∧
    (∑ j ∈ Finset.Icc lo.j hi.j, ∑ k ∈ Finset.Icc lo.k hi.k, ∑ l ∈ Finset.Icc lo.l hi.l,
        ((τ .jz).val ⟨j, k, l⟩ - (σ .jz).val ⟨j, k, l⟩)) * (g.dx * g.dy * g.dz) =
      (ps.map fun p => g.q * p.w * (p.uz * p.gaminv)).sum := by
  rw [deposeJ_closed hn hg hs (fun p hp c hc => by rw [(hb c hc).1, (hb c hc).2]; exact hr p hp)] at h
  obtain rfl := (Except.ok.inj h).symm
  simp only [addF, add_sub_cancel_left]
  have key : ∀ (c : Comp) (v : Part → ℝ), (∀ p ∈ ps, (∑ j ∈ Finset.Icc lo.j hi.j, ∑ k ∈ Finset.Icc lo.k hi.k, ∑ l ∈ Finset.Icc lo.l hi.l,
      current n g p c ⟨j, k, l⟩) * (g.dx * g.dy * g.dz) = g.q * p.w * (v p * p.gaminv)) →
      (∑ j ∈ Finset.Icc lo.j hi.j, ∑ k ∈ Finset.Icc lo.k hi.k, ∑ l ∈ Finset.Icc lo.l hi.l, currents n g ps c ⟨j, k, l⟩) *
        (g.dx * g.dy * g.dz) = (ps.map fun p => g.q * p.w * (v p * p.gaminv)).sum := by
    intro c v hv
    clear hs hr h
    induction ps with
    | nil => simp [currents]
    | cons p ps ih =>
      have e : ∀ i, currents n g (p :: ps) c i = current n g p c i + currents n g ps c i := by
        intro i; simp [currents]
      simp only [e, Finset.sum_add_distrib, List.map_cons, List.sum_cons]
      rw [add_mul, hv p (by simp), ih (fun q hq => hv q (by simp [hq]))]
  have t := fun p hp => current_total hn hg hdt (hs p hp) (hr p hp)
  exact ⟨key .jx (fun p => p.ux) fun p hp => (t p hp).1, key .jy (fun p => p.uy) fun p hp => (t p hp).2.1,
    key .jz (fun p => p.uz) fun p hp => (t p hp).2.2⟩

/-- **C84** A particle leaves the current untouched at every node outside any box with room for its shape. -/
theorem C84_local (n : ℕ) (hn : n = 1 ∨ n = 2 ∨ n = 3) (g : Geo) (hg : Geo.Ok g) (ps : List Part) (σ τ : Mem)
    (hs : ∀ p ∈ ps, Slow g p) (hr : ∀ p ∈ ps, ∀ c, c = .jx ∨ c = .jy ∨ c = .jz → Room n g (σ c).lo (σ c).hi p)
    (h : deposeJ n g ps σ = .ok τ) (lo hi : I3) (hb : ∀ p ∈ ps, Room n g lo hi p) (c : Comp) (i : I3) (hi' : ¬ InBox lo hi i) :
    (τ c).val i = (σ c).val i := by
  rw [deposeJ_closed hn hg hs hr] at h
  obtain rfl := (Except.ok.inj h).symm
  have h0 : currents n g ps c i = 0 := by
    apply List.sum_eq_zero
    intro x hx
    obtain ⟨p, hp, rfl⟩ := List.mem_map.mp hx
    exact current_out hn hg (hs p hp) (hb p hp) c hi'
  simp [addF, h0]

/-- **C84** The order of the particles is irrelevant, and they can be deposited in several calls. -/
theorem C84_order_irrelevant (n : ℕ) (hn : n = 1 ∨ n = 2 ∨ n = 3) (g : Geo) (hg : Geo.Ok g) (ps qs rs : List Part) (σ : Mem)
    (hp : ps.Perm (qs ++ rs)) (hs : ∀ p ∈ ps, Slow g p)
    (hr : ∀ p ∈ ps, ∀ c, c = .jx ∨ c = .jy ∨ c = .jz → Room n g (σ c).lo (σ c).hi p) :
    deposeJ n g ps σ = (deposeJ n g qs σ >>= fun τ => deposeJ n g rs τ) := by
  have hq : ∀ p ∈ qs, p ∈ ps := fun p h => hp.mem_iff.mpr (by simp [h])
  have hr' : ∀ p ∈ rs, p ∈ ps := fun p h => hp.mem_iff.mpr (by simp [h])
  rw [deposeJ_closed hn hg hs hr, deposeJ_closed hn hg (fun p h => hs p (hq p h)) (fun p h => hr p (hq p h))]
  rw [except_bind_ok]
  rw [deposeJ_closed (σ := addF σ (currents n g qs)) hn hg (fun p h => hs p (hr' p h)) (fun p h => hr p (hr' p h))]
  congr 1
  funext c
  simp only [addF, Arr.mk.injEq, true_and]
  funext i
  have : currents n g ps c i = currents n g qs c i + currents n g rs c i := by
    unfold currents
    rw [(hp.map _).sum_eq, List.map_append, List.sum_append]
  rw [this]; ring

/-- A particle in the middle of a grid with 8 cells in every direction, moved by a quarter cell in every direction. -/
noncomputable def cuGeo : Geo := ⟨1, 0, 0, 0, 1, 1, 1, 1⟩
noncomputable def cuPart : Part := ⟨4, 4, 4, 1 / 4, 1 / 4, 1 / 4, 1, 1⟩
noncomputable def cuMem : Mem := fun _ => ⟨⟨0, 0, 0⟩, ⟨8, 8, 8⟩, fun _ => 0⟩

theorem cuPart_slow : Slow cuGeo cuPart := by
  unfold Slow cuGeo cuPart
  norm_num [abs_lt]

theorem cuPart_room (n : ℕ) (hn : n = 1 ∨ n = 2 ∨ n = 3) : Room n cuGeo ⟨0, 0, 0⟩ ⟨8, 8, 8⟩ cuPart := by
  unfold Room cuGeo cuPart cells
  rcases hn with rfl | rfl | rfl <;> norm_num

/-- The hypotheses are met, for every order, by a particle that does deposit: its total current along x is a quarter. -/
example (n : ℕ) (hn : n = 1 ∨ n = 2 ∨ n = 3) : ∃ τ, deposeJ n cuGeo [cuPart] cuMem = .ok τ ∧
    (∑ j ∈ Finset.Icc (0 : ℤ) 8, ∑ k ∈ Finset.Icc (0 : ℤ) 8, ∑ l ∈ Finset.Icc (0 : ℤ) 8, ((τ .jx).val ⟨j, k, l⟩ - (cuMem .jx).val ⟨j, k, l⟩)) *
      (1 * 1 * 1) = 1 / 4 := by
  have hg : Geo.Ok cuGeo := by unfold Geo.Ok cuGeo; norm_num
  obtain ⟨τ, e, _⟩ := C84_deposits_current n hn cuGeo hg [cuPart] cuMem (by simpa using cuPart_slow)
    (by intro p hp c _; rw [List.mem_singleton] at hp; subst hp; exact cuPart_room n hn)
  refine ⟨τ, e, ?_⟩
  have := (C84_total_current n hn cuGeo hg (by unfold cuGeo; norm_num) [cuPart] cuMem τ (by simpa using cuPart_slow)
    ⟨0, 0, 0⟩ ⟨8, 8, 8⟩ (fun _ _ => ⟨rfl, rfl⟩) (by simpa using cuPart_room n hn) e).1
  refine Eq.trans this ?_
  simp [cuGeo, cuPart]

end Picsar.Props
