import Verif.Lemmas.Energy
import Verif.Props.Topology
import Mathlib.Tactic.NormNum
/-
C73: the energy diagnostics.
-/
namespace Picsar.Props
open Picsar Picsar.Grid Picsar.Topology Picsar.Energy

/-- C73, fields. `compute_em_energy` never reads outside arrays that contain the cells `0..n-1`, and yields the electric and the magnetic energy of these cells; both are
non-negative and they vanish exactly if the three components vanish in every cell. -/
theorem C73_em_energy (C : Const) (he : 0 < C.eps0) (hm : 0 < C.mu0) (hv : 0 < C.vol) (M : Mem) (n : I3)
    (hb : ∀ q i, InBox ⟨0, 0, 0⟩ ⟨n.j - 1, n.k - 1, n.l - 1⟩ i → InBox (M q).lo (M q).hi i) :
    ∃ E B : ℝ, emEnergy C M n = .ok (E, B) ∧
      E = electric C ⟨0, 0, 0⟩ ⟨n.j - 1, n.k - 1, n.l - 1⟩ (fun q => (M q).val) ∧
      B = magnetic C ⟨0, 0, 0⟩ ⟨n.j - 1, n.k - 1, n.l - 1⟩ (fun q => (M q).val) ∧ 0 ≤ E ∧ 0 ≤ B ∧
      (E = 0 ↔ ∀ i, InBox ⟨0, 0, 0⟩ ⟨n.j - 1, n.k - 1, n.l - 1⟩ i → (M .ex).val i = 0 ∧ (M .ey).val i = 0 ∧ (M .ez).val i = 0) ∧
      (B = 0 ↔ ∀ i, InBox ⟨0, 0, 0⟩ ⟨n.j - 1, n.k - 1, n.l - 1⟩ i → (M .bx).val i = 0 ∧ (M .by').val i = 0 ∧ (M .bz).val i = 0) := by
  have three : ∀ x y z : ℝ, x ^ 2 + y ^ 2 + z ^ 2 = 0 ↔ x = 0 ∧ y = 0 ∧ z = 0 := by
    intro x y z
    constructor
    · intro h
      refine ⟨?_, ?_, ?_⟩ <;> refine pow_eq_zero_iff two_ne_zero |>.mp ?_ <;> nlinarith [sq_nonneg x, sq_nonneg y, sq_nonneg z]
    · rintro ⟨rfl, rfl, rfl⟩; norm_num
  have hE : 0 < C.eps0 / 2 * C.vol := by positivity
  have hB : 0 < 1 / (2 * C.mu0) * C.vol := by positivity
  refine ⟨electric C ⟨0, 0, 0⟩ ⟨n.j - 1, n.k - 1, n.l - 1⟩ (fun q => (M q).val), magnetic C ⟨0, 0, 0⟩ ⟨n.j - 1, n.k - 1, n.l - 1⟩ (fun q => (M q).val), ?_, rfl, rfl, ?_, ?_, ?_, ?_⟩
  · unfold emEnergy
    rw [sumSq_ok (hb _), sumSq_ok (hb _), sumSq_ok (hb _), sumSq_ok (hb _), sumSq_ok (hb _), sumSq_ok (hb _)]
    simp only [except_bind_ok]
    unfold electric magnetic
    rw [boxSum_add, boxSum_add, boxSum_add, boxSum_add]
    congr 2
    · ring
    · field_simp
  · exact mul_nonneg hE.le (boxSum_nonneg fun i => by positivity)
  · exact mul_nonneg hB.le (boxSum_nonneg fun i => by positivity)
  · unfold electric
    rw [mul_eq_zero, or_iff_right hE.ne', boxSum_eq_zero fun i => by positivity]
    simp only [three]
  · unfold magnetic
    rw [mul_eq_zero, or_iff_right hB.ne', boxSum_eq_zero fun i => by positivity]
    simp only [three]

/-- C73, fields of the whole domain. `N` cells are divided among `P.j × P.k × P.l` processes as by the set-up of the communicator, and the process with coordinates `c` holds the
global fields `F` on its own cells. The sums over all processes (in any order) of what they compute are the electric and magnetic energy of the whole domain. -/
theorem C73_em_total (C : Const) (he : 0 < C.eps0) (hm : 0 < C.mu0) (hv : 0 < C.vol) (P N : I3) (hP : 1 ≤ P.j ∧ 1 ≤ P.k ∧ 1 ≤ P.l) (hN : 0 ≤ N.j ∧ 0 ≤ N.k ∧ 0 ≤ N.l)
    (sx sy sz : Split) (ex : split N.j P.j = .ok sx) (ey : split N.k P.k = .ok sy) (ez : split N.l P.l = .ok sz)
    (lo hi : I3 → I3) (hlo : ∀ c, InBox ⟨1, 1, 1⟩ P c → sx.cmin.get c.j = .ok (lo c).j ∧ sy.cmin.get c.k = .ok (lo c).k ∧ sz.cmin.get c.l = .ok (lo c).l)
    (hhi : ∀ c, InBox ⟨1, 1, 1⟩ P c → sx.cmax.get c.j = .ok (hi c).j ∧ sy.cmax.get c.k = .ok (hi c).k ∧ sz.cmax.get c.l = .ok (hi c).l)
    (n : I3 → I3) (hn : ∀ c, n c = ⟨(hi c).j - (lo c).j + 1, (hi c).k - (lo c).k + 1, (hi c).l - (lo c).l + 1⟩)
    (F : Comp → I3 → ℝ) (M : I3 → Mem)
    (hb : ∀ c q i, InBox ⟨1, 1, 1⟩ P c → InBox ⟨0, 0, 0⟩ ⟨(n c).j - 1, (n c).k - 1, (n c).l - 1⟩ i →
      InBox (M c q).lo (M c q).hi i ∧ (M c q).val i = F q ⟨(lo c).j + i.j, (lo c).k + i.k, (lo c).l + i.l⟩)
    (ranks : List I3) (hr : ranks.Perm (box ⟨1, 1, 1⟩ P)) :
    allreduce (ranks.map fun c => (emEnergy C (M c) (n c)).map Prod.fst) = .ok (electric C ⟨0, 0, 0⟩ ⟨N.j - 1, N.k - 1, N.l - 1⟩ F) ∧
    allreduce (ranks.map fun c => (emEnergy C (M c) (n c)).map Prod.snd) = .ok (magnetic C ⟨0, 0, 0⟩ ⟨N.j - 1, N.k - 1, N.l - 1⟩ F) := by
  obtain ⟨sx', lx, hx, ex', gx, Sx⟩ := C52_split_partitions N.j P.j hP.1 hN.1
  obtain ⟨sy', ly, hy, ey', gy, Sy⟩ := C52_split_partitions N.k P.k hP.2.1 hN.2.1
  obtain ⟨sz', lz, hz, ez', gz, Sz⟩ := C52_split_partitions N.l P.l hP.2.2 hN.2.2
  obtain rfl : sx = sx' := by rw [ex] at ex'; exact Except.ok.inj ex'
  obtain rfl : sy = sy' := by rw [ey] at ey'; exact Except.ok.inj ey'
  obtain rfl : sz = sz' := by rw [ez] at ez'; exact Except.ok.inj ez'
  have loc : ∀ c, InBox ⟨1, 1, 1⟩ P c → lo c = ⟨lx c.j, ly c.k, lz c.l⟩ ∧ hi c = ⟨hx c.j, hy c.k, hz c.l⟩ := by
    intro c hc
    obtain ⟨c1, c2, c3, c4, c5, c6⟩ := hc
    have a := hlo c ⟨c1, c2, c3, c4, c5, c6⟩
    have b := hhi c ⟨c1, c2, c3, c4, c5, c6⟩
    rw [(gx _ c1 c2).1, (gy _ c3 c4).1, (gz _ c5 c6).1] at a
    rw [(gx _ c1 c2).2, (gy _ c3 c4).2, (gz _ c5 c6).2] at b
    exact ⟨by rw [Except.ok.inj a.1, Except.ok.inj a.2.1, Except.ok.inj a.2.2], by rw [Except.ok.inj b.1, Except.ok.inj b.2.1, Except.ok.inj b.2.2]⟩
  have one : ∀ c ∈ ranks, ∀ f : (Comp → I3 → ℝ) → I3 → ℝ, (∀ G H i j, (∀ q, G q i = H q j) → f G i = f H j) →
      boxSum ⟨0, 0, 0⟩ ⟨(n c).j - 1, (n c).k - 1, (n c).l - 1⟩ (f fun q => (M c q).val) =
        boxSum ⟨lx c.j + 0, ly c.k + 0, lz c.l + 0⟩ ⟨hx c.j + 0, hy c.k + 0, hz c.l + 0⟩ (f F) := by
    intro c hc f hf
    have hc := mem_box.mp (hr.mem_iff.mp hc)
    obtain ⟨e1, e2⟩ := loc c hc
    have s := boxSum_shift ⟨0, 0, 0⟩ ⟨(n c).j - 1, (n c).k - 1, (n c).l - 1⟩ ⟨lx c.j, ly c.k, lz c.l⟩ (f F)
    have e : n c = ⟨hx c.j - lx c.j + 1, hy c.k - ly c.k + 1, hz c.l - lz c.l + 1⟩ := by rw [hn, e1, e2]
    have t : boxSum ⟨0, 0, 0⟩ ⟨(n c).j - 1, (n c).k - 1, (n c).l - 1⟩ (f fun q => (M c q).val) =
        boxSum ⟨0, 0, 0⟩ ⟨(n c).j - 1, (n c).k - 1, (n c).l - 1⟩ fun i => f F ⟨lx c.j + i.j, ly c.k + i.k, lz c.l + i.l⟩ := by
      apply boxSum_congr
      intro i hi
      apply hf
      intro q
      beta_reduce
      rw [(hb c q i hc hi).2, e1]
    rw [t, s, e]
    dsimp only
    simp only [add_zero]
    congr 2 <;> ring
  have tot : ∀ f : I3 → ℝ, (ranks.map fun c => boxSum ⟨lx c.j + 0, ly c.k + 0, lz c.l + 0⟩ ⟨hx c.j + 0, hy c.k + 0, hz c.l + 0⟩ f).sum =
      boxSum ⟨0, 0, 0⟩ ⟨N.j - 1, N.k - 1, N.l - 1⟩ f := by
    intro f
    rw [(hr.map _).sum_eq, box_sum, boxSum_split 0 Sx Sy Sz f]
    simp only [add_zero]
  have val := fun c (hc : c ∈ ranks) => C73_em_energy C he hm hv (M c) (n c) fun q i hi => (hb c q i (mem_box.mp (hr.mem_iff.mp hc)) hi).1
  constructor
  · rw [allreduce_ok (h := fun c => C.eps0 / 2 * C.vol * boxSum ⟨lx c.j + 0, ly c.k + 0, lz c.l + 0⟩ ⟨hx c.j + 0, hy c.k + 0, hz c.l + 0⟩ (fun i => F .ex i ^ 2 + F .ey i ^ 2 + F .ez i ^ 2))]
    · rw [List.sum_map_mul_left, tot]
      rfl
    · intro c hc
      obtain ⟨E, B, e, rfl, -⟩ := val c hc
      rw [e]
      unfold electric
      rw [one c hc fun G i => G .ex i ^ 2 + G .ey i ^ 2 + G .ez i ^ 2]
      · rfl
      · intro G H i j h; simp only [h]
  · rw [allreduce_ok (h := fun c => 1 / (2 * C.mu0) * C.vol * boxSum ⟨lx c.j + 0, ly c.k + 0, lz c.l + 0⟩ ⟨hx c.j + 0, hy c.k + 0, hz c.l + 0⟩ (fun i => F .bx i ^ 2 + F .by' i ^ 2 + F .bz i ^ 2))]
    · rw [List.sum_map_mul_left, tot]
      rfl
    · intro c hc
      obtain ⟨E, B, e, -, rfl, -⟩ := val c hc
      rw [e]
      unfold magnetic
      rw [one c hc fun G i => G .bx i ^ 2 + G .by' i ^ 2 + G .bz i ^ 2]
      · rfl
      · intro G H i j h; simp only [h]

/-- C73, `get_field_energy`. The sums over `1..n` of one component are non-negative and vanish exactly if the component vanishes there. -/
theorem C73_field_energy (a : Arr) (n : I3) (hb : ∀ i, InBox ⟨1, 1, 1⟩ n i → InBox a.lo a.hi i) :
    ∃ E, fieldSum a n = .ok E ∧ E = boxSum ⟨1, 1, 1⟩ n (fun i => a.val i ^ 2 / 2) ∧ 0 ≤ E ∧ (E = 0 ↔ ∀ i, InBox ⟨1, 1, 1⟩ n i → a.val i = 0) := by
  refine ⟨_, fieldSum_ok hb, rfl, boxSum_nonneg fun i => by positivity, ?_⟩
  rw [boxSum_eq_zero fun i => by positivity]
  simp

/-- C73, kinetic energy of one process, except for antenna species that hold particles. Every species `x.1` comes with the momenta `x.2` of the particles of its tiles; the
stored inverse gamma factors are those of the momenta. The result is the sum over species, tiles and particles of `weight·m·c²·(γ-1)`, with the weight `w/nppcell` of the first
initialisation; it is non-negative and vanishes exactly if every particle is at rest. -/
theorem C73_kinetic_partial (w c : ℝ) (hw : 0 < w) (hc : 0 < c) (nt : I3) (Sp : List (KSpecies × (I3 → List (ℝ × ℝ × ℝ))))
    (hg : ∀ x ∈ Sp, ∀ u, (x.1.tiles u).gam = (x.2 u).map (gaminv c)) (ha : ∀ x ∈ Sp, x.1.antenna = false ∨ ∀ u, x.2 u = [])
    (hm : ∀ x ∈ Sp, 0 < x.1.mass ∧ 0 < x.1.nppcell) :
    ∃ K, kinEnergy w c nt (Sp.map Prod.fst) = .ok K ∧
      K = (Sp.map fun x => boxSum ⟨1, 1, 1⟩ nt fun u => ((x.2 u).map (kinetic x.1.mass c (w / x.1.nppcell))).sum).sum ∧ 0 ≤ K ∧
      (K = 0 ↔ ∀ x ∈ Sp, ∀ u, InBox ⟨1, 1, 1⟩ nt u → ∀ p ∈ x.2 u, p = (0, 0, 0)) := by
  have wt : ∀ x ∈ Sp, 0 < w / (x.1.nppcell : ℝ) := fun x hx => div_pos hw (by exact_mod_cast (hm x hx).2)
  have h1 : ∀ x ∈ Sp, ∀ u, 0 ≤ ((x.2 u).map (kinetic x.1.mass c (w / x.1.nppcell))).sum := by
    intro x hx u
    apply list_sum_nonneg
    intro y hy
    obtain ⟨p, _, rfl⟩ := List.mem_map.mp hy
    exact kinetic_nonneg (hm x hx).1.le hc (wt x hx).le p
  have h2 : ∀ x ∈ Sp, 0 ≤ boxSum ⟨1, 1, 1⟩ nt fun u => ((x.2 u).map (kinetic x.1.mass c (w / x.1.nppcell))).sum := fun x hx => boxSum_nonneg (h1 x hx)
  refine ⟨_, ?_, rfl, ?_, ?_⟩
  · unfold kinEnergy
    rw [List.map_map]
    exact allreduce_ok Sp fun x hx => kinSpecies_kinetic hc (hg x hx) (ha x hx) (hm x hx).2
  · apply list_sum_nonneg
    intro y hy
    obtain ⟨x, hx, rfl⟩ := List.mem_map.mp hy
    exact h2 x hx
  · rw [list_sum_eq_zero h2]
    apply forall₂_congr
    intro x hx
    rw [boxSum_eq_zero (h1 x hx)]
    apply forall₂_congr
    intro u _
    rw [list_sum_eq_zero fun p _ => kinetic_nonneg (hm x hx).1.le hc (wt x hx).le p]
    apply forall₂_congr
    intro p _
    exact kinetic_eq_zero (hm x hx).1 hc (wt x hx) p

/-- C73, kinetic energy of all processes: the reduction yields the sum over all processes, species, tiles and particles. -/
theorem C73_kinetic_total_partial (w c : ℝ) (hw : 0 < w) (hc : 0 < c) (procs : List (I3 × List (KSpecies × (I3 → List (ℝ × ℝ × ℝ)))))
    (hg : ∀ r ∈ procs, ∀ x ∈ r.2, ∀ u, (x.1.tiles u).gam = (x.2 u).map (gaminv c)) (ha : ∀ r ∈ procs, ∀ x ∈ r.2, x.1.antenna = false ∨ ∀ u, x.2 u = [])
    (hm : ∀ r ∈ procs, ∀ x ∈ r.2, 0 < x.1.mass ∧ 0 < x.1.nppcell) :
    allreduce (procs.map fun r => kinEnergy w c r.1 (r.2.map Prod.fst)) =
      .ok ((procs.map fun r => (r.2.map fun x => boxSum ⟨1, 1, 1⟩ r.1 fun u => ((x.2 u).map (kinetic x.1.mass c (w / x.1.nppcell))).sum).sum).sum) := by
  apply allreduce_ok
  intro r hr
  obtain ⟨K, e, rfl, -⟩ := C73_kinetic_partial w c hw hc r.1 r.2 (hg r hr) (ha r hr) (hm r hr)
  exact e

/-- C73 fails for antennas: a process on which an antenna species holds a particle adds a tile energy that was never computed. -/
theorem C73_antenna_refuted (w c : ℝ) (Ss Ss' : List KSpecies) (hok : ∀ S ∈ Ss, ∃ v, kinSpecies w c ⟨1, 1, 1⟩ S = .ok v) (m : ℝ) (nppc : ℤ) (g : ℝ) (gs : List ℝ) :
    kinEnergy w c ⟨1, 1, 1⟩ (Ss ++ ⟨true, m, nppc, fun _ => ⟨g :: gs, none⟩⟩ :: Ss') = .error .uninitialised := by
  have h : kinSpecies w c ⟨1, 1, 1⟩ ⟨true, m, nppc, fun _ => ⟨g :: gs, none⟩⟩ = .error .uninitialised := by
    have hb : box ⟨1, 1, 1⟩ ⟨1, 1, 1⟩ = [⟨1, 1, 1⟩] := by decide
    unfold kinSpecies
    rw [hb]
    simp [kinTile, kinAdd]
  choose! v hv using hok
  unfold kinEnergy
  rw [List.map_append, List.map_cons, h]
  unfold allreduce
  rw [List.foldlM_append, List.foldlM_map, foldlM_add Ss 0 hv]
  rfl

/-- C73 fails for `get_kinetic_energy`: the accumulator of the reduction has no initial value, so for every particle list the result is undefined. -/
theorem C73_get_kinetic_refuted (ps : List (ℝ × ℝ)) (h : ∀ p ∈ ps, p.1 ≠ 0) : getKin none ps = .error .uninitialised := by
  unfold getKin
  rw [foldlM_pure (h := fun p : ℝ × ℝ => (1 / p.1 - 1) * p.2)]
  · rfl
  · intro p hp s; rw [if_neg (h p hp)]

/-- What `get_kinetic_energy` yields if the accumulator happened to hold `v`: `v` plus the sum of the `weight·(γ-1)`. -/
theorem C73_get_kinetic_partial (v c : ℝ) (hc : 0 < c) (ps : List ((ℝ × ℝ × ℝ) × ℝ)) :
    getKin (some v) (ps.map fun p => (gaminv c p.1, p.2)) = .ok (v + (ps.map fun p => p.2 * (gamma c p.1.1 p.1.2.1 p.1.2.2 - 1)).sum) := by
  unfold getKin
  rw [foldlM_pure (h := fun p : ℝ × ℝ => (1 / p.1 - 1) * p.2)]
  · simp only [except_bind_ok, zero_add, List.map_map]
    congr 3
    apply List.map_congr_left
    intro p _
    simp only [Function.comp]
    unfold gaminv
    rw [one_div_one_div]
    ring
  · intro p hp s
    obtain ⟨q, _, rfl⟩ := List.mem_map.mp hp
    rw [if_neg (kin_gaminv hc 0 0 q.1).2]

/-- Fields with one non-zero value: the electric energy is positive, the magnetic one zero. -/
example : ∃ E B : ℝ, emEnergy ⟨1, 1, 1⟩ (fun q => ⟨⟨-2, -2, -2⟩, ⟨5, 5, 5⟩, fun i => if q = .ey ∧ i = ⟨1, 0, 2⟩ then 3 else 0⟩) ⟨3, 3, 3⟩ = .ok (E, B) ∧ 0 < E ∧ B = 0 := by
  obtain ⟨E, B, e, -, -, h0, -, h1, h2⟩ := C73_em_energy ⟨1, 1, 1⟩ one_pos one_pos one_pos
    (fun q => ⟨⟨-2, -2, -2⟩, ⟨5, 5, 5⟩, fun i => if q = .ey ∧ i = ⟨1, 0, 2⟩ then 3 else 0⟩) ⟨3, 3, 3⟩
    (by intro q i hi; simp only [InBox] at hi ⊢; omega)
  refine ⟨E, B, e, ?_, ?_⟩
  · rcases h0.eq_or_lt with h | h
    · have := h1.mp h.symm ⟨1, 0, 2⟩ (by simp [InBox])
      simp at this
    · exact h
  · rw [h2]; intro i _; simp

/-- Seven cells along x divided among two processes. -/
example : ∃ (sx sy sz : Split) (lo hi : I3 → I3), split 7 2 = .ok sx ∧ split 4 1 = .ok sy ∧ split 5 3 = .ok sz ∧
    ∀ c, InBox ⟨1, 1, 1⟩ ⟨2, 1, 3⟩ c → (sx.cmin.get c.j = .ok (lo c).j ∧ sy.cmin.get c.k = .ok (lo c).k ∧ sz.cmin.get c.l = .ok (lo c).l) ∧
      sx.cmax.get c.j = .ok (hi c).j ∧ sy.cmax.get c.k = .ok (hi c).k ∧ sz.cmax.get c.l = .ok (hi c).l := by
  obtain ⟨sx, lx, hx, ex, gx, -⟩ := C52_split_partitions 7 2 (by norm_num) (by norm_num)
  obtain ⟨sy, ly, hy, ey, gy, -⟩ := C52_split_partitions 4 1 (by norm_num) (by norm_num)
  obtain ⟨sz, lz, hz, ez, gz, -⟩ := C52_split_partitions 5 3 (by norm_num) (by norm_num)
  refine ⟨sx, sy, sz, fun c => ⟨lx c.j, ly c.k, lz c.l⟩, fun c => ⟨hx c.j, hy c.k, hz c.l⟩, ex, ey, ez, ?_⟩
  rintro c ⟨a, b, d, e, f, g⟩
  exact ⟨⟨(gx _ a b).1, (gy _ d e).1, (gz _ f g).1⟩, (gx _ a b).2, (gy _ d e).2, (gz _ f g).2⟩

/-- A species with a moving particle and one at rest: positive kinetic energy. -/
example : ∃ K : ℝ, kinEnergy 1 1 ⟨1, 1, 1⟩ [⟨false, 2, 4, fun _ => ⟨[gaminv 1 (1, 0, 0), gaminv 1 (0, 0, 0)], none⟩⟩] = .ok K ∧ 0 < K := by
  obtain ⟨K, e, -, h0, h1⟩ := C73_kinetic_partial 1 1 one_pos one_pos ⟨1, 1, 1⟩
    [(⟨false, 2, 4, fun _ => ⟨[gaminv 1 (1, 0, 0), gaminv 1 (0, 0, 0)], none⟩⟩, fun _ => [(1, 0, 0), (0, 0, 0)])] (by simp) (by simp) (by simp)
  refine ⟨K, e, ?_⟩
  rcases h0.eq_or_lt with h | h
  · have := h1.mp h.symm _ (List.mem_singleton.mpr rfl) ⟨1, 1, 1⟩ (by simp [InBox]) (1, 0, 0) (by simp)
    simp at this
  · exact h

end Picsar.Props
