import Verif.Lemmas.PushWork
import Verif.Props.Gather
import Verif.Model.Tiling
import Verif.Model.TileReduce

namespace Picsar.Props
open Picsar Picsar.Grid Picsar.Gather Picsar.Push Picsar.PushMgr Picsar.Spec

/-- The tile holds and is inside the field arrays. -/
theorem near_of {cfg : PCfg} {O : V3} {t : PTile} (ht : PTileOk cfg O t) {s : PSpc} (hs : s ∈ t.species) (ha : Active s) :
    ∀ p ∈ s.ps, PNear cfg O t p := ht.near s hs ha

theorem tileAfter_of {cfg : PCfg} {O : V3} {σ : Mem} {t : PTile} {f : PSpc → Push.Part → Push.Part}
    (h : ∀ s ∈ t.species, Active s → ∀ p ∈ s.ps, advanced cfg O σ s p = some (f s p)) : TileAfter cfg O σ t (mapTile f t) := by
  refine ⟨rfl, ?_⟩
  unfold mapTile
  dsimp only
  rw [List.forall₂_map_right_iff, List.forall₂_same]
  intro s hs
  unfold SpeciesAfter mapSpc
  refine ⟨fun ha => ?_, fun ha => ?_⟩
  · rw [if_pos (show s.antenna = false ∧ s.freeze = false from ha)]
    refine ⟨rfl, rfl, rfl, rfl, ?_⟩
    dsimp only
    rw [List.map_map]
    exact List.map_congr_left fun p hp => (h s hs ha p hp).symm
  · exact if_neg ha

/-- Value of a separate or combined step. -/
theorem step_value {cfg : PCfg} (hc : PCfgOk cfg) (hsep : cfg.sep ≠ 0) {O : V3} {σ : Mem} {nt : I3} {tiles : I3 → PTile}
    (ht : ∀ u, IsTile nt u → PTileOk cfg O (tiles u) ∧ PHolds σ (tiles u))
    (hk : ∀ u, IsTile nt u → ∀ s ∈ (tiles u).species, Active s → ∀ p ∈ s.ps, (advanced cfg O σ s p).isSome)
    {es fs : List (ℕ × I3)} (he : Dealt nt es) (hf : Dealt nt fs) :
    step cfg σ es fs tiles = .ok fun u =>
      if u ∈ es.map (·.2) then mapTile (fun s p => pushed cfg s (feels cfg O σ p)) (tiles u) else tiles u := by
  unfold step
  rw [if_neg hsep]
  by_cases h1 : cfg.sep = 1
  · rw [if_pos h1]
    refine region_ok (P := fun t => PTileOk cfg O t ∧ PHolds σ t ∧ ∀ s ∈ t.species, Active s → ∀ p ∈ s.ps, (advanced cfg O σ s p).isSome)
      ?_ es _ tiles init_good he.1 ?_
    · rintro t ⟨h1, h2, h3⟩ v hv
      refine tileStep_ok h2 (fun s hs ha _ => ?_) v hv
      exact fullWork_ok hc h1 h2 (near_of h1 hs ha) fun p hp => (advanced_some (h3 s hs ha p hp)).1
    · intro u hu
      have := (he.2 u).mp hu
      exact ⟨(ht u this).1, (ht u this).2, hk u this⟩
  · rw [if_neg h1]
    have r1 := region_ok (work := gatherWork cfg) (σ := σ) (T := mapTile fun _ p => feels cfg O σ p) (P := fun t => PTileOk cfg O t ∧ PHolds σ t)
      (by
        rintro t ⟨h1, h2⟩ v hv
        exact tileStep_ok h2 (fun s hs ha _ => gatherWork_ok hc h1 h2 (near_of h1 hs ha)) v hv) es (fun _ => Priv.init) tiles init_good he.1
      (fun u hu => ht u ((he.2 u).mp hu))
    rw [r1]
    simp only [except_bind_ok]
    have r2 := region_ok (work := pushWork cfg) (σ := σ) (T := mapTile fun s p => pushed cfg s p)
      (P := fun t => PHolds σ t ∧ ∀ s ∈ t.species, Active s → ∀ p ∈ s.ps, (kicked cfg s.q s.m p).isSome)
      (by
        rintro t ⟨h1, h2⟩ v hv
        exact tileStep_ok h1 (fun s hs ha _ => pushWork_ok (h2 s hs ha)) v hv) fs (fun _ => Priv.init)
      (fun u => if u ∈ es.map (·.2) then mapTile (fun _ p => feels cfg O σ p) (tiles u) else tiles u) init_good hf.1
      (by
        intro u hu
        have hu' := (hf.2 u).mp hu
        rw [if_pos ((he.2 u).mpr hu')]
        refine ⟨mapTile_holds (ht u hu').2, fun s hs ha p hp => ?_⟩
        obtain ⟨s0, hs0, rfl⟩ := List.mem_map.mp hs
        have ha0 : Active s0 := by
          unfold mapSpc at ha
          split_ifs at ha with h
          · exact h
          · exact absurd ha h
        unfold mapSpc at hp ⊢
        rw [if_pos (show s0.antenna = false ∧ s0.freeze = false from ha0)] at hp ⊢
        obtain ⟨p0, hp0, rfl⟩ := List.mem_map.mp hp
        exact (advanced_some (hk u hu' s0 hs0 ha0 p0 hp0)).1)
    rw [r2]
    congr 1
    funext u
    by_cases hu : IsTile nt u
    · rw [if_pos ((hf.2 u).mpr hu), if_pos ((he.2 u).mpr hu), if_pos ((he.2 u).mpr hu)]
      exact mapTile_comp _ fun s p => rfl
    · rw [if_neg (fun h => hu ((hf.2 u).mp h)), if_neg (fun h => hu ((he.2 u).mp h)), if_neg (fun h => hu ((he.2 u).mp h))]

/-! ### C119 -/

/-- **C119** The particle step over the tiles (gathering and push in one parallel region, or in two), 3D, any orders 1 to 3, any division into
tiles with their guard cells inside the field arrays, any number of threads and any distribution of the tiles over them: the step
ends without leaving an array; every particle of a species that is neither an antenna nor frozen has then the fields interpolated at its
position from the whole grid, the momentum that the chosen pusher gives it with those fields, and the position reached with its new velocity — each
particle exactly once; the other species are unchanged. -/
theorem C119_each_particle_once (cfg : PCfg) (hc : PCfgOk cfg) (hsep : cfg.sep ≠ 0) (O : V3) (σ : Mem) (nt : I3) (tiles : I3 → PTile)
    (ht : ∀ u, IsTile nt u → PTileOk cfg O (tiles u) ∧ PHolds σ (tiles u))
    (hk : ∀ u, IsTile nt u → ∀ s ∈ (tiles u).species, Active s → ∀ p ∈ s.ps, (advanced cfg O σ s p).isSome)
    (es fs : List (ℕ × I3)) (he : Dealt nt es) (hf : Dealt nt fs) :
    ∃ tiles', step cfg σ es fs tiles = .ok tiles' ∧ (∀ u, IsTile nt u → TileAfter cfg O σ (tiles u) (tiles' u)) ∧
      ∀ u, ¬ IsTile nt u → tiles' u = tiles u := by
  refine ⟨_, step_value hc hsep ht hk he hf, fun u hu => ?_, fun u hu => ?_⟩
  · rw [if_pos ((he.2 u).mpr hu)]
    exact tileAfter_of fun s hs ha p hp => (advanced_some (hk u hu s hs ha p hp)).2
  · rw [if_neg fun h => hu ((he.2 u).mp h)]

/-- **C119** One parallel region or two, whatever the threads and the order of the tiles: the outcome is the same. -/
theorem C119_schedule_irrelevant (cfg : PCfg) (hc : PCfgOk cfg) (hsep : cfg.sep ≠ 0) (O : V3) (σ : Mem) (nt : I3) (tiles : I3 → PTile)
    (ht : ∀ u, IsTile nt u → PTileOk cfg O (tiles u) ∧ PHolds σ (tiles u))
    (hk : ∀ u, IsTile nt u → ∀ s ∈ (tiles u).species, Active s → ∀ p ∈ s.ps, (advanced cfg O σ s p).isSome)
    (es fs es' fs' : List (ℕ × I3)) (he : Dealt nt es) (hf : Dealt nt fs) (he' : Dealt nt es') (hf' : Dealt nt fs') (k : ℤ) (hk0 : k ≠ 0) :
    step cfg σ es fs tiles = step { cfg with sep := k } σ es' fs' tiles := by
  rw [step_value hc hsep ht hk he hf]
  rw [step_value (cfg := { cfg with sep := k }) (O := O) ⟨hc.nx, hc.ny, hc.nz, hc.dx, hc.dy, hc.dz⟩ hk0
    (fun u hu => ⟨⟨(ht u hu).1.wj, (ht u hu).1.wk, (ht u hu).1.wl, (ht u hu).1.gj, (ht u hu).1.gk, (ht u hu).1.gl, (ht u hu).1.ox, (ht u hu).1.oy,
      (ht u hu).1.oz, (ht u hu).1.near⟩, (ht u hu).2⟩) hk he' hf']
  congr 1
  funext u
  by_cases hu : IsTile nt u
  · rw [if_pos ((he.2 u).mpr hu), if_pos ((he'.2 u).mpr hu)]; rfl
  · rw [if_neg fun h => hu ((he.2 u).mp h), if_neg fun h => hu ((he'.2 u).mp h)]

/-- **C119** (negative) The Landau-Lifshitz pusher (number 4) cannot be used: with one particle to push, whatever the tiles and threads, the step reads
columns of the particle attributes that do not exist, or whose numbers were never given. -/
theorem C119_landau_lifshitz_refuted (cfg : PCfg) (hc : PCfgOk cfg) (hp : cfg.pusher = 4) (hsep : cfg.sep ≠ 0) (O : V3) (σ : Mem) (nt : I3)
    (tiles : I3 → PTile) (ht : ∀ u, IsTile nt u → PTileOk cfg O (tiles u) ∧ PHolds σ (tiles u))
    (hx : ∃ u, IsTile nt u ∧ ∃ s ∈ (tiles u).species, Active s ∧ s.ps ≠ []) (es fs : List (ℕ × I3)) (he : Dealt nt es) (hf : Dealt nt fs) :
    step cfg σ es fs tiles = .error (if cfg.sep = 1 then .uninitialised else .outOfBounds) := by
  have hpush : ∀ (ll : Fault) (s : PSpc) (p : Push.Part), pushOne cfg ll s p = .error ll := by
    intro ll s p
    unfold pushOne
    rw [hp]; rfl
  obtain ⟨u0, hu0, s0, hs0, ha0, hl0⟩ := hx
  have hg : (tiles u0).isgathered = true := gathered_iff.mpr ⟨s0, hs0, ha0, fun h => hl0 (List.length_eq_zero_iff.mp h)⟩
  unfold step
  rw [if_neg hsep]
  by_cases h1 : cfg.sep = 1
  · rw [if_pos h1, if_pos h1]
    refine region_fault (P := fun t => PTileOk cfg O t ∧ PHolds σ t) ?_ es _ tiles init_good he.1 (fun u hu => ht u ((he.2 u).mp hu))
      ⟨u0, (he.2 u0).mpr hu0, hg⟩
    rintro t ⟨h1, h2⟩ v hv hg
    refine tileStep_fault h2 hg (fun s hs ha hl => ?_) v hv
    unfold fullWork
    dsimp only
    rw [gatherLoop_ok hc h1 h2 (near_of h1 hs ha)]
    simp only [except_bind_ok]
    have := loopM_fault (f := pushOne cfg .uninitialised s) (l := s.ps.map (feels cfg O σ)) (fun p _ => hpush _ s p) (by simpa using hl)
    rw [List.length_map] at this
    rw [this]; rfl
  · rw [if_neg h1, if_neg h1]
    have r1 := region_ok (work := gatherWork cfg) (σ := σ) (T := mapTile fun _ p => feels cfg O σ p) (P := fun t => PTileOk cfg O t ∧ PHolds σ t)
      (by
        rintro t ⟨h1, h2⟩ v hv
        exact tileStep_ok h2 (fun s hs ha _ => gatherWork_ok hc h1 h2 (near_of h1 hs ha)) v hv) es (fun _ => Priv.init) tiles init_good he.1
      (fun u hu => ht u ((he.2 u).mp hu))
    rw [r1]
    simp only [except_bind_ok]
    refine region_fault (P := fun t => PHolds σ t) ?_ fs _ _ init_good hf.1 ?_ ⟨u0, (hf.2 u0).mpr hu0, ?_⟩
    · intro t h2 v hv hg
      refine tileStep_fault h2 hg (fun s hs ha hl => ?_) v hv
      unfold pushWork
      dsimp only
      rw [loopM_fault (fun p _ => hpush _ s p) hl]; rfl
    · intro u hu
      rw [if_pos ((he.2 u).mpr ((hf.2 u).mp hu))]
      exact mapTile_holds (ht u ((hf.2 u).mp hu)).2
    · rw [if_pos ((he.2 u0).mpr hu0)]
      exact mapTile_gathered hg

/-! ### C120 -/

/-- **C120** (partial) The default step (gathering and push in one loop over blocks of particles) does the same as the others, whatever the length of the
blocks, when the three orders are equal, the order is lowered along the staggered directions, the grid is Yee's and the pusher is Boris'
or Vay's. Missing: every other choice (see the negative statements). -/
theorem C120_default_step_partial (cfg : PCfg) (hc : PCfgOk cfg) (hsep : cfg.sep = 0) (ho : cfg.nx = cfg.ny ∧ cfg.ny = cfg.nz)
    (hlow : cfg.lower = true) (hyee : cfg.nodal = false) (hp : cfg.pusher ≠ 2 ∧ cfg.pusher ≠ 3 ∧ cfg.pusher ≠ 4) (hl : 0 < cfg.lvect)
    (O : V3) (σ : Mem) (nt : I3) (tiles : I3 → PTile) (ht : ∀ u, IsTile nt u → PTileOk cfg O (tiles u) ∧ PHolds σ (tiles u))
    (es fs : List (ℕ × I3)) (he : Dealt nt es) :
    ∃ tiles', step cfg σ es fs tiles = .ok tiles' ∧ (∀ u, IsTile nt u → TileAfter cfg O σ (tiles u) (tiles' u)) ∧
      ∀ u, ¬ IsTile nt u → tiles' u = tiles u := by
  have hf : Fused cfg cfg.nx := ⟨rfl, ho.1.symm, (ho.1.trans ho.2).symm, hlow, hyee⟩
  have hkick : ∀ (s : PSpc) (p : Push.Part), kicked cfg s.q s.m p = some (kKick cfg s p) := by
    intro s p
    unfold kicked kKick
    by_cases h : cfg.pusher = 1
    · rw [if_pos h, if_pos h]
    · rw [if_neg h, if_neg hp.1, if_neg hp.2.1, if_neg hp.2.2, if_neg h]
  have r := region_ok (work := kernelWork cfg) (σ := σ) (T := mapTile fun s p => drifted cfg.dt (kKick cfg s (feels cfg O σ p)))
    (P := fun t => PTileOk cfg O t ∧ PHolds σ t) (by
      rintro t ⟨h1, h2⟩ v hv
      exact tileStep_ok h2 (fun s hs ha _ => kernelCall_ok hc.nx hf hl hc h1 h2 (near_of h1 hs ha)) v hv) es (fun _ => Priv.init) tiles
    init_good he.1 (fun u hu => ht u ((he.2 u).mp hu))
  unfold step
  rw [if_pos hsep]
  refine ⟨_, r, fun u hu => ?_, fun u hu => ?_⟩
  · rw [if_pos ((he.2 u).mpr hu)]
    refine tileAfter_of fun s _ _ p _ => ?_
    unfold advanced
    rw [hkick]; rfl
  · rw [if_neg fun h => hu ((he.2 u).mp h)]

/-- **C120** (negative) With orders that are not the same in the three directions the default step pushes no particle: positions and momenta stay as they
are, and the fields on the particles are zero. -/
theorem C120_mixed_orders_refuted (cfg : PCfg) (hsep : cfg.sep = 0) (ho : ¬ (cfg.nx = cfg.ny ∧ cfg.ny = cfg.nz)) (σ : Mem) (nt : I3)
    (tiles : I3 → PTile) (ht : ∀ u, IsTile nt u → PHolds σ (tiles u)) (es fs : List (ℕ × I3)) (he : Dealt nt es) :
    ∃ tiles', step cfg σ es fs tiles = .ok tiles' ∧ ∀ u, IsTile nt u →
      (tiles' u).species.length = (tiles u).species.length ∧ ∀ i (hi : i < (tiles u).species.length) (hi' : i < (tiles' u).species.length),
        Active ((tiles u).species[i]) → (tiles' u).species[i].ps = (tiles u).species[i].ps.map fun p => ⟨p.pos, p.u, p.gi, ⟨0, 0, 0⟩, ⟨0, 0, 0⟩⟩ := by
  have r := region_ok (work := kernelWork cfg) (σ := σ) (T := mapTile fun _ p => zeroFields p)
    (P := fun t => PHolds σ t) (by
      rintro t h2 v hv
      refine tileStep_ok h2 (fun s hs ha _ => ?_) v hv
      unfold kernelWork kernelCall
      rw [if_neg (by omega), if_neg (by omega), if_neg (by omega)]
      rfl) es (fun _ => Priv.init) tiles
    init_good he.1 (fun u hu => ht u ((he.2 u).mp hu))
  unfold step
  rw [if_pos hsep]
  refine ⟨_, r, fun u hu => ?_⟩
  rw [if_pos ((he.2 u).mpr hu)]
  unfold mapTile
  refine ⟨by simp, fun i hi hi' ha => ?_⟩
  simp only [List.getElem_map]
  unfold mapSpc
  rw [if_pos (show ((tiles u).species[i]).antenna = false ∧ ((tiles u).species[i]).freeze = false from ha)]
  rfl

/-- The default step does not depend on the lowering of the order, the kind of grid, the gathering algorithm, nor on which of the pushers other than Vay's is
chosen. -/
theorem kernel_ignores (cfg : PCfg) (hsep : cfg.sep = 0) (low nod : Bool) (al pu : ℤ) (hp : cfg.pusher ≠ 1 ∧ pu ≠ 1 ∨ cfg.pusher = pu)
    (σ : Mem) (es fs : List (ℕ × I3)) (tiles : I3 → PTile) :
    step cfg σ es fs tiles = step { cfg with lower := low, nodal := nod, algo := al, pusher := pu } σ es fs tiles := by
  have hm : ∀ s is ps, kMomentum cfg s is ps = kMomentum { cfg with lower := low, nodal := nod, algo := al, pusher := pu } s is ps := by
    intro s is ps
    unfold kMomentum
    rcases hp with ⟨h1, h2⟩ | h
    · rw [if_neg h1, if_neg h2]
    · dsimp only
      rw [h]
  have hb : ∀ n t τ s is ps, kBlock n cfg t τ s is ps = kBlock n { cfg with lower := low, nodal := nod, algo := al, pusher := pu } t τ s is ps := by
    intro n t τ s is ps
    unfold kBlock
    simp only [hm]
    rfl
  have hl : ∀ n t τ s bs ps, kLoop n cfg t τ s bs ps = kLoop n { cfg with lower := low, nodal := nod, algo := al, pusher := pu } t τ s bs ps := by
    intro n t τ s bs
    induction bs with
    | nil => intro ps; rfl
    | cons is bs ih =>
      intro ps
      unfold kLoop
      rw [hb]
      simp only [ih]
  have hw : kernelWork cfg = kernelWork { cfg with lower := low, nodal := nod, algo := al, pusher := pu } := by
    funext t τ s
    unfold kernelWork kernelCall
    simp only [hl]
  unfold step
  rw [if_pos hsep, if_pos hsep, hw]

/-- **C120** (negative) The default step does not look at `l_lower_order_in_v` and `l_nodalgrid`, and knows two pushers only: with equal orders it always
lowers the order along the staggered directions of Yee's grid, and takes Boris' pusher for all numbers but 1. -/
theorem C120_options_ignored_refuted (cfg : PCfg) (hc : PCfgOk cfg) (hsep : cfg.sep = 0) (ho : cfg.nx = cfg.ny ∧ cfg.ny = cfg.nz)
    (hl : 0 < cfg.lvect) (O : V3) (σ : Mem) (nt : I3) (tiles : I3 → PTile) (ht : ∀ u, IsTile nt u → PTileOk cfg O (tiles u) ∧ PHolds σ (tiles u))
    (es fs : List (ℕ × I3)) (he : Dealt nt es) :
    ∃ tiles', step cfg σ es fs tiles = .ok tiles' ∧ (∀ u, IsTile nt u →
      TileAfter { cfg with lower := true, nodal := false, pusher := if cfg.pusher = 1 then 1 else 0 } O σ (tiles u) (tiles' u)) ∧
      ∀ u, ¬ IsTile nt u → tiles' u = tiles u := by
  rw [kernel_ignores cfg hsep true false cfg.algo (if cfg.pusher = 1 then 1 else 0) (by split_ifs with h <;> simp [h]) σ es fs tiles]
  refine C120_default_step_partial { cfg with lower := true, nodal := false, pusher := if cfg.pusher = 1 then 1 else 0 }
    ⟨hc.nx, hc.ny, hc.nz, hc.dx, hc.dy, hc.dz⟩ hsep ho rfl rfl ?_ hl O σ nt tiles
    (fun u hu => ⟨⟨(ht u hu).1.wj, (ht u hu).1.wk, (ht u hu).1.wl, (ht u hu).1.gj, (ht u hu).1.gk, (ht u hu).1.gl, (ht u hu).1.ox, (ht u hu).1.oy,
      (ht u hu).1.oz, (ht u hu).1.near⟩, (ht u hu).2⟩) es fs he
  dsimp only
  split_ifs <;> norm_num

/-! ### A small run -/

/-- Order 1, unit constants and cells, time step 2. -/
noncomputable def pmCfg (lower : Bool) (pusher sep : ℤ) : PCfg := ⟨1, 1, 1, lower, false, 0, pusher, 8, sep, 1, 1, 1, 2, 1, 1, 1, 0⟩

/-- Field arrays on nodes -2 to 4. -/
def pmMem (f : Comp → I3 → ℝ) : Mem := fun q => ⟨⟨-2, -2, -2⟩, ⟨4, 4, 4⟩, f q⟩

/-- A tile with nodes 0 to 2, two guard cells, a frozen species, and one particle to push. -/
def pmTile (p : Push.Part) : PTile := ⟨⟨0, 0, 0⟩, ⟨2, 2, 2⟩, ⟨2, 2, 2⟩, 0, 0, 0, [⟨false, true, 1, 1, [p]⟩, ⟨false, false, 1, 1, [p]⟩]⟩

theorem pm_cfg (lower : Bool) (pusher sep : ℤ) : PCfgOk (pmCfg lower pusher sep) := by
  constructor <;> simp [pmCfg, Order]

theorem pm_tile (lower : Bool) (pusher sep : ℤ) (p : Push.Part) (h : (0 ≤ p.pos.x ∧ p.pos.x ≤ 2) ∧ (0 ≤ p.pos.y ∧ p.pos.y ≤ 2) ∧ 0 ≤ p.pos.z ∧ p.pos.z ≤ 2) :
    PTileOk (pmCfg lower pusher sep) ⟨0, 0, 0⟩ (pmTile p) := by
  obtain ⟨⟨a, a'⟩, ⟨b, b'⟩, c, c'⟩ := h
  constructor
  any_goals (simp [pmCfg, pmTile, pushGuards]; done)
  intro s hs ha p' hp'
  simp only [pmTile, List.mem_cons, List.not_mem_nil, or_false] at hs
  have : p' = p := by rcases hs with rfl | rfl <;> simpa using hp'
  subst this
  simp only [pmCfg, pmTile, NearNodes]
  refine ⟨⟨?_, ?_⟩, ⟨?_, ?_⟩, ?_, ?_⟩ <;> push_cast <;> linarith

theorem pm_holds (f : Comp → I3 → ℝ) (p : Push.Part) : PHolds (pmMem f) (pmTile p) := by
  intro q _
  simp [pmMem, pmTile]

theorem pm_dealt : Dealt ⟨1, 1, 1⟩ [(3, ⟨1, 1, 1⟩)] := by
  refine ⟨by simp, fun u => ?_⟩
  simp only [List.map_cons, List.map_nil, List.mem_singleton]
  constructor
  · rintro rfl
    simp [IsTile]
  · intro h
    obtain ⟨a, b, c, d, e, f⟩ := h
    obtain ⟨uj, uk, ul⟩ := u
    dsimp only at *
    congr 1 <;> omega

theorem pm_one : IsTile ⟨1, 1, 1⟩ ⟨1, 1, 1⟩ := by simp [IsTile]

/-- A uniform component is felt as such. -/
theorem pm_uniform {lower : Bool} {pusher sep : ℤ} {f : Comp → I3 → ℝ} {p : Push.Part}
    (h : (0 ≤ p.pos.x ∧ p.pos.x ≤ 2) ∧ (0 ≤ p.pos.y ∧ p.pos.y ≤ 2) ∧ 0 ≤ p.pos.z ∧ p.pos.z ≤ 2) {q : Comp} (hq : Spec.IsField q) {c : ℝ}
    (hf : ∀ i, f q i = c) : interpAt (pmCfg lower pusher sep) ⟨0, 0, 0⟩ (pmMem f q) q p.pos = c := by
  have ht := pm_tile lower pusher sep p h
  have hn : PNear (pmCfg lower pusher sep) ⟨0, 0, 0⟩ (pmTile p) p := ht.near ⟨false, false, 1, 1, [p]⟩ (by simp [pmTile]) ⟨rfl, rfl⟩ p (by simp)
  rw [← tile_interp (pm_cfg lower pusher sep) ht (pm_holds f p) hn hq]
  exact uniform_gsum (orders_of (pm_cfg lower pusher sep)) (tile_Fits (pm_cfg lower pusher sep) ht hn) hq fun i _ => hf _

/-- Uniform electric field along y. -/
def pmEy : Comp → I3 → ℝ := fun q _ => if q = .ey then 1 else 0

/-- A particle that crosses it. -/
noncomputable def pmPart : Push.Part := ⟨⟨1, 1, 1⟩, ⟨1, -1, 0⟩, 1, ⟨0, 0, 0⟩, ⟨0, 0, 0⟩⟩

theorem pm_feels (lower : Bool) (pusher sep : ℤ) : feels (pmCfg lower pusher sep) ⟨0, 0, 0⟩ (pmMem pmEy) pmPart =
    ⟨⟨1, 1, 1⟩, ⟨1, -1, 0⟩, 1, ⟨0, 1, 0⟩, ⟨0, 0, 0⟩⟩ := by
  have hp : (0 ≤ pmPart.pos.x ∧ pmPart.pos.x ≤ 2) ∧ (0 ≤ pmPart.pos.y ∧ pmPart.pos.y ≤ 2) ∧ 0 ≤ pmPart.pos.z ∧ pmPart.pos.z ≤ 2 := by
    norm_num [pmPart]
  have h0 : ∀ q, Spec.IsField q → q ≠ .ey → interpAt (pmCfg lower pusher sep) ⟨0, 0, 0⟩ (pmMem pmEy q) q pmPart.pos = 0 :=
    fun q hq h => pm_uniform hp hq fun i => if_neg h
  have h1 : interpAt (pmCfg lower pusher sep) ⟨0, 0, 0⟩ (pmMem pmEy .ey) .ey pmPart.pos = 1 :=
    pm_uniform hp (by simp [Spec.IsField]) fun i => if_pos rfl
  unfold feels
  rw [h1, h0 .ex (by simp [Spec.IsField]) (by simp), h0 .ez (by simp [Spec.IsField]) (by simp), h0 .bx (by simp [Spec.IsField]) (by simp),
    h0 .by' (by simp [Spec.IsField]) (by simp), h0 .bz (by simp [Spec.IsField]) (by simp)]
  rfl

theorem pm_boris : (borisOne 1 1 1 2 ⟨⟨1, 1, 1⟩, ⟨1, -1, 0⟩, 1, ⟨0, 1, 0⟩, ⟨0, 0, 0⟩⟩).u = ⟨1, 1, 0⟩ := by
  unfold borisOne ePush bRot
  norm_num

-- Boris' pusher in two regions: the particle ends with the momentum (1, 1, 0), the regions run by different threads
example : ∃ tiles', step (pmCfg true 0 2) (pmMem pmEy) [(3, ⟨1, 1, 1⟩)] [(0, ⟨1, 1, 1⟩)] (fun _ => pmTile pmPart) = .ok tiles' ∧
    ∃ s, (tiles' ⟨1, 1, 1⟩).species[1]? = some s ∧ ∃ p, s.ps = [p] ∧ p.u = ⟨1, 1, 0⟩ := by
  have hp : (0 ≤ pmPart.pos.x ∧ pmPart.pos.x ≤ 2) ∧ (0 ≤ pmPart.pos.y ∧ pmPart.pos.y ≤ 2) ∧ 0 ≤ pmPart.pos.z ∧ pmPart.pos.z ≤ 2 := by
    norm_num [pmPart]
  have ha : ∀ s : PSpc, advanced (pmCfg true 0 2) ⟨0, 0, 0⟩ (pmMem pmEy) s pmPart =
      some (drifted 2 (borisOne 1 s.q s.m 2 ⟨⟨1, 1, 1⟩, ⟨1, -1, 0⟩, 1, ⟨0, 1, 0⟩, ⟨0, 0, 0⟩⟩)) := by
    intro s
    unfold advanced kicked
    rw [pm_feels]
    simp [pmCfg]
  obtain ⟨tiles', h, h', _⟩ := C119_each_particle_once (pmCfg true 0 2) (pm_cfg _ _ _) (by simp [pmCfg]) ⟨0, 0, 0⟩ (pmMem pmEy) ⟨1, 1, 1⟩
    (fun _ => pmTile pmPart) (fun u _ => ⟨pm_tile _ _ _ _ hp, pm_holds _ _⟩) (fun u _ s hs _ p hp => by
      have : p = pmPart := by
        simp only [pmTile, List.mem_cons, List.not_mem_nil, or_false] at hs
        rcases hs with rfl | rfl <;> simpa using hp
      rw [this, ha]; rfl) [(3, ⟨1, 1, 1⟩)] [(0, ⟨1, 1, 1⟩)] pm_dealt ⟨pm_dealt.1, pm_dealt.2⟩
  refine ⟨tiles', h, ?_⟩
  have h2 := (h' ⟨1, 1, 1⟩ pm_one).2
  simp only [pmTile] at h2
  match hm : (tiles' ⟨1, 1, 1⟩).species, h2 with
  | [s1, s2], h2 =>
    simp only [List.forall₂_cons, List.Forall₂.nil, and_true] at h2
    refine ⟨s2, rfl, ?_⟩
    have := (h2.2.1 ⟨rfl, rfl⟩).2.2.2.2
    simp only [List.map_cons, List.map_nil, ha] at this
    match hps : s2.ps, this with
    | [p], this =>
      simp only [List.map_cons, List.map_nil, List.cons.injEq, Option.some.injEq, and_true] at this
      refine ⟨p, rfl, ?_⟩
      rw [this]
      exact pm_boris

-- the Landau-Lifshitz pusher, in one region and in two
example : step (pmCfg true 4 1) (pmMem pmEy) [(3, ⟨1, 1, 1⟩)] [(0, ⟨1, 1, 1⟩)] (fun _ => pmTile pmPart) = .error .uninitialised ∧
    step (pmCfg true 4 2) (pmMem pmEy) [(3, ⟨1, 1, 1⟩)] [(0, ⟨1, 1, 1⟩)] (fun _ => pmTile pmPart) = .error .outOfBounds := by
  have hp : (0 ≤ pmPart.pos.x ∧ pmPart.pos.x ≤ 2) ∧ (0 ≤ pmPart.pos.y ∧ pmPart.pos.y ≤ 2) ∧ 0 ≤ pmPart.pos.z ∧ pmPart.pos.z ≤ 2 := by
    norm_num [pmPart]
  have key : ∀ k : ℤ, k ≠ 0 → _ := fun k hk => C119_landau_lifshitz_refuted (pmCfg true 4 k) (pm_cfg _ _ _) rfl hk ⟨0, 0, 0⟩ (pmMem pmEy) ⟨1, 1, 1⟩
    (fun _ => pmTile pmPart) (fun u _ => ⟨pm_tile _ _ _ _ hp, pm_holds _ _⟩)
    ⟨⟨1, 1, 1⟩, pm_one, ⟨false, false, 1, 1, [pmPart]⟩, by simp [pmTile], ⟨rfl, rfl⟩, by simp⟩ [(3, ⟨1, 1, 1⟩)] [(0, ⟨1, 1, 1⟩)] pm_dealt
    ⟨pm_dealt.1, pm_dealt.2⟩
  exact ⟨key 1 (by norm_num), key 2 (by norm_num)⟩

-- orders 1, 1 and 2: the default step leaves the particle where it is
example : ∃ tiles', step { pmCfg true 0 0 with nz := 2 } (pmMem pmEy) [(3, ⟨1, 1, 1⟩)] [] (fun _ => pmTile pmPart) = .ok tiles' ∧
    ∃ s, (tiles' ⟨1, 1, 1⟩).species[1]? = some s ∧ s.ps = [pmPart] := by
  obtain ⟨tiles', h, h'⟩ := C120_mixed_orders_refuted { pmCfg true 0 0 with nz := 2 } rfl (by simp [pmCfg]) (pmMem pmEy) ⟨1, 1, 1⟩
    (fun _ => pmTile pmPart) (fun u _ => pm_holds _ _) [(3, ⟨1, 1, 1⟩)] [] pm_dealt
  obtain ⟨h1, h2⟩ := h' ⟨1, 1, 1⟩ pm_one
  have hl : 1 < (tiles' ⟨1, 1, 1⟩).species.length := by rw [h1]; simp [pmTile]
  exact ⟨tiles', h, _, List.getElem?_eq_getElem hl, h2 1 (by simp [pmTile]) hl ⟨rfl, rfl⟩⟩

/-- What the default step leaves of the particle. -/
theorem pm_default {cfg cfg' : PCfg} {O : V3} {σ : Mem} {p : Push.Part} {t' : PTile} (h : TileAfter cfg O σ (pmTile p) t')
    (h' : TileAfter cfg' O σ (pmTile p) t') : advanced cfg O σ ⟨false, false, 1, 1, [p]⟩ p = advanced cfg' O σ ⟨false, false, 1, 1, [p]⟩ p := by
  have h1 := h.2
  have h2 := h'.2
  simp only [pmTile] at h1 h2
  match hm : t'.species, h1, h2 with
  | [s1, s2], h1, h2 =>
    simp only [List.forall₂_cons, List.Forall₂.nil, and_true] at h1 h2
    have e1 := (h1.2.1 ⟨rfl, rfl⟩).2.2.2.2
    have e2 := (h2.2.1 ⟨rfl, rfl⟩).2.2.2.2
    rw [e1] at e2
    simpa using e2

-- the default step, Boris' pusher
example : ∃ tiles', step (pmCfg true 0 0) (pmMem pmEy) [(3, ⟨1, 1, 1⟩)] [] (fun _ => pmTile pmPart) = .ok tiles' ∧
    TileAfter (pmCfg true 0 0) ⟨0, 0, 0⟩ (pmMem pmEy) (pmTile pmPart) (tiles' ⟨1, 1, 1⟩) := by
  obtain ⟨tiles', h, h', _⟩ := C120_default_step_partial (pmCfg true 0 0) (pm_cfg _ _ _) rfl ⟨rfl, rfl⟩ rfl rfl (by simp [pmCfg]) (by simp [pmCfg])
    ⟨0, 0, 0⟩ (pmMem pmEy) ⟨1, 1, 1⟩ (fun _ => pmTile pmPart) (fun u _ => ⟨pm_tile _ _ _ _ (by norm_num [pmPart]), pm_holds _ _⟩) [(3, ⟨1, 1, 1⟩)] [] pm_dealt
  exact ⟨tiles', h, h' _ pm_one⟩

/-- **C120** (negative) With radiation reaction chosen (pusher 3) the default step leaves it out: a particle that crosses a uniform field does not get the momentum of
the chosen pusher, although the step with separate regions gives it. -/
theorem C120_radiation_refuted : ∃ tiles', step (pmCfg true 3 0) (pmMem pmEy) [(3, ⟨1, 1, 1⟩)] [] (fun _ => pmTile pmPart) = .ok tiles' ∧
    ¬ TileAfter (pmCfg true 3 0) ⟨0, 0, 0⟩ (pmMem pmEy) (pmTile pmPart) (tiles' ⟨1, 1, 1⟩) := by
  have hp : (0 ≤ pmPart.pos.x ∧ pmPart.pos.x ≤ 2) ∧ (0 ≤ pmPart.pos.y ∧ pmPart.pos.y ≤ 2) ∧ 0 ≤ pmPart.pos.z ∧ pmPart.pos.z ≤ 2 := by
    norm_num [pmPart]
  obtain ⟨tiles', h, h', _⟩ := C120_options_ignored_refuted (pmCfg true 3 0) (pm_cfg _ _ _) rfl ⟨rfl, rfl⟩ (by simp [pmCfg]) ⟨0, 0, 0⟩ (pmMem pmEy)
    ⟨1, 1, 1⟩ (fun _ => pmTile pmPart) (fun u _ => ⟨pm_tile _ _ _ _ hp, pm_holds _ _⟩) [(3, ⟨1, 1, 1⟩)] [] pm_dealt
  refine ⟨tiles', h, fun hT => ?_⟩
  have e := pm_default (h' ⟨1, 1, 1⟩ pm_one) hT
  have c : ({ pmCfg true 3 0 with lower := true, nodal := false, pusher := if (pmCfg true 3 0).pusher = 1 then 1 else 0 } : PCfg) = pmCfg true 0 0 := by
    simp [pmCfg]
  rw [c] at e
  unfold advanced at e
  rw [pm_feels, pm_feels] at e
  have k0 : kicked (pmCfg true 0 0) 1 1 ⟨⟨1, 1, 1⟩, ⟨1, -1, 0⟩, 1, ⟨0, 1, 0⟩, ⟨0, 0, 0⟩⟩ =
      some (borisOne 1 1 1 2 ⟨⟨1, 1, 1⟩, ⟨1, -1, 0⟩, 1, ⟨0, 1, 0⟩, ⟨0, 0, 0⟩⟩) := by simp [kicked, pmCfg]
  have k3 : kicked (pmCfg true 3 0) 1 1 ⟨⟨1, 1, 1⟩, ⟨1, -1, 0⟩, 1, ⟨0, 1, 0⟩, ⟨0, 0, 0⟩⟩ =
      b08One 1 1 1 1 2 ⟨⟨1, 1, 1⟩, ⟨1, -1, 0⟩, 1, ⟨0, 1, 0⟩, ⟨0, 0, 0⟩⟩ := by simp [kicked, pmCfg]
  rw [k0, k3] at e
  have hx : ∃ g, b08One 1 1 1 1 2 ⟨⟨1, 1, 1⟩, ⟨1, -1, 0⟩, 1, ⟨0, 1, 0⟩, ⟨0, 0, 0⟩⟩ =
      some ⟨⟨1, 1, 1⟩, ⟨b08Crr 1 1 1 1 2 ⟨1, 0, 0⟩ + 1, 1, 0⟩, g, ⟨0, 1, 0⟩, ⟨0, 0, 0⟩⟩ := by
    unfold b08One
    rw [pm_boris]
    have hm : midU ⟨1, -1, 0⟩ ⟨1, 1, 0⟩ = ⟨1, 0, 0⟩ := by unfold midU; norm_num
    simp only [hm]
    refine ⟨invGamma 1 ⟨b08Crr 1 1 1 1 2 ⟨1, 0, 0⟩ + 1, 1, 0⟩, ?_⟩
    norm_num
  obtain ⟨g, hg⟩ := hx
  rw [hg] at e
  simp only [Option.map_some, Option.some.injEq] at e
  have := congrArg (fun p : Push.Part => p.u.x) e
  unfold drifted at this
  dsimp only at this
  rw [pm_boris] at this
  dsimp only at this
  have hz : b08Crr 1 1 1 1 2 ⟨1, 0, 0⟩ = 0 := by linarith
  unfold b08Crr at hz
  have hs : Real.sqrt (1 + ((1 : ℝ) ^ 2 + 0 ^ 2 + 0 ^ 2) * (1 / 1 ^ 2)) ≠ 0 := by
    rw [Real.sqrt_ne_zero'] ; norm_num
  simp only [div_eq_zero_iff, neg_eq_zero, mul_eq_zero, hs, Real.pi_ne_zero] at hz
  norm_num at hz

/-- Electric field along x that grows by one from a sample to the next. -/
def pmEx : Comp → I3 → ℝ := fun q i => if q = .ex then i.j else 0

/-- A particle at rest, a quarter of a cell beyond the sample of value 0. -/
noncomputable def pmRest : Push.Part := ⟨⟨3 / 4, 0, 0⟩, ⟨0, 0, 0⟩, 1, ⟨0, 0, 0⟩, ⟨0, 0, 0⟩⟩

/-- **C120** (negative) With `l_lower_order_in_v` false the linear interpolation asked for gives the particle a field of 1/4; the default step gives it 0. -/
theorem C120_full_order_refuted : ∃ tiles', step (pmCfg false 0 0) (pmMem pmEx) [(3, ⟨1, 1, 1⟩)] [] (fun _ => pmTile pmRest) = .ok tiles' ∧
    interpAt (pmCfg false 0 0) ⟨0, 0, 0⟩ (pmMem pmEx .ex) .ex pmRest.pos = 1 / 4 ∧
    (∀ s ∈ (tiles' ⟨1, 1, 1⟩).species, ∀ p ∈ s.ps, p.e.x = 0) ∧
    ¬ TileAfter (pmCfg false 0 0) ⟨0, 0, 0⟩ (pmMem pmEx) (pmTile pmRest) (tiles' ⟨1, 1, 1⟩) := by
  have hp : (0 ≤ pmRest.pos.x ∧ pmRest.pos.x ≤ 2) ∧ (0 ≤ pmRest.pos.y ∧ pmRest.pos.y ≤ 2) ∧ 0 ≤ pmRest.pos.z ∧ pmRest.pos.z ≤ 2 := by
    norm_num [pmRest]
  obtain ⟨tiles', h, h', _⟩ := C120_options_ignored_refuted (pmCfg false 0 0) (pm_cfg _ _ _) rfl ⟨rfl, rfl⟩ (by simp [pmCfg]) ⟨0, 0, 0⟩ (pmMem pmEx)
    ⟨1, 1, 1⟩ (fun _ => pmTile pmRest) (fun u _ => ⟨pm_tile _ _ _ _ hp, pm_holds _ _⟩) [(3, ⟨1, 1, 1⟩)] [] pm_dealt
  have c : ({ pmCfg false 0 0 with lower := true, nodal := false, pusher := if (pmCfg false 0 0).pusher = 1 then 1 else 0 } : PCfg) = pmCfg true 0 0 := by
    simp [pmCfg]
  have hT := h' ⟨1, 1, 1⟩ pm_one
  rw [c] at hT
  have v0 : interpAt (pmCfg true 0 0) ⟨0, 0, 0⟩ (pmMem pmEx .ex) .ex pmRest.pos = 0 := by
    unfold interpAt
    refine Finset.sum_eq_zero fun l _ => Finset.sum_eq_zero fun k _ => Finset.sum_eq_zero fun j _ => ?_
    by_cases hj : j = 0
    · subst hj
      simp [pmMem, pmEx]
    · have : spline (orderAlong (pmCfg true 0 0).nx (pmCfg true 0 0).lower .ex 0)
          ((pmRest.pos.x - 0) / (pmCfg true 0 0).dx - samplePos (pmCfg true 0 0).nodal .ex 0 j) = 0 := by
        have o : orderAlong (pmCfg true 0 0).nx (pmCfg true 0 0).lower .ex 0 = 0 := rfl
        have s : samplePos (pmCfg true 0 0).nodal .ex 0 j = j + 1 / 2 := rfl
        rw [o, s]
        unfold spline
        rw [if_pos rfl, if_neg]
        simp only [pmRest, pmCfg]
        rintro ⟨a, b⟩
        rcases lt_or_gt_of_ne hj with hj | hj
        · have : (j : ℝ) ≤ -1 := by exact_mod_cast (show j ≤ -1 by omega)
          linarith
        · have : (1 : ℝ) ≤ j := by exact_mod_cast (show 1 ≤ j by omega)
          linarith
      rw [this]; simp
  have v1 : interpAt (pmCfg false 0 0) ⟨0, 0, 0⟩ (pmMem pmEx .ex) .ex pmRest.pos = 1 / 4 := by
    have ht := pm_tile false 0 0 pmRest hp
    have hn : PNear (pmCfg false 0 0) ⟨0, 0, 0⟩ (pmTile pmRest) pmRest := ht.near ⟨false, false, 1, 1, [pmRest]⟩ (by simp [pmTile]) ⟨rfl, rfl⟩ pmRest (by simp)
    rw [← tile_interp (pm_cfg false 0 0) ht (pm_holds pmEx pmRest) hn (by simp [Spec.IsField])]
    have := gsum_affine (orders_of (pm_cfg false 0 0)) .ex (tilePos (pmCfg false 0 0) (pmTile pmRest) pmRest) (-(1 / 2)) 1 0 0 (by simp [PCfg.opts, pmCfg])
      (by simp) (by simp)
    have e : (tileMem (pmMem pmEx) (pmTile pmRest) .ex).val = fun i => -(1 / 2) + 1 * samplePos (pmCfg false 0 0).opts.nodal .ex 0 i.j +
        0 * samplePos (pmCfg false 0 0).opts.nodal .ex 1 i.k + 0 * samplePos (pmCfg false 0 0).opts.nodal .ex 2 i.l := by
      funext i
      have s : samplePos (pmCfg false 0 0).opts.nodal .ex 0 i.j = i.j + 1 / 2 := rfl
      rw [s]
      simp [tileMem, pmMem, pmEx, pmTile, PTile.elo]
    rw [e, this]
    simp [tilePos, cellPos, pmCfg, pmTile, pmRest]
    norm_num
  refine ⟨tiles', h, v1, ?_, fun hT' => ?_⟩
  · have h2 := hT.2
    simp only [pmTile] at h2
    match hm : (tiles' ⟨1, 1, 1⟩).species, h2 with
    | [s1, s2], h2 =>
      simp only [List.forall₂_cons, List.Forall₂.nil, and_true] at h2
      intro s hs
      simp only [List.mem_cons, List.not_mem_nil, or_false] at hs
      rcases hs with rfl | rfl
      · have := h2.1.2 (by simp [Active])
        rw [this]
        simp [pmRest]
      · have := (h2.2.1 ⟨rfl, rfl⟩).2.2.2.2
        intro p hp
        have hm := List.mem_map_of_mem (f := some) hp
        rw [this] at hm
        simp only [List.map_cons, List.map_nil, List.mem_singleton] at hm
        unfold advanced kicked at hm
        simp only [pmCfg] at hm
        norm_num at hm
        rw [hm]
        unfold drifted borisOne feels
        exact v0
  · have e := pm_default hT hT'
    have k : ∀ b, advanced (pmCfg b 0 0) ⟨0, 0, 0⟩ (pmMem pmEx) ⟨false, false, 1, 1, [pmRest]⟩ pmRest =
        some (drifted 2 (borisOne 1 1 1 2 (feels (pmCfg b 0 0) ⟨0, 0, 0⟩ (pmMem pmEx) pmRest))) := by
      intro b
      unfold advanced kicked
      simp [pmCfg]
    rw [k, k, Option.some.injEq] at e
    have := congrArg (fun p : Push.Part => p.e.x) e
    unfold drifted borisOne feels at this
    dsimp only at this
    rw [v0, v1] at this
    norm_num at this

/-! ### C121 -/

/-- **C121** The tiles the code makes meet the conditions of C119 and C120 along each direction: with at least `pushGuards n` guard cells for the
currents, and not more of them than for the fields, a tile with its guard cells lies inside the field arrays (nodes `-Gf` to `nGrid-1+Gf`), has the
guard cells that the interpolation needs, begins where its first node is, and its particles are near its nodes. -/
theorem C121_tiling_suffices (n : ℕ) (hn : n = 1 ∨ n = 2 ∨ n = 3) (nt nGrid : ℤ) (hnt : 1 ≤ nt) (hN : 1 ≤ nGrid) (s : Tiling.Split1)
    (h : Tiling.split1 nt nGrid = .ok s) (xmin dx : ℝ) (hdx : 0 < dx) (G Gf : ℤ) (hG : pushGuards n ≤ G) (hGf : G ≤ Gf) (i : ℤ)
    (hi : 1 ≤ i ∧ i ≤ s.nt) :
    let e := Tiling.tileExt s xmin (xmin + (nGrid - 1) * dx) dx i
    let γ := TileReduce.guardCells n G s.nt i
    e.gridMin = xmin + e.nMin * dx ∧ e.nMin ≤ e.nMax ∧ pushGuards n ≤ γ ∧ -Gf ≤ e.nMin - γ ∧ e.nMax + γ ≤ nGrid - 1 + Gf ∧
    ∀ x, xmin ≤ x → e.lo ≤ x → x < e.hi → NearNodes xmin dx e.nMin e.nMax x := by
  have hn3 : (n : ℤ) ≤ 3 := by omega
  have hn1 : (1 : ℤ) ≤ n := by omega
  have hg0 : 1 ≤ pushGuards n ∧ pushGuards n ≤ n + 1 := by unfold pushGuards; split_ifs <;> omega
  unfold Tiling.split1 at h
  rw [if_neg (by omega)] at h
  simp only [Except.ok.injEq] at h
  set n0 := nGrid.tdiv nt with hn0
  have hdiv : n0 * nt ≤ nGrid := by
    rw [hn0, Int.tdiv_eq_ediv_of_nonneg (by omega)]
    exact Int.ediv_mul_le _ (by omega)
  have hn0' : 0 ≤ n0 := Int.tdiv_nonneg (by omega) (by omega)
  have hs : (s.nt = 1 ∧ s.nLast = nGrid) ∨ (4 ≤ s.n0 ∧ s.n0 * s.nt ≤ nGrid ∧ s.nLast = s.n0 + (nGrid - s.n0 * s.nt)) := by
    rw [← h]
    by_cases c : n0 < 4
    · left
      simp only [c, if_true]
      exact ⟨trivial, by ring⟩
    · right
      simp only [c, if_false]
      exact ⟨by omega, hdiv, trivial⟩
  clear h hdiv hn0' hn0
  clear_value n0
  intro e γ
  have hprod : s.nt ≠ 1 → i ≠ s.nt → 4 ≤ s.n0 ∧ i * s.n0 + s.nLast ≤ nGrid ∧ 4 ≤ s.nLast := by
    intro h1 h2
    rcases hs with hs | ⟨a, b, c⟩
    · exact absurd hs.1 h1
    · refine ⟨a, ?_, ?_⟩
      · nlinarith [show i + 1 ≤ s.nt by omega]
      · omega
  by_cases hl : i = s.nt
  · have he : e = ⟨s.nLast, (i - 1) * s.n0, (i - 1) * s.n0 + (s.nLast - 1), xmin + ((i - 1) * s.n0 : ℤ) * dx,
        xmin + ((i - 1) * s.n0 : ℤ) * dx + (s.nLast - 1 : ℤ) * dx, xmin + ((i - 1) * s.n0 : ℤ) * dx - dx / 2, xmin + (nGrid - 1) * dx⟩ :=
      if_pos hl
    have hγ : γ = G := if_neg (by omega)
    have hmax : (i - 1) * s.n0 + (s.nLast - 1) = nGrid - 1 := by
      rcases hs with ⟨a, b⟩ | ⟨a, b, c⟩
      · rw [hl, a, b]; ring
      · rw [hl, c]; ring
    have hmin : 0 ≤ (i - 1) * s.n0 ∧ (i - 1) * s.n0 ≤ nGrid - 1 := by
      rcases hs with ⟨a, b⟩ | ⟨a, b, c⟩
      · rw [hl, a]; simp; omega
      · exact ⟨mul_nonneg (by omega) (by omega), by nlinarith⟩
    rw [he, hγ]
    dsimp only
    refine ⟨rfl, by omega, by omega, by omega, by omega, fun x x0 x1 x2 => ⟨?_, ?_⟩⟩
    · linarith
    · rw [hmax]
      push_cast
      linarith
  · have hnt1 : s.nt ≠ 1 := by omega
    obtain ⟨p1, p2, p3⟩ := hprod hnt1 hl
    by_cases hf : i = 1
    · have he : e = ⟨s.n0, (i - 1) * s.n0, (i - 1) * s.n0 + (s.n0 - 1), xmin, xmin + (s.n0 - 1 : ℤ) * dx, xmin,
          xmin + (s.n0 - 1 : ℤ) * dx + dx / 2⟩ := (if_neg hl).trans (if_pos hf)
      have hγ : γ = G := if_neg (by omega)
      rw [he, hγ]
      subst hf
      dsimp only
      rw [sub_self, zero_mul, zero_add]
      refine ⟨by simp, by omega, by omega, by omega, ?_, fun x x0 x1 x2 => ⟨?_, ?_⟩⟩
      · omega
      · push_cast
        linarith
      · push_cast at x2 ⊢
        linarith
    · have he : e = ⟨s.n0, (i - 1) * s.n0, (i - 1) * s.n0 + (s.n0 - 1), xmin + ((i - 1) * s.n0 : ℤ) * dx,
          xmin + ((i - 1) * s.n0 : ℤ) * dx + (s.n0 - 1 : ℤ) * dx, xmin + ((i - 1) * s.n0 : ℤ) * dx - dx / 2,
          xmin + ((i - 1) * s.n0 : ℤ) * dx + (s.n0 - 1 : ℤ) * dx + dx / 2⟩ := (if_neg hl).trans (if_neg hf)
      have hγ : γ = n + 1 := by
        have : γ = max ((n : ℤ) + 1) 2 := if_pos (by omega)
        omega
      have hmin : s.n0 ≤ (i - 1) * s.n0 := by nlinarith [show 2 ≤ i by omega]
      have hmul : i * s.n0 = (i - 1) * s.n0 + s.n0 := by ring
      rw [he, hγ]
      dsimp only
      refine ⟨rfl, by omega, by omega, by omega, by omega, fun x x0 x1 x2 => ⟨?_, ?_⟩⟩
      · push_cast at x1 ⊢
        linarith
      · push_cast at x2 ⊢
        linarith

-- three tiles of 7, 7 and 8 nodes, order 3, two guard cells: a particle at 6.25 is near the nodes 0..6 of the first tile
example : NearNodes 0 1 0 6 6.25 := by
  have h := C121_tiling_suffices 3 (by norm_num) 3 22 (by norm_num) (by norm_num) ⟨3, 7, 8⟩ rfl 0 1 (by norm_num) 2 2 (by simp [pushGuards]) le_rfl 1
    (by norm_num)
  have e : Tiling.tileExt ⟨3, 7, 8⟩ 0 (0 + (((22 : ℤ) : ℝ) - 1) * 1) 1 1 = ⟨7, (1 - 1) * 7, (1 - 1) * 7 + (7 - 1), 0, 0 + ((7 - 1 : ℤ) : ℝ) * 1, 0,
      0 + ((7 - 1 : ℤ) : ℝ) * 1 + 1 / 2⟩ := (if_neg (by norm_num)).trans (if_pos rfl)
  dsimp only at h
  rw [e] at h
  exact h.2.2.2.2.2 6.25 (by norm_num) (by norm_num) (by norm_num)

/-- **C121** (negative) More guard cells for the currents (`njguardsx`) than for the fields (`nguardsx`): once a tile at the lower edge of the domain has a
particle to push, the copy of the fields to it reads outside the field array, and none of the three forms of the step ends, whatever the other tiles
and the threads. -/
theorem C121_more_current_guards_refuted (cfg : PCfg) (σ : Mem) (nt : I3) (tiles : I3 → PTile) (u : I3) (hu : IsTile nt u)
    (hw : (tiles u).lo.j ≤ (tiles u).hi.j ∧ (tiles u).lo.k ≤ (tiles u).hi.k ∧ (tiles u).lo.l ≤ (tiles u).hi.l)
    (h0 : 0 ≤ (tiles u).g.j ∧ 0 ≤ (tiles u).g.k ∧ 0 ≤ (tiles u).g.l)
    (hx : ∃ s ∈ (tiles u).species, Active s ∧ s.ps ≠ []) (hg : (tiles u).lo.j - (tiles u).g.j < (σ .ex).lo.j)
    (es fs : List (ℕ × I3)) (he : Dealt nt es) : ∀ tiles', step cfg σ es fs tiles ≠ .ok tiles' := by
  obtain ⟨s0, hs0, ha0, hl0⟩ := hx
  have hgt : (tiles u).isgathered = true := gathered_iff.mpr ⟨s0, hs0, ha0, fun h => hl0 (List.length_eq_zero_iff.mp h)⟩
  have key : ∀ work : PTile → Mem → PSpc → Res PSpc, ∃ f, region work σ es (fun _ => Priv.init) tiles = .error f := by
    intro work
    refine region_blocked es _ tiles init_good he.1 ((he.2 u).mpr hu) fun v hv => ⟨.outOfBounds, ?_⟩
    unfold tileStep
    rw [if_pos hgt]
    dsimp only
    have : copyTile σ (tiles u) (v.resize (tiles u).shape) = .error .outOfBounds := by
      unfold copyTile
      rw [if_pos (resize_ok hv (tiles u).shape).1, if_neg]
      intro hall
      have := hall .ex (mem_comps.mpr (by simp [Spec.IsField])) ⟨(tiles u).elo.j, (tiles u).elo.k, (tiles u).elo.l⟩ (mem_box.mpr (by
        unfold InBox
        simp only [PTile.elo, PTile.ehi] at *
        omega))
      unfold InBox at this
      simp only [PTile.elo] at this
      omega
    rw [this]; rfl
  intro tiles' h
  unfold step at h
  split_ifs at h
  · obtain ⟨f, hf⟩ := key (kernelWork cfg)
    rw [hf] at h; cases h
  · obtain ⟨f, hf⟩ := key (fullWork cfg)
    rw [hf] at h; cases h
  · obtain ⟨f, hf⟩ := key (gatherWork cfg)
    rw [hf] at h; cases h

-- three guard cells for the currents, two for the fields
example : ∀ tiles', step (pmCfg true 0 0) (pmMem pmEy) [(3, ⟨1, 1, 1⟩)] [] (fun _ => { pmTile pmPart with g := ⟨3, 3, 3⟩ }) ≠ .ok tiles' :=
  C121_more_current_guards_refuted _ _ ⟨1, 1, 1⟩ _ ⟨1, 1, 1⟩ pm_one (by simp [pmTile]) (by simp)
    ⟨⟨false, false, 1, 1, [pmPart]⟩, by simp [pmTile], ⟨rfl, rfl⟩, by simp⟩ (by simp [pmTile, pmMem]) _ _ pm_dealt

end Picsar.Props
