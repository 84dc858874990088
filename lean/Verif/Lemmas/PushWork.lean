import Verif.Lemmas.PushManager

namespace Picsar.PushMgr
open Picsar Picsar.Grid Picsar.Gather Picsar.Push Picsar.Spec

theorem pushXyz_drifted (dt : ℝ) : pushXyzOne dt = drifted dt := by
  funext p
  unfold pushXyzOne drifted
  simp only [mul_comm dt]

/-- The kick, or nothing when it fails. -/
noncomputable def kick (cfg : PCfg) (s : PSpc) (p : Part) : Part := (kicked cfg s.q s.m p).getD p

/-- Kick and drift. -/
noncomputable def pushed (cfg : PCfg) (s : PSpc) (p : Part) : Part := drifted cfg.dt (kick cfg s p)

theorem pushOne_ok {cfg : PCfg} {ll : Fault} {s : PSpc} {p : Part} (h : (kicked cfg s.q s.m p).isSome) : pushOne cfg ll s p = .ok (kick cfg s p) := by
  unfold kick
  unfold kicked at h ⊢
  unfold pushOne
  split_ifs at h ⊢
  · rfl
  · obtain ⟨x, hx⟩ := Option.isSome_iff_exists.mp h
    rw [hx]; rfl
  · obtain ⟨x, hx⟩ := Option.isSome_iff_exists.mp h
    rw [hx]; rfl
  · simp at h
  · rfl

theorem advanced_some {cfg : PCfg} {O : V3} {σ : Mem} {s : PSpc} {p : Part} (h : (advanced cfg O σ s p).isSome) :
    (kicked cfg s.q s.m (feels cfg O σ p)).isSome ∧ advanced cfg O σ s p = some (pushed cfg s (feels cfg O σ p)) := by
  unfold advanced at h ⊢
  rw [Option.isSome_map] at h
  refine ⟨h, ?_⟩
  obtain ⟨x, hx⟩ := Option.isSome_iff_exists.mp h
  unfold pushed kick
  rw [hx]; rfl

section
variable {cfg : PCfg} {O : V3} {σ : Mem} {t : PTile} {s : PSpc}

theorem gatherLoop_ok (hc : PCfgOk cfg) (ht : PTileOk cfg O t) (hσ : PHolds σ t) (hp : ∀ p ∈ s.ps, PNear cfg O t p) :
    loopM (gatherOne cfg t (tileMem σ t)) (plainIdx s.ps.length) (s.ps.map zeroFields) = .ok (s.ps.map (feels cfg O σ)) := by
  have := loopM_plain (f := gatherOne cfg t (tileMem σ t)) (g := feels cfg O σ) (l := s.ps.map zeroFields) (by
    intro p hp'
    obtain ⟨p0, h0, rfl⟩ := List.mem_map.mp hp'
    rw [gatherOne_ok hc ht hσ (hp p0 h0)]
    rfl)
  rw [List.length_map, List.map_map] at this
  exact this

theorem gatherWork_ok (hc : PCfgOk cfg) (ht : PTileOk cfg O t) (hσ : PHolds σ t) (hp : ∀ p ∈ s.ps, PNear cfg O t p) :
    gatherWork cfg t (tileMem σ t) s = .ok { s with ps := s.ps.map (feels cfg O σ) } := by
  unfold gatherWork
  dsimp only
  rw [gatherLoop_ok hc ht hσ hp]
  rfl

theorem pushLoop_ok {ll : Fault} {ps : List Part} {n : ℕ} (hn : n = ps.length) (hk : ∀ p ∈ ps, (kicked cfg s.q s.m p).isSome) :
    (loopM (pushOne cfg ll s) (plainIdx n) ps >>= fun ps => doLoop (pushXyzOne cfg.dt) (plainIdx n) ps) = .ok (ps.map (pushed cfg s)) := by
  subst hn
  rw [loopM_plain fun p hp => pushOne_ok (hk p hp)]
  simp only [except_bind_ok]
  have := doLoop_plain (g := pushXyzOne cfg.dt) (ps.map (kick cfg s))
  rw [List.length_map] at this
  rw [this, List.map_map, pushXyz_drifted]
  rfl

theorem pushWork_ok {τ : Mem} (hk : ∀ p ∈ s.ps, (kicked cfg s.q s.m p).isSome) :
    pushWork cfg t τ s = .ok { s with ps := s.ps.map (pushed cfg s) } := by
  have := pushLoop_ok (cfg := cfg) (s := s) (ll := .outOfBounds) rfl hk
  unfold pushWork
  dsimp only
  rw [← bind_assoc, this]
  rfl

theorem fullWork_ok (hc : PCfgOk cfg) (ht : PTileOk cfg O t) (hσ : PHolds σ t) (hp : ∀ p ∈ s.ps, PNear cfg O t p)
    (hk : ∀ p ∈ s.ps, (kicked cfg s.q s.m (feels cfg O σ p)).isSome) :
    fullWork cfg t (tileMem σ t) s = .ok { s with ps := s.ps.map fun p => pushed cfg s (feels cfg O σ p) } := by
  have := pushLoop_ok (cfg := cfg) (s := s) (ll := .uninitialised) (n := s.ps.length) (ps := s.ps.map (feels cfg O σ)) (by simp) (by
    intro p hp'
    obtain ⟨p0, h0, rfl⟩ := List.mem_map.mp hp'
    exact hk p0 h0)
  unfold fullWork
  dsimp only
  rw [gatherLoop_ok hc ht hσ hp]
  simp only [except_bind_ok]
  rw [← bind_assoc, this, List.map_map]
  rfl

end

/-! ### The kernels -/

theorem kernel_eq {n : ℕ} (hn : Order n) : kernel n = defaultProg n true false := by
  rcases hn with rfl | rfl | rfl <;> rfl

theorem kEnv_eq {n : ℕ} (hn : Order n) (p : Pos) : kEnv n p = genv ⟨n, n, n, true, false, false⟩ p := by
  have e0 : ∀ x : ℝ, kNode0 n x = node0 ⟨n, true, false⟩ x := by
    intro x
    unfold kNode0 node0 shift
    simp only [if_true, Bool.false_eq_true, if_false, add_sub_cancel_right]
  have e1 : ∀ x : ℝ, kNode n x = Deposition.node n x := fun x => rfl
  have w0 : ∀ ξ : ℝ, kWts0 n ξ = wts0 ⟨n, true, false⟩ ξ := by
    intro ξ
    rcases hn with rfl | rfl | rfl <;> rfl
  have w1 : ∀ ξ : ℝ, kWts n ξ = Deposition.wts n ξ := by
    intro ξ
    rcases hn with rfl | rfl | rfl <;> rfl
  unfold kEnv genv
  congr 1
  · funext ax st
    cases ax <;> cases st <;> simp [coord, base, yBase, e0, e1, Opts.cx, Opts.cy, Opts.cz]
  · funext ax st
    have hs : shift ⟨n, true, false⟩ = 1 / 2 := rfl
    cases ax <;> cases st <;> simp [coord, axisWts, yWts, e0, e1, w0, w1, Opts.cx, Opts.cy, Opts.cz, hs]

/-- Three equal orders, lowered along the staggered directions, Yee grid. -/
structure Fused (cfg : PCfg) (n : ℕ) : Prop where
  x : cfg.nx = n
  y : cfg.ny = n
  z : cfg.nz = n
  l : cfg.lower = true
  d : cfg.nodal = false

section
variable {cfg : PCfg} {O : V3} {σ : Mem} {t : PTile} {s : PSpc} {n : ℕ}

theorem kGather_ok (hn : Order n) (hf : Fused cfg n) (hc : PCfgOk cfg) (ht : PTileOk cfg O t) (hσ : PHolds σ t) {p : Part}
    (hp : PNear cfg O t p) : kGather n cfg t (tileMem σ t) (zeroFields p) = .ok (feels cfg O σ p) := by
  have ho : cfg.opts = ⟨n, n, n, true, false, false⟩ := by
    unfold PCfg.opts; rw [hf.x, hf.y, hf.z, hf.l, hf.d]
  have hs : isStencil n true false comps = true := by
    rcases hn with rfl | rfl | rfl
    · exact stencil_3d_1 _
    · exact stencil_3d_2 _
    · exact stencil_3d_3 _
  have hpos : tilePos cfg t (zeroFields p) = tilePos cfg t p := rfl
  have hF : Fits ⟨n, n, n, true, false, false⟩ (tileMem σ t) (tilePos cfg t p) := ho ▸ tile_Fits hc ht hp
  unfold kGather
  rw [hpos, kEnv_eq hn, kernel_eq hn, run_stencil_all (o := ⟨n, n, n, true, false, false⟩) ⟨rfl, rfl, rfl⟩ hn hF hs, ← ho]
  simp only [except_bind_ok, except_pure]
  rw [withFields_gathered hc ht hσ hp]

/-- Kick of the kernels. -/
noncomputable def kKick (cfg : PCfg) (s : PSpc) (p : Part) : Part :=
  if cfg.pusher = 1 then vay0One cfg.c s.q s.m cfg.dt p else borisOne cfg.c s.q s.m cfg.dt p

theorem kMomentum_seg (pre seg rest : List Part) :
    kMomentum cfg s (segIdx pre.length seg.length) (pre ++ seg ++ rest) = .ok (pre ++ seg.map (kKick cfg s) ++ rest) := by
  unfold kMomentum kKick
  split_ifs with h
  · exact doLoop_seg seg pre rest
  · rw [doLoop_seg]
    simp only [except_bind_ok]
    have := doLoop_seg (g := setGammaOne cfg.c) (seg.map (borisOne cfg.c s.q s.m cfg.dt)) pre rest
    rw [List.length_map] at this
    rw [this, List.map_map]
    rfl

theorem kBlock_seg {gg : Part → Part} {τ : Mem} (pre seg rest : List Part) (h : ∀ p ∈ seg, kGather n cfg t τ p = .ok (gg p)) :
    kBlock n cfg t τ s (segIdx pre.length seg.length) (pre ++ seg ++ rest) =
      .ok (pre ++ seg.map (fun p => drifted cfg.dt (kKick cfg s (gg p))) ++ rest) := by
  unfold kBlock
  rw [loopM_seg seg pre rest h]
  simp only [except_bind_ok]
  have h1 := kMomentum_seg (cfg := cfg) (s := s) pre (seg.map gg) rest
  rw [List.length_map] at h1
  rw [h1]
  simp only [except_bind_ok]
  have h2 := doLoop_seg (g := pushXyzOne cfg.dt) ((seg.map gg).map (kKick cfg s)) pre rest
  rw [List.length_map, List.length_map] at h2
  rw [h2, pushXyz_drifted, List.map_map, List.map_map]
  rfl

theorem kLoop_seg {gg : Part → Part} {τ : Mem} {np : ℕ} (hl : 0 < cfg.lvect) : ∀ (cnt k : ℕ) (pre suf : List Part),
    k + cnt = (np + cfg.lvect - 1) / cfg.lvect → pre.length = min np (k * cfg.lvect) → pre.length + suf.length = np →
    (∀ p ∈ suf, kGather n cfg t τ p = .ok (gg p)) →
    kLoop n cfg t τ s ((List.range' k cnt).map fun (k : ℕ) =>
      (List.range (min cfg.lvect (np - (1 + k * cfg.lvect) + 1))).map fun (n : ℕ) => 1 + k * cfg.lvect + n) (pre ++ suf) =
      .ok (pre ++ suf.map fun p => drifted cfg.dt (kKick cfg s (gg p)))
  | 0, k, pre, suf, hk, hpre, hlen, _ => by
    have hge : np ≤ k * cfg.lvect := by
      rw [Nat.add_zero] at hk
      rw [hk]
      have h1 := Nat.div_add_mod (np + cfg.lvect - 1) cfg.lvect
      have h2 := Nat.mod_lt (np + cfg.lvect - 1) hl
      rw [Nat.mul_comm] at h1
      omega
    have : suf = [] := List.length_eq_zero_iff.mp (by omega)
    subst this
    simp [kLoop]
  | cnt + 1, k, pre, suf, hk, hpre, hlen, h => by
    have hlt : k * cfg.lvect < np := by
      have h1 : k < (np + cfg.lvect - 1) / cfg.lvect := by omega
      have h2 : (k + 1) * cfg.lvect ≤ np + cfg.lvect - 1 := (Nat.le_div_iff_mul_le hl).mp h1
      rw [Nat.succ_mul] at h2
      omega
    have hp : pre.length = k * cfg.lvect := by omega
    rw [List.range'_succ, List.map_cons, kLoop]
    set m := min cfg.lvect (np - (1 + k * cfg.lvect) + 1) with hm
    have hm' : m ≤ suf.length := by omega
    have hidx : (List.range m).map (fun (n : ℕ) => 1 + k * cfg.lvect + n) = segIdx pre.length (suf.take m).length := by
      rw [List.length_take, min_eq_left hm', segIdx, hp, List.range'_eq_map_range, List.map_map]
      refine List.map_congr_left fun i _ => ?_
      simp only [Function.comp]
      omega
    have hb := kBlock_seg (cfg := cfg) (s := s) (t := t) (n := n) (τ := τ) (gg := gg) pre (suf.take m) (suf.drop m)
      fun p hp => h p (List.mem_of_mem_take hp)
    rw [hidx]
    rw [show pre ++ suf = pre ++ suf.take m ++ suf.drop m by rw [List.append_assoc, List.take_append_drop], hb]
    simp only [except_bind_ok]
    rw [kLoop_seg hl cnt (k + 1) _ (suf.drop m) (by omega) ?_ ?_ fun p hp => h p (List.mem_of_mem_drop hp)]
    · congr 1
      conv_rhs => rw [← List.take_append_drop m suf]
      rw [List.map_append]
      simp
    · rw [List.length_append, List.length_map, List.length_take, min_eq_left hm', hp, Nat.succ_mul]
      omega
    · rw [List.length_append, List.length_map, List.length_take, min_eq_left hm', List.length_drop]
      omega

theorem kernelCall_ok (hn : Order n) (hf : Fused cfg n) (hl : 0 < cfg.lvect) (hc : PCfgOk cfg) (ht : PTileOk cfg O t) (hσ : PHolds σ t)
    (hp : ∀ p ∈ s.ps, PNear cfg O t p) : kernelWork cfg t (tileMem σ t) s =
      .ok { s with ps := s.ps.map fun p => drifted cfg.dt (kKick cfg s (feels cfg O σ p)) } := by
  have key : kLoop n cfg t (tileMem σ t) s (kBlocks s.ps.length cfg.lvect) (s.ps.map zeroFields) =
      .ok (s.ps.map fun p => drifted cfg.dt (kKick cfg s (feels cfg O σ p))) := by
    have := kLoop_seg (cfg := cfg) (s := s) (t := t) (n := n) (τ := tileMem σ t) (gg := feels cfg O σ) (np := s.ps.length) hl
      ((s.ps.length + cfg.lvect - 1) / cfg.lvect) 0 [] (s.ps.map zeroFields) (by omega) (by simp) (by simp) (by
        intro p hp'
        obtain ⟨p0, h0, rfl⟩ := List.mem_map.mp hp'
        rw [kGather_ok hn hf hc ht hσ (hp p0 h0)]
        rfl)
    rw [← List.range_eq_range'] at this
    unfold kBlocks
    have e : (s.ps.map zeroFields).map (fun p => drifted cfg.dt (kKick cfg s (feels cfg O σ p))) =
        s.ps.map fun p => drifted cfg.dt (kKick cfg s (feels cfg O σ p)) := by
      rw [List.map_map]; rfl
    rw [e] at this
    simpa using this
  unfold kernelWork kernelCall
  rw [hf.x, hf.y, hf.z]
  rcases hn with rfl | rfl | rfl
  · rw [if_pos ⟨rfl, rfl, rfl⟩, key]; rfl
  · rw [if_neg (by omega), if_pos ⟨rfl, rfl, rfl⟩, key]; rfl
  · rw [if_neg (by omega), if_neg (by omega), if_pos ⟨rfl, rfl, rfl⟩, key]; rfl

end

/-! ### Faults -/

theorem eachSpecies_fault {work : PSpc → Res PSpc} {f : Fault} : ∀ ss : List PSpc,
    (∀ s ∈ ss, Active s → s.ps.length ≠ 0 → work s = .error f) → (∃ s ∈ ss, Active s ∧ s.ps.length ≠ 0) → eachSpecies work ss = .error f
  | [], _, hx => by simp at hx
  | s :: ss, h, hx => by
    unfold eachSpecies oneSpecies
    by_cases hs : Active s ∧ s.ps.length ≠ 0
    · rw [if_neg (by simp [hs.1.1]), if_neg (by simp [hs.1.2]), if_neg hs.2, h s (by simp) hs.1 hs.2]; rfl
    · have : (if s.antenna = true then Except.ok s else if s.freeze = true then .ok s else if s.ps.length = 0 then .ok s else work s) =
          Except.ok s := by
        split_ifs with h1 h2 h3
        · rfl
        · rfl
        · rfl
        · exact absurd ⟨⟨by simpa using h1, by simpa using h2⟩, h3⟩ hs
      rw [this]
      simp only [except_bind_ok]
      rw [eachSpecies_fault ss (fun x hx' => h x (by simp [hx'])) ?_]
      · rfl
      · obtain ⟨x, hx1, hx2⟩ := hx
        rcases List.mem_cons.mp hx1 with rfl | hx1
        · exact absurd hx2 hs
        · exact ⟨x, hx1, hx2⟩

theorem gathered_iff {t : PTile} : t.isgathered = true ↔ ∃ s ∈ t.species, Active s ∧ s.ps.length ≠ 0 := by
  unfold PTile.isgathered Active
  rw [List.any_eq_true]
  refine exists_congr fun s => and_congr_right fun _ => ?_
  simp only [Bool.and_eq_true, Bool.not_eq_true', decide_eq_true_eq]
  constructor
  · rintro ⟨h, h'⟩; exact ⟨h, by omega⟩
  · rintro ⟨h, h'⟩; exact ⟨h, by omega⟩

theorem tileStep_fault {work : PTile → Mem → PSpc → Res PSpc} {σ : Mem} {t : PTile} {f : Fault} (hσ : PHolds σ t) (hg : t.isgathered = true)
    (h : ∀ s ∈ t.species, Active s → s.ps.length ≠ 0 → work t (tileMem σ t) s = .error f) (v : Priv) (hv : v.Good) :
    tileStep work σ t v = .error f := by
  unfold tileStep
  rw [if_pos hg]
  dsimp only
  rw [copyTile_ok (resize_ok hv t.shape).1 hσ]
  simp only [except_bind_ok]
  rw [eachSpecies_fault t.species h (gathered_iff.mp hg)]
  rfl

theorem mapTile_gathered {f : PSpc → Part → Part} {t : PTile} (h : t.isgathered = true) : (mapTile f t).isgathered = true := by
  rw [gathered_iff] at h ⊢
  obtain ⟨s, hs, ha, hl⟩ := h
  refine ⟨mapSpc f s, List.mem_map_of_mem hs, ?_⟩
  unfold mapSpc
  rw [if_pos (show s.antenna = false ∧ s.freeze = false from ha)]
  exact ⟨ha, by simpa using hl⟩

theorem mapTile_holds {f : PSpc → Part → Part} {t : PTile} {σ : Mem} (h : PHolds σ t) : PHolds σ (mapTile f t) := h

theorem mapTile_comp {f g h : PSpc → Part → Part} (t : PTile) (e : ∀ (s : PSpc) (p : Part), g { s with ps := s.ps.map (f s) } (f s p) = h s p) :
    mapTile g (mapTile f t) = mapTile h t := by
  unfold mapTile
  dsimp only
  rw [List.map_map]
  congr 1
  refine List.map_congr_left fun s _ => ?_
  simp only [Function.comp]
  unfold mapSpc
  by_cases ha : s.antenna = false ∧ s.freeze = false
  · have : s.ps.map (g { s with ps := s.ps.map (f s) } ∘ f s) = s.ps.map (h s) := List.map_congr_left fun p _ => e s p
    simp only [if_pos ha, List.map_map, this]
  · simp only [if_neg ha]

end Picsar.PushMgr
