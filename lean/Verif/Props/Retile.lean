import Verif.Lemmas.Retile
import Verif.Props.Tiling
/-
C159–C161: new tiles for the particles of a process.
-/
namespace Picsar.Props
open Picsar Picsar.Grid Picsar.Tiling Picsar.Retile

/-! ### C159 -/

/-- C159. For every state of the species, every distribution of their particles over the old tiles, every subdomain and number of threads, and
whatever the undefined variables contain: the change of tiles ends without fault, the new tiles are a split of the subdomain, every species has
exactly its old particles with all their properties, a particle of the subdomain is in the tile whose limits contain it, and all others are in the
first tile. -/
theorem C159_particles_kept (n : ℕ) (c : Setup) (hc : c.Ok) (j1 j2 : ℕ → Junk) (st : St n) (L : ℕ → I3 → List (Part n)) (h : Stores st L) :
    ∃ st' L', newTileSplit c j1 j2 st = .ok st' ∧ Covers c st' ∧ st'.sp.length = st.sp.length ∧ Stores st' L' ∧
      ∀ i, i < st.sp.length → total st'.nt (L' i) = total st.nt (L i) ∧
        ∀ T p, p ∈ L' i T → (Inside c p → InTileOf c st'.geo T p) ∧ (¬ Inside c p → T = ⟨1, 1, 1⟩) := by
  obtain ⟨st', L', e, hl, hv, hs, -, k⟩ := newTileSplit_ok hc j1 j2 h
  refine ⟨st', L', e, hv, hl, hs, fun i hi => ?_⟩
  obtain ⟨S, -, k1, -, -, -, k2⟩ := k i st'.sp[i] (List.getElem?_eq_getElem (by omega))
  exact ⟨k1, k2⟩

/-- Subdomain of 40 cells of size 1 in each direction. -/
noncomputable def rtLim : Lim := ⟨0, 40, 1⟩
theorem rtLim_ok : rtLim.Ok 41 := ⟨by norm_num, by norm_num [rtLim], by norm_num [rtLim]⟩

/-- Four threads, 3-D. -/
noncomputable def rtSetup : Setup := ⟨4, false, ⟨40, 40, 40⟩, ⟨41, 41, 41⟩, rtLim, rtLim, rtLim⟩
theorem rtSetup_ok : rtSetup.Ok := ⟨rtLim_ok, rtLim_ok, rtLim_ok⟩

/-- Sixty-four tiles are asked for. -/
example : newCounts rtSetup = ⟨4, 4, 4⟩ := rfl

/-- Undefined values. -/
def rtJunk (v : ℤ) (_ : ℕ) : Junk := ⟨v, 0, 0, ""⟩

/-- Properties of the particles of a laser antenna that are frozen. -/
noncomputable def rtInfo : Info := ⟨-1, 1, 0, 40, 0, 40, 0, 40, 0, 0, 0, 0, 0, 0, 2⟩
def rtFlags : Flags := ⟨true, true, true, 10, 0, "laser"⟩

/-- One species in one tile, with one particle at (`v`, `v`, `v`). -/
theorem rt_start (v : ℝ) : ∃ st : St 1, st.sp.map Spc.info = [rtInfo] ∧ st.sp.map Spc.flags = [rtFlags] ∧ st.nt = ⟨1, 1, 1⟩ ∧
    Stores st (fun _ _ => [exPart v]) := by
  have h0 : Holds (newTile (n := 1) 1) [] := ⟨rfl, by simp [newTile, allocArrays], fun _ _ => rfl, fun _ => rfl, fun _ _ i hi => absurd hi (Nat.not_lt_zero i)⟩
  obtain ⟨t1, -, h1⟩ := (C59_operations 1 _ _ h0).1 (exPart v)
  refine ⟨⟨[⟨rtInfo, rtFlags, ⟨⟨1, 1, 1⟩, fun _ => t1, 1⟩⟩], ⟨1, 1, 1⟩, exGeo3, fun _ => true, true⟩, rfl, rfl, rfl, fun i S hS => ?_⟩
  have : i = 0 := by
    by_contra hi
    rw [List.getElem?_eq_none (by simp; omega)] at hS
    simp at hS
  subst this
  simp at hS
  subst hS
  exact ⟨rfl, fun u _ => h1⟩

/-- The hypotheses are met; the particle at (5, 5, 5) is found again. -/
example : ∃ (st st' : St 1) (L' : ℕ → I3 → List (Part 1)), Stores st (fun _ _ => [exPart 5]) ∧ newTileSplit rtSetup (rtJunk 7) (rtJunk 8) st = .ok st' ∧
    Stores st' L' ∧ total st'.nt (L' 0) = {exPart 5} := by
  obtain ⟨st, h1, h2, h3, h⟩ := rt_start 5
  obtain ⟨st', L', e, -, hl, hs, k⟩ := C159_particles_kept 1 rtSetup rtSetup_ok (rtJunk 7) (rtJunk 8) st _ h
  have hlen : st.sp.length = 1 := by have := congrArg List.length h1; simpa using this
  refine ⟨st, st', L', h, e, hs, ?_⟩
  rw [(k 0 (by omega)).1, h3]
  rfl

/-! ### C160 -/

/-- C160 for charge, mass, the initial box and velocities and the number of particles per cell. -/
theorem C160_species_partial (n : ℕ) (c : Setup) (hc : c.Ok) (j1 j2 : ℕ → Junk) (st st' : St n) (L : ℕ → I3 → List (Part n)) (h : Stores st L)
    (e : newTileSplit c j1 j2 st = .ok st') : st'.sp.map Spc.info = st.sp.map Spc.info := by
  obtain ⟨st'', L', e', hl, -, -, -, k⟩ := newTileSplit_ok hc j1 j2 h
  obtain rfl : st'' = st' := by rw [e'] at e; injection e
  refine List.ext_getElem (by simp [hl]) fun i h1 h2 => ?_
  simp only [List.length_map] at h1 h2
  obtain ⟨S, hS, -, k1, -⟩ := k i st''.sp[i] (List.getElem?_eq_getElem h1)
  obtain ⟨_, rfl⟩ := List.getElem?_eq_some_iff.mp hS
  simpa using k1

/-- C160 fails for every species that is an antenna, is frozen or does not deposit: afterwards no species is an antenna or frozen, and all deposit. -/
theorem C160_flags_refuted (n : ℕ) (c : Setup) (hc : c.Ok) (j1 j2 : ℕ → Junk) (st st' : St n) (L : ℕ → I3 → List (Part n)) (h : Stores st L)
    (e : newTileSplit c j1 j2 st = .ok st') (S : Spc n) (hS : S ∈ st.sp) (hf : S.flags.antenna = true ∨ S.flags.depos = false ∨ S.flags.freeze = true) :
    st'.sp.map Spc.flags ≠ st.sp.map Spc.flags := by
  obtain ⟨st'', L', e', hl, -, -, -, k⟩ := newTileSplit_ok hc j1 j2 h
  obtain rfl : st'' = st' := by rw [e'] at e; injection e
  obtain ⟨i, hi, rfl⟩ := List.mem_iff_getElem.mp hS
  obtain ⟨-, -, -, -, k1, -⟩ := k i st''.sp[i] (List.getElem?_eq_getElem (by omega))
  intro heq
  have h1 : (st''.sp.map Spc.flags)[i]'(by simp; omega) = (st.sp.map Spc.flags)[i]'(by simp; omega) := by simp only [heq]
  simp only [List.getElem_map] at h1
  rw [h1] at k1
  rw [k1] at hf
  simp at hf

/-- Both are met by the frozen antenna. -/
example : ∃ (st st' : St 1), st.sp.map Spc.flags = [rtFlags] ∧ newTileSplit rtSetup (rtJunk 7) (rtJunk 8) st = .ok st' ∧
    st'.sp.map Spc.info = [rtInfo] ∧ st'.sp.map Spc.flags ≠ [rtFlags] := by
  obtain ⟨st, h1, h2, h3, h⟩ := rt_start 5
  obtain ⟨st', L', e, -⟩ := C159_particles_kept 1 rtSetup rtSetup_ok (rtJunk 7) (rtJunk 8) st _ h
  refine ⟨st, st', h2, e, ?_, ?_⟩
  · rw [C160_species_partial 1 rtSetup rtSetup_ok _ _ st st' _ h e, h1]
  · have hlen : 0 < st.sp.length := by have := congrArg List.length h1; simp at this; omega
    have hfl : st.sp[0].flags = rtFlags := by
      have : (st.sp.map Spc.flags)[0]'(by simpa using hlen) = rtFlags := by simp only [h2]; rfl
      simpa using this
    rw [← h2]
    exact C160_flags_refuted 1 rtSetup rtSetup_ok _ _ st st' _ h e st.sp[0] (List.getElem_mem hlen) (Or.inl (by rw [hfl]; rfl))

/-! ### C161 -/

/-- C161 for the numbers of particles, as far as it goes: the counter of a species is its number of particles plus the value that the undefined
counter of the new species happened to have. -/
theorem C161_count_partial (n : ℕ) (c : Setup) (hc : c.Ok) (j1 j2 : ℕ → Junk) (st st' : St n) (L : ℕ → I3 → List (Part n)) (h : Stores st L)
    (e : newTileSplit c j1 j2 st = .ok st') (i : ℕ) (S : Spc n) (hS : st'.sp[i]? = some S) :
    S.core.npart = Multiset.card (total st.nt (L i)) + (j2 i).npart := by
  obtain ⟨st'', L', e', hl, -, -, -, k⟩ := newTileSplit_ok hc j1 j2 h
  obtain rfl : st'' = st' := by rw [e'] at e; injection e
  obtain ⟨-, -, -, -, -, k1, -⟩ := k i S hS
  rw [k1, add_comm]

/-- C161 fails: the counter is wrong whenever that value is not zero, whatever the state was before. -/
theorem C161_count_refuted (n : ℕ) (c : Setup) (hc : c.Ok) (j1 j2 : ℕ → Junk) (st : St n) (L : ℕ → I3 → List (Part n)) (h : Stores st L)
    (hj : ∀ i, (j2 i).npart ≠ 0) :
    ∃ st' L', newTileSplit c j1 j2 st = .ok st' ∧ Stores st' L' ∧ ∀ i S, st'.sp[i]? = some S → S.core.npart ≠ (Multiset.card (total st'.nt (L' i)) : ℤ) := by
  obtain ⟨st', L', e, hl, -, hs, -, k⟩ := newTileSplit_ok hc j1 j2 h
  refine ⟨st', L', e, hs, fun i S hS => ?_⟩
  obtain ⟨-, -, k0, -, -, k1, -⟩ := k i S hS
  rw [k1, k0]
  have := hj i
  omega

/-- C161 fails for the grids of the tiles: after every call no tile has arrays for its fields, also if the tiles had them before. -/
theorem C161_grids_refuted (n : ℕ) (c : Setup) (hc : c.Ok) (j1 j2 : ℕ → Junk) (st : St n) (L : ℕ → I3 → List (Part n)) (h : Stores st L) :
    ∃ st', newTileSplit c j1 j2 st = .ok st' ∧ ∀ T, st'.grid T = false := by
  obtain ⟨st', L', e, -, -, -, hg, -⟩ := newTileSplit_ok hc j1 j2 h
  exact ⟨st', e, hg⟩

/-- Met by a species with one particle whose new counter starts at 8 and ends at 9. -/
example : ∃ (st st' : St 1) (S : Spc 1), newTileSplit rtSetup (rtJunk 7) (rtJunk 8) st = .ok st' ∧ st'.sp[0]? = some S ∧ S.core.npart = 9 ∧
    st'.grid ⟨1, 1, 1⟩ = false := by
  obtain ⟨st, h1, h2, h3, h⟩ := rt_start 5
  have hlen : st.sp.length = 1 := by have := congrArg List.length h1; simpa using this
  obtain ⟨st', L', e, -, hl, -⟩ := C159_particles_kept 1 rtSetup rtSetup_ok (rtJunk 7) (rtJunk 8) st _ h
  obtain ⟨st'', e', hg⟩ := C161_grids_refuted 1 rtSetup rtSetup_ok (rtJunk 7) (rtJunk 8) st _ h
  obtain rfl : st'' = st' := by rw [e'] at e; injection e
  have hS : st''.sp[0]? = some st''.sp[0] := List.getElem?_eq_getElem (by omega)
  refine ⟨st, st'', st''.sp[0], e, hS, ?_, hg _⟩
  rw [C161_count_partial 1 rtSetup rtSetup_ok _ _ st st'' _ h e 0 _ hS, h3]
  rfl

end Picsar.Props
