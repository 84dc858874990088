import Verif.Lemmas.RemapPartRun
import Verif.Props.Tiling
import Mathlib.Tactic.NormNum
import Mathlib.Tactic.FinCases
import Mathlib.Tactic.IntervalCases
/-
C165–C167: particles after a new split of the domain.
-/
namespace Picsar.Props
open Picsar Picsar.Grid Picsar.Tiling Picsar.Remap Picsar.RemapPart Picsar.Mpi

/-! ### An example: two processes along x -/

/-- Eight cells of size 1; new ranges of cells: 0 and 1..7. -/
noncomputable def rpX : Cuts := ⟨0, 1, 8, [0, 1], [0, 7]⟩
/-- Eight cells of size 1 on one process. -/
noncomputable def rpY : Cuts := ⟨0, 1, 8, [0], [7]⟩
noncomputable def rpD : Domain := ⟨false, rpX, rpY, rpY⟩

theorem rpX_ok : rpX.Ok where
  d := by norm_num [rpX]
  len := rfl
  nonneg := by simp [rpX]
  nonempty := by
    intro i h h'
    have : i < 2 := h
    interval_cases i <;> simp [rpX]
  ordered := by
    intro i j h h' hij
    have : j < 2 := h
    have hj : j = 1 := by omega
    have hi : i = 0 := by omega
    subst hj hi
    simp [rpX]
  cover := by
    intro c h0 h1
    have h8 : c < 8 := h1
    by_cases hc : c = 0
    · exact ⟨0, by simp [rpX], by simp [rpX], by simp [rpX, hc]⟩
    · exact ⟨1, by simp [rpX], by simp [rpX], by simp [rpX]; omega⟩

theorem rpY_ok : rpY.Ok where
  d := by norm_num [rpY]
  len := rfl
  nonneg := by simp [rpY]
  nonempty := by
    intro i h h'
    have : i < 1 := h
    interval_cases i
    simp [rpY]
  ordered := by
    intro i j h h' hij
    have : j < 1 := h
    omega
  cover := by
    intro c h0 h1
    have h8 : c < 8 := h1
    exact ⟨0, by simp [rpY], by simp [rpY], by simp [rpY]; omega⟩

def rpAt (r : Fin 2) : Place := ⟨r.val, 0, 0⟩

/-- Old limits: the domain is cut in the middle. -/
def rpOld (r : Fin 2) : Lim := ⟨⟨4 * r.val, 0, 0⟩, ⟨4 * r.val + 4, 8, 8⟩⟩
noncomputable def rpNew (r : Fin 2) : Lim := limits rpD (rpAt r)

/-- Variables of process `r` whose tiles at the border are those of `b`. -/
noncomputable def rpProc (b : I3 → Bool) (r : Fin 2) : RemapPart.Proc 1 :=
  ⟨false, ⟨0, 1, 0 + rpX.ncmin.getD r.val 0 * 1, 0 + (rpX.ncmax.getD r.val 0 + 1) * 1, r.val, [0, 1], [0, 7]⟩, ⟨0, 1, 0 + (0 : ℤ) * 1, 0 + ((7 : ℤ) + 1) * 1, 0, [0], [7]⟩,
    ⟨0, 1, 0 + (0 : ℤ) * 1, 0 + ((7 : ℤ) + 1) * 1, 0, [0], [7]⟩, fun i _ _ => i, (sendTo rpOld rpNew r).map fun d => (d.val : ℤ),
    (recvFrom rpOld rpNew r).length, b⟩

theorem rp_agree (b : I3 → Bool) : Agree rpD rpAt rpOld rpNew (rpProc b) where
  x := rpX_ok
  y := fun _ => rpY_ok
  z := rpY_ok
  place := fun r => ⟨r.isLt, by simp [rpD, rpY, rpAt], by simp [rpD, rpY, rpAt], by simp [rpD]⟩
  rank := by
    intro q hq
    obtain ⟨h1, h2, h3, -⟩ := hq
    have h1' : q.x < 2 := h1
    have h2' : q.y < 1 := h2
    have h3' : q.z < 1 := h3
    refine ⟨⟨q.x, h1'⟩, ?_, fun s => rfl⟩
    obtain ⟨x, y, z⟩ := q
    show Place.mk x 0 0 = _
    congr 1 <;> · simp at *; omega
  inj := by
    intro r s h
    have := congrArg Place.x h
    exact Fin.ext this
  new := fun r => rfl
  old := fun r => ⟨by show 4 * (r.val : ℤ) ≤ 4 * (r.val : ℤ) + 4; omega, by show (0 : ℤ) ≤ 8; omega, by show (0 : ℤ) ≤ 8; omega⟩
  flat := by intro h; simp [rpD] at h
  dim2 := fun r => rfl
  fx := fun r => ⟨rfl, rfl, rfl, rfl, rfl, rfl, rfl⟩
  fy := fun r => ⟨rfl, fun _ => ⟨rfl, rfl, rfl, rfl, rfl, rfl, rfl⟩⟩
  fz := fun r => ⟨rfl, rfl, rfl, rfl, rfl, rfl, rfl⟩
  lists := fun r => ⟨rfl, le_trans (List.length_filter_le _ _) (by simp), le_trans (List.length_filter_le _ _) (by simp)⟩
  ranks := fun r => rfl

theorem rp_new : rpNew 0 = ⟨⟨0, 0, 0⟩, ⟨1, 8, 8⟩⟩ ∧ rpNew 1 = ⟨⟨1, 0, 0⟩, ⟨8, 8, 8⟩⟩ := by
  constructor <;> simp [rpNew, limits, rpD, rpAt, rpX, rpY]

/-- The particle at (5/2, 5/2, 5/2) is inside the old limits of process 0 and the new ones of process 1. -/
theorem rp_part : rpD.Has (exPart (5 / 2)) ∧ rpD.Owns (rpOld 0) (exPart (5 / 2)) ∧ rpD.Owns (rpNew 1) (exPart (5 / 2)) ∧
    ¬ rpD.Owns (rpNew 0) (exPart (5 / 2)) := by
  rw [rp_new.1, rp_new.2]
  unfold Domain.Has Domain.Owns Cuts.Btw rpD rpX rpY rpOld exPart
  norm_num

/-- Particles of the example: process 0 has one in tile `t`. -/
def rpL (t : I3) (l : List (Part 1)) (r : Fin 2) (_ : ℕ) (u : I3) : List (Part 1) := if r = 0 ∧ u = t then l else []

theorem rp_start (k : ℤ) (t : I3) (ht : InBox ⟨1, 1, 1⟩ ⟨k, k, k⟩ t) : ∃ Ss : Fin 2 → List (Species 1),
    Start rpD rpOld rpNew 1 (fun _ => ⟨k, k, k⟩) (fun _ _ => t) Ss (rpL t [exPart (5 / 2)]) ∧
    ∀ r, Ss r ≠ [] ∧ number (Ss r) (rpL t [exPart (5 / 2)] r) ≤ 1 := by
  have h0 : Holds (newTile (n := 1) 1) [] := ⟨rfl, by simp [newTile, allocArrays], fun _ _ => rfl, fun _ => rfl, fun _ _ i hi => absurd hi (Nat.not_lt_zero i)⟩
  obtain ⟨t1, -, h1⟩ := (C59_operations 1 _ _ h0).1 (exPart (5 / 2))
  refine ⟨fun r => [⟨⟨k, k, k⟩, fun u => if r = 0 ∧ u = t then t1 else newTile 1, if r = 0 then 1 else 0⟩],
    ⟨fun r => rfl, fun r S hS => ?_, fun r i S hS u hu => ?_, fun r i u p hi hu hp => ?_, fun r p _ => ht⟩, fun r => ⟨by simp, ?_⟩⟩
  · rw [List.mem_singleton] at hS
    rw [hS]
  · have : i = 0 := by
      by_contra hi
      rw [List.getElem?_eq_none (by simp; omega)] at hS
      simp at hS
    subst this
    simp only [List.getElem?_cons_zero, Option.some.injEq] at hS
    subst hS
    unfold rpL
    dsimp only
    by_cases hc : r = 0 ∧ u = t
    · rw [if_pos hc, if_pos hc]; exact h1
    · rw [if_neg hc, if_neg hc]; exact h0
  · unfold rpL at hp
    split_ifs at hp with hc
    · rw [List.mem_singleton] at hp
      rw [hp, hc.1]
      exact ⟨rp_part.2.1, rp_part.1⟩
    · simp at hp
  · unfold number
    simp only [List.mapIdx_cons, List.mapIdx_nil, List.sum_cons, List.sum_nil, add_zero]
    have hnd := nodup_box ⟨1, 1, 1⟩ ⟨k, k, k⟩
    unfold total
    have key : ∀ us : List I3, us.Nodup → Multiset.card ((us.map fun u => (rpL t [exPart (5 / 2)] r 0 u : Multiset (Part 1))).sum) ≤ 1 ∧
        (t ∉ us → Multiset.card ((us.map fun u => (rpL t [exPart (5 / 2)] r 0 u : Multiset (Part 1))).sum) = 0) := by
      intro us
      induction us with
      | nil => exact fun _ => ⟨by simp, fun _ => by simp⟩
      | cons v us ih =>
        intro hn
        rw [List.nodup_cons] at hn
        obtain ⟨i1, i2⟩ := ih hn.2
        rw [List.map_cons, List.sum_cons, Multiset.card_add]
        by_cases hv : v = t
        · refine ⟨?_, fun hc => absurd (by simp [hv]) hc⟩
          rw [i2 (hv ▸ hn.1)]
          unfold rpL
          split_ifs <;> simp
        · have : Multiset.card (rpL t [exPart (5 / 2)] r 0 v : Multiset (Part 1)) = 0 := by
            unfold rpL
            rw [if_neg (fun h => hv h.2)]
            rfl
          rw [this, zero_add]
          exact ⟨i1, fun hc => i2 (fun h => hc (by simp [h]))⟩
    exact (key _ hnd).1

/-! ### C165 -/

open Classical in
/-- C165, with the condition that particles that have to leave are in tiles at the border of the subdomain. For every old and new split, every number
of processes, species and tiles, every distribution of the particles, and every order of the communication: after the exchange every process
has exactly the particles of all processes that are inside its new limits, each as often as before. Missing: particles in the other tiles. -/
theorem C165_delivered_partial {n N : ℕ} {D : Domain} {at_ : Fin N → Place} {L1 L2 : Fin N → Lim} {P : Fin N → RemapPart.Proc n} {K : ℕ} {nt : Fin N → I3}
    {idx : Fin N → Part n → I3} {Ss : Fin N → List (Species n)} {L : Fin N → ℕ → I3 → List (Part n)} {npl : Fin N → ℤ}
    (h : Agree D at_ L1 L2 P) (hs : Start D L1 L2 K nt idx Ss L) (hcap : ∀ r, (number (Ss r) (L r) : ℤ) ≤ npl r)
    (hin : ∀ r i u p, i < K → InBox ⟨1, 1, 1⟩ (nt r) u → p ∈ L r i u → ¬ D.Owns (L2 r) p → (P r).border u = true) :
    ∃ (rest : Fin N → List (Species n)) (ms : Fin N → List RemapPart.Msg), (∀ r, before (P r) (npl r) (Ss r) = .ok (rest r, ms r)) ∧
      ∀ (k : ℕ) (b : Conf (Fin N) (RemapPart.Mem N) RemapPart.Msg), Exec (exchange N L1 L2) k (start fun r => memory L1 L2 r (ms r)) b →
        Stuck (exchange N L1 L2) b → ∀ r, ∃ (Ss' : List (Species n)) (L' : ℕ → I3 → List (Part n)),
          after (idx r) ((recvFrom L1 L2 r).map fun s => ((b.mem r).rc s, (b.mem r).rd s)) (rest r) = .ok Ss' ∧ Ss'.length = K ∧ HoldsSp Ss' L' ∧
          (∀ S' ∈ Ss', S'.nt = nt r) ∧ ∀ i < K, total (nt r) (L' i) = (∑ s, total (nt s) (L s i)).filter fun p => D.Owns (L2 r) p := by
  obtain ⟨rest, ms, e, k⟩ := run_ok h hs hcap
  refine ⟨rest, ms, e, fun q b ex st => ?_⟩
  choose Ss' L' e' l' h' k' using k q b ex st
  have ht : ∀ r i, i < K → (∀ S', (Ss' r)[i]? = some S' → S'.nt = nt r) ∧
      total (nt r) (L' r i) = inner (P r).border (nt r) (L r i) + ∑ s, outer D (L2 r) (P s).border (nt s) (L s i) := fun r i hi =>
    have g := fun S' : Species n => k' r i _ S' (List.getElem?_eq_getElem (by rw [hs.len r]; exact hi))
    ⟨fun S' hS' => (g S' hS').1, (g _ (List.getElem?_eq_getElem (by rw [l' r]; exact hi))).2.1⟩
  have hown : ∀ s i, i < K → ∀ p, p ∈ total (nt s) (L' s i) → D.Owns (L2 s) p := by
    intro s i hi p hp
    rw [(ht s i hi).2, Multiset.mem_add, Multiset.mem_sum] at hp
    rcases hp with hp | ⟨q, -, hp⟩
    · unfold inner at hp
      obtain ⟨x, hx, hpx⟩ := mem_list_sum hp
      obtain ⟨u, hu, rfl⟩ := List.mem_map.mp hx
      split_ifs at hpx with hb
      · simp at hpx
      · by_contra hno
        exact hb (hin s i u p hi (mem_box.mp hu) hpx hno)
    · exact (mem_outer hp).1
  have hsum : ∀ i, i < K → ∑ s, total (nt s) (L' s i) = ∑ s, total (nt s) (L s i) := by
    intro i hi
    rw [show ∑ s, total (nt s) (L' s i) = ∑ s, (inner (P s).border (nt s) (L s i) + ∑ q, outer D (L2 s) (P q).border (nt q) (L q i)) from
      Finset.sum_congr rfl fun s _ => (ht s i hi).2, Finset.sum_add_distrib, Finset.sum_comm, ← Finset.sum_add_distrib]
    exact Finset.sum_congr rfl fun s _ => split_total h hs s hi
  refine fun r => ⟨Ss' r, L' r, e' r, l' r, h' r, fun S' hS' => ?_, fun i hi => ?_⟩
  · obtain ⟨i, hi, rfl⟩ := List.getElem_of_mem hS'
    exact (ht r i (by rw [← l' r]; exact hi)).1 _ (List.getElem?_eq_getElem hi)
  · rw [← hsum i hi]
    refine Multiset.ext.mpr fun p => ?_
    rw [Multiset.count_filter, Multiset.count_sum']
    split_ifs with ho
    · symm
      refine Finset.sum_eq_single r (fun s _ hsr => ?_) (fun hr => absurd (Finset.mem_univ r) hr)
      exact Multiset.count_eq_zero.mpr fun hp => hsr (owns_unique h (hown s i hi p hp) ho)
    · exact Multiset.count_eq_zero.mpr fun hp => ho (hown r i hi p hp)

/-- In the example with one tile the hypotheses are met, and process 1 gets the particle. -/
example : ∃ (Ss : Fin 2 → List (Species 1)) (rest : Fin 2 → List (Species 1)) (ms : Fin 2 → List RemapPart.Msg),
    (∀ r, before (rpProc (fun _ => true) r) 1 (Ss r) = .ok (rest r, ms r)) ∧
    ∀ (k : ℕ) (b : Conf (Fin 2) (RemapPart.Mem 2) RemapPart.Msg), Exec (exchange 2 rpOld rpNew) k (start fun r => memory rpOld rpNew r (ms r)) b →
      Stuck (exchange 2 rpOld rpNew) b → ∃ (Ss' : List (Species 1)) (L' : ℕ → I3 → List (Part 1)),
        after (fun _ => ⟨1, 1, 1⟩) ((recvFrom rpOld rpNew 1).map fun s => ((b.mem 1).rc s, (b.mem 1).rd s)) (rest 1) = .ok Ss' ∧ HoldsSp Ss' L' ∧
        exPart (5 / 2) ∈ total ⟨1, 1, 1⟩ (L' 0) := by
  obtain ⟨Ss, h, hn⟩ := rp_start 1 ⟨1, 1, 1⟩ ⟨le_rfl, le_rfl, le_rfl, le_rfl, le_rfl, le_rfl⟩
  obtain ⟨rest, ms, e, k⟩ := C165_delivered_partial (npl := fun _ => 1) (rp_agree fun _ => true) h (fun r => by exact_mod_cast (hn r).2) (fun _ _ _ _ _ _ _ _ => rfl)
  refine ⟨Ss, rest, ms, e, fun q b ex st => ?_⟩
  obtain ⟨Ss', L', e', -, h', -, k'⟩ := k q b ex st 1
  classical
  refine ⟨Ss', L', e', h', by
    rw [k' 0 (by omega), Multiset.mem_filter, Multiset.mem_sum]
    exact ⟨⟨0, Finset.mem_univ _, by simp [total, box, irange, rpL]⟩, rp_part.2.2.1⟩⟩

/-- C165 is refuted as it stands. Two processes, 27 tiles each: the particle at (5/2, 5/2, 5/2) is in the tile in the middle of process 0, which is not at the
border of the subdomain. The new limits of process 1 contain it and those of process 0 do not. In every execution it stays on process 0. -/
theorem C165_inner_tiles_refuted : ∃ (Ss : Fin 2 → List (Species 1)) (L : Fin 2 → ℕ → I3 → List (Part 1)) (P : Fin 2 → RemapPart.Proc 1) (p : Part 1),
    Agree rpD rpAt rpOld rpNew P ∧ Start rpD rpOld rpNew 1 (fun _ => ⟨3, 3, 3⟩) (fun _ _ => ⟨2, 2, 2⟩) Ss L ∧
    (∀ u, (P 0).border u = true ↔ u ≠ ⟨2, 2, 2⟩) ∧ p ∈ L 0 0 ⟨2, 2, 2⟩ ∧ rpD.Owns (rpNew 1) p ∧ ¬ rpD.Owns (rpNew 0) p ∧
    ∃ (rest : Fin 2 → List (Species 1)) (ms : Fin 2 → List RemapPart.Msg), (∀ r, before (P r) 1 (Ss r) = .ok (rest r, ms r)) ∧
      ∀ (k : ℕ) (b : Conf (Fin 2) (RemapPart.Mem 2) RemapPart.Msg), Exec (exchange 2 rpOld rpNew) k (start fun r => memory rpOld rpNew r (ms r)) b →
        Stuck (exchange 2 rpOld rpNew) b → ∃ (Ss' : List (Species 1)) (L' : ℕ → I3 → List (Part 1)),
          after (fun _ => ⟨2, 2, 2⟩) ((recvFrom rpOld rpNew 0).map fun s => ((b.mem 0).rc s, (b.mem 0).rd s)) (rest 0) = .ok Ss' ∧ HoldsSp Ss' L' ∧
          p ∈ total ⟨3, 3, 3⟩ (L' 0) := by
  obtain ⟨Ss, h, hn⟩ := rp_start 3 ⟨2, 2, 2⟩ ⟨by show (1 : ℤ) ≤ 2; omega, by show (2 : ℤ) ≤ 3; omega, by show (1 : ℤ) ≤ 2; omega, by show (2 : ℤ) ≤ 3; omega,
    by show (1 : ℤ) ≤ 2; omega, by show (2 : ℤ) ≤ 3; omega⟩
  have ha := rp_agree fun u => decide (u ≠ ⟨2, 2, 2⟩)
  obtain ⟨rest, ms, e, k⟩ := run_ok (npl := fun _ => 1) ha h (fun r => by exact_mod_cast (hn r).2)
  refine ⟨Ss, _, _, exPart (5 / 2), ha, h, fun u => by simp [rpProc], by simp [rpL], rp_part.2.2.1, rp_part.2.2.2, rest, ms, e, fun q b ex st => ?_⟩
  obtain ⟨Ss', L', e', l', h', k'⟩ := k q b ex st 0
  refine ⟨Ss', L', e', h', ?_⟩
  have hS : (Ss 0)[0]? = some ((Ss 0)[0]'(by rw [h.len 0]; omega)) := List.getElem?_eq_getElem _
  have hS' : Ss'[0]? = some (Ss'[0]'(by rw [l']; omega)) := List.getElem?_eq_getElem _
  rw [(k' 0 _ _ hS hS').2.1, Multiset.mem_add]
  left
  unfold inner
  refine mem_sum_of_mem (List.mem_map.mpr ⟨⟨2, 2, 2⟩, mem_box.mpr ⟨by show (1 : ℤ) ≤ 2; omega, by show (2 : ℤ) ≤ 3; omega, by show (1 : ℤ) ≤ 2; omega,
    by show (2 : ℤ) ≤ 3; omega, by show (1 : ℤ) ≤ 2; omega, by show (2 : ℤ) ≤ 3; omega⟩, rfl⟩) ?_
  simp [rpProc, rpL]

/-! ### C166 -/

/-- C166, with the condition that `npart_local` is at least the number of particles of the process. For every split and every execution no
particle is lost, duplicated or altered, and the counter of every species changes by the number of particles gained or lost. -/
theorem C166_kept_partial {n N : ℕ} {D : Domain} {at_ : Fin N → Place} {L1 L2 : Fin N → Lim} {P : Fin N → RemapPart.Proc n} {K : ℕ} {nt : Fin N → I3}
    {idx : Fin N → Part n → I3} {Ss : Fin N → List (Species n)} {L : Fin N → ℕ → I3 → List (Part n)} {npl : Fin N → ℤ}
    (h : Agree D at_ L1 L2 P) (hs : Start D L1 L2 K nt idx Ss L) (hcap : ∀ r, (number (Ss r) (L r) : ℤ) ≤ npl r) :
    ∃ (rest : Fin N → List (Species n)) (ms : Fin N → List RemapPart.Msg), (∀ r, before (P r) (npl r) (Ss r) = .ok (rest r, ms r)) ∧
      ∀ (k : ℕ) (b : Conf (Fin N) (RemapPart.Mem N) RemapPart.Msg), Exec (exchange N L1 L2) k (start fun r => memory L1 L2 r (ms r)) b →
        Stuck (exchange N L1 L2) b → ∃ (Ss' : Fin N → List (Species n)) (L' : Fin N → ℕ → I3 → List (Part n)),
          (∀ r, after (idx r) ((recvFrom L1 L2 r).map fun s => ((b.mem r).rc s, (b.mem r).rd s)) (rest r) = .ok (Ss' r) ∧ (Ss' r).length = K ∧
            HoldsSp (Ss' r) (L' r) ∧ ∀ (i : ℕ) (S S' : Species n), (Ss r)[i]? = some S → (Ss' r)[i]? = some S' →
              S'.npart - S.npart = (Multiset.card (total (nt r) (L' r i)) : ℤ) - Multiset.card (total (nt r) (L r i))) ∧
          ∀ i < K, ∑ r, total (nt r) (L' r i) = ∑ r, total (nt r) (L r i) := by
  obtain ⟨rest, ms, e, k⟩ := run_ok h hs hcap
  refine ⟨rest, ms, e, fun q b ex st => ?_⟩
  choose Ss' L' e' l' h' k' using k q b ex st
  refine ⟨Ss', L', fun r => ⟨e' r, l' r, h' r, fun i S S' a a' => by have := (k' r i S S' a a').2.2; omega⟩, fun i hi => ?_⟩
  have ht : ∀ r, total (nt r) (L' r i) = inner (P r).border (nt r) (L r i) + ∑ s, outer D (L2 r) (P s).border (nt s) (L s i) := fun r =>
    (k' r i _ _ (List.getElem?_eq_getElem (by rw [hs.len r]; exact hi)) (List.getElem?_eq_getElem (by rw [l' r]; exact hi))).2.1
  simp only [ht]
  rw [Finset.sum_add_distrib, Finset.sum_comm, ← Finset.sum_add_distrib]
  exact Finset.sum_congr rfl fun s _ => split_total h hs s hi

example : ∃ (Ss : Fin 2 → List (Species 1)) (rest : Fin 2 → List (Species 1)) (ms : Fin 2 → List RemapPart.Msg),
    (∀ r, Ss r ≠ []) ∧ ∀ r, before (rpProc (fun _ => true) r) 1 (Ss r) = .ok (rest r, ms r) := by
  obtain ⟨Ss, h, hn⟩ := rp_start 1 ⟨1, 1, 1⟩ ⟨le_rfl, le_rfl, le_rfl, le_rfl, le_rfl, le_rfl⟩
  obtain ⟨rest, ms, e, -⟩ := C166_kept_partial (npl := fun _ => 1) (rp_agree fun _ => true) h (fun r => by exact_mod_cast (hn r).2)
  exact ⟨Ss, rest, ms, fun r => (hn r).1, e⟩

/-- C166 is refuted without the condition: `npart_local`, the size of the send buffers, is set only by the measurement of the time per particle. If it is
still zero when the first particle has to leave, the buffer is written out of bounds. -/
theorem C166_buffer_refuted : ∃ (Ss : Fin 2 → List (Species 1)) (L : Fin 2 → ℕ → I3 → List (Part 1)),
    Agree rpD rpAt rpOld rpNew (rpProc fun _ => true) ∧ Start rpD rpOld rpNew 1 (fun _ => ⟨1, 1, 1⟩) (fun _ _ => ⟨1, 1, 1⟩) Ss L ∧
    (∀ r, number (Ss r) (L r) ≤ 1) ∧ ∀ npl ≤ 0, before (rpProc (fun _ => true) 0) npl (Ss 0) = .error .outOfBounds := by
  obtain ⟨Ss, h, hn⟩ := rp_start 1 ⟨1, 1, 1⟩ ⟨le_rfl, le_rfl, le_rfl, le_rfl, le_rfl, le_rfl⟩
  have ha := rp_agree fun _ => true
  refine ⟨Ss, _, ha, h, fun r => (hn r).2, fun npl hnpl => ?_⟩
  obtain ⟨S, hS⟩ : ∃ S, Ss 0 = [S] := List.length_eq_one_iff.mp (h.len 0)
  have hnt : S.nt = ⟨1, 1, 1⟩ := h.tiles 0 S (by rw [hS]; simp)
  have hh := h.holds 0 0 S (by rw [hS]; rfl) ⟨1, 1, 1⟩ (by rw [hnt]; exact ⟨le_rfl, le_rfl, le_rfl, le_rfl, le_rfl, le_rfl⟩)
  have hl : rpL ⟨1, 1, 1⟩ [exPart (5 / 2)] 0 0 ⟨1, 1, 1⟩ = [exPart (5 / 2)] := by simp [rpL]
  rw [hl] at hh
  have hc : (S.tiles ⟨1, 1, 1⟩).np = 1 := hh.count
  have hread := readPart_ok hh (i := 0) (by simp)
  obtain ⟨hroute, -⟩ := route_ok ha rp_part.2.1 rp_part.2.2.1
  rw [if_neg (by decide)] at hroute
  have hset : ∀ v l, setFrom (PartExchange.nvar 1 * 0 + 1) (v :: l) (FArr.undef (PartExchange.nvar 1 * npl)) = .error .outOfBounds := by
    intro v l
    unfold setFrom
    rw [FArr.set_oob]
    · rfl
    · unfold FArr.undef PartExchange.nvar
      push_cast
      omega
  have hbox : box ⟨1, 1, 1⟩ ⟨1, 1, 1⟩ = [⟨1, 1, 1⟩] := rfl
  have hir : (irange 1 (1 : ℤ)).reverse = [((0 : ℕ) : ℤ) + 1] := rfl
  unfold before
  rw [if_pos (by
    obtain ⟨a, b, c⟩ := ha.lists 0
    rw [ha.ranks 0, List.length_map, a]
    exact ⟨b, c⟩), hS]
  unfold scanAll scanSpecies
  simp only [hnt, hbox, List.foldlM_cons, List.foldlM_nil]
  unfold scanTile
  rw [if_pos (show (rpProc (fun _ => true) 0).border ⟨1, 1, 1⟩ = true from rfl)]
  simp only [hc, hir, List.foldlM_cons, List.foldlM_nil]
  unfold scanOne
  simp only [hread]
  simp only [except_bind_ok, List.getElem_cons_zero, hroute]
  unfold PartExchange.vals
  rw [List.cons_append, hset]
  rfl

/-! ### C167 -/

/-- C167. For all old and new limits that are not empty: process `s` expects a message from `r` exactly if `r` sends one to it; every execution
of the exchange is finite, and where it can not go on all processes have finished and no message is left. With a new split that all processes
agree on, the search for the destination of a particle of the domain inside the old limits always succeeds. -/
theorem C167_no_deadlock {n N : ℕ} {L1 L2 : Fin N → Lim} (h1 : ∀ r, (L1 r).Ok) (h2 : ∀ r, (L2 r).Ok) :
    (∀ r s, s ∈ sendTo L1 L2 r ↔ r ∈ recvFrom L1 L2 s) ∧
    (∀ m0 : Fin N → RemapPart.Mem N, (∃ (k : ℕ) (b : Conf (Fin N) (RemapPart.Mem N) RemapPart.Msg), Exec (exchange N L1 L2) k (start m0) b ∧ Stuck (exchange N L1 L2) b) ∧
      ∀ (k : ℕ) (b : Conf (Fin N) (RemapPart.Mem N) RemapPart.Msg), Exec (exchange N L1 L2) k (start m0) b →
        k ≤ N * (2 + 2 * (2 * (N * N))) ∧ (Stuck (exchange N L1 L2) b → (∀ r, b.g r = 2) ∧ ∀ s d, b.ch s d = [])) ∧
    ∀ (D : Domain) (at_ : Fin N → Place) (P : Fin N → RemapPart.Proc n), Agree D at_ L1 L2 P → ∀ r p, D.Owns (L1 r) p → D.Has p → ∃ o, route (P r) p = .ok o := by
  have hok := exchange_ok h1 h2
  refine ⟨send_recv h1 h2, fun m0 => ⟨exec_exists hok m0, fun k b ex => ⟨?_, fun st => ?_⟩⟩, fun D at_ P h r p o1 o2 => ?_⟩
  · have := exec_bounded hok ex
    rwa [Fintype.card_fin] at this
  · exact ⟨(exec_result hok ex st).2.2, (exec_result hok ex st).2.1⟩
  · obtain ⟨d, hd⟩ := owner_exists h r o2
    exact ⟨_, (route_ok h o1 hd).1⟩

/-- In the example process 0 sends to process 1, and nothing goes the other way. -/
example : sendTo rpOld rpNew 0 = [1] ∧ recvFrom rpOld rpNew 1 = [0] ∧ sendTo rpOld rpNew 1 = [] ∧ (∀ r, (rpOld r).Ok) ∧ ∀ r, (rpNew r).Ok := by
  refine ⟨?_, ?_, ?_, (rp_agree fun _ => true).old, lim_ok (rp_agree fun _ => true)⟩ <;>
    simp [sendTo, recvFrom, List.finRange_succ, inter3, inter1, rp_new.1, rp_new.2, rpOld]

end Picsar.Props
