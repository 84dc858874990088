import Verif.Lemmas.CombinedCount
import Verif.Props.PartExchange
/-
C132–C135: the default exchange of particles in 3-D, between tiles and between processes in one routine.
-/
namespace Picsar.Props
open Picsar Picsar.Grid Picsar.Tiling Picsar.ParticleBcs Picsar.PartExchange Picsar.Combined

variable {n : ℕ} {R : Type} [DecidableEq R]

/-! ### C132: the part on each process -/

/-- C132: for every number of species and every content of the tiles, the local part does not fault; afterwards every tile holds exactly the
particles that stay on the process and belong to it, and for every direction the message consists of exactly the particles that leave in this
direction, column by column, with their number as count. -/
theorem C132_local_partial (K : ℕ) (P : PartExchange.Proc n) (bs : ℤ) (sp : ℕ → Species n) (L : ℕ → I3 → List (Part n)) (hbs : 1 ≤ bs)
    (hP : ∀ is, is < K → Combined.Sorted P (sp is).nt (L is)) (h : ∀ is, is < K → HoldsAll (sp is) (L is)) (hA : ∀ is, is < K → AllocAll (sp is)) :
    ∃ m, localPart K P bs sp = .ok m ∧ ∀ is, is < K →
      (∃ L' : I3 → List (Part n), HoldsAll (m.sp is) L' ∧ ∀ T, InBox ⟨1, 1, 1⟩ (sp is).nt T → (L' T : Multiset (Part n)) = here P (sp is).nt (L is) T) ∧
      ∀ d ∈ dirs, ∃ w : List (Part n), (w : Multiset (Part n)) = leaving P (sp is).nt (L is) d ∧ m.cnt is d = w.length ∧
        m.out is d = (List.range (n + 7)).flatMap fun c => w.map fun p => (vals p).getD c 0 := by
  obtain ⟨m, M, W, e, r⟩ := localPart_ok hbs hP h hA
  exact ⟨m, e, fun is hi => ⟨⟨M is, r.holds is hi, r.here is hi⟩, fun d hd => ⟨W is d, r.sent is hi d hd, r.cnt is hi d hd, r.out is hi d hd⟩⟩⟩

/-- C132: every particle is accounted for once: it stays in one tile, leaves in one direction, or is absorbed at a wall. -/
theorem C132_accounted (P : PartExchange.Proc n) (nt : I3) (L : I3 → List (Part n)) (hbox : ∀ p, ¬ outDom P.A p → InBox ⟨1, 1, 1⟩ nt (P.idx p)) :
    ((box ⟨1, 1, 1⟩ nt).map fun T => Multiset.card (here P nt L T)).sum + (dirs.map fun d => Multiset.card (leaving P nt L d)).sum + Multiset.card (lost P nt L) =
      Multiset.card (total nt L) :=
  accounted L hbox

/-- C132: with tiles at least one cell wide, every particle that stays on the process is inside the limits of the tile it ends up in, also when it was
put back at a wall. -/
theorem C132_inside (P : PartExchange.Proc n) (nt : I3) (L : I3 → List (Part n)) (hP : Combined.Sorted P nt L) (T : I3)
    (hw : ∀ a, 0 < (P.A a).dx ∧ (P.T T).lo a + (P.A a).dx ≤ (P.T T).hi a) : ∀ q ∈ here P nt L T, inTile (P.T T) q :=
  fun _ hq => here_in hP.home hw hq

/-- C132, hypotheses on the tiles: the tile split of the code satisfies them (the particle limits of the process are those of the split). -/
theorem C132_split (P : PartExchange.Proc n) (g : Geo) (nt : I3) (hf : Fits g nt) (hi : P.idx = g.idx)
    (hx : ∀ u, (P.T u).lo .x = (g.x.ext u.j).lo ∧ (P.T u).hi .x = (g.x.ext u.j).hi) (hy : ∀ u, (P.T u).lo .y = (g.y.ext u.k).lo ∧ (P.T u).hi .y = (g.y.ext u.k).hi)
    (hz : ∀ u, (P.T u).lo .z = (g.z.ext u.l).lo ∧ (P.T u).hi .z = (g.z.ext u.l).hi) (ax : (P.A .x).lo = g.x.pmin ∧ (P.A .x).hi = g.x.pmax)
    (ay : (P.A .y).lo = g.y.pmin ∧ (P.A .y).hi = g.y.pmax) (az : (P.A .z).lo = g.z.pmin ∧ (P.A .z).hi = g.z.pmax) (p : Part n) (hp : ¬ outDom P.A p) :
    InBox ⟨1, 1, 1⟩ nt (P.idx p) ∧ inTile (P.T (P.idx p)) p := by
  have hd : g.inDom p := by
    unfold outDom at hp
    push Not at hp
    have h1 := hp .x
    have h2 := hp .y
    have h3 := hp .z
    rw [ax.1, ax.2] at h1
    rw [ay.1, ay.2] at h2
    rw [az.1, az.2] at h3
    exact ⟨not_or.mpr ⟨not_lt.mpr h1.1, not_le.mpr h1.2⟩, not_or.mpr ⟨not_lt.mpr h2.1, not_le.mpr h2.2⟩, not_or.mpr ⟨not_lt.mpr h3.1, not_le.mpr h3.2⟩⟩
  obtain ⟨s1, s2⟩ := sorts3 (n := n) hf
  rw [hi]
  refine ⟨s1 p hd, fun a => ?_⟩
  obtain ⟨⟨t1, t2⟩, t3⟩ := s2 p hd
  cases a
  · rw [(hx _).1, (hx _).2]; exact t1
  · rw [(hy _).1, (hy _).2]; exact t2
  · rw [(hz _).1, (hz _).2]; exact t3

/-- C132, refuted without the hypothesis on border tiles: a particle that leaves the subdomain from an inner tile (it moved further than a tile is wide) is
written to a buffer that was not allocated. -/
theorem C132_inner_tile_refuted (P : PartExchange.Proc n) (bs : ℤ) (u : I3) (s : Sc3 n) (l : List (Part n)) (p : Part n) (hu : InBox ⟨1, 1, 1⟩ s.S.nt u)
    (h : Holds (s.S.tiles u) (l ++ [p])) (hb : P.border u = false) (d : I3) (q : Part n) (hs : scan .combined P.A (P.T u) p = .sent d q) :
    combTile P bs u s = .error .nullDeref := by
  have hl : l.length < (l ++ [p]).length := by simp
  have hr := readPart_ok h hl
  rw [show (l ++ [p])[l.length] = p by simp] at hr
  have hrange : (irange 1 ((l.length : ℤ) + 1)).reverse = ((l.length : ℤ) + 1) :: (irange 1 (l.length : ℤ)).reverse := by
    have := irange_rev_succ l.length
    push_cast at this
    exact this
  obtain ⟨h1, h2, -⟩ := scan_sent hs
  obtain ⟨t', ew, -⟩ := writePart_ok h hl q
  unfold combTile
  rw [h.count]
  simp only [List.length_append, List.length_cons, List.length_nil, Nat.zero_add, Nat.cast_add, Nat.cast_one]
  rw [hrange, List.foldlM_cons]
  unfold combOne
  dsimp only
  rw [hr]
  simp only [except_bind_ok]
  rw [if_neg h1, if_pos h2, hs]
  dsimp only
  unfold atTile
  rw [if_pos hu, ew]
  simp only [except_bind_ok]
  rw [Function.update_self]
  unfold push TBuf.new
  rw [if_pos hb]
  rfl

/-! ### C133: delivery -/

/-- C133: for every number of species, every content of the tiles and every schedule of the messages, when no process can make a step any more all
messages have been received, no process has faulted, and every process holds in every tile at the border of its subdomain what stayed and belongs there and
what arrived and belongs there, and in every other tile what stayed and belongs there. -/
theorem C133_stored (K : ℕ) (nb : R → I3 → R) (P : R → PartExchange.Proc n) (bs : R → ℤ) (sp : R → ℕ → Species n) (L : R → ℕ → I3 → List (Part n)) (hm : Mutual nb)
    (hbs : ∀ r, 1 ≤ bs r) (hP : ∀ r is, is < K → Combined.Sorted (P r) (sp r is).nt (L r is)) (h : ∀ r is, is < K → HoldsAll (sp r is) (L r is))
    (hA : ∀ r is, is < K → AllocAll (sp r is))
    (t : ℕ) (c : Mpi.Conf R (Res (CMem n)) Msg) (e : Mpi.Exec (combined K nb P) t (Mpi.start fun r => localPart K (P r) (bs r) (sp r)) c) (hst : Mpi.Stuck (combined K nb P) c) :
    (∀ s d, c.ch s d = []) ∧ ∀ r, ∃ s, c.mem r = .ok s ∧ ∀ is, is < K → Stored nb P (fun r => sp r is) (fun r => L r is) r (s.sp is) := by
  obtain ⟨h1, h2, -⟩ := Mpi.exec_result (c_ok K P hm) e hst
  choose m M W e0 r0 using fun r => localPart_ok (hbs r) (hP r) (h r) (hA r)
  refine ⟨h2, fun r => ?_⟩
  obtain ⟨s, hs, F⟩ := c_sync (nb := nb) e0 r0 (K * 26) le_rfl r
  refine ⟨s, by rw [h1 r]; exact hs, fun is hi => F.done is (by omega)⟩

/-- C133, delivery: if particles that are handed over belong to a border tile of the process that gets them, every tile of every process holds exactly
what stayed and belongs to it and what arrived and belongs to it, each particle once, with all attributes. -/
theorem C133_delivered_partial (K : ℕ) (nb : R → I3 → R) (P : R → PartExchange.Proc n) (bs : R → ℤ) (sp : R → ℕ → Species n) (L : R → ℕ → I3 → List (Part n)) (hm : Mutual nb)
    (hbs : ∀ r, 1 ≤ bs r) (hP : ∀ r is, is < K → Combined.Sorted (P r) (sp r is).nt (L r is)) (h : ∀ r is, is < K → HoldsAll (sp r is) (L r is))
    (hA : ∀ r is, is < K → AllocAll (sp r is)) (hl : ∀ is, is < K → LandBorder nb P (fun r => (sp r is).nt) fun r => L r is)
    (t : ℕ) (c : Mpi.Conf R (Res (CMem n)) Msg) (e : Mpi.Exec (combined K nb P) t (Mpi.start fun r => localPart K (P r) (bs r) (sp r)) c) (hst : Mpi.Stuck (combined K nb P) c) :
    (∀ s d, c.ch s d = []) ∧ ∀ r, ∃ s, c.mem r = .ok s ∧ ∀ is, is < K → Received nb P (fun r => sp r is) (fun r => L r is) r (s.sp is) := by
  obtain ⟨h1, h2⟩ := C133_stored K nb P bs sp L hm hbs hP h hA t c e hst
  refine ⟨h1, fun r => ?_⟩
  obtain ⟨s, hs, hd⟩ := h2 r
  exact ⟨s, hs, fun is hi => stored_received hm (hl is hi) (hd is hi)⟩

/-- C133, liveness: no schedule runs forever, and the exchange can be completed. -/
theorem C133_terminates [Fintype R] (K : ℕ) (nb : R → I3 → R) (P : R → PartExchange.Proc n) (hm : Mutual nb) (m0 : R → Res (CMem n)) :
    (∃ B, ∀ t c, Mpi.Exec (combined K nb P) t (Mpi.start m0) c → t ≤ B) ∧ ∃ t c, Mpi.Exec (combined K nb P) t (Mpi.start m0) c ∧ Mpi.Stuck (combined K nb P) c :=
  ⟨⟨_, fun _ _ e => Mpi.exec_bounded (c_ok K P hm) e⟩, Mpi.exec_exists (c_ok K P hm) m0⟩

omit [DecidableEq R] in
/-- C133, conservation: over all processes, the number of particles afterwards and the number of absorbed particles add up to the number before. -/
theorem C133_conserved_partial [Fintype R] (nb : R → I3 → R) (P : R → PartExchange.Proc n) (S S' : R → Species n) (L : R → I3 → List (Part n)) (hm : Mutual nb)
    (hP : ∀ r, Combined.Sorted (P r) (S r).nt (L r)) (hl : LandBorder nb P (fun r => (S r).nt) L) (h : ∀ r, Received nb P S L r (S' r)) :
    ∃ L' : R → I3 → List (Part n), (∀ r, HoldsAll (S' r) (L' r)) ∧
      ∑ r, Multiset.card (total (S' r).nt (L' r)) + ∑ r, Multiset.card (lost (P r) (S r).nt (L r)) = ∑ r, Multiset.card (total (S r).nt (L r)) := by
  choose L' h1 h2 h3 h4 h5 using h
  refine ⟨L', h1, ?_⟩
  have hc : ∀ r, Multiset.card (total (S' r).nt (L' r)) = ((box ⟨1, 1, 1⟩ (S r).nt).map fun T => Multiset.card (here (P r) (S r).nt (L r) T)).sum + Multiset.card (arriving nb P S L r) :=
    fun r => received_card hm hl (h3 r) (h4 r)
  simp only [hc]
  rw [Finset.sum_add_distrib, arriving_sum hm, ← Finset.sum_add_distrib, ← Finset.sum_add_distrib]
  exact Finset.sum_congr rfl fun r _ => accounted (L r) (hP r).box

/-- C133, refuted without the hypothesis on border tiles: when a particle arrives that belongs to an inner tile, no execution delivers it. -/
theorem C133_inner_tile_refuted (K : ℕ) (nb : R → I3 → R) (P : R → PartExchange.Proc n) (bs : R → ℤ) (sp : R → ℕ → Species n) (L : R → ℕ → I3 → List (Part n)) (hm : Mutual nb)
    (hbs : ∀ r, 1 ≤ bs r) (hP : ∀ r is, is < K → Combined.Sorted (P r) (sp r is).nt (L r is)) (h : ∀ r is, is < K → HoldsAll (sp r is) (L r is))
    (hA : ∀ r is, is < K → AllocAll (sp r is)) (is : ℕ) (hi : is < K) (r : R) (q : Part n) (hq : q ∈ arriving nb P (fun r => sp r is) (fun r => L r is) r)
    (hT : InBox ⟨1, 1, 1⟩ (sp r is).nt ((P r).idx q)) (hb : (P r).border ((P r).idx q) = false)
    (t : ℕ) (c : Mpi.Conf R (Res (CMem n)) Msg) (e : Mpi.Exec (combined K nb P) t (Mpi.start fun r => localPart K (P r) (bs r) (sp r)) c) (hst : Mpi.Stuck (combined K nb P) c) :
    ∃ s, c.mem r = .ok s ∧ ¬ Received nb P (fun r => sp r is) (fun r => L r is) r (s.sp is) := by
  classical
  obtain ⟨-, h2⟩ := C133_stored K nb P bs sp L hm hbs hP h hA t c e hst
  obtain ⟨s, hs, hd⟩ := h2 r
  refine ⟨s, hs, fun hr => ?_⟩
  obtain ⟨L1, a1, -, n1, b1, -⟩ := hd is hi
  obtain ⟨L2, a2, -, -, b2, -⟩ := hr
  have hT' : InBox ⟨1, 1, 1⟩ (s.sp is).nt ((P r).idx q) := by rw [n1]; exact hT
  have hL : L1 ((P r).idx q) = L2 ((P r).idx q) := holds_unique (a1 _ hT') (a2 _ hT')
  have e1 := b1 _ hT
  have e2 := b2 _ hT
  rw [hL, e2, hb] at e1
  simp only [Bool.false_eq_true, if_false, add_zero] at e1
  have : q ∈ (arriving nb P (fun r => sp r is) (fun r => L r is) r).filter fun q' => (P r).idx q' = (P r).idx q := Multiset.mem_filter.mpr ⟨hq, rfl⟩
  have hz : ((arriving nb P (fun r => sp r is) (fun r => L r is) r).filter fun q' => (P r).idx q' = (P r).idx q) = 0 := by simpa using e1
  rw [hz] at this
  simp at this

/-! ### C134: the counts -/

/-- C134: in every run that the message-passing standard allows, the receiver of a direction gets the count of this or of a later direction; the count of
the last direction is right; all are right if all counts are equal. -/
theorem C134_counts_partial (c : ℕ → ℤ) (s : Race) (h : Race.Steps c .start s) (hd : s.Done) :
    (∀ q, q < 26 → ∃ j, q ≤ j ∧ j < 26 ∧ s.got q = some (c j)) ∧ s.got 25 = some (c 25) ∧ ((∀ i j, i < 26 → j < 26 → c i = c j) → ∀ q, q < 26 → s.got q = some (c q)) := by
  obtain ⟨-, -, -, h4⟩ := race_inv h
  have key : ∀ q, q < 26 → ∃ j, q ≤ j ∧ j < 26 ∧ s.got q = some (c j) := by
    intro q hq
    rcases h4 q (by rw [hd.1]; exact hq) with h | ⟨j, a, b, e⟩
    · rw [hd.2] at h; simp at h
    · exact ⟨j, a, by rw [hd.1] at b; exact b, e⟩
  refine ⟨key, ?_, fun he q hq => ?_⟩
  · obtain ⟨j, a, b, e⟩ := key 25 (by decide)
    rw [e, show j = 25 by omega]
  · obtain ⟨j, -, b, e⟩ := key q hq
    rw [e, he j q b hq]

/-- C134: all counts are right if every count is read before the next one is assigned (as with a library that copies short messages at once). -/
theorem C134_prompt_partial (c : ℕ → ℤ) (s : Race) (h : Prompt c .start s) (hd : s.Done) : ∀ q, q < 26 → s.got q = some (c q) := by
  obtain ⟨-, -, h3⟩ := prompt_inv h
  exact fun q hq => h3 q (by rw [hd.1]; exact hq) (by rw [hd.2]; simp)

/-- C134, refuted: for all counts there is a complete run in which every receiver gets the count of the last direction. -/
theorem C134_counts_refuted (c : ℕ → ℤ) : ∃ s, Race.Steps c .start s ∧ s.Done ∧ ∀ q, q < 26 → s.got q = some (c 25) := race_late c

/-- C134, consequence: with a count that is too small, the data message does not fit into the receive type. -/
theorem C134_too_small_refuted (is q : ℕ) (s : CMem n) (l : List ℝ) (h : s.inbox q = some (.dat l)) (hc : (n + 7) * s.nrecv is (dirAt q) < l.length) :
    takeRows is q s = .error .outOfBounds := by
  unfold takeRows
  rw [h]
  dsimp only
  rw [if_neg (by omega)]

/-! ### C135: the stored number of particles -/

omit [DecidableEq R] in
/-- C135: if the stored number of particles was right before the exchange, it is afterwards too large by the number of particles sent and absorbed: it is
increased for particles that arrive and never decreased. -/
theorem C135_number_partial (nb : R → I3 → R) (P : R → PartExchange.Proc n) (S : R → Species n) (L : R → I3 → List (Part n)) (hm : Mutual nb)
    (hP : ∀ r, Combined.Sorted (P r) (S r).nt (L r)) (hl : LandBorder nb P (fun r => (S r).nt) L) (r : R) (S' : Species n) (h : Received nb P S L r S')
    (hn : (S r).npart = Multiset.card (total (S r).nt (L r))) :
    ∃ L', HoldsAll S' L' ∧ S'.npart = Multiset.card (total S'.nt L') + (dirs.map fun d => Multiset.card (leaving (P r) (S r).nt (L r) d)).sum + Multiset.card (lost (P r) (S r).nt (L r)) := by
  obtain ⟨L', h1, -, h3, h4, h5⟩ := h
  refine ⟨L', h1, ?_⟩
  rw [h5, hn, ← accounted (L r) (hP r).box, received_card hm hl h3 h4]
  push_cast
  ring

omit [DecidableEq R] in
/-- C135, refuted: as soon as a particle is sent or absorbed, the stored number of particles is wrong. -/
theorem C135_number_refuted (nb : R → I3 → R) (P : R → PartExchange.Proc n) (S : R → Species n) (L : R → I3 → List (Part n)) (hm : Mutual nb)
    (hP : ∀ r, Combined.Sorted (P r) (S r).nt (L r)) (hl : LandBorder nb P (fun r => (S r).nt) L) (r : R) (S' : Species n) (h : Received nb P S L r S')
    (hn : (S r).npart = Multiset.card (total (S r).nt (L r))) (d : I3) (hd : d ∈ dirs) (p : Part n)
    (hp : p ∈ leaving (P r) (S r).nt (L r) d ∨ p ∈ lost (P r) (S r).nt (L r)) : ∃ L', HoldsAll S' L' ∧ S'.npart > Multiset.card (total S'.nt L') := by
  obtain ⟨L', h1, h2⟩ := C135_number_partial nb P S L hm hP hl r S' h hn
  refine ⟨L', h1, ?_⟩
  have hpos : 0 < (dirs.map fun d => Multiset.card (leaving (P r) (S r).nt (L r) d)).sum + Multiset.card (lost (P r) (S r).nt (L r)) := by
    rcases hp with hp | hp
    · have h3 : 0 < Multiset.card (leaving (P r) (S r).nt (L r) d) := Multiset.card_pos_iff_exists_mem.mpr ⟨p, hp⟩
      have h4 := List.single_le_sum (fun _ _ => Nat.zero_le _) _ (List.mem_map.mpr ⟨d, hd, rfl⟩ : _ ∈ dirs.map fun d => Multiset.card (leaving (P r) (S r).nt (L r) d))
      omega
    · have h3 : 0 < Multiset.card (lost (P r) (S r).nt (L r)) := Multiset.card_pos_iff_exists_mem.mpr ⟨p, hp⟩
      omega
  rw [h2]
  omega

/-! ### A concrete case -/

/-- Two processes along x with subdomains [0,3) and [3,6), periodic; 3×3×3 tiles of one cell each; the tile in the middle is not at the border. -/
def exShift (r : Bool) : ℝ := if r then 3 else 0

noncomputable def exCAxis (r : Bool) : Ax → Axis
  | .x => ⟨exShift r, exShift r + 3, 0, 6, 6, 1, !r, r, 0, 0⟩
  | _ => ⟨0, 3, 0, 3, 3, 1, true, true, 0, 0⟩

noncomputable def exCTile (r : Bool) (u : I3) : TileLim where
  lo
    | .x => exShift r + u.j - 1
    | .y => u.k - 1
    | .z => u.l - 1
  hi
    | .x => exShift r + u.j
    | .y => u.k
    | .z => u.l

noncomputable def exCProc (r : Bool) : PartExchange.Proc 1 :=
  ⟨exCAxis r, exCTile r, fun u => !decide (u = ⟨2, 2, 2⟩), fun p => ⟨⌊p.x - exShift r⌋ + 1, ⌊p.y⌋ + 1, ⌊p.z⌋ + 1⟩⟩

/-- A particle at x = v. -/
noncomputable def exCPart (v : ℝ) : Part 1 := ⟨v, 3 / 2, 3 / 2, 3, 4, 5, 6, fun _ => 7⟩

/-- It is in the last tile in x of the first process, which it has left if 3 ≤ v. -/
noncomputable def exCL (v : ℝ) (r : Bool) (_ : ℕ) (u : I3) : List (Part 1) := if u = ⟨3, 2, 2⟩ ∧ r = false then [exCPart v] else []

theorem exCScan (v : ℝ) (hv : 3 ≤ v) (u : I3) (hu : u.j ≤ 3) : scan .combined (exCAxis false) (exCTile false u) (exCPart v) = .sent ⟨1, 0, 0⟩ (exCPart v) := by
  have hu' : (u.j : ℝ) ≤ 3 := by exact_mod_cast hu
  have ht : ¬ inTile (exCTile false u) (exCPart v) := by
    intro h
    have := (h .x).2
    simp only [pos, exCPart, exCTile, exShift] at this
    norm_num at this
    linarith
  have ho : outDom (exCAxis false) (exCPart v) := ⟨.x, .inr (by simp only [pos, exCPart, exCAxis, exShift]; norm_num; linarith)⟩
  have hx : axis .combined (exCAxis false) (exCTile false u) .x (exCPart v) ⟨0, 0, 0⟩ false = .go (exCPart v) ⟨1, 0, 0⟩ false := by
    unfold axis
    dsimp only
    rw [if_neg (by simp), if_pos rfl, if_neg (by simp only [pos, exCPart, exCAxis, exShift]; norm_num; linarith), if_pos (by simp only [pos, exCPart, exCAxis, exShift]; norm_num; linarith)]
    simp [face, exCAxis, setDir]
  have hy : ∀ a, a ≠ .x → axis .combined (exCAxis false) (exCTile false u) a (exCPart v) ⟨1, 0, 0⟩ false = .go (exCPart v) ⟨1, 0, 0⟩ false := by
    intro a ha
    unfold axis
    dsimp only
    rw [if_neg (by simp), if_pos rfl]
    have h1 : pos (exCPart v) a = 3 / 2 := by cases a <;> simp_all [pos, exCPart]
    have h2 : (exCAxis false a).lo = 0 ∧ (exCAxis false a).hi = 3 := by cases a <;> simp_all [exCAxis]
    rw [h1, h2.1, h2.2, if_neg (by norm_num), if_neg (by norm_num)]
  unfold scan
  rw [if_neg (by tauto), hx]
  show finish .combined ((axis .combined (exCAxis false) (exCTile false u) .y (exCPart v) ⟨1, 0, 0⟩ false).andThen _) = _
  rw [hy .y (by simp)]
  show finish .combined (axis .combined (exCAxis false) (exCTile false u) .z (exCPart v) ⟨1, 0, 0⟩ false) = _
  rw [hy .z (by simp)]
  rfl

theorem exCSorted (v : ℝ) (r : Bool) (is : ℕ) : Combined.Sorted (exCProc r) ⟨3, 3, 3⟩ (exCL v r is) := by
  have key : ∀ p : Part 1, ¬ outDom (exCAxis r) p → (0 ≤ p.x - exShift r ∧ p.x - exShift r < 3) ∧ (0 ≤ p.y ∧ p.y < 3) ∧ (0 ≤ p.z ∧ p.z < 3) := by
    intro p hp
    unfold outDom at hp
    push Not at hp
    have h1 := hp .x
    have h2 := hp .y
    have h3 := hp .z
    simp only [pos, exCAxis] at h1 h2 h3
    exact ⟨⟨by linarith, by linarith⟩, h2, h3⟩
  have fl : ∀ x : ℝ, 0 ≤ x ∧ x < 3 → 1 ≤ ⌊x⌋ + 1 ∧ ⌊x⌋ + 1 ≤ 3 := by
    intro x hx
    have h1 : 0 ≤ ⌊x⌋ := Int.floor_nonneg.mpr hx.1
    have h2 : ⌊x⌋ < 3 := Int.floor_lt.mpr (by exact_mod_cast hx.2)
    omega
  refine ⟨fun p hp => ?_, fun p hp => ?_, fun u hu p hp d q e => ?_⟩
  · obtain ⟨a, b, c⟩ := key p hp
    exact ⟨(fl _ a).1, (fl _ a).2, (fl _ b).1, (fl _ b).2, (fl _ c).1, (fl _ c).2⟩
  · intro a
    have h1 := Int.floor_le (p.x - exShift r)
    have h2 := Int.lt_floor_add_one (p.x - exShift r)
    have h3 := Int.floor_le p.y
    have h4 := Int.lt_floor_add_one p.y
    have h5 := Int.floor_le p.z
    have h6 := Int.lt_floor_add_one p.z
    cases a <;> simp only [exCProc, exCTile, pos] <;> push_cast <;> constructor <;> linarith
  · unfold exCL at hp
    split_ifs at hp with h
    · rw [h.1]; rfl
    · simp at hp

theorem exCLeaving (v : ℝ) (hv : 3 ≤ v) (r : Bool) (is : ℕ) (d : I3) (q : Part 1) :
    q ∈ leaving (exCProc r) ⟨3, 3, 3⟩ (exCL v r is) d ↔ r = false ∧ d = ⟨1, 0, 0⟩ ∧ q = exCPart v := by
  unfold leaving
  rw [mem_sum_map]
  constructor
  · rintro ⟨u, hu, hq⟩
    rw [Multiset.mem_coe, List.mem_filterMap] at hq
    obtain ⟨p, hp, e⟩ := hq
    unfold exCL at hp
    split_ifs at hp with h
    · obtain ⟨rfl, rfl⟩ := h
      rw [List.mem_singleton] at hp
      subst hp
      rw [show (exCProc false).A = exCAxis false from rfl, show (exCProc false).T ⟨3, 2, 2⟩ = exCTile false ⟨3, 2, 2⟩ from rfl, exCScan v hv _ (by decide)] at e
      unfold sends at e
      dsimp only at e
      split_ifs at e with hd
      cases e
      exact ⟨rfl, hd.symm, rfl⟩
    · simp at hp
  · rintro ⟨rfl, rfl, rfl⟩
    refine ⟨⟨3, 2, 2⟩, by decide, ?_⟩
    rw [Multiset.mem_coe, List.mem_filterMap]
    refine ⟨exCPart v, by simp [exCL], ?_⟩
    rw [show (exCProc false).A = exCAxis false from rfl, show (exCProc false).T ⟨3, 2, 2⟩ = exCTile false ⟨3, 2, 2⟩ from rfl, exCScan v hv _ (by decide)]
    rfl

theorem exCArriving (v : ℝ) (hv : 3 ≤ v) (S : Bool → Species 1) (hS : ∀ r, (S r).nt = ⟨3, 3, 3⟩) (is : ℕ) : exCPart v ∈ arriving exNb exCProc S (fun r => exCL v r is) true := by
  unfold arriving
  rw [mem_sum_map]
  refine ⟨⟨1, 0, 0⟩, by decide, ?_⟩
  rw [hS, show exNb true (neg ⟨1, 0, 0⟩) = false from by decide]
  exact (exCLeaving v hv false is _ _).mpr ⟨rfl, rfl, rfl⟩

theorem exCIdx (v : ℝ) (j : ℤ) (h : (j : ℝ) + 2 ≤ v ∧ v < j + 3) : (exCProc true).idx (exCPart v) = ⟨j, 2, 2⟩ := by
  have h1 : ⌊v - 3⌋ = j - 1 := by
    rw [Int.floor_eq_iff]; push_cast; constructor <;> linarith
  have h2 : ⌊(3 / 2 : ℝ)⌋ = 1 := by
    rw [Int.floor_eq_iff]; norm_num
  simp only [exCProc, exCPart, exShift, if_true, h1, h2]
  simp

theorem exCLand (is : ℕ) : LandBorder exNb exCProc (fun _ => ⟨3, 3, 3⟩) fun r => exCL (13 / 4) r is := by
  intro r d _ q hq
  obtain ⟨rfl, rfl, rfl⟩ := (exCLeaving _ (by norm_num) r is d q).mp hq
  rw [show exNb false ⟨1, 0, 0⟩ = true from by decide, exCIdx _ 1 (by norm_num)]
  unfold InBox
  decide

/-- The species. -/
theorem exCSpecies (v : ℝ) : ∃ sp : Bool → ℕ → Species 1, (∀ r is, HoldsAll (sp r is) (exCL v r is)) ∧ (∀ r is, AllocAll (sp r is)) ∧ (∀ r is, (sp r is).nt = ⟨3, 3, 3⟩) ∧
    ∀ r is, (sp r is).npart = if r then 0 else 1 := by
  have h0 : Holds (newTile (n := 1) 1) [] := ⟨rfl, by simp [newTile, allocArrays], fun _ _ => rfl, fun _ => rfl, fun _ _ i hi => absurd hi (Nat.not_lt_zero i)⟩
  obtain ⟨t1, e1, h1, a1⟩ := addTile_ok h0 (exCPart v)
  refine ⟨fun r _ => ⟨⟨3, 3, 3⟩, fun u => if u = ⟨3, 2, 2⟩ ∧ r = false then t1 else newTile 1, if r then 0 else 1⟩, fun r is u _ => ?_, fun r is u _ => ?_, fun _ _ => rfl, fun _ _ => rfl⟩
  · dsimp only
    unfold exCL
    by_cases hc : u = ⟨3, 2, 2⟩ ∧ r = false
    · rw [if_pos hc, if_pos hc]; exact h1
    · rw [if_neg hc, if_neg hc]; exact h0
  · dsimp only
    by_cases hc : u = ⟨3, 2, 2⟩ ∧ r = false
    · rw [if_pos hc]; exact a1
    · rw [if_neg hc]; rfl

/-- The hypotheses of C132 and C133 are met, an execution exists, and after every complete execution the particle is in the first tile in x of the second
process. -/
example : ∃ sp : Bool → ℕ → Species 1, (∀ r is, HoldsAll (sp r is) (exCL (13 / 4) r is)) ∧
    (∀ t c, Mpi.Exec (combined 1 exNb exCProc) t (Mpi.start fun r => localPart 1 (exCProc r) 4 (sp r)) c → Mpi.Stuck (combined 1 exNb exCProc) c →
      ∃ s, c.mem true = .ok s ∧ ∃ L', HoldsAll (s.sp 0) L' ∧ exCPart (13 / 4) ∈ L' ⟨1, 2, 2⟩) ∧
    ∃ t c, Mpi.Exec (combined 1 exNb exCProc) t (Mpi.start fun r => localPart 1 (exCProc r) 4 (sp r)) c ∧ Mpi.Stuck (combined 1 exNb exCProc) c := by
  classical
  obtain ⟨sp, h1, h2, h3, -⟩ := exCSpecies (13 / 4)
  refine ⟨sp, h1, fun t c e hst => ?_, (C133_terminates 1 exNb exCProc exNb_mutual _).2⟩
  obtain ⟨-, hr⟩ := C133_delivered_partial 1 exNb exCProc (fun _ => 4) sp (exCL (13 / 4)) exNb_mutual (fun _ => by decide) (fun r is _ => by rw [h3]; exact exCSorted _ r is)
    (fun r is _ => h1 r is) (fun r is _ => h2 r is) (fun is _ => by simp only [h3]; exact exCLand is) t c e hst
  obtain ⟨s, hs, hd⟩ := hr true
  obtain ⟨L', a1, -, -, a4, -⟩ := hd 0 (by decide)
  refine ⟨s, hs, L', a1, ?_⟩
  have a5 := a4 ⟨1, 2, 2⟩ (by rw [h3]; unfold InBox; decide)
  rw [← Multiset.mem_coe, a5, Multiset.mem_add]
  exact .inr (Multiset.mem_filter.mpr ⟨exCArriving _ (by norm_num) _ (fun r => h3 r 0) 0, exCIdx _ 1 (by norm_num)⟩)

/-- The hypotheses of `C133_inner_tile_refuted` are met: the particle moved further and belongs to the tile in the middle of the second process. -/
example : ∃ sp : Bool → ℕ → Species 1, (∀ r is, HoldsAll (sp r is) (exCL (9 / 2) r is)) ∧
    ∀ t c, Mpi.Exec (combined 1 exNb exCProc) t (Mpi.start fun r => localPart 1 (exCProc r) 4 (sp r)) c → Mpi.Stuck (combined 1 exNb exCProc) c →
      ∃ s, c.mem true = .ok s ∧ ¬ Received exNb exCProc (fun r => sp r 0) (fun r => exCL (9 / 2) r 0) true (s.sp 0) := by
  obtain ⟨sp, h1, h2, h3, -⟩ := exCSpecies (9 / 2)
  refine ⟨sp, h1, fun t c e hst => ?_⟩
  have hi := exCIdx (9 / 2) 2 (by norm_num)
  exact C133_inner_tile_refuted 1 exNb exCProc (fun _ => 4) sp (exCL (9 / 2)) exNb_mutual (fun _ => by decide) (fun r is _ => by rw [h3]; exact exCSorted _ r is)
    (fun r is _ => h1 r is) (fun r is _ => h2 r is) 0 (by decide) true (exCPart (9 / 2)) (exCArriving _ (by norm_num) _ (fun r => h3 r 0) 0)
    (by rw [hi, h3]; unfold InBox; decide) (by rw [hi]; decide) t c e hst

/-- C132: the tiles of the example are one cell wide, and the particle is accounted for. -/
example : (∀ q ∈ here (exCProc true) ⟨3, 3, 3⟩ (exCL 4 true 0) ⟨2, 2, 2⟩, inTile (exCTile true ⟨2, 2, 2⟩) q) ∧
    ((box ⟨1, 1, 1⟩ ⟨3, 3, 3⟩).map fun T => Multiset.card (here (exCProc false) ⟨3, 3, 3⟩ (exCL 4 false 0) T)).sum +
      (dirs.map fun d => Multiset.card (leaving (exCProc false) ⟨3, 3, 3⟩ (exCL 4 false 0) d)).sum + Multiset.card (lost (exCProc false) ⟨3, 3, 3⟩ (exCL 4 false 0)) =
      Multiset.card (total ⟨3, 3, 3⟩ (exCL 4 false 0)) := by
  refine ⟨C132_inside (exCProc true) ⟨3, 3, 3⟩ _ (exCSorted 4 true 0) ⟨2, 2, 2⟩ fun a => ?_, C132_accounted _ _ _ (exCSorted 4 false 0).box⟩
  cases a <;> simp only [exCProc, exCAxis, exCTile, exShift, if_true] <;> norm_num

/-- C132: a particle that left the subdomain from the tile in the middle. -/
example : ∃ s : Sc3 1, Holds (s.S.tiles ⟨2, 2, 2⟩) [exCPart 4] ∧ combTile (exCProc false) 4 ⟨2, 2, 2⟩ s = .error .nullDeref := by
  have h0 : Holds (newTile (n := 1) 1) [] := ⟨rfl, by simp [newTile, allocArrays], fun _ _ => rfl, fun _ => rfl, fun _ _ i hi => absurd hi (Nat.not_lt_zero i)⟩
  obtain ⟨t1, e1, h1, -⟩ := addTile_ok h0 (exCPart 4)
  refine ⟨⟨⟨⟨3, 3, 3⟩, fun _ => t1, 1⟩, fun _ => TBuf.new false 0, fun _ => 0⟩, h1, ?_⟩
  exact C132_inner_tile_refuted (exCProc false) 4 ⟨2, 2, 2⟩ _ [] (exCPart 4) (by dsimp only; unfold InBox; decide) h1 rfl ⟨1, 0, 0⟩ _ (exCScan 4 (by norm_num) _ (by decide))

/-- C132: the hypotheses of `C132_split` are met by a process with the limits of a split of the code. -/
example (g : Geo) (nt : I3) (hf : Fits g nt) (p : Part 1) (hp : g.inDom p) : ∃ P : PartExchange.Proc 1, P.idx = g.idx ∧ ¬ outDom P.A p ∧ inTile (P.T (P.idx p)) p := by
  have ho : ¬ outDom (fun a => match a with
    | .x => (⟨g.x.pmin, g.x.pmax, 0, 0, 0, 0, false, false, 0, 0⟩ : Axis)
    | .y => ⟨g.y.pmin, g.y.pmax, 0, 0, 0, 0, false, false, 0, 0⟩
    | .z => ⟨g.z.pmin, g.z.pmax, 0, 0, 0, 0, false, false, 0, 0⟩) p := by
    rintro ⟨a, h⟩
    obtain ⟨h1, h2, h3⟩ := hp
    cases a
    · exact h1 h
    · exact h2 h
    · exact h3 h
  refine ⟨⟨fun a => match a with
    | .x => ⟨g.x.pmin, g.x.pmax, 0, 0, 0, 0, false, false, 0, 0⟩
    | .y => ⟨g.y.pmin, g.y.pmax, 0, 0, 0, 0, false, false, 0, 0⟩
    | .z => ⟨g.z.pmin, g.z.pmax, 0, 0, 0, 0, false, false, 0, 0⟩,
    fun u => ⟨fun a => match a with | .x => (g.x.ext u.j).lo | .y => (g.y.ext u.k).lo | .z => (g.z.ext u.l).lo,
      fun a => match a with | .x => (g.x.ext u.j).hi | .y => (g.y.ext u.k).hi | .z => (g.z.ext u.l).hi⟩, fun _ => true, g.idx⟩, rfl, ho, ?_⟩
  exact (C132_split _ g nt hf rfl (fun _ => ⟨rfl, rfl⟩) (fun _ => ⟨rfl, rfl⟩) (fun _ => ⟨rfl, rfl⟩) ⟨rfl, rfl⟩ ⟨rfl, rfl⟩ ⟨rfl, rfl⟩ p ho).2

/-- C134: with different counts, a receiver may get a wrong one. -/
example : ∃ s, Race.Steps (fun q => (q : ℤ)) .start s ∧ s.Done ∧ s.got 0 ≠ some 0 := by
  obtain ⟨s, h1, h2, h3⟩ := C134_counts_refuted fun q => (q : ℤ)
  exact ⟨s, h1, h2, by rw [h3 0 (by decide)]; simp⟩

/-- C135: the process that sends the particle holds none and has one stored as its number. -/
example : ∃ S S' : Bool → Species 1, (∀ r, HoldsAll (S r) (exCL (13 / 4) r 0)) ∧ (∀ r, Received exNb exCProc S (fun r => exCL (13 / 4) r 0) r (S' r)) ∧
    ∃ L', HoldsAll (S' false) L' ∧ (S' false).npart > Multiset.card (total (S' false).nt L') := by
  obtain ⟨sp, h1, h2, h3, h4⟩ := exCSpecies (13 / 4)
  obtain ⟨t, c, e, hst⟩ := (C133_terminates 1 exNb exCProc exNb_mutual fun r => localPart 1 (exCProc r) 4 (sp r)).2
  obtain ⟨-, hr⟩ := C133_delivered_partial 1 exNb exCProc (fun _ => 4) sp (exCL (13 / 4)) exNb_mutual (fun _ => by decide) (fun r is _ => by rw [h3]; exact exCSorted _ r is)
    (fun r is _ => h1 r is) (fun r is _ => h2 r is) (fun is _ => by simp only [h3]; exact exCLand is) t c e hst
  choose s hs hd using hr
  refine ⟨fun r => sp r 0, fun r => (s r).sp 0, fun r => h1 r 0, fun r => hd r 0 (by decide), ?_⟩
  refine C135_number_refuted exNb exCProc (fun r => sp r 0) (fun r => exCL (13 / 4) r 0) exNb_mutual (fun r => by rw [h3]; exact exCSorted _ r 0) (by simp only [h3]; exact exCLand 0)
    false _ (hd false 0 (by decide)) ?_ ⟨1, 0, 0⟩ (by decide) (exCPart (13 / 4)) (.inl ?_)
  · rw [h4, h3]
    have : Multiset.card (total ⟨3, 3, 3⟩ (exCL (13 / 4) false 0)) = 1 := by
      unfold total
      rw [card_sum', List.map_map]
      have hf : (Multiset.card ∘ fun u => (exCL (13 / 4) false 0 u : Multiset (Part 1))) = fun u => if (⟨3, 2, 2⟩ : I3) = u then 1 else 0 := by
        funext u
        rw [Function.comp_apply, Multiset.coe_card]
        unfold exCL
        by_cases hc : u = ⟨3, 2, 2⟩
        · rw [if_pos ⟨hc, rfl⟩, if_pos hc.symm]; rfl
        · rw [if_neg (fun h => hc h.1), if_neg (fun h => hc h.symm)]; rfl
      rw [hf]
      exact one_hit (nodup_box _ _) (by decide) 1
    rw [this]
    simp
  · rw [h3]
    exact (exCLeaving _ (by norm_num) false 0 _ _).mpr ⟨rfl, rfl, rfl⟩

end Picsar.Props
