import Verif.Lemmas.FieldFile
import Verif.Lemmas.Topology
import Verif.Props.Topology
import Mathlib.Tactic.NormNum

/-
C100: the field files.
-/
namespace Picsar.Props
open Picsar Picsar.Grid Picsar.Exchange Picsar.Datatypes Picsar.FieldFile

/-- The example: a domain of 2×1×1 cells on two processes, arrays with one guard cell. -/
noncomputable def ffD : Domain := ⟨fun _ => 0, fun _ => 2, fun a => if a = .x then 2 else 1⟩
def ffP : Decomp := ⟨fun a => if a = .x then 2 else 1, fun _ r => r⟩
def ffr (x : ℕ) : Ax → ℕ := fun a => if a = .x then x else 0

theorem ff_of : ffP.Of ffD := by
  intro a
  refine ⟨rfl, fun r _ => ?_, ?_⟩
  · show (r : ℤ) < ((r + 1 : ℕ) : ℤ); omega
  · cases a <;> rfl

theorem ff_lists : ffP.Lists [ffr 1, ffr 0] := by
  refine ⟨?_, fun r => ?_⟩
  · simp only [List.nodup_cons, List.mem_singleton, List.not_mem_nil, not_false_eq_true, List.nodup_nil, and_true]
    intro h
    have := congrFun h Ax.x
    simp [ffr] at this
  · simp only [List.mem_cons, List.not_mem_nil, or_false]
    constructor
    · rintro (rfl | rfl) <;> intro a <;> cases a <;> decide
    · intro h
      have hx : r .x < 2 := h .x
      have hy : r .y < 1 := h .y
      have hz : r .z < 1 := h .z
      have : r .x = 0 ∨ r .x = 1 := by omega
      rcases this with e | e
      · right; funext a; cases a <;> simp [ffr] <;> omega
      · left; funext a; cases a <;> simp [ffr] <;> omega

/-- C100, content of a file. For every decomposition of the domain, every number of guard cells, every content of the arrays, every
order of the processes and every order in which their elements reach the file: no process faults, the file starts with the limits and
the numbers of cells of the domain, the value at every local point that a process does not share with one above is at the byte of the
corresponding global point, every global point has exactly one such process and local point, and no other byte is touched. -/
theorem C100_file (D : Domain) (P : Decomp) (h : P.Of D) (g : Ax → ℤ) (hg : ∀ a, 0 ≤ g a) (mem : (Ax → ℕ) → ℤ → ℝ)
    (ps : List (Ax → ℕ)) (hps : P.Lists ps) (f : File) :
    ∃ ws, allWrites D g (ps.map (P.proc g mem)) = .ok ws ∧ ∀ order, order.Perm ws →
      HeaderIn (dumped f D order) D ∧
      (∀ r i, P.Has r → P.Own r i → Holds (dumped f D order) (D.byte (P.glob r i)) (.real (P.value g mem r i))) ∧
      ∀ b, b < 0 ∨ D.bytes ≤ b → dumped f D order b = f b := by
  obtain ⟨ws, e, hw⟩ := allWrites_ok h hg mem hps
  refine ⟨ws, e, fun order ho => ?_⟩
  have hw' : ∀ w, w ∈ order ↔ ∃ r i, P.Has r ∧ P.Own r i ∧ w = (D.byte (P.glob r i), Datum.real (P.value g mem r i)) :=
    fun w => ho.mem_iff.trans (hw w)
  have hh : ∀ {o d}, o + d.width ≤ 60 → Holds (stream f 0 (header D)) o d → Holds (dumped f D order) o d := by
    intro o d h1 h2 k k0 k1
    unfold dumped
    rw [putAll_out, h2 k k0 k1]
    intro w hw1
    obtain ⟨r, i, hr, hi, rfl⟩ := (hw' w).mp hw1
    have := (byte_bounds (glob_has h hr hi)).1
    left
    show o + k < D.byte _
    omega
  refine ⟨?_, ?_, ?_⟩
  · obtain ⟨h1, h2, h3, h4, h5, h6, h7, h8, h9⟩ := header_in f D
    exact ⟨hh (by norm_num [Datum.width]) h1, hh (by norm_num [Datum.width]) h2, hh (by norm_num [Datum.width]) h3,
      hh (by norm_num [Datum.width]) h4, hh (by norm_num [Datum.width]) h5, hh (by norm_num [Datum.width]) h6,
      hh (by norm_num [Datum.width]) h7, hh (by norm_num [Datum.width]) h8, hh (by norm_num [Datum.width]) h9⟩
  · intro r i hr hi
    refine putAll_in ((hw' (D.byte (P.glob r i), Datum.real (P.value g mem r i))).mpr ⟨r, i, hr, hi, rfl⟩) ?_
    intro v hv
    obtain ⟨s, j, hs, hj, rfl⟩ := (hw' v).mp hv
    rcases byte_apart (glob_has h hr hi) (glob_has h hs hj) with e | e | e
    · obtain ⟨rfl, rfl⟩ := owner_unique h hr hs hi hj e
      exact .inl rfl
    · exact .inr (.inl e)
    · exact .inr (.inr e)
  · intro b hb
    unfold dumped
    have hb60 : D.bytes ≤ b → 60 ≤ b := by
      intro h1
      have hc : ∀ a, 0 ≤ D.cells a := fun a => by
        have := cuts_mono (h a) (Nat.zero_le (P.R a)) le_rfl
        rw [(h a).1, (h a).2.2] at this
        exact this
      have := mul_nonneg (mul_nonneg (hc .x) (hc .y)) (hc .z)
      unfold Domain.bytes at h1
      omega
    rw [putAll_out, header_out f D (by rcases hb with hb | hb; exact .inl hb; exact .inr (hb60 hb))]
    intro w hw1
    obtain ⟨r, i, hr, hi, rfl⟩ := (hw' w).mp hw1
    obtain ⟨h1, h2⟩ := byte_bounds (glob_has h hr hi)
    rcases hb with hb | hb
    · left; show b < D.byte _; omega
    · right; show D.byte _ + 8 ≤ b; omega

/-- C100, owners. Every point of the global grid (without the last one in each direction) is a local point of exactly one process. -/
theorem C100_owner (D : Domain) (P : Decomp) (h : P.Of D) (I : I3) (hI : D.Has I) :
    ∃! p : (Ax → ℕ) × I3, P.Has p.1 ∧ P.Own p.1 p.2 ∧ P.glob p.1 p.2 = I := by
  obtain ⟨r, i, hr, hi, e⟩ := owner_exists h hI
  refine ⟨(r, i), ⟨hr, hi, e⟩, ?_⟩
  rintro ⟨s, j⟩ ⟨hs, hj, e'⟩
  obtain ⟨h1, h2⟩ := owner_unique h hr hs hi hj (e.trans e'.symm)
  show (s, j) = (r, i)
  rw [h1, h2]

/-- In the example the file of a field that is 5 on the first process and 7 on the second has 5 at byte 60 and 7 at byte 68. -/
example (f : File) : ∃ ws, allWrites ffD (fun _ => 1) ([ffr 1, ffr 0].map (ffP.proc (fun _ => 1) fun r _ => if r .x = 0 then 5 else 7)) = .ok ws ∧
    Holds (dumped f ffD ws) 60 (.real 5) ∧ Holds (dumped f ffD ws) 68 (.real 7) := by
  obtain ⟨ws, e, h⟩ := C100_file ffD ffP ff_of (fun _ => 1) (fun _ => by norm_num) (fun r _ => if r .x = 0 then 5 else 7) _ ff_lists f
  obtain ⟨-, h2, -⟩ := h ws (List.Perm.refl _)
  have hh : ∀ x, x < 2 → ffP.Has (ffr x) := by
    intro x hx a
    cases a
    · exact hx
    · exact Nat.one_pos
    · exact Nat.one_pos
  have ho : ∀ x, ffP.Own (ffr x) ⟨0, 0, 0⟩ := by
    intro x
    simp [Decomp.Own, Decomp.n, ffP]
  refine ⟨ws, e, ?_, ?_⟩
  · have := h2 (ffr 0) ⟨0, 0, 0⟩ (hh 0 (by norm_num)) (ho 0)
    simpa [Decomp.value, Domain.byte, Decomp.glob, ffD, ffP, ffr] using this
  · have := h2 (ffr 1) ⟨0, 0, 0⟩ (hh 1 (by norm_num)) (ho 1)
    simpa [Decomp.value, Domain.byte, Decomp.glob, ffD, ffP, ffr] using this

/-- C100, independence of the decomposition. If the arrays of two runs, on different processes and with different guard cells, hold
the same field `G` of the global grid, the files are equal byte by byte. -/
theorem C100_decomposition (D : Domain) (hD : ∀ a, 1 ≤ D.cells a) (G : I3 → ℝ) (f : File)
    (P : Decomp) (h : P.Of D) (g : Ax → ℤ) (hg : ∀ a, 0 ≤ g a) (mem : (Ax → ℕ) → ℤ → ℝ) (ps : List (Ax → ℕ)) (hps : P.Lists ps)
    (hG : ∀ r i, P.Has r → P.Own r i → P.value g mem r i = G (P.glob r i))
    (P' : Decomp) (h' : P'.Of D) (g' : Ax → ℤ) (hg' : ∀ a, 0 ≤ g' a) (mem' : (Ax → ℕ) → ℤ → ℝ) (ps' : List (Ax → ℕ)) (hps' : P'.Lists ps')
    (hG' : ∀ r i, P'.Has r → P'.Own r i → P'.value g' mem' r i = G (P'.glob r i)) :
    ∃ ws ws', allWrites D g (ps.map (P.proc g mem)) = .ok ws ∧ allWrites D g' (ps'.map (P'.proc g' mem')) = .ok ws' ∧
      ∀ o o', o.Perm ws → o'.Perm ws' → dumped f D o = dumped f D o' := by
  obtain ⟨ws, e, hw⟩ := C100_file D P h g hg mem ps hps f
  obtain ⟨ws', e', hw'⟩ := C100_file D P' h' g' hg' mem' ps' hps' f
  refine ⟨ws, ws', e, e', fun o o' ho ho' => ?_⟩
  obtain ⟨a1, a2, a3⟩ := hw o ho
  obtain ⟨b1, b2, b3⟩ := hw' o' ho'
  funext b
  by_cases c1 : b < 0 ∨ D.bytes ≤ b
  · rw [a3 b c1, b3 b c1]
  by_cases c2 : 60 ≤ b
  · obtain ⟨I, k, hI, k0, k1, rfl⟩ := byte_cover hD c2 (by omega)
    obtain ⟨r, i, hr, hi, rfl⟩ := owner_exists h hI
    obtain ⟨s, j, hs, hj, e⟩ := owner_exists h' hI
    have x1 := a2 r i hr hi k k0 k1
    have x2 := b2 s j hs hj k k0 k1
    rw [hG r i hr hi] at x1
    rw [hG' s j hs hj, e] at x2
    rw [x1, x2]
  · have hh : ∀ {o d} {F F' : File}, Holds F o d → Holds F' o d → o ≤ b → b < o + d.width → F b = F' b := by
      intro o d F F' hF hF' h1 h2
      have x1 := hF (b - o) (by omega) (by omega)
      have x2 := hF' (b - o) (by omega) (by omega)
      rw [add_sub_cancel] at x1 x2
      rw [x1, x2]
    obtain ⟨p1, p2, p3, p4, p5, p6, p7, p8, p9⟩ := a1
    obtain ⟨q1, q2, q3, q4, q5, q6, q7, q8, q9⟩ := b1
    have : (0 ≤ b ∧ b < 8) ∨ (8 ≤ b ∧ b < 16) ∨ (16 ≤ b ∧ b < 20) ∨ (20 ≤ b ∧ b < 28) ∨ (28 ≤ b ∧ b < 36) ∨ (36 ≤ b ∧ b < 40) ∨
      (40 ≤ b ∧ b < 48) ∨ (48 ≤ b ∧ b < 56) ∨ (56 ≤ b ∧ b < 60) := by omega
    rcases this with ⟨u, v⟩ | ⟨u, v⟩ | ⟨u, v⟩ | ⟨u, v⟩ | ⟨u, v⟩ | ⟨u, v⟩ | ⟨u, v⟩ | ⟨u, v⟩ | ⟨u, v⟩
    · exact hh p1 q1 u v
    · exact hh p2 q2 u v
    · exact hh p3 q3 u v
    · exact hh p4 q4 u v
    · exact hh p5 q5 u v
    · exact hh p6 q6 u v
    · exact hh p7 q7 u v
    · exact hh p8 q8 u v
    · exact hh p9 q9 u v

/-- One process for the whole domain of the example is another decomposition. -/
example : (⟨fun _ => 1, fun a r => r * ffD.cells a⟩ : Decomp).Of ffD := by
  intro a
  refine ⟨by simp, fun r _ => ?_, by simp⟩
  cases a <;> simp [ffD]

/-- C100, start-up. With at most as many processes as cells in a direction, the split computed at start-up is such a decomposition:
`nx_global_grid_min` and `nx` of the process with coordinate `x` are `c x` and `c (x+1) - c x`. -/
theorem C100_split (ncells : ℤ) (nproc : ℕ) (hp : 1 ≤ nproc) (hc : (nproc : ℤ) ≤ ncells) :
    ∃ (s : Topology.Split) (c : ℕ → ℤ), Topology.split ncells nproc = .ok s ∧ CutsOf c nproc ncells ∧
      ∀ x : ℕ, x < nproc → s.cmin.get (x + 1) = .ok (c x) ∧ Topology.localCells s x = .ok (c (x + 1) - c x) := by
  obtain ⟨s, lo, hi, e, hg, hs⟩ := C52_split_partitions ncells nproc (by omega) (by omega)
  obtain ⟨s1, s2, s3, s4, s5, s6, s7⟩ := hs
  refine ⟨s, fun x => if x < nproc then lo (x + 1) else ncells, e, ⟨?_, ?_, ?_⟩, ?_⟩
  · show (if 0 < nproc then lo ((0 : ℕ) + 1) else ncells) = 0
    rw [if_pos (by omega)]
    simpa using s1
  · intro r hr
    have h1 := s7 hc (r + 1) (by omega) (by omega)
    show (if r < nproc then lo (r + 1) else ncells) < (if r + 1 < nproc then lo ((r + 1 : ℕ) + 1) else ncells)
    rw [if_pos hr]
    split_ifs with h2
    · have := s3 (r + 1) (by omega) (by omega)
      push_cast
      omega
    · have : (nproc : ℤ) = r + 1 := by omega
      rw [this] at s2
      omega
  · simp
  · intro x hx
    obtain ⟨g1, g2⟩ := hg (x + 1) (by omega) (by omega)
    simp only [if_pos hx]
    refine ⟨g1, ?_⟩
    unfold Topology.localCells
    rw [g1, g2]
    show Except.ok (hi (x + 1) + 1 - lo (x + 1) + 1 - 1) = _
    congr 1
    split_ifs with h2
    · have := s3 (x + 1) (by omega) (by omega)
      push_cast
      omega
    · have : (nproc : ℤ) = x + 1 := by omega
      rw [this] at s2
      omega

/-- Seven cells on three processes. -/
example : ∃ (s : Topology.Split) (c : ℕ → ℤ), Topology.split 7 (3 : ℕ) = .ok s ∧ CutsOf c 3 7 := by
  obtain ⟨s, c, h1, h2, -⟩ := C100_split 7 3 (by norm_num) (by norm_num)
  exact ⟨s, c, h1, h2⟩

/-- C100, a process without cells cannot take part: the creation of its datatype fails. -/
theorem C100_empty_process (D : Domain) (g : Ax → ℤ) (L : Local) (a : Ax) (h : L.n a < 1) : writesOf D g L = .error .exception := by
  have : gridType D.cells L.n L.gmin = .error .exception := by
    unfold gridType subarray
    rw [if_neg]
    intro H
    have := (H a (by cases a <;> simp)).1
    omega
  unfold writesOf
  rw [this]
  rfl

/-- With three processes for two cells one of them is empty. -/
example : ∃ s, Topology.split 2 3 = .ok s ∧ Topology.localCells s 0 = .ok 0 := ⟨_, rfl, by decide⟩

/-- C100, schedule. A quantity is dumped at step `it` exactly if it is selected and `it` is one of the steps
`stepMin, stepMin + freq, stepMin + 2 freq, ...` up to `stepMax`, for a frequency of at least 1. -/
theorem C100_schedule (flag : Q → ℤ) (freq stepMin stepMax it : ℤ) (q : Q) :
    q ∈ dumps flag freq stepMin stepMax it ↔ flag q = 1 ∧ 1 ≤ freq ∧ (∃ k : ℕ, it = stepMin + k * freq) ∧ it ≤ stepMax := by
  unfold dumps
  have hall : q ∈ Q.all := by cases q <;> decide
  split_ifs with h
  · obtain ⟨h1, h2, h3, h4⟩ := h
    simp only [List.mem_filter, hall, true_and, decide_eq_true_eq]
    refine ⟨fun hq => ⟨hq, h1, ?_, h3⟩, fun hq => hq.1⟩
    rw [Int.tmod_eq_emod_of_nonneg (by omega)] at h4
    obtain ⟨k, hk⟩ := Int.dvd_of_emod_eq_zero h4
    have hk0 : 0 ≤ k := by
      by_contra hn
      have : freq * k ≤ 1 * k := mul_le_mul_of_nonpos_right h1 (by omega)
      omega
    refine ⟨k.toNat, ?_⟩
    rw [Int.toNat_of_nonneg hk0, mul_comm]
    omega
  · refine ⟨fun hq => absurd hq List.not_mem_nil, ?_⟩
    rintro ⟨-, h1, ⟨k, rfl⟩, h3⟩
    refine absurd ⟨h1, ?_, h3, ?_⟩ h
    · have : 0 ≤ (k : ℤ) * freq := mul_nonneg (by omega) (by omega)
      omega
    · rw [add_sub_cancel_left, Int.mul_tmod_left]

/-- Every second step from step 10 on, up to 15: steps 10, 12 and 14. -/
example : (Picsar.Grid.irange 0 20).filter (fun it => Q.rho ∈ dumps (fun _ => 1) 2 10 15 it) = [10, 12, 14] := by decide

/-- C100, names. Up to step 99999 no two dumps, of different quantities or at different steps, go to the same file. -/
theorem C100_names_partial (q q' : Q) (it it' : ℕ) (h : it < 100000) (h' : it' < 100000) (e : fileName q it = fileName q' it') :
    q = q' ∧ it = it' := by
  unfold fileName at e
  have e := List.append_cancel_left e
  unfold i5 at e
  rw [if_pos ((decimal_length it).mpr h), if_pos ((decimal_length it').mpr h')] at e
  have hq : q = q' := by
    cases q <;> cases q' <;> first | rfl | simp [Q.base] at e
  subst hq
  refine ⟨rfl, decimal_inj ?_⟩
  have e := List.append_cancel_left e
  exact List.append_cancel_right e

example : fileName .rho 120 = "./RESULTS/rho120.pxr".toList := by decide

/-- C100, refuted from step 100000 on: all dumps of a quantity go to the same file, so that each one replaces the one before. -/
theorem C100_names_refuted (q : Q) (it it' : ℕ) (h : 100000 ≤ it) (h' : 100000 ≤ it') : fileName q it = fileName q it' := by
  unfold fileName i5
  rw [if_neg (by rw [decimal_length]; omega), if_neg (by rw [decimal_length]; omega)]

example : fileName .ex 100000 = "./RESULTS/ex*****.pxr".toList := by decide

/-- C100, refuted for the currents and the charge density, which are allocated with `njguards` guard cells but written with
`nguards`: with two guard cells for the currents and three for the fields the process reads past the end of the array; with two and
one it writes the value of a guard point in place of the value at point (0,0,0). -/
theorem C100_guards_refuted (mem : ℤ → ℝ) :
    writesOf ⟨fun _ => 0, fun _ => 1, fun _ => 1⟩ (fun _ => 3) ⟨fun _ => 1, fun _ => 0, ⟨fun _ => 1, fun _ => 2⟩, mem⟩ = .error .outOfBounds ∧
    writesOf ⟨fun _ => 0, fun _ => 1, fun _ => 1⟩ (fun _ => 1) ⟨fun _ => 1, fun _ => 0, ⟨fun _ => 1, fun _ => 2⟩, mem⟩ =
      .ok [(60, .real (mem ((⟨fun _ => 1, fun _ => 2⟩ : Fld).addr ⟨1, 1, -2⟩)))] := by
  constructor
  · unfold writesOf gridType gridSubarray
    rw [subarray_ok (by intro a; norm_num), subarray_ok (by intro a; norm_num)]
    simp only [except_bind_ok]
    have : ((box ⟨0, 0, 0⟩ ⟨(1 : ℤ) + 1 - 1 - 1, 1 + 1 - 1 - 1, 1 + 1 - 1 - 1⟩).map fun i : I3 =>
      (1 + 3 - 1 + i.j) + ((1 : ℤ) + 1 + 2 * 3) * ((1 + 3 - 1 + i.k) + (1 + 1 + 2 * 3) * (1 + 3 - 1 + i.l))) = [219] := by decide
    rw [this]
    have : Local.load ⟨fun _ => 1, fun _ => 0, ⟨fun _ => 1, fun _ => 2⟩, mem⟩ 219 = .error .outOfBounds := by
      unfold Local.load
      rw [if_neg]
      simp [Fld.total, Fld.sizes]
    simp [List.mapM_cons, this]
  · unfold writesOf gridType gridSubarray
    rw [subarray_ok (by intro a; norm_num), subarray_ok (by intro a; norm_num)]
    simp only [except_bind_ok]
    have : ((box ⟨0, 0, 0⟩ ⟨(1 : ℤ) + 1 - 1 - 1, 1 + 1 - 1 - 1, 1 + 1 - 1 - 1⟩).map fun i : I3 =>
      (1 + 1 - 1 + i.j) + ((1 : ℤ) + 1 + 2 * 1) * ((1 + 1 - 1 + i.k) + (1 + 1 + 2 * 1) * (1 + 1 - 1 + i.l))) = [21] := by decide
    rw [this]
    have : Local.load ⟨fun _ => 1, fun _ => 0, ⟨fun _ => 1, fun _ => 2⟩, mem⟩ 21 = .ok (mem 21) := by
      unfold Local.load
      rw [if_pos]
      simp [Fld.total, Fld.sizes]
    simp [List.mapM_cons, this]
    exact ⟨0, rfl, rfl⟩

end Picsar.Props
