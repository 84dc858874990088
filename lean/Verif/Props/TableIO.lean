import Verif.Lemmas.TableIO

/-
Property theorems C12–C13 (src/multi_physics/QED/src/lookup_tables.hpp:354-393, 694-746).
-/
namespace Picsar.Props
open Picsar Picsar.IO
variable {α : Type} {w : ℕ}

/-! ### C12 -/

/-- C12, 1-D: writing a table and reading it back into any table object yields the same coordinates and
data, marks the table as initialised and leaves the stream exactly after the table. -/
theorem C12_roundtrip_1d (R : ObjRep α w) (t t0 : Tab1) (c d : List α)
    (hc : t.coords.HoldsVals R c) (hd : t.data.HoldsVals R d) (fc : Fits c) (fd : Fits d)
    (m1 : t0.coords.manage = true) (m2 : t0.data.manage = true) :
    ∃ bs, t.write = .ok bs ∧ ∀ rest, ∃ t', t0.read w ⟨bs ++ rest, false⟩ = .ok (t', ⟨rest, false⟩) ∧
      t'.coords.HoldsVals R c ∧ t'.data.HoldsVals R d ∧ t'.init = true :=
  ⟨_, tab1_write R hc hd, fun rest => tab1_read R m1 m2 fc fd rest⟩

/-- C12, 2-D. -/
theorem C12_roundtrip_2d (R : ObjRep α w) (t t0 : Tab2) (c c' d : List α)
    (hc : t.coords0.HoldsVals R c) (hc' : t.coords1.HoldsVals R c') (hd : t.data.HoldsVals R d)
    (fc : Fits c) (fc' : Fits c') (fd : Fits d)
    (m1 : t0.coords0.manage = true) (m1' : t0.coords1.manage = true) (m2 : t0.data.manage = true) :
    ∃ bs, t.write = .ok bs ∧ ∀ rest, ∃ t', t0.read w ⟨bs ++ rest, false⟩ = .ok (t', ⟨rest, false⟩) ∧
      t'.coords0.HoldsVals R c ∧ t'.coords1.HoldsVals R c' ∧ t'.data.HoldsVals R d ∧ t'.init = true :=
  ⟨_, tab2_write R hc hc' hd, fun rest => tab2_read R m1 m1' m2 fc fc' fd rest⟩

/-- C12, any number of tables of both kinds written one after another on one stream: all are recovered. -/
theorem C12_roundtrip_sequence (R : ObjRep α w) (ts ts0 : List AnyTab) (cs : List (Content α))
    (h : List.Forall₂ (AnyTab.HoldsContent R) ts cs) (hf : ∀ c ∈ cs, c.Fits)
    (hk : List.Forall₂ SameKind ts ts0) (hm : ∀ t ∈ ts0, t.Managed) :
    ∃ bs, writeAll ts = .ok bs ∧ ∀ rest, ∃ ts', readAll w ts0 ⟨bs ++ rest, false⟩ = .ok (ts', ⟨rest, false⟩) ∧
      List.Forall₂ (AnyTab.HoldsContent R) ts' cs ∧ ∀ t ∈ ts', t.initFlag = true := by
  induction h generalizing ts0 with
  | nil =>
    cases hk
    exact ⟨[], rfl, fun rest => ⟨[], rfl, .nil, by simp⟩⟩
  | @cons t c ts cs ht _ ih =>
    cases hk with
    | @cons _ t0 _ ts0 hk1 hk2 =>
    obtain ⟨bs, hw, hr⟩ := ih ts0 (fun c hc => hf c (by simp [hc])) hk2 (fun t ht => hm t (by simp [ht]))
    have hfc := hf c (by simp)
    have hmt := hm t0 (by simp)
    cases t with
    | one t =>
      cases c with
      | two => exact ht.elim
      | one c d =>
      cases t0 with
      | two => exact hk1.elim
      | one t0 =>
      obtain ⟨b, hb, hrd⟩ := C12_roundtrip_1d R t t0 c d ht.1 ht.2 hfc.1 hfc.2 hmt.1 hmt.2
      refine ⟨b ++ bs, by rw [writeAll, hb, hw]; rfl, fun rest => ?_⟩
      obtain ⟨t', e1, h1, h2, h3⟩ := hrd (bs ++ rest)
      obtain ⟨ts', e2, h4, h5⟩ := hr rest
      refine ⟨.one t' :: ts', ?_, .cons ⟨h1, h2⟩ h4, ?_⟩
      · rw [readAll, List.append_assoc, e1]; simp only [except_bind_ok]; rw [e2]; rfl
      · simpa [AnyTab.initFlag, h3] using h5
    | two t =>
      cases c with
      | one => exact ht.elim
      | two c c' d =>
      cases t0 with
      | one => exact hk1.elim
      | two t0 =>
      obtain ⟨b, hb, hrd⟩ := C12_roundtrip_2d R t t0 c c' d ht.1 ht.2.1 ht.2.2 hfc.1 hfc.2.1 hfc.2.2
        hmt.1 hmt.2.1 hmt.2.2
      refine ⟨b ++ bs, by rw [writeAll, hb, hw]; rfl, fun rest => ?_⟩
      obtain ⟨t', e1, h1, h2, h3, h3'⟩ := hrd (bs ++ rest)
      obtain ⟨ts', e2, h4, h5⟩ := hr rest
      refine ⟨.two t' :: ts', ?_, .cons ⟨h1, h2, h3⟩ h4, ?_⟩
      · rw [readAll, List.append_assoc, e1]; simp only [except_bind_ok]; rw [e2]; rfl
      · simpa [AnyTab.initFlag, h3'] using h5

/-- C12 at the level of an engine: what `write_…_table` puts in a file, `read_…_table` restores, and the other
table of the engine is not touched. -/
theorem C12_engine_files (R : ObjRep α w) (e e0 : EngineTabs) (c d c0 c1 dd : List α)
    (h1 : AnyTab.HoldsContent R (.one e.dndt) (.one c d)) (f1 : (Content.one c d).Fits)
    (h2 : AnyTab.HoldsContent R (.two e.cum) (.two c0 c1 dd)) (f2 : (Content.two c0 c1 dd).Fits)
    (m1 : (AnyTab.one e0.dndt).Managed) (m2 : (AnyTab.two e0.cum).Managed) :
    (∃ file e', e.dndt.write = .ok file ∧ e0.readDnDt w file = .ok e' ∧
      AnyTab.HoldsContent R (.one e'.dndt) (.one c d) ∧ e'.dndt.init = true ∧ e'.cum = e0.cum) ∧
    (∃ file e', e.cum.write = .ok file ∧ e0.readCum w file = .ok e' ∧
      AnyTab.HoldsContent R (.two e'.cum) (.two c0 c1 dd) ∧ e'.cum.init = true ∧ e'.dndt = e0.dndt) := by
  constructor
  · obtain ⟨b, hb, hr⟩ := C12_roundtrip_1d R e.dndt e0.dndt c d h1.1 h1.2 f1.1 f1.2 m1.1 m1.2
    obtain ⟨t', e1, g1, g2, g3⟩ := hr []
    refine ⟨b, { e0 with dndt := t' }, hb, ?_, ⟨g1, g2⟩, g3, rfl⟩
    rw [List.append_nil] at e1
    rw [EngineTabs.readDnDt, e1]; rfl
  · obtain ⟨b, hb, hr⟩ := C12_roundtrip_2d R e.cum e0.cum c0 c1 dd h2.1 h2.2.1 h2.2.2 f2.1 f2.2.1 f2.2.2
      m2.1 m2.2.1 m2.2.2
    obtain ⟨t', e1, g1, g2, g3, g4⟩ := hr []
    refine ⟨b, { e0 with cum := t' }, hb, ?_, ⟨g1, g2, g3⟩, g4, rfl⟩
    rw [List.append_nil] at e1
    rw [EngineTabs.readCum, e1]; rfl

/-- A concrete object representation (one byte per element) and a concrete table, for the examples. -/
def byteRep : ObjRep UInt8 1 where
  enc a := [a]
  dec l := match l with | [] => 0 | a :: _ => a
  enc_length _ := rfl
  dec_enc _ := rfl

def exTab : Tab1 := ⟨⟨[some 1, some 2], 2, true⟩, ⟨[some 7, some 9], 2, true⟩, true⟩
def exEmpty : Tab1 := ⟨⟨[], 0, true⟩, ⟨[], 0, true⟩, false⟩

example : exTab.coords.HoldsVals byteRep [1, 2] ∧ exTab.data.HoldsVals byteRep [7, 9] ∧
    Fits ([1, 2] : List UInt8) ∧ exEmpty.coords.manage = true ∧ exEmpty.data.manage = true := by
  refine ⟨⟨rfl, rfl⟩, ⟨rfl, rfl⟩, by simp [Fits], rfl, rfl⟩

example : exTab.write = .ok [2, 0, 0, 0, 0, 0, 0, 0, 1, 2, 2, 0, 0, 0, 0, 0, 0, 0, 7, 9] := by decide

/-! ### C13 -/

/-- C13 (partial): reading a strictly shorter file than was written never completes cleanly: either the program
reads an indeterminate size or the stream is left in the failed state. Missing: the code looks at neither, so
the table is reported as initialised, see `C13_truncated_file_refuted`. -/
theorem C13_truncation_visible_in_stream_partial (R : ObjRep α w) (t0 : Tab1) (c d : List α)
    (fc : Fits c) (fd : Fits d) (m1 : t0.coords.manage = true) (m2 : t0.data.manage = true)
    (t : Tab1) (hc : t.coords.HoldsVals R c) (hd : t.data.HoldsVals R d) (file : List UInt8)
    (hfile : t.write = .ok file) (k : ℕ) (hk : k < file.length) :
    t0.read w ⟨file.take k, false⟩ = .error .uninitialised ∨
    ∃ t' s', t0.read w ⟨file.take k, false⟩ = .ok (t', s') ∧ s'.failed = true := by
  rw [tab1_write R hc hd] at hfile
  cases hfile
  rcases Nat.lt_or_ge k (vecBytes R c).length with h | h
  · rw [List.take_append_of_le_length (Nat.le_of_lt h)]
    left
    unfold Tab1.read
    rcases readVec_cut R m1 fc k h with ⟨_, e⟩ | ⟨_, v', e, _⟩
    · rw [e]; rfl
    · rw [e]; simp only [except_bind_ok]; rw [readVec_failed rfl]; rfl
  · rw [List.take_append, List.take_of_length_le h]
    obtain ⟨v1, e1, _⟩ := readVec_eq R m1 fc ((vecBytes R d).take (k - (vecBytes R c).length))
    rw [List.length_append] at hk
    unfold Tab1.read
    rw [e1]; simp only [except_bind_ok]
    rcases readVec_cut R m2 fd (k - (vecBytes R c).length) (by omega) with ⟨_, e⟩ | ⟨_, v', e, _⟩
    · rw [e]; exact .inl rfl
    · rw [e]; exact .inr ⟨_, _, rfl, rfl⟩

/-- C13 is false of the code: for every table with data, and for every crash point inside the data payload, the
engine reads the truncated file without complaint, and the table then reports itself as initialised although part
of its data is indeterminate memory. -/
theorem C13_truncated_file_refuted (R : ObjRep α w) (e0 : EngineTabs)
    (h0 : e0.dndt = exEmpty) (c d : List α)
    (fc : Fits c) (fd : Fits d) (t : Tab1) (hc : t.coords.HoldsVals R c) (hd : t.data.HoldsVals R d)
    (file : List UInt8) (hfile : t.write = .ok file) (k : ℕ) (hk : k < file.length)
    (hk2 : file.length - w * d.length ≤ k) :
    ∃ e', e0.readDnDt w (file.take k) = .ok e' ∧ e'.dndt.init = true ∧ e'.dndt.data.Indeterminate := by
  rw [tab1_write R hc hd] at hfile
  cases hfile
  have hlc : (vecBytes R c ++ vecBytes R d).length = (vecBytes R c).length + (8 + w * d.length) := by
    rw [List.length_append]
    simp [vecBytes, leBytes_length, enc_len R d]
  rw [hlc] at hk hk2
  have h : (vecBytes R c).length ≤ k := by omega
  have hlen := enc_len R d
  rw [List.take_append, List.take_of_length_le h]
  obtain ⟨v1, e1, _⟩ := readVec_eq R (v := e0.dndt.coords) (by rw [h0]; rfl) fc
    ((vecBytes R d).take (k - (vecBytes R c).length))
  rcases readVec_cut R (v := e0.dndt.data) (by rw [h0]; rfl) fd (k - (vecBytes R c).length)
    (by simp [vecBytes, leBytes_length, enc_len R d] at *; omega) with ⟨h8, _⟩ | ⟨_, v', e, _, hv'⟩
  · omega
  · refine ⟨{ e0 with dndt := ⟨v1, v', true⟩ }, ?_, rfl, ?_⟩
    · unfold EngineTabs.readDnDt Tab1.read
      rw [e1]; simp only [except_bind_ok]
      rw [e]; rfl
    · change none ∈ v'.bytes
      rw [hv', h0]
      refine List.mem_append_right _ ?_
      simp only [exEmpty, List.take_nil, List.nil_append, List.length_nil, Nat.sub_zero,
        List.drop_replicate]
      exact List.mem_replicate.mpr ⟨by omega, rfl⟩

/-- The hypotheses of the two theorems are met by the example table cut after 19 of its 20 bytes. -/
example : ∃ file, exTab.write = .ok file ∧ 19 < file.length ∧ file.length - 1 * [7, 9].length ≤ 19 :=
  ⟨_, rfl, by decide, by decide⟩

end Picsar.Props
