import Verif.Spec.TableIO
import Mathlib.Tactic.Ring
import Mathlib.Tactic.Linarith

namespace Picsar.IO
variable {α : Type} {w : ℕ}

theorem leBytes_length : ∀ (k n : ℕ), (leBytes k n).length = k
  | 0, _ => rfl
  | k + 1, n => by simp [leBytes, leBytes_length k]

theorem leVal_leBytes : ∀ (k n : ℕ), leVal (leBytes k n) = n % 256 ^ k
  | 0, n => by simp [leBytes, leVal, Nat.mod_one]
  | k + 1, n => by
    rw [leBytes, leVal, leVal_leBytes k]
    have h : (UInt8.ofNat (n % 256)).toNat = n % 256 := by
      simp [UInt8.toNat_ofNat']
    rw [h, Nat.pow_succ, Nat.mul_comm, Nat.mod_mul_left_div_self_aux k n]
where
  Nat.mod_mul_left_div_self_aux (k n : ℕ) : n % 256 + (n / 256 % 256 ^ k) * 256 = n % (256 ^ k * 256) := by
    rw [Nat.mul_comm (256 ^ k), Nat.mod_mul]
    ring

theorem payload_map : ∀ (l : List UInt8), payload (l.map some) = .ok l
  | [] => rfl
  | b :: bs => by simp [payload, payload_map bs]

theorem enc_len (R : ObjRep α w) (l : List α) : (l.flatMap R.enc).length = w * l.length := by
  induction l with
  | nil => simp
  | cons a l ih => simp [List.flatMap_cons, R.enc_length, ih, Nat.mul_add, Nat.add_comm]

/-- The bytes written for a list of values. -/
def vecBytes (R : ObjRep α w) (l : List α) : List UInt8 := leBytes 8 l.length ++ l.flatMap R.enc

theorem writeVec_eq (R : ObjRep α w) {v : BVec} {l : List α} (h : v.HoldsVals R l) :
    writeVec v = .ok (vecBytes R l) := by
  unfold writeVec vecBytes
  rw [h.2, payload_map, h.1]; rfl

theorem read_append (a b : List UInt8) {n : ℕ} (h : a.length = n) :
    InStream.read ⟨a ++ b, false⟩ n = (a, ⟨b, false⟩) := by
  subst h
  simp [InStream.read]

theorem read_short (a : List UInt8) {n : ℕ} (h : a.length < n) :
    InStream.read ⟨a, false⟩ n = (a, ⟨[], true⟩) := by
  have : ¬ n ≤ a.length := by omega
  simp [InStream.read, this]

theorem readSize_eq {n : ℕ} (hn : n < 2 ^ 64) (rest : List UInt8) :
    readSize ⟨leBytes 8 n ++ rest, false⟩ = .ok (n, ⟨rest, false⟩) := by
  unfold readSize
  rw [read_append _ _ (leBytes_length 8 n)]
  have : n % 256 ^ 8 = n := Nat.mod_eq_of_lt (by simpa using hn)
  simp only [leBytes_length, if_true, leVal_leBytes, this]

theorem readVec_eq (R : ObjRep α w) {v : BVec} {l : List α} (hm : v.manage = true) (hl : Fits l)
    (rest : List UInt8) :
    ∃ v', readVec w v ⟨vecBytes R l ++ rest, false⟩ = .ok (v', ⟨rest, false⟩) ∧ v'.HoldsVals R l ∧
      v'.manage = true := by
  have hlen := enc_len R l
  refine ⟨⟨(l.flatMap R.enc).map some, l.length, true⟩, ?_, ⟨rfl, rfl⟩, rfl⟩
  unfold readVec
  have e : vecBytes R l ++ rest = leBytes 8 l.length ++ (l.flatMap R.enc ++ rest) := by
    simp [vecBytes, List.append_assoc]
  rw [e, readSize_eq hl]
  simp only [except_bind_ok, BVec.resize, hm, if_true]
  rw [read_append _ _ hlen]
  simp only [except_pure]
  congr 3
  rw [hlen, List.drop_of_length_le]
  · simp
  · simp; omega

theorem tab1_write (R : ObjRep α w) {t : Tab1} {c d : List α} (hc : t.coords.HoldsVals R c)
    (hd : t.data.HoldsVals R d) : t.write = .ok (vecBytes R c ++ vecBytes R d) := by
  unfold Tab1.write
  rw [writeVec_eq R hc, writeVec_eq R hd]; rfl

theorem tab2_write (R : ObjRep α w) {t : Tab2} {c c' d : List α} (hc : t.coords0.HoldsVals R c)
    (hc' : t.coords1.HoldsVals R c') (hd : t.data.HoldsVals R d) :
    t.write = .ok (vecBytes R c ++ vecBytes R c' ++ vecBytes R d) := by
  unfold Tab2.write
  rw [writeVec_eq R hc, writeVec_eq R hc', writeVec_eq R hd]; rfl

theorem tab1_read (R : ObjRep α w) {t : Tab1} {c d : List α} (m1 : t.coords.manage = true)
    (m2 : t.data.manage = true) (hc : Fits c) (hd : Fits d) (rest : List UInt8) :
    ∃ t', t.read w ⟨vecBytes R c ++ vecBytes R d ++ rest, false⟩ = .ok (t', ⟨rest, false⟩) ∧
      t'.coords.HoldsVals R c ∧ t'.data.HoldsVals R d ∧ t'.init = true := by
  obtain ⟨v1, e1, h1, _⟩ := readVec_eq R m1 hc (vecBytes R d ++ rest)
  obtain ⟨v2, e2, h2, _⟩ := readVec_eq R m2 hd rest
  refine ⟨⟨v1, v2, true⟩, ?_, h1, h2, rfl⟩
  unfold Tab1.read
  rw [List.append_assoc, e1]; simp only [except_bind_ok]
  rw [e2]; rfl

theorem tab2_read (R : ObjRep α w) {t : Tab2} {c c' d : List α} (m1 : t.coords0.manage = true)
    (m1' : t.coords1.manage = true) (m2 : t.data.manage = true) (hc : Fits c) (hc' : Fits c')
    (hd : Fits d) (rest : List UInt8) :
    ∃ t', t.read w ⟨vecBytes R c ++ vecBytes R c' ++ vecBytes R d ++ rest, false⟩
        = .ok (t', ⟨rest, false⟩) ∧
      t'.coords0.HoldsVals R c ∧ t'.coords1.HoldsVals R c' ∧ t'.data.HoldsVals R d ∧
      t'.init = true := by
  obtain ⟨v1, e1, h1, _⟩ := readVec_eq R m1 hc (vecBytes R c' ++ (vecBytes R d ++ rest))
  obtain ⟨v1', e1', h1', _⟩ := readVec_eq R m1' hc' (vecBytes R d ++ rest)
  obtain ⟨v2, e2, h2, _⟩ := readVec_eq R m2 hd rest
  refine ⟨⟨v1, v1', v2, true⟩, ?_, h1, h1', h2, rfl⟩
  unfold Tab2.read
  rw [List.append_assoc, List.append_assoc, e1]; simp only [except_bind_ok]
  rw [e1']; simp only [except_bind_ok]
  rw [e2]; rfl

/-! ### Short reads -/

theorem readSize_short {s : InStream} (h : s.failed = true ∨ s.rest.length < 8) :
    readSize s = .error .uninitialised := by
  unfold readSize InStream.read
  rcases h with h | h
  · simp [h]
  · by_cases hf : s.failed = true
    · simp [hf]
    · have : ¬ 8 ≤ s.rest.length := by omega
      have h' : s.rest.length ≠ 8 := by omega
      simp [hf, this, h']

/-- Reading one vector from a strict prefix of its bytes: fault in the header, or a failed stream and a vector
with indeterminate bytes. -/
theorem readVec_cut (R : ObjRep α w) {v : BVec} {l : List α} (hm : v.manage = true) (hl : Fits l)
    (k : ℕ) (hk : k < (vecBytes R l).length) :
    (k < 8 ∧ readVec w v ⟨(vecBytes R l).take k, false⟩ = .error .uninitialised) ∨
    (8 ≤ k ∧ ∃ v', readVec w v ⟨(vecBytes R l).take k, false⟩ = .ok (v', ⟨[], true⟩) ∧
      v'.size = l.length ∧ v'.bytes = ((l.flatMap R.enc).take (k - 8)).map some ++
        (v.bytes.take (w * l.length) ++
          List.replicate (w * l.length - v.bytes.length) none).drop (k - 8)) := by
  have hlen := enc_len R l
  have h8 := leBytes_length 8 l.length
  have hk' : k < 8 + w * l.length := by
    simpa [vecBytes, h8, hlen] using hk
  rcases Nat.lt_or_ge k 8 with h | h
  · refine .inl ⟨h, ?_⟩
    unfold readVec
    rw [readSize_short (.inr (by simp; omega))]; rfl
  · refine .inr ⟨h, ?_⟩
    have e : (vecBytes R l).take k = leBytes 8 l.length ++ (l.flatMap R.enc).take (k - 8) := by
      unfold vecBytes
      rw [List.take_append, h8, List.take_of_length_le (by omega)]
    rw [e]
    unfold readVec
    rw [readSize_eq hl]
    simp only [except_bind_ok, BVec.resize, hm, if_true]
    have hl2 : ((l.flatMap R.enc).take (k - 8)).length = k - 8 := by
      rw [List.length_take, hlen]; omega
    rw [read_short _ (by omega)]
    simp only [except_pure, hl2]
    exact ⟨_, rfl, rfl, rfl⟩

theorem readVec_failed {v : BVec} {s : InStream} (h : s.failed = true) :
    readVec w v s = .error .uninitialised := by
  unfold readVec
  rw [readSize_short (.inl h)]; rfl

end Picsar.IO
