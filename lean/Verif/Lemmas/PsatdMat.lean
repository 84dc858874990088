import Verif.Model.PsatdMat
import Verif.Lemmas.PsatdFinal
import Mathlib.Algebra.BigOperators.Group.List.Basic

/-
The block matrix form of the pseudo-spectral push.
-/
set_option linter.unusedSectionVars false
set_option linter.unusedSimpArgs false

namespace Picsar.Psatd
open Picsar Finset Complex

variable {nx ny nz : ℕ}

theorem fullBlocks_per : ∀ ij, ij ∈ fullBlocks usefulPer 11 ↔ ij ∈ setPer := by
  intro ij
  have h1 : ∀ ij ∈ fullBlocks usefulPer 11, ij ∈ setPer := by decide +kernel
  have h2 : ∀ ij ∈ setPer, ij ∈ fullBlocks usefulPer 11 := by decide +kernel
  exact ⟨h1 ij, h2 ij⟩

theorem fullBlocks_abs : ∀ ij, ij ∈ fullBlocks usefulAbs 17 ↔ ij ∈ setAbs := by
  intro ij
  have h1 : ∀ ij ∈ fullBlocks usefulAbs 17, ij ∈ setAbs := by decide +kernel
  have h2 : ∀ ij ∈ setAbs, ij ∈ fullBlocks usefulAbs 17 := by decide +kernel
  exact ⟨h1 ij, h2 ij⟩

/-- The blocks of an initialised matrix. -/
def goodBlk (nx ny nz : ℕ) (m : ℕ → ℕ → ℕ → ℕ → ℕ → ℂ) (S : List (ℕ × ℕ)) (i j : ℕ) : Blk :=
  if (i, j) ∈ S then ⟨nx / 2 + 1, ny, nz, fun kx ky kz => m kx ky kz i j⟩ else ⟨1, 1, 1, fun _ _ _ => 0⟩

theorem assign_fold (m : ℕ → ℕ → ℕ → ℕ → ℕ → ℂ) (L : List (ℕ × ℕ)) (cc : ℕ → ℕ → Blk)
    (h : ∀ ij ∈ L, (cc ij.1 ij.2).Same ⟨nx / 2 + 1, ny, nz, fun _ _ _ => 0⟩) :
    L.foldlM (assign ⟨nx / 2 + 1, ny, nz, fun _ _ _ => 0⟩ m) cc =
      .ok fun i j => if (i, j) ∈ L then { cc i j with v := fun kx ky kz => m kx ky kz i j } else cc i j := by
  induction L generalizing cc with
  | nil => simp [pure, Except.pure]
  | cons ij L ih =>
    rw [List.foldlM_cons]
    unfold assign
    rw [if_pos (h ij (by simp))]
    simp only [except_bind_ok]
    change L.foldlM (assign _ m) _ = _
    rw [ih]
    · congr 1
      funext i j
      by_cases h1 : (i, j) ∈ L
      · by_cases h2 : (i, j) = ij <;> simp [h1, h2]
      · by_cases h2 : (i, j) = ij
        · simp [h1, h2]
        · simp [h1, h2]
    · intro ij' h'
      by_cases h2 : (ij'.1, ij'.2) = ij
      · simp only [if_pos h2]
        exact h ij' (by simp [h'])
      · simp only [if_neg h2]
        exact h ij' (by simp [h'])

theorem initBlocks_ok (P : Par) (split : Bool) (m : ℕ → ℕ → ℕ → ℕ → ℕ → ℂ) (hm : initValues P split nx ny nz = .ok m) :
    initBlocks P split nx ny nz = .ok (goodBlk nx ny nz m (if split then setAbs else setPer)) := by
  have hS : ∀ ij, ij ∈ (if split then fullBlocks usefulAbs 17 else fullBlocks usefulPer 11) ↔ ij ∈ (if split then setAbs else setPer) := by
    intro ij
    cases split
    · exact fullBlocks_per ij
    · exact fullBlocks_abs ij
  unfold initBlocks
  rw [hm]
  simp only [except_bind_ok]
  rw [assign_fold]
  · congr 1
    funext i j
    unfold goodBlk
    by_cases h : (i, j) ∈ (if split then setAbs else setPer)
    · rw [if_pos h, if_pos h]
      simp only [if_pos ((hS (i, j)).mpr h)]
    · rw [if_neg h, if_neg h]
      simp only [if_neg (mt (hS (i, j)).mp h)]
  · intro ij h
    simp only [if_pos ((hS (ij.1, ij.2)).mpr h)]
    exact ⟨rfl, rfl, rfl⟩

/-- What a block multiplies by. -/
def eff (m : ℕ → ℕ → ℕ → ℕ → ℕ → ℂ) (S : List (ℕ × ℕ)) (i j kx ky kz : ℕ) : ℂ := if (i, j) ∈ S then m kx ky kz i j else 0

theorem unit_ok (m : ℕ → ℕ → ℕ → ℕ → ℕ → ℂ) (S : List (ℕ × ℕ)) (u : ℕ → ℕ → ℕ → ℕ → ℂ) (i j : ℕ) (b : Blk)
    (hb : b.Same ⟨nx / 2 + 1, ny, nz, fun _ _ _ => 0⟩) :
    ∃ b', multiplyUnit b (oldVec nx ny nz u j) (goodBlk nx ny nz m S i j) = .ok b' ∧ b'.Same ⟨nx / 2 + 1, ny, nz, fun _ _ _ => 0⟩ ∧
      ∀ kx ky kz, kx ≤ nx / 2 → ky < ny → kz < nz → b'.v kx ky kz = b.v kx ky kz + eff m S i j kx ky kz * u j kx ky kz := by
  have add : ∀ x, ∃ b', addTo b (oldVec nx ny nz u j) x = .ok b' ∧ b'.Same ⟨nx / 2 + 1, ny, nz, fun _ _ _ => 0⟩ ∧
      ∀ kx ky kz, kx ≤ nx / 2 → ky < ny → kz < nz → b'.v kx ky kz = b.v kx ky kz + x kx ky kz := by
    intro x
    unfold addTo
    rw [if_pos (show b.Same (oldVec nx ny nz u j) from hb)]
    refine ⟨_, rfl, hb, fun kx ky kz h1 h2 h3 => ?_⟩
    exact if_pos ⟨show kx < nx / 2 + 1 by omega, h2, h3⟩
  unfold multiplyUnit
  by_cases h : (i, j) ∈ S
  · have e : goodBlk nx ny nz m S i j = ⟨nx / 2 + 1, ny, nz, fun kx ky kz => m kx ky kz i j⟩ := if_pos h
    have ev : ∀ kx ky kz, eff m S i j kx ky kz = m kx ky kz i j := fun kx ky kz => if_pos h
    rw [e]
    simp only [ev]
    split_ifs with h1 h2 h3 h4
    · have hz : m 0 0 0 i j = 0 := Complex.ext h2.1 h2.2
      refine ⟨b, rfl, hb, fun kx ky kz a1 a2 a3 => ?_⟩
      have c1 : nx / 2 + 1 = 1 := Nat.eq_one_of_mul_eq_one_right (Nat.eq_one_of_mul_eq_one_right h1)
      have c2 : ny = 1 := Nat.eq_one_of_mul_eq_one_left (Nat.eq_one_of_mul_eq_one_right h1)
      have c3 : nz = 1 := Nat.eq_one_of_mul_eq_one_left h1
      obtain rfl : kx = 0 := by omega
      obtain rfl : ky = 0 := by omega
      obtain rfl : kz = 0 := by omega
      rw [hz]
      simp
    · have hz : m 0 0 0 i j = 1 := Complex.ext h3.1 h3.2
      obtain ⟨b', e', s', v'⟩ := add (oldVec nx ny nz u j).v
      refine ⟨b', e', s', fun kx ky kz a1 a2 a3 => ?_⟩
      have c1 : nx / 2 + 1 = 1 := Nat.eq_one_of_mul_eq_one_right (Nat.eq_one_of_mul_eq_one_right h1)
      have c2 : ny = 1 := Nat.eq_one_of_mul_eq_one_left (Nat.eq_one_of_mul_eq_one_right h1)
      have c3 : nz = 1 := Nat.eq_one_of_mul_eq_one_left h1
      obtain rfl : kx = 0 := by omega
      obtain rfl : ky = 0 := by omega
      obtain rfl : kz = 0 := by omega
      rw [v' 0 0 0 a1 a2 a3, hz, one_mul]
      rfl
    · obtain ⟨b', e', s', v'⟩ := add fun i_1 j_1 k => (oldVec nx ny nz u j).v i_1 j_1 k * m 0 0 0 i j
      refine ⟨b', e', s', fun kx ky kz a1 a2 a3 => ?_⟩
      have c1 : nx / 2 + 1 = 1 := Nat.eq_one_of_mul_eq_one_right (Nat.eq_one_of_mul_eq_one_right h1)
      have c2 : ny = 1 := Nat.eq_one_of_mul_eq_one_left (Nat.eq_one_of_mul_eq_one_right h1)
      have c3 : nz = 1 := Nat.eq_one_of_mul_eq_one_left h1
      obtain rfl : kx = 0 := by omega
      obtain rfl : ky = 0 := by omega
      obtain rfl : kz = 0 := by omega
      rw [v' 0 0 0 a1 a2 a3, mul_comm]
      rfl
    · obtain ⟨b', e', s', v'⟩ := add fun i_1 j_1 k => (oldVec nx ny nz u j).v i_1 j_1 k * m i_1 j_1 k i j
      refine ⟨b', e', s', fun kx ky kz a1 a2 a3 => ?_⟩
      rw [v' kx ky kz a1 a2 a3, mul_comm]
      rfl
    · exact absurd ⟨rfl, rfl, rfl⟩ h4
  · have e : goodBlk nx ny nz m S i j = ⟨1, 1, 1, fun _ _ _ => 0⟩ := if_neg h
    rw [e]
    refine ⟨b, by simp, hb, fun kx ky kz _ _ _ => ?_⟩
    unfold eff
    rw [if_neg h]
    simp

theorem row_ok (m : ℕ → ℕ → ℕ → ℕ → ℕ → ℂ) (S : List (ℕ × ℕ)) (u : ℕ → ℕ → ℕ → ℕ → ℂ) (i : ℕ) (L : List ℕ) (b : Blk)
    (hb : b.Same ⟨nx / 2 + 1, ny, nz, fun _ _ _ => 0⟩) :
    ∃ b', L.foldlM (fun b icol => multiplyUnit b (oldVec nx ny nz u icol) (goodBlk nx ny nz m S i icol)) b = .ok b' ∧
      ∀ kx ky kz, kx ≤ nx / 2 → ky < ny → kz < nz →
        b'.v kx ky kz = b.v kx ky kz + (L.map fun j => eff m S i j kx ky kz * u j kx ky kz).sum := by
  induction L generalizing b with
  | nil => exact ⟨b, rfl, fun kx ky kz _ _ _ => by simp⟩
  | cons j L ih =>
    obtain ⟨b1, e1, s1, v1⟩ := unit_ok m S u i j b hb
    obtain ⟨b2, e2, v2⟩ := ih b1 s1
    refine ⟨b2, ?_, fun kx ky kz a1 a2 a3 => ?_⟩
    · rw [List.foldlM_cons, e1]
      simp only [except_bind_ok]
      exact e2
    · rw [v2 kx ky kz a1 a2 a3, v1 kx ky kz a1 a2 a3, List.map_cons, List.sum_cons, add_assoc]

theorem row_none (m : ℕ → ℕ → ℕ → ℕ → ℕ → ℂ) (S : List (ℕ × ℕ)) (vold : ℕ → Blk) (i : ℕ) (L : List ℕ) (b : Blk) (h : ∀ j ∈ L, (i, j) ∉ S) :
    L.foldlM (fun b icol => multiplyUnit b (vold icol) (goodBlk nx ny nz m S i icol)) b = .ok b := by
  induction L with
  | nil => rfl
  | cons j L ih =>
    rw [List.foldlM_cons]
    have e : goodBlk nx ny nz m S i j = ⟨1, 1, 1, fun _ _ _ => 0⟩ := if_neg (h j (by simp))
    have e1 : multiplyUnit b (vold j) (goodBlk nx ny nz m S i j) = .ok b := by
      rw [e]
      unfold multiplyUnit
      simp
    rw [e1]
    simp only [except_bind_ok]
    exact ih fun j hj => h j (by simp [hj])

theorem rows_fold (g : ℕ → Blk → Res Blk) (L : List ℕ) (hL : L.Nodup) (v : ℕ → Blk) (h : ℕ → Blk) (hg : ∀ r ∈ L, g r (v r) = .ok (h r)) :
    L.foldlM (fun (vnew : ℕ → Blk) irow => do
      let b ← g irow (vnew irow)
      (Except.ok fun i => if i = irow then b else vnew i : Res (ℕ → Blk))) v = .ok fun i => if i ∈ L then h i else v i := by
  induction L generalizing v with
  | nil => simp [pure, Except.pure]
  | cons r L ih =>
    rw [List.nodup_cons] at hL
    rw [List.foldlM_cons, hg r (by simp)]
    simp only [except_bind_ok]
    rw [ih hL.2]
    · congr 1
      funext i
      by_cases h1 : i ∈ L
      · simp [h1]
      · by_cases h2 : i = r
        · simp [h1, h2, hL.1]
        · simp [h1, h2]
    · intro r' hr'
      have : r' ≠ r := fun e => hL.1 (e ▸ hr')
      simp only [if_neg this]
      exact hg r' (by simp [hr'])

theorem multiply_ok (nb nv : ℕ) (m : ℕ → ℕ → ℕ → ℕ → ℕ → ℂ) (S : List (ℕ × ℕ)) (u last : ℕ → ℕ → ℕ → ℕ → ℂ)
    (hS : ∀ ij ∈ S, ij.1 ≤ nv) :
    ∃ w, multiplyMat nb (goodBlk nx ny nz m S) (oldVec nx ny nz u) (newVec nx ny nz nv last) = .ok w ∧
      ∀ i, 1 ≤ i → i ≤ nb → i ≤ nv → ∀ kx ky kz, kx ≤ nx / 2 → ky < ny → kz < nz →
        (w i).v kx ky kz = ((List.range' 1 nb).map fun j => eff m S i j kx ky kz * u j kx ky kz).sum := by
  have hrow : ∀ r, ∃ b, (List.range' 1 nb).foldlM (fun b icol => multiplyUnit b (oldVec nx ny nz u icol) (goodBlk nx ny nz m S r icol))
      { newVec nx ny nz nv last r with v := fun _ _ _ => 0 } = .ok b ∧ (r ≤ nv → ∀ kx ky kz, kx ≤ nx / 2 → ky < ny → kz < nz →
        b.v kx ky kz = ((List.range' 1 nb).map fun j => eff m S r j kx ky kz * u j kx ky kz).sum) := by
    intro r
    by_cases h : r ≤ nv
    · have e : newVec nx ny nz nv last r = ⟨nx / 2 + 1, ny, nz, last r⟩ := if_pos h
      obtain ⟨b, e1, v1⟩ := row_ok (nx := nx) m S u r (List.range' 1 nb) ⟨nx / 2 + 1, ny, nz, fun _ _ _ => 0⟩ ⟨rfl, rfl, rfl⟩
      refine ⟨b, ?_, fun _ kx ky kz a1 a2 a3 => ?_⟩
      · rw [e]
        exact e1
      · rw [v1 kx ky kz a1 a2 a3, zero_add]
    · exact ⟨_, row_none m S _ r _ _ fun j _ hj => h (hS _ hj), fun h' => absurd h' h⟩
  choose h h1 h2 using hrow
  refine ⟨_, rows_fold (fun r b => (List.range' 1 nb).foldlM (fun b icol => multiplyUnit b (oldVec nx ny nz u icol) (goodBlk nx ny nz m S r icol))
      { b with v := fun _ _ _ => 0 }) (List.range' 1 nb) List.nodup_range' _ h (fun r _ => h1 r), ?_⟩
  intro i i1 i2 i3 kx ky kz a1 a2 a3
  have : i ∈ List.range' 1 nb := by rw [List.mem_range'_1]; omega
  simp only [if_pos this]
  exact h2 i i3 kx ky kz a1 a2 a3

/-! The values at one mode. -/

theorem ccMat_zero (P : Par) (k : Kv) (o : Ops) (i j : ℕ) (h : (i, j) ∉ setPer) : ccMat P k o i j = 0 := by
  unfold ccMat
  split <;> first | rfl | exact absurd (by decide) h

theorem ccSplit_zero (P : Par) (k : Kv) (o : Ops) (i j : ℕ) (h : (i, j) ∉ setAbs) : ccSplit P k o i j = 0 := by
  unfold ccSplit
  split <;> first | rfl | exact absurd (by decide) h

theorem ccM1 (P : Par) (k : Kv) (o : Ops) : ccMat P k o 1 1 = o.C ∧
    ccMat P k o 1 2 = 0 ∧
    ccMat P k o 1 3 = 0 ∧
    ccMat P k o 1 4 = 0 ∧
    ccMat P k o 1 5 = -I * k.f 2 * P.c * o.S ∧
    ccMat P k o 1 6 = I * k.f 1 * P.c * o.S ∧
    ccMat P k o 1 7 = (-1) * P.c * P.mu0 * o.S ∧
    ccMat P k o 1 8 = 0 ∧
    ccMat P k o 1 9 = 0 ∧
    ccMat P k o 1 10 = ccMat.rhoOld P k o 0 ∧
    ccMat P k o 1 11 = ccMat.rhoNew P k o 0 := by
  refine ⟨?_, ?_, ?_, ?_, ?_, ?_, ?_, ?_, ?_, ?_, ?_⟩ <;> rfl

theorem ccM2 (P : Par) (k : Kv) (o : Ops) : ccMat P k o 2 1 = 0 ∧
    ccMat P k o 2 2 = o.C ∧
    ccMat P k o 2 3 = 0 ∧
    ccMat P k o 2 4 = I * k.f 2 * P.c * o.S ∧
    ccMat P k o 2 5 = 0 ∧
    ccMat P k o 2 6 = -I * k.f 0 * P.c * o.S ∧
    ccMat P k o 2 7 = 0 ∧
    ccMat P k o 2 8 = (-1) * P.c * P.mu0 * o.S ∧
    ccMat P k o 2 9 = 0 ∧
    ccMat P k o 2 10 = ccMat.rhoOld P k o 1 ∧
    ccMat P k o 2 11 = ccMat.rhoNew P k o 1 := by
  refine ⟨?_, ?_, ?_, ?_, ?_, ?_, ?_, ?_, ?_, ?_, ?_⟩ <;> rfl

theorem ccM3 (P : Par) (k : Kv) (o : Ops) : ccMat P k o 3 1 = 0 ∧
    ccMat P k o 3 2 = 0 ∧
    ccMat P k o 3 3 = o.C ∧
    ccMat P k o 3 4 = -I * k.f 1 * P.c * o.S ∧
    ccMat P k o 3 5 = I * k.f 0 * P.c * o.S ∧
    ccMat P k o 3 6 = 0 ∧
    ccMat P k o 3 7 = 0 ∧
    ccMat P k o 3 8 = 0 ∧
    ccMat P k o 3 9 = (-1) * P.c * P.mu0 * o.S ∧
    ccMat P k o 3 10 = ccMat.rhoOld P k o 2 ∧
    ccMat P k o 3 11 = ccMat.rhoNew P k o 2 := by
  refine ⟨?_, ?_, ?_, ?_, ?_, ?_, ?_, ?_, ?_, ?_, ?_⟩ <;> rfl

theorem ccM4 (P : Par) (k : Kv) (o : Ops) : ccMat P k o 4 1 = 0 ∧
    ccMat P k o 4 2 = I * k.b 2 / P.c * o.S ∧
    ccMat P k o 4 3 = -I * k.b 1 / P.c * o.S ∧
    ccMat P k o 4 4 = o.C ∧
    ccMat P k o 4 5 = 0 ∧
    ccMat P k o 4 6 = 0 ∧
    ccMat P k o 4 7 = 0 ∧
    ccMat P k o 4 8 = -P.mu0 * I * k.b 2 * o.A ∧
    ccMat P k o 4 9 = -P.mu0 * (-I) * k.b 1 * o.A ∧
    ccMat P k o 4 10 = 0 ∧
    ccMat P k o 4 11 = 0 := by
  refine ⟨?_, ?_, ?_, ?_, ?_, ?_, ?_, ?_, ?_, ?_, ?_⟩ <;> rfl

theorem ccM5 (P : Par) (k : Kv) (o : Ops) : ccMat P k o 5 1 = -I * k.b 2 / P.c * o.S ∧
    ccMat P k o 5 2 = 0 ∧
    ccMat P k o 5 3 = I * k.b 0 / P.c * o.S ∧
    ccMat P k o 5 4 = 0 ∧
    ccMat P k o 5 5 = o.C ∧
    ccMat P k o 5 6 = 0 ∧
    ccMat P k o 5 7 = -P.mu0 * (-I) * k.b 2 * o.A ∧
    ccMat P k o 5 8 = 0 ∧
    ccMat P k o 5 9 = -P.mu0 * I * k.b 0 * o.A ∧
    ccMat P k o 5 10 = 0 ∧
    ccMat P k o 5 11 = 0 := by
  refine ⟨?_, ?_, ?_, ?_, ?_, ?_, ?_, ?_, ?_, ?_, ?_⟩ <;> rfl

theorem ccM6 (P : Par) (k : Kv) (o : Ops) : ccMat P k o 6 1 = I * k.b 1 / P.c * o.S ∧
    ccMat P k o 6 2 = -I * k.b 0 / P.c * o.S ∧
    ccMat P k o 6 3 = 0 ∧
    ccMat P k o 6 4 = 0 ∧
    ccMat P k o 6 5 = 0 ∧
    ccMat P k o 6 6 = o.C ∧
    ccMat P k o 6 7 = -P.mu0 * I * k.b 1 * o.A ∧
    ccMat P k o 6 8 = -P.mu0 * (-I) * k.b 0 * o.A ∧
    ccMat P k o 6 9 = 0 ∧
    ccMat P k o 6 10 = 0 ∧
    ccMat P k o 6 11 = 0 := by
  refine ⟨?_, ?_, ?_, ?_, ?_, ?_, ?_, ?_, ?_, ?_, ?_⟩ <;> rfl

theorem ccS1 (P : Par) (k : Kv) (o : Ops) : ccSplit P k o 1 1 = o.C ∧
    ccSplit P k o 1 2 = 0 ∧
    ccSplit P k o 1 3 = 0 ∧
    ccSplit P k o 1 4 = 0 ∧
    ccSplit P k o 1 5 = 0 ∧
    ccSplit P k o 1 6 = 0 ∧
    ccSplit P k o 1 7 = 0 ∧
    ccSplit P k o 1 8 = 0 ∧
    ccSplit P k o 1 9 = 0 ∧
    ccSplit P k o 1 10 = 0 ∧
    ccSplit P k o 1 11 = I * k.f 1 * P.c * o.S ∧
    ccSplit P k o 1 12 = I * k.f 1 * P.c * o.S ∧
    ccSplit P k o 1 13 = (-1) * P.c * P.mu0 * o.S ∧
    ccSplit P k o 1 14 = 0 ∧
    ccSplit P k o 1 15 = 0 ∧
    ccSplit P k o 1 16 = ccSplit.rhoOld P k o 0 ∧
    ccSplit P k o 1 17 = ccSplit.rhoNew P k o 0 := by
  refine ⟨?_, ?_, ?_, ?_, ?_, ?_, ?_, ?_, ?_, ?_, ?_, ?_, ?_, ?_, ?_, ?_, ?_⟩ <;> rfl

theorem ccS2 (P : Par) (k : Kv) (o : Ops) : ccSplit P k o 2 1 = 0 ∧
    ccSplit P k o 2 2 = o.C ∧
    ccSplit P k o 2 3 = 0 ∧
    ccSplit P k o 2 4 = 0 ∧
    ccSplit P k o 2 5 = 0 ∧
    ccSplit P k o 2 6 = 0 ∧
    ccSplit P k o 2 7 = 0 ∧
    ccSplit P k o 2 8 = 0 ∧
    ccSplit P k o 2 9 = -I * k.f 2 * P.c * o.S ∧
    ccSplit P k o 2 10 = -I * k.f 2 * P.c * o.S ∧
    ccSplit P k o 2 11 = 0 ∧
    ccSplit P k o 2 12 = 0 ∧
    ccSplit P k o 2 13 = 0 ∧
    ccSplit P k o 2 14 = 0 ∧
    ccSplit P k o 2 15 = 0 ∧
    ccSplit P k o 2 16 = 0 ∧
    ccSplit P k o 2 17 = 0 := by
  refine ⟨?_, ?_, ?_, ?_, ?_, ?_, ?_, ?_, ?_, ?_, ?_, ?_, ?_, ?_, ?_, ?_, ?_⟩ <;> rfl

theorem ccS3 (P : Par) (k : Kv) (o : Ops) : ccSplit P k o 3 1 = 0 ∧
    ccSplit P k o 3 2 = 0 ∧
    ccSplit P k o 3 3 = o.C ∧
    ccSplit P k o 3 4 = 0 ∧
    ccSplit P k o 3 5 = 0 ∧
    ccSplit P k o 3 6 = 0 ∧
    ccSplit P k o 3 7 = 0 ∧
    ccSplit P k o 3 8 = 0 ∧
    ccSplit P k o 3 9 = 0 ∧
    ccSplit P k o 3 10 = 0 ∧
    ccSplit P k o 3 11 = -I * k.f 0 * P.c * o.S ∧
    ccSplit P k o 3 12 = -I * k.f 0 * P.c * o.S ∧
    ccSplit P k o 3 13 = 0 ∧
    ccSplit P k o 3 14 = (-1) * P.c * P.mu0 * o.S ∧
    ccSplit P k o 3 15 = 0 ∧
    ccSplit P k o 3 16 = ccSplit.rhoOld P k o 1 ∧
    ccSplit P k o 3 17 = ccSplit.rhoNew P k o 1 := by
  refine ⟨?_, ?_, ?_, ?_, ?_, ?_, ?_, ?_, ?_, ?_, ?_, ?_, ?_, ?_, ?_, ?_, ?_⟩ <;> rfl

theorem ccS4 (P : Par) (k : Kv) (o : Ops) : ccSplit P k o 4 1 = 0 ∧
    ccSplit P k o 4 2 = 0 ∧
    ccSplit P k o 4 3 = 0 ∧
    ccSplit P k o 4 4 = o.C ∧
    ccSplit P k o 4 5 = 0 ∧
    ccSplit P k o 4 6 = 0 ∧
    ccSplit P k o 4 7 = I * k.f 2 * P.c * o.S ∧
    ccSplit P k o 4 8 = I * k.f 2 * P.c * o.S ∧
    ccSplit P k o 4 9 = 0 ∧
    ccSplit P k o 4 10 = 0 ∧
    ccSplit P k o 4 11 = 0 ∧
    ccSplit P k o 4 12 = 0 ∧
    ccSplit P k o 4 13 = 0 ∧
    ccSplit P k o 4 14 = 0 ∧
    ccSplit P k o 4 15 = 0 ∧
    ccSplit P k o 4 16 = 0 ∧
    ccSplit P k o 4 17 = 0 := by
  refine ⟨?_, ?_, ?_, ?_, ?_, ?_, ?_, ?_, ?_, ?_, ?_, ?_, ?_, ?_, ?_, ?_, ?_⟩ <;> rfl

theorem ccS5 (P : Par) (k : Kv) (o : Ops) : ccSplit P k o 5 1 = 0 ∧
    ccSplit P k o 5 2 = 0 ∧
    ccSplit P k o 5 3 = 0 ∧
    ccSplit P k o 5 4 = 0 ∧
    ccSplit P k o 5 5 = o.C ∧
    ccSplit P k o 5 6 = 0 ∧
    ccSplit P k o 5 7 = 0 ∧
    ccSplit P k o 5 8 = 0 ∧
    ccSplit P k o 5 9 = I * k.f 0 * P.c * o.S ∧
    ccSplit P k o 5 10 = I * k.f 0 * P.c * o.S ∧
    ccSplit P k o 5 11 = 0 ∧
    ccSplit P k o 5 12 = 0 ∧
    ccSplit P k o 5 13 = 0 ∧
    ccSplit P k o 5 14 = 0 ∧
    ccSplit P k o 5 15 = (-1) * P.c * P.mu0 * o.S ∧
    ccSplit P k o 5 16 = ccSplit.rhoOld P k o 2 ∧
    ccSplit P k o 5 17 = ccSplit.rhoNew P k o 2 := by
  refine ⟨?_, ?_, ?_, ?_, ?_, ?_, ?_, ?_, ?_, ?_, ?_, ?_, ?_, ?_, ?_, ?_, ?_⟩ <;> rfl

theorem ccS6 (P : Par) (k : Kv) (o : Ops) : ccSplit P k o 6 1 = 0 ∧
    ccSplit P k o 6 2 = 0 ∧
    ccSplit P k o 6 3 = 0 ∧
    ccSplit P k o 6 4 = 0 ∧
    ccSplit P k o 6 5 = 0 ∧
    ccSplit P k o 6 6 = o.C ∧
    ccSplit P k o 6 7 = -I * k.f 1 * P.c * o.S ∧
    ccSplit P k o 6 8 = -I * k.f 1 * P.c * o.S ∧
    ccSplit P k o 6 9 = 0 ∧
    ccSplit P k o 6 10 = 0 ∧
    ccSplit P k o 6 11 = 0 ∧
    ccSplit P k o 6 12 = 0 ∧
    ccSplit P k o 6 13 = 0 ∧
    ccSplit P k o 6 14 = 0 ∧
    ccSplit P k o 6 15 = 0 ∧
    ccSplit P k o 6 16 = 0 ∧
    ccSplit P k o 6 17 = 0 := by
  refine ⟨?_, ?_, ?_, ?_, ?_, ?_, ?_, ?_, ?_, ?_, ?_, ?_, ?_, ?_, ?_, ?_, ?_⟩ <;> rfl

theorem ccS7 (P : Par) (k : Kv) (o : Ops) : ccSplit P k o 7 1 = 0 ∧
    ccSplit P k o 7 2 = 0 ∧
    ccSplit P k o 7 3 = 0 ∧
    ccSplit P k o 7 4 = 0 ∧
    ccSplit P k o 7 5 = -I * k.b 1 / P.c * o.S ∧
    ccSplit P k o 7 6 = -I * k.b 1 / P.c * o.S ∧
    ccSplit P k o 7 7 = o.C ∧
    ccSplit P k o 7 8 = 0 ∧
    ccSplit P k o 7 9 = 0 ∧
    ccSplit P k o 7 10 = 0 ∧
    ccSplit P k o 7 11 = 0 ∧
    ccSplit P k o 7 12 = 0 ∧
    ccSplit P k o 7 13 = 0 ∧
    ccSplit P k o 7 14 = -P.mu0 * I * k.b 2 * o.A ∧
    ccSplit P k o 7 15 = -P.mu0 * (-I) * k.b 1 * o.A ∧
    ccSplit P k o 7 16 = 0 ∧
    ccSplit P k o 7 17 = 0 := by
  refine ⟨?_, ?_, ?_, ?_, ?_, ?_, ?_, ?_, ?_, ?_, ?_, ?_, ?_, ?_, ?_, ?_, ?_⟩ <;> rfl

theorem ccS8 (P : Par) (k : Kv) (o : Ops) : ccSplit P k o 8 1 = 0 ∧
    ccSplit P k o 8 2 = 0 ∧
    ccSplit P k o 8 3 = I * k.b 2 / P.c * o.S ∧
    ccSplit P k o 8 4 = I * k.b 2 / P.c * o.S ∧
    ccSplit P k o 8 5 = 0 ∧
    ccSplit P k o 8 6 = 0 ∧
    ccSplit P k o 8 7 = 0 ∧
    ccSplit P k o 8 8 = o.C ∧
    ccSplit P k o 8 9 = 0 ∧
    ccSplit P k o 8 10 = 0 ∧
    ccSplit P k o 8 11 = 0 ∧
    ccSplit P k o 8 12 = 0 ∧
    ccSplit P k o 8 13 = 0 ∧
    ccSplit P k o 8 14 = 0 ∧
    ccSplit P k o 8 15 = 0 ∧
    ccSplit P k o 8 16 = 0 ∧
    ccSplit P k o 8 17 = 0 := by
  refine ⟨?_, ?_, ?_, ?_, ?_, ?_, ?_, ?_, ?_, ?_, ?_, ?_, ?_, ?_, ?_, ?_, ?_⟩ <;> rfl

theorem ccS9 (P : Par) (k : Kv) (o : Ops) : ccSplit P k o 9 1 = 0 ∧
    ccSplit P k o 9 2 = 0 ∧
    ccSplit P k o 9 3 = 0 ∧
    ccSplit P k o 9 4 = 0 ∧
    ccSplit P k o 9 5 = I * k.b 0 / P.c * o.S ∧
    ccSplit P k o 9 6 = I * k.b 0 / P.c * o.S ∧
    ccSplit P k o 9 7 = 0 ∧
    ccSplit P k o 9 8 = 0 ∧
    ccSplit P k o 9 9 = o.C ∧
    ccSplit P k o 9 10 = 0 ∧
    ccSplit P k o 9 11 = 0 ∧
    ccSplit P k o 9 12 = 0 ∧
    ccSplit P k o 9 13 = -P.mu0 * (-I) * k.b 2 * o.A ∧
    ccSplit P k o 9 14 = 0 ∧
    ccSplit P k o 9 15 = -P.mu0 * I * k.b 0 * o.A ∧
    ccSplit P k o 9 16 = 0 ∧
    ccSplit P k o 9 17 = 0 := by
  refine ⟨?_, ?_, ?_, ?_, ?_, ?_, ?_, ?_, ?_, ?_, ?_, ?_, ?_, ?_, ?_, ?_, ?_⟩ <;> rfl

theorem ccS10 (P : Par) (k : Kv) (o : Ops) : ccSplit P k o 10 1 = -I * k.b 2 / P.c * o.S ∧
    ccSplit P k o 10 2 = -I * k.b 2 / P.c * o.S ∧
    ccSplit P k o 10 3 = 0 ∧
    ccSplit P k o 10 4 = 0 ∧
    ccSplit P k o 10 5 = 0 ∧
    ccSplit P k o 10 6 = 0 ∧
    ccSplit P k o 10 7 = 0 ∧
    ccSplit P k o 10 8 = 0 ∧
    ccSplit P k o 10 9 = 0 ∧
    ccSplit P k o 10 10 = o.C ∧
    ccSplit P k o 10 11 = 0 ∧
    ccSplit P k o 10 12 = 0 ∧
    ccSplit P k o 10 13 = 0 ∧
    ccSplit P k o 10 14 = 0 ∧
    ccSplit P k o 10 15 = 0 ∧
    ccSplit P k o 10 16 = 0 ∧
    ccSplit P k o 10 17 = 0 := by
  refine ⟨?_, ?_, ?_, ?_, ?_, ?_, ?_, ?_, ?_, ?_, ?_, ?_, ?_, ?_, ?_, ?_, ?_⟩ <;> rfl

theorem ccS11 (P : Par) (k : Kv) (o : Ops) : ccSplit P k o 11 1 = 0 ∧
    ccSplit P k o 11 2 = 0 ∧
    ccSplit P k o 11 3 = -I * k.b 0 / P.c * o.S ∧
    ccSplit P k o 11 4 = -I * k.b 0 / P.c * o.S ∧
    ccSplit P k o 11 5 = 0 ∧
    ccSplit P k o 11 6 = 0 ∧
    ccSplit P k o 11 7 = 0 ∧
    ccSplit P k o 11 8 = 0 ∧
    ccSplit P k o 11 9 = 0 ∧
    ccSplit P k o 11 10 = 0 ∧
    ccSplit P k o 11 11 = o.C ∧
    ccSplit P k o 11 12 = 0 ∧
    ccSplit P k o 11 13 = -P.mu0 * I * k.b 1 * o.A ∧
    ccSplit P k o 11 14 = -P.mu0 * (-I) * k.b 0 * o.A ∧
    ccSplit P k o 11 15 = 0 ∧
    ccSplit P k o 11 16 = 0 ∧
    ccSplit P k o 11 17 = 0 := by
  refine ⟨?_, ?_, ?_, ?_, ?_, ?_, ?_, ?_, ?_, ?_, ?_, ?_, ?_, ?_, ?_, ?_, ?_⟩ <;> rfl

theorem ccS12 (P : Par) (k : Kv) (o : Ops) : ccSplit P k o 12 1 = I * k.b 1 / P.c * o.S ∧
    ccSplit P k o 12 2 = I * k.b 1 / P.c * o.S ∧
    ccSplit P k o 12 3 = 0 ∧
    ccSplit P k o 12 4 = 0 ∧
    ccSplit P k o 12 5 = 0 ∧
    ccSplit P k o 12 6 = 0 ∧
    ccSplit P k o 12 7 = 0 ∧
    ccSplit P k o 12 8 = 0 ∧
    ccSplit P k o 12 9 = 0 ∧
    ccSplit P k o 12 10 = 0 ∧
    ccSplit P k o 12 11 = 0 ∧
    ccSplit P k o 12 12 = o.C ∧
    ccSplit P k o 12 13 = 0 ∧
    ccSplit P k o 12 14 = 0 ∧
    ccSplit P k o 12 15 = 0 ∧
    ccSplit P k o 12 16 = 0 ∧
    ccSplit P k o 12 17 = 0 := by
  refine ⟨?_, ?_, ?_, ?_, ?_, ?_, ?_, ?_, ?_, ?_, ?_, ?_, ?_, ?_, ?_, ?_, ?_⟩ <;> rfl

theorem fold_modes_ok {A : Type} (g : ℕ × ℕ × ℕ → Res A) (L : List (ℕ × ℕ × ℕ)) (m r : ℕ → ℕ → ℕ → A)
    (h : L.foldlM (fun (m : ℕ → ℕ → ℕ → A) k => do
      let a ← g k
      (Except.ok fun kx ky kz => if (kx, ky, kz) = k then a else m kx ky kz : Res (ℕ → ℕ → ℕ → A))) m = .ok r) (k : ℕ × ℕ × ℕ) (hk : k ∈ L) :
    ∃ a, g k = .ok a := by
  induction L generalizing m with
  | nil => simp at hk
  | cons k' L ih =>
    rw [List.foldlM_cons] at h
    cases hg : g k' with
    | error e =>
      rw [hg] at h
      simp [bind, Except.bind] at h
    | ok a =>
      rw [hg] at h
      simp only [except_bind_ok] at h
      rcases List.mem_cons.mp hk with rfl | hk
      · exact ⟨a, hg⟩
      · exact ih _ h hk

/-- Merged and split coefficients belong to the same wave numbers and operators. -/
theorem init_both (P : Par) (m : ℕ → ℕ → ℕ → ℕ → ℕ → ℂ) (hm : initGpstd P nx ny nz = .ok m) :
    ∃ ms, initValues P true nx ny nz = .ok ms ∧ ∀ kx ky kz, kx ≤ nx / 2 → ky < ny → kz < nz → ∃ k o,
      (m kx ky kz = fun i j => 1 / ((nx * ny * nz : ℕ) : ℂ) * ccMat P k o i j) ∧
      (ms kx ky kz = fun i j => 1 / ((nx * ny * nz : ℕ) : ℂ) * ccSplit P k o i j) ∧
      (P.twoD = true → k.f 1 = 0 ∧ k.b 1 = 0) ∧ (o.sw = true → kx = 0 ∧ ky = 0 ∧ kz = 0) := by
  have hk : ∀ k ∈ modes nx ny nz, ∃ kv o, kspace P ![nx, ny, nz] ![k.1 + 1, k.2.1 + 1, k.2.2 + 1] = .ok kv ∧
      ops P kv.K (k.1 == 0 && k.2.1 == 0 && k.2.2 == 0) = .ok o := by
    intro k h
    obtain ⟨a, ha⟩ := fold_modes_ok (fun k => modeMat P nx ny nz k.1 k.2.1 k.2.2) (modes nx ny nz) _ m hm k h
    unfold modeMat at ha
    cases h1 : kspace P ![nx, ny, nz] ![k.1 + 1, k.2.1 + 1, k.2.2 + 1] with
    | error e =>
      rw [h1] at ha
      simp [bind, Except.bind] at ha
    | ok kv =>
      rw [h1] at ha
      simp only [except_bind_ok] at ha
      cases h2 : ops P kv.K (k.1 == 0 && k.2.1 == 0 && k.2.2 == 0) with
      | error e =>
        rw [h2] at ha
        simp [bind, Except.bind] at ha
      | ok o => exact ⟨kv, o, rfl, h2⟩
  have hk' : ∀ k : ℕ × ℕ × ℕ, ∃ kv o, k ∈ modes nx ny nz → kspace P ![nx, ny, nz] ![k.1 + 1, k.2.1 + 1, k.2.2 + 1] = .ok kv ∧
      ops P kv.K (k.1 == 0 && k.2.1 == 0 && k.2.2 == 0) = .ok o := by
    intro k
    by_cases h : k ∈ modes nx ny nz
    · obtain ⟨kv, o, h1⟩ := hk k h
      exact ⟨kv, o, fun _ => h1⟩
    · exact ⟨⟨0, 0, 0⟩, ⟨0, 0, 0, 0, false⟩, fun h' => absurd h' h⟩
  choose kv o hko using hk'
  have eM : initGpstd P nx ny nz = _ := fold_modes (fun k => modeMat P nx ny nz k.1 k.2.1 k.2.2)
    (fun k i j => 1 / ((nx * ny * nz : ℕ) : ℂ) * ccMat P (kv k) (o k) i j) (modes nx ny nz) (by
      intro k h
      obtain ⟨h1, h2⟩ := hko k h
      unfold modeMat
      rw [h1]
      simp only [except_bind_ok]
      rw [h2]
      rfl) _
  have eS : initValues P true nx ny nz = _ := fold_modes (fun k => modeSplit P nx ny nz k.1 k.2.1 k.2.2)
    (fun k i j => 1 / ((nx * ny * nz : ℕ) : ℂ) * ccSplit P (kv k) (o k) i j) (modes nx ny nz) (by
      intro k h
      obtain ⟨h1, h2⟩ := hko k h
      unfold modeSplit
      rw [h1]
      simp only [except_bind_ok]
      rw [h2]
      rfl) _
  refine ⟨_, eS, fun kx ky kz a1 a2 a3 => ?_⟩
  have hmem : (kx, ky, kz) ∈ modes nx ny nz := by
    unfold modes
    simp only [List.mem_flatMap, List.mem_map, List.mem_range, Prod.mk.injEq]
    exact ⟨kz, a3, ky, a2, kx, by omega, rfl, rfl, rfl⟩
  obtain ⟨h1, h2⟩ := hko (kx, ky, kz) hmem
  refine ⟨kv (kx, ky, kz), o (kx, ky, kz), ?_, ?_, ?_, ?_⟩
  · rw [eM] at hm
    have := Except.ok.inj hm
    rw [← this]
    simp only [if_pos hmem]
  · simp only [if_pos hmem]
  · intro h
    unfold kspace at h1
    cases c1 : k1d (![nx, ny, nz] 0) (P.norder 0) (P.d 0) P.stg (![kx + 1, ky + 1, kz + 1] 0) with
    | error e => rw [c1] at h1; simp [bind, Except.bind] at h1
    | ok x =>
      rw [c1] at h1
      simp only [except_bind_ok] at h1
      cases c2 : k1d (![nx, ny, nz] 1) (P.norder 1) (P.d 1) P.stg (![kx + 1, ky + 1, kz + 1] 1) with
      | error e => rw [c2] at h1; simp [bind, Except.bind] at h1
      | ok y =>
        rw [c2] at h1
        simp only [except_bind_ok] at h1
        cases c3 : k1d (![nx, ny, nz] 2) (P.norder 2) (P.d 2) P.stg (![kx + 1, ky + 1, kz + 1] 2) with
        | error e => rw [c3] at h1; simp [bind, Except.bind] at h1
        | ok z =>
          rw [c3] at h1
          simp only [except_bind_ok, h, if_true] at h1
          have := Except.ok.inj h1
          rw [← this]
          exact ⟨rfl, rfl⟩
  · intro h
    unfold ops at h2
    simp only [] at h2
    have : o (kx, ky, kz) = _ := (Except.ok.inj ((if_neg (fun hz => by rw [if_pos hz] at h2; exact absurd h2 (by simp))).symm.trans h2)).symm
    rw [this] at h
    simp at h
    exact ⟨h.1.1.1, h.1.1.2, h.1.2⟩

/-! The steps. -/

theorem c2r_add (U V : ℕ → ℕ → ℕ → ℂ) (p : Grid nx ny nz) : c2r U p + c2r V p = c2r (fun kx ky kz => U kx ky kz + V kx ky kz) p := by
  unfold c2r
  rw [← sum_add_distrib]
  refine sum_congr rfl fun kx _ => ?_
  rw [← mul_add]
  congr 1
  rw [← sum_add_distrib]
  refine sum_congr rfl fun ky _ => ?_
  rw [← sum_add_distrib]
  refine sum_congr rfl fun kz _ => ?_
  rw [add_mul, add_re]

variable [NeZero nx] [NeZero ny] [NeZero nz]

/-- At one mode the push in two dimensions has the same real part as the push in three. -/
theorem push2_push3 (P : Par) (k : Kv) (o : Ops) (M : ℝ) (E B J : Fin 3 → ℂ) (r rn b : ℂ) (f1 : k.f 1 = 0) (b1 : k.b 1 = 0)
    (hsw : o.sw = true → b = 1 ∧ r.im = 0 ∧ rn.im = 0) (i : Fin 3) :
    (((push2d (fun i j => M * ccMat P k o i j) E B J rn r).1 i * b).re = ((push3d (fun i j => M * ccMat P k o i j) E B J rn r).1 i * b).re) ∧
    (push2d (fun i j => M * ccMat P k o i j) E B J rn r).2 i = (push3d (fun i j => M * ccMat P k o i j) E B J rn r).2 i := by
  unfold push2d push3d
  constructor
  · fin_cases i
    all_goals simp only [ccM1, ccM2, ccM3, ccM4, ccM5, ccM6, f1, b1, Fin.zero_eta, Fin.mk_one, Fin.reduceFinMk, Matrix.cons_val_zero, Matrix.cons_val_one, Matrix.cons_val]
    · congr 2
      ring
    · cases hs : o.sw
      · congr 2
        simp only [ccMat.rhoOld, ccMat.rhoNew, hs, b1]
        simp
      · obtain ⟨rfl, h1, h2⟩ := hsw hs
        obtain ⟨r', rfl⟩ : ∃ r' : ℝ, r = r' := ⟨r.re, Complex.ext rfl (by simp [h1])⟩
        obtain ⟨n', rfl⟩ : ∃ r' : ℝ, rn = r' := ⟨rn.re, Complex.ext rfl (by simp [h2])⟩
        simp only [ccMat.rhoOld, ccMat.rhoNew, hs, if_true, mul_one]
        rw [show ∀ x : ℂ, x + (M : ℂ) * (1 / (P.eps0 : ℂ) * (-1 / 6 * I * ((P.c : ℂ) * P.dt) ^ 2)) * n' +
          (M : ℂ) * (1 / (P.eps0 : ℂ) * (-1 / 3 * I * ((P.c : ℂ) * P.dt) ^ 2)) * r' =
          x + ((M * (1 / P.eps0 * (-1 / 6 * (P.c * P.dt) ^ 2)) * n' + M * (1 / P.eps0 * (-1 / 3 * (P.c * P.dt) ^ 2)) * r' : ℝ) : ℂ) * I by
            intro x; push_cast; ring]
        generalize M * (1 / P.eps0 * (-1 / 6 * (P.c * P.dt) ^ 2)) * n' + M * (1 / P.eps0 * (-1 / 3 * (P.c * P.dt) ^ 2)) * r' = q
        simp
    · congr 2
      ring
  · fin_cases i
    all_goals simp only [ccM1, ccM2, ccM3, ccM4, ccM5, ccM6, f1, b1, Fin.zero_eta, Fin.mk_one, Fin.reduceFinMk, Matrix.cons_val_zero, Matrix.cons_val_one, Matrix.cons_val]
    all_goals ring

/-- The fields of a step are those of the push in three dimensions. -/
theorem step_eq3 (P : Par) (m : ℕ → ℕ → ℕ → ℕ → ℕ → ℂ) (hm : initGpstd P nx ny nz = .ok m) (F : EB nx ny nz) (J : Fin 3 → Grid nx ny nz → ℝ)
    (rho rhoold : Grid nx ny nz → ℝ) (i : Fin 3) (p : Grid nx ny nz) :
    (step P m F J rho rhoold).E i p = c2r (fun kx ky kz => (push3d (m kx ky kz) (fun i => r2c (F.E i) kx ky kz)
      (fun i => r2c (F.B i) kx ky kz) (fun i => r2c (J i) kx ky kz) (r2c rho kx ky kz) (r2c rhoold kx ky kz)).1 i) p ∧
    (step P m F J rho rhoold).B i p = c2r (fun kx ky kz => (push3d (m kx ky kz) (fun i => r2c (F.E i) kx ky kz)
      (fun i => r2c (F.B i) kx ky kz) (fun i => r2c (J i) kx ky kz) (r2c rho kx ky kz) (r2c rhoold kx ky kz)).2 i) p := by
  obtain ⟨ms, _, hk⟩ := init_both P m hm
  unfold step
  by_cases h2 : P.twoD = true
  · rw [if_pos h2]
    constructor
    · refine c2r_congr p fun kx ky kz a1 a2 a3 => ?_
      obtain ⟨k, o, e, _, y, sw⟩ := hk kx ky kz a1 a2 a3
      have := (push2_push3 P k o ((((nx * ny * nz : ℕ) : ℝ))⁻¹) (fun i => r2c (F.E i) kx ky kz) (fun i => r2c (F.B i) kx ky kz) (fun i => r2c (J i) kx ky kz)
        (r2c rhoold kx ky kz) (r2c rho kx ky kz) (basis kx ky kz p) (y h2).1 (y h2).2 (fun h => by
          obtain ⟨rfl, rfl, rfl⟩ := sw h
          rw [basis_000, r2c_zero, r2c_zero]
          exact ⟨rfl, ofReal_im _, ofReal_im _⟩) i).1
      simp only [ofReal_inv, ofReal_natCast] at this
      simp only [e, one_div]
      exact this
    · refine c2r_congr p fun kx ky kz a1 a2 a3 => ?_
      obtain ⟨k, o, e, _, y, sw⟩ := hk kx ky kz a1 a2 a3
      have := (push2_push3 P k o ((((nx * ny * nz : ℕ) : ℝ))⁻¹) (fun i => r2c (F.E i) kx ky kz) (fun i => r2c (F.B i) kx ky kz) (fun i => r2c (J i) kx ky kz)
        (r2c rhoold kx ky kz) (r2c rho kx ky kz) (basis kx ky kz p) (y h2).1 (y h2).2 (fun h => by
          obtain ⟨rfl, rfl, rfl⟩ := sw h
          rw [basis_000, r2c_zero, r2c_zero]
          exact ⟨rfl, ofReal_im _, ofReal_im _⟩) i).2
      simp only [ofReal_inv, ofReal_natCast] at this
      simp only [e, one_div]
      rw [this]
  · rw [if_neg h2]
    exact ⟨rfl, rfl⟩

theorem eff_per (P : Par) (m : ℕ → ℕ → ℕ → ℕ → ℕ → ℂ) (hm : initGpstd P nx ny nz = .ok m) (i j kx ky kz : ℕ) (a1 : kx ≤ nx / 2) (a2 : ky < ny) (a3 : kz < nz) :
    eff m setPer i j kx ky kz = m kx ky kz i j := by
  obtain ⟨ms, _, hk⟩ := init_both P m hm
  obtain ⟨k, o, e, _⟩ := hk kx ky kz a1 a2 a3
  unfold eff
  split_ifs with h
  · rfl
  · rw [e]
    simp only [ccMat_zero P k o i j h, mul_zero]

set_option maxHeartbeats 4000000 in
theorem stepMat_eq (P : Par) (m : ℕ → ℕ → ℕ → ℕ → ℕ → ℂ) (hm : initGpstd P nx ny nz = .ok m) (last : ℕ → ℕ → ℕ → ℕ → ℂ) (F : EB nx ny nz)
    (J : Fin 3 → Grid nx ny nz → ℝ) (rho rhoold : Grid nx ny nz → ℝ) :
    stepMat (goodBlk nx ny nz m setPer) last F J rho rhoold = .ok (step P m F J rho rhoold) := by
  unfold stepMat
  obtain ⟨w, ew, vw⟩ := multiply_ok (nx := nx) (ny := ny) (nz := nz) 11 6 m setPer (oldMerged F J rho rhoold) last (by decide)
  rw [ew]
  simp only [except_bind_ok]
  congr 1
  obtain ⟨ms, _, hk⟩ := init_both P m hm
  have row : ∀ i, 1 ≤ i → i ≤ 6 → ∀ kx ky kz, kx ≤ nx / 2 → ky < ny → kz < nz → ∃ k o, (m kx ky kz = fun i j => 1 / ((nx * ny * nz : ℕ) : ℂ) * ccMat P k o i j) ∧
      (w i).v kx ky kz = 1 / ((nx * ny * nz : ℕ) : ℂ) * ccMat P k o i 1 * r2c (F.E 0) kx ky kz + (1 / ((nx * ny * nz : ℕ) : ℂ) * ccMat P k o i 2 * r2c (F.E 1) kx ky kz +
        (1 / ((nx * ny * nz : ℕ) : ℂ) * ccMat P k o i 3 * r2c (F.E 2) kx ky kz + (1 / ((nx * ny * nz : ℕ) : ℂ) * ccMat P k o i 4 * r2c (F.B 0) kx ky kz +
        (1 / ((nx * ny * nz : ℕ) : ℂ) * ccMat P k o i 5 * r2c (F.B 1) kx ky kz + (1 / ((nx * ny * nz : ℕ) : ℂ) * ccMat P k o i 6 * r2c (F.B 2) kx ky kz +
        (1 / ((nx * ny * nz : ℕ) : ℂ) * ccMat P k o i 7 * r2c (J 0) kx ky kz + (1 / ((nx * ny * nz : ℕ) : ℂ) * ccMat P k o i 8 * r2c (J 1) kx ky kz +
        (1 / ((nx * ny * nz : ℕ) : ℂ) * ccMat P k o i 9 * r2c (J 2) kx ky kz + (1 / ((nx * ny * nz : ℕ) : ℂ) * ccMat P k o i 10 * r2c rhoold kx ky kz +
        (1 / ((nx * ny * nz : ℕ) : ℂ) * ccMat P k o i 11 * r2c rho kx ky kz + 0)))))))))) := by
    intro i i1 i2 kx ky kz a1 a2 a3
    obtain ⟨k, o, e, _⟩ := hk kx ky kz a1 a2 a3
    refine ⟨k, o, e, ?_⟩
    rw [vw i i1 (by omega) i2 kx ky kz a1 a2 a3]
    simp only [eff_per P m hm i _ kx ky kz a1 a2 a3, e]
    rfl
  rw [show step P m F J rho rhoold = ⟨(step P m F J rho rhoold).E, (step P m F J rho rhoold).B⟩ from rfl, EB.mk.injEq]
  constructor
  all_goals funext i p
  · rw [(step_eq3 P m hm F J rho rhoold i p).1]
    fin_cases i
    · refine c2r_congr p fun kx ky kz a1 a2 a3 => ?_
      obtain ⟨k, o, e, v⟩ := row 1 (by norm_num) (by norm_num) kx ky kz a1 a2 a3
      rw [v, e]
      simp only [mul_zero, zero_mul, add_zero, zero_add, push3d, ccM1, ccM2, ccM3, ccM4, ccM5, ccM6, Fin.zero_eta, Fin.mk_one, Fin.reduceFinMk, Matrix.cons_val_zero, Matrix.cons_val_one, Matrix.cons_val]
      congr 2
      ring
    · refine c2r_congr p fun kx ky kz a1 a2 a3 => ?_
      obtain ⟨k, o, e, v⟩ := row 2 (by norm_num) (by norm_num) kx ky kz a1 a2 a3
      rw [v, e]
      simp only [mul_zero, zero_mul, add_zero, zero_add, push3d, ccM1, ccM2, ccM3, ccM4, ccM5, ccM6, Fin.zero_eta, Fin.mk_one, Fin.reduceFinMk, Matrix.cons_val_zero, Matrix.cons_val_one, Matrix.cons_val]
      congr 2
      ring
    · refine c2r_congr p fun kx ky kz a1 a2 a3 => ?_
      obtain ⟨k, o, e, v⟩ := row 3 (by norm_num) (by norm_num) kx ky kz a1 a2 a3
      rw [v, e]
      simp only [mul_zero, zero_mul, add_zero, zero_add, push3d, ccM1, ccM2, ccM3, ccM4, ccM5, ccM6, Fin.zero_eta, Fin.mk_one, Fin.reduceFinMk, Matrix.cons_val_zero, Matrix.cons_val_one, Matrix.cons_val]
      congr 2
      ring
  · rw [(step_eq3 P m hm F J rho rhoold i p).2]
    fin_cases i
    · refine c2r_congr p fun kx ky kz a1 a2 a3 => ?_
      obtain ⟨k, o, e, v⟩ := row 4 (by norm_num) (by norm_num) kx ky kz a1 a2 a3
      rw [v, e]
      simp only [mul_zero, zero_mul, add_zero, zero_add, push3d, ccM1, ccM2, ccM3, ccM4, ccM5, ccM6, Fin.zero_eta, Fin.mk_one, Fin.reduceFinMk, Matrix.cons_val_zero, Matrix.cons_val_one, Matrix.cons_val]
      congr 2
      ring
    · refine c2r_congr p fun kx ky kz a1 a2 a3 => ?_
      obtain ⟨k, o, e, v⟩ := row 5 (by norm_num) (by norm_num) kx ky kz a1 a2 a3
      rw [v, e]
      simp only [mul_zero, zero_mul, add_zero, zero_add, push3d, ccM1, ccM2, ccM3, ccM4, ccM5, ccM6, Fin.zero_eta, Fin.mk_one, Fin.reduceFinMk, Matrix.cons_val_zero, Matrix.cons_val_one, Matrix.cons_val]
      congr 2
      ring
    · refine c2r_congr p fun kx ky kz a1 a2 a3 => ?_
      obtain ⟨k, o, e, v⟩ := row 6 (by norm_num) (by norm_num) kx ky kz a1 a2 a3
      rw [v, e]
      simp only [mul_zero, zero_mul, add_zero, zero_add, push3d, ccM1, ccM2, ccM3, ccM4, ccM5, ccM6, Fin.zero_eta, Fin.mk_one, Fin.reduceFinMk, Matrix.cons_val_zero, Matrix.cons_val_one, Matrix.cons_val]
      congr 2
      ring

theorem eff_abs (P : Par) (m ms : ℕ → ℕ → ℕ → ℕ → ℕ → ℂ) (Q : ℂ) (kx ky kz : ℕ) (k : Kv) (o : Ops) (e : ms kx ky kz = fun i j => Q * ccSplit P k o i j) (i j : ℕ) :
    eff ms setAbs i j kx ky kz = Q * ccSplit P k o i j := by
  unfold eff
  split_ifs with h
  · rw [e]
  · rw [ccSplit_zero P k o i j h, mul_zero]

set_option maxHeartbeats 4000000 in
theorem stepSplit_eq (P : Par) (m : ℕ → ℕ → ℕ → ℕ → ℕ → ℂ) (hm : initGpstd P nx ny nz = .ok m) (ms : ℕ → ℕ → ℕ → ℕ → ℕ → ℂ)
    (hk : ∀ kx ky kz, kx ≤ nx / 2 → ky < ny → kz < nz → ∃ k o,
      (m kx ky kz = fun i j => 1 / ((nx * ny * nz : ℕ) : ℂ) * ccMat P k o i j) ∧
      (ms kx ky kz = fun i j => 1 / ((nx * ny * nz : ℕ) : ℂ) * ccSplit P k o i j)) (last : ℕ → ℕ → ℕ → ℕ → ℂ) (F : SplitEB nx ny nz)
    (J : Fin 3 → Grid nx ny nz → ℝ) (rho rhoold : Grid nx ny nz → ℝ) :
    ∃ F', stepSplit (goodBlk nx ny nz ms setAbs) last F J rho rhoold = .ok F' ∧ merge F' = step P m (merge F) J rho rhoold := by
  unfold stepSplit
  obtain ⟨w, ew, vw⟩ := multiply_ok (nx := nx) (ny := ny) (nz := nz) 17 12 ms setAbs (oldSplit F J rho rhoold) last (by decide)
  rw [ew]
  simp only [except_bind_ok]
  refine ⟨_, rfl, ?_⟩
  have row : ∀ kx ky kz, kx ≤ nx / 2 → ky < ny → kz < nz → ∃ k o Q, (m kx ky kz = fun i j => Q * ccMat P k o i j) ∧
      ∀ i, 1 ≤ i → i ≤ 12 → (w i).v kx ky kz = Q * ccSplit P k o i 1 * oldSplit F J rho rhoold 1 kx ky kz + (Q * ccSplit P k o i 2 * oldSplit F J rho rhoold 2 kx ky kz + (Q * ccSplit P k o i 3 * oldSplit F J rho rhoold 3 kx ky kz + (Q * ccSplit P k o i 4 * oldSplit F J rho rhoold 4 kx ky kz + (Q * ccSplit P k o i 5 * oldSplit F J rho rhoold 5 kx ky kz + (Q * ccSplit P k o i 6 * oldSplit F J rho rhoold 6 kx ky kz + (Q * ccSplit P k o i 7 * oldSplit F J rho rhoold 7 kx ky kz + (Q * ccSplit P k o i 8 * oldSplit F J rho rhoold 8 kx ky kz + (Q * ccSplit P k o i 9 * oldSplit F J rho rhoold 9 kx ky kz + (Q * ccSplit P k o i 10 * oldSplit F J rho rhoold 10 kx ky kz + (Q * ccSplit P k o i 11 * oldSplit F J rho rhoold 11 kx ky kz + (Q * ccSplit P k o i 12 * oldSplit F J rho rhoold 12 kx ky kz + (Q * ccSplit P k o i 13 * oldSplit F J rho rhoold 13 kx ky kz + (Q * ccSplit P k o i 14 * oldSplit F J rho rhoold 14 kx ky kz + (Q * ccSplit P k o i 15 * oldSplit F J rho rhoold 15 kx ky kz + (Q * ccSplit P k o i 16 * oldSplit F J rho rhoold 16 kx ky kz + (Q * ccSplit P k o i 17 * oldSplit F J rho rhoold 17 kx ky kz + 0)))))))))))))))) := by
    intro kx ky kz a1 a2 a3
    obtain ⟨k, o, e, es⟩ := hk kx ky kz a1 a2 a3
    refine ⟨k, o, _, e, fun i i1 i2 => ?_⟩
    rw [vw i i1 (by omega) i2 kx ky kz a1 a2 a3]
    simp only [eff_abs P m ms _ kx ky kz k o es]
    rfl
  rw [show step P m (merge F) J rho rhoold = ⟨(step P m (merge F) J rho rhoold).E, (step P m (merge F) J rho rhoold).B⟩ from rfl, merge, EB.mk.injEq]
  constructor
  all_goals funext i p
  · rw [(step_eq3 P m hm (merge F) J rho rhoold i p).1]
    fin_cases i
    · refine (c2r_add (w 1).v (w 2).v p).trans (c2r_congr p fun kx ky kz a1 a2 a3 => ?_)
      obtain ⟨k, o, Q, e, v⟩ := row kx ky kz a1 a2 a3
      rw [v 1 (by norm_num) (by norm_num), v 2 (by norm_num) (by norm_num), e]
      simp only [mul_zero, zero_mul, add_zero, zero_add, push3d, ccM1, ccS1, ccS2, oldSplit, merge, r2c_add, Fin.zero_eta, Fin.mk_one, Fin.reduceFinMk, Matrix.cons_val_zero, Matrix.cons_val_one, Matrix.cons_val,
        ccMat.rhoOld, ccMat.rhoNew, ccSplit.rhoOld, ccSplit.rhoNew]
      congr 2
      ring
    · refine (c2r_add (w 3).v (w 4).v p).trans (c2r_congr p fun kx ky kz a1 a2 a3 => ?_)
      obtain ⟨k, o, Q, e, v⟩ := row kx ky kz a1 a2 a3
      rw [v 3 (by norm_num) (by norm_num), v 4 (by norm_num) (by norm_num), e]
      simp only [mul_zero, zero_mul, add_zero, zero_add, push3d, ccM2, ccS3, ccS4, oldSplit, merge, r2c_add, Fin.zero_eta, Fin.mk_one, Fin.reduceFinMk, Matrix.cons_val_zero, Matrix.cons_val_one, Matrix.cons_val,
        ccMat.rhoOld, ccMat.rhoNew, ccSplit.rhoOld, ccSplit.rhoNew]
      congr 2
      ring
    · refine (c2r_add (w 5).v (w 6).v p).trans (c2r_congr p fun kx ky kz a1 a2 a3 => ?_)
      obtain ⟨k, o, Q, e, v⟩ := row kx ky kz a1 a2 a3
      rw [v 5 (by norm_num) (by norm_num), v 6 (by norm_num) (by norm_num), e]
      simp only [mul_zero, zero_mul, add_zero, zero_add, push3d, ccM3, ccS5, ccS6, oldSplit, merge, r2c_add, Fin.zero_eta, Fin.mk_one, Fin.reduceFinMk, Matrix.cons_val_zero, Matrix.cons_val_one, Matrix.cons_val,
        ccMat.rhoOld, ccMat.rhoNew, ccSplit.rhoOld, ccSplit.rhoNew]
      congr 2
      ring
  · rw [(step_eq3 P m hm (merge F) J rho rhoold i p).2]
    fin_cases i
    · refine (c2r_add (w 7).v (w 8).v p).trans (c2r_congr p fun kx ky kz a1 a2 a3 => ?_)
      obtain ⟨k, o, Q, e, v⟩ := row kx ky kz a1 a2 a3
      rw [v 7 (by norm_num) (by norm_num), v 8 (by norm_num) (by norm_num), e]
      simp only [mul_zero, zero_mul, add_zero, zero_add, push3d, ccM4, ccS7, ccS8, oldSplit, merge, r2c_add, Fin.zero_eta, Fin.mk_one, Fin.reduceFinMk, Matrix.cons_val_zero, Matrix.cons_val_one, Matrix.cons_val]
      congr 2
      ring
    · refine (c2r_add (w 9).v (w 10).v p).trans (c2r_congr p fun kx ky kz a1 a2 a3 => ?_)
      obtain ⟨k, o, Q, e, v⟩ := row kx ky kz a1 a2 a3
      rw [v 9 (by norm_num) (by norm_num), v 10 (by norm_num) (by norm_num), e]
      simp only [mul_zero, zero_mul, add_zero, zero_add, push3d, ccM5, ccS9, ccS10, oldSplit, merge, r2c_add, Fin.zero_eta, Fin.mk_one, Fin.reduceFinMk, Matrix.cons_val_zero, Matrix.cons_val_one, Matrix.cons_val]
      congr 2
      ring
    · refine (c2r_add (w 11).v (w 12).v p).trans (c2r_congr p fun kx ky kz a1 a2 a3 => ?_)
      obtain ⟨k, o, Q, e, v⟩ := row kx ky kz a1 a2 a3
      rw [v 11 (by norm_num) (by norm_num), v 12 (by norm_num) (by norm_num), e]
      simp only [mul_zero, zero_mul, add_zero, zero_add, push3d, ccM6, ccS11, ccS12, oldSplit, merge, r2c_add, Fin.zero_eta, Fin.mk_one, Fin.reduceFinMk, Matrix.cons_val_zero, Matrix.cons_val_one, Matrix.cons_val]
      congr 2
      ring

end Picsar.Psatd
