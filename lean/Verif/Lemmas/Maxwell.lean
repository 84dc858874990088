import Verif.Lemmas.Grid
import Verif.Spec.Maxwell

namespace Picsar.Maxwell
open Picsar Picsar.Grid Picsar.Spec

/-- The expression reads only arrays that satisfy `S`. -/
def _root_.Picsar.Grid.Ex.Only (S : Comp → Prop) : Ex → Prop
  | .rd c _ _ _ => S c
  | .k _ => True
  | .add a b => a.Only S ∧ b.Only S
  | .sub a b => a.Only S ∧ b.Only S
  | .mul a b => a.Only S ∧ b.Only S
  | .cond _ a b => a.Only S ∧ b.Only S
  | .sum _ body => ∀ m, (body m).Only S

@[simp] theorem add_only (S : Comp → Prop) (a b : Ex) : (a + b).Only S ↔ a.Only S ∧ b.Only S := Iff.rfl
@[simp] theorem sub_only (S : Comp → Prop) (a b : Ex) : (a - b).Only S ↔ a.Only S ∧ b.Only S := Iff.rfl
@[simp] theorem mul_only (S : Comp → Prop) (a b : Ex) : (a * b).Only S ↔ a.Only S ∧ b.Only S := Iff.rfl
@[simp] theorem cst_only (S : Comp → Prop) (r : ℝ) : (cst r).Only S := trivial
@[simp] theorem k_only (S : Comp → Prop) (f : I3 → ℝ) : (Ex.k f).Only S := trivial
@[simp] theorem rd_only (S : Comp → Prop) (c : Comp) (a b d : ℤ) : (Ex.rd c a b d).Only S ↔ S c := Iff.rfl
@[simp] theorem cond_only (S : Comp → Prop) (p : I3 → Bool) (a b : Ex) :
    (Ex.cond p a b).Only S ↔ a.Only S ∧ b.Only S := Iff.rfl
@[simp] theorem sum_only (S : Comp → Prop) (n : I3 → ℕ) (b : ℕ → Ex) : (Ex.sum n b).Only S ↔ ∀ m, (b m).Only S := Iff.rfl

theorem den_only {S : Comp → Prop} {σ τ : Mem} {i : I3} (h : ∀ c, S c → σ c = τ c) :
    ∀ {e : Ex}, e.Only S → e.den σ i = e.den τ i
  | .rd c _ _ _, hc => by simp only [Ex.den, h c hc]
  | .k f, _ => rfl
  | .add a b, hh => by simp only [Ex.den, den_only h hh.1, den_only h hh.2]
  | .sub a b, hh => by simp only [Ex.den, den_only h hh.1, den_only h hh.2]
  | .mul a b, hh => by simp only [Ex.den, den_only h hh.1, den_only h hh.2]
  | .cond p a b, hh => by simp only [Ex.den, den_only h hh.1, den_only h hh.2]
  | .sum n body, hh => by
    simp only [Ex.den]
    exact Finset.sum_congr rfl fun m _ => den_only h (hh (m + 1))

/-- What three loop nests with independent targets do. -/
structure ThreeRes (cx cy cz : Comp) (rx ry rz : Ex) (r : Ranges) (σ τ : Mem) : Prop where
  x : ∀ i, (τ cx).val i = if InBox r.xlo r.xhi i then rx.den σ i else (σ cx).val i
  y : ∀ i, (τ cy).val i = if InBox r.ylo r.yhi i then ry.den σ i else (σ cy).val i
  z : ∀ i, (τ cz).val i = if InBox r.zlo r.zhi i then rz.den σ i else (σ cz).val i
  other : ∀ c, c ≠ cx → c ≠ cy → c ≠ cz → τ c = σ c
  bounds : ∀ c, (τ c).lo = (σ c).lo ∧ (τ c).hi = (σ c).hi

theorem three_ok {cx cy cz : Comp} {rx ry rz : Ex} {r : Ranges} {o : Orders} {σ : Mem} (ho : o.Of r)
    (hxy : cx ≠ cy) (hxz : cx ≠ cz) (hyz : cy ≠ cz)
    (lx : rx.LocalTo cx) (ly : ry.LocalTo cy) (lz : rz.LocalTo cz)
    (oy : ry.Only (· ≠ cx)) (oz : rz.Only fun c => c ≠ cx ∧ c ≠ cy)
    (sx : ∀ i, InBox r.xlo r.xhi i → rx.Safe σ i ∧ InBox (σ cx).lo (σ cx).hi i)
    (sy : ∀ i, InBox r.ylo r.yhi i → ry.Safe σ i ∧ InBox (σ cy).lo (σ cy).hi i)
    (sz : ∀ i, InBox r.zlo r.zhi i → rz.Safe σ i ∧ InBox (σ cz).lo (σ cz).hi i) :
    ∃ τ, three cx cy cz rx ry rz o σ = .ok τ ∧ ThreeRes cx cy cz rx ry rz r σ τ := by
  obtain ⟨ox, oy', oz'⟩ := ho
  set σ1 := after σ cx rx r.xlo r.xhi with h1
  have b1 : ∀ c, (σ c).lo = (σ1 c).lo ∧ (σ c).hi = (σ1 c).hi := fun c =>
    ⟨(after_bounds σ cx rx r.xlo r.xhi c).1.symm, (after_bounds σ cx rx r.xlo r.xhi c).2.symm⟩
  have e1 : loop cx rx o.x σ = .ok σ1 := loop_box lx ox sx
  set σ2 := after σ1 cy ry r.ylo r.yhi with h2
  have b2 : ∀ c, (σ c).lo = (σ2 c).lo ∧ (σ c).hi = (σ2 c).hi := fun c =>
    ⟨(b1 c).1.trans (after_bounds σ1 cy ry r.ylo r.yhi c).1.symm, (b1 c).2.trans (after_bounds σ1 cy ry r.ylo r.yhi c).2.symm⟩
  have e2 : loop cy ry o.y σ1 = .ok σ2 := loop_box ly oy' fun i hi => by
    obtain ⟨a, b⟩ := sy i hi
    exact ⟨safe_congr b1 a, by rw [← (b1 cy).1, ← (b1 cy).2]; exact b⟩
  set σ3 := after σ2 cz rz r.zlo r.zhi with h3
  have e3 : loop cz rz o.z σ2 = .ok σ3 := loop_box lz oz' fun i hi => by
    obtain ⟨a, b⟩ := sz i hi
    exact ⟨safe_congr b2 a, by rw [← (b2 cz).1, ← (b2 cz).2]; exact b⟩
  have q1 : ∀ c, c ≠ cx → σ1 c = σ c := fun c hc => after_of_ne _ _ _ _ hc
  have q2 : ∀ c, c ≠ cy → σ2 c = σ1 c := fun c hc => after_of_ne _ _ _ _ hc
  have q3 : ∀ c, c ≠ cz → σ3 c = σ2 c := fun c hc => after_of_ne _ _ _ _ hc
  refine ⟨σ3, ?_, ?_, ?_, ?_, ?_, ?_⟩
  · unfold three
    rw [e1]
    simp only [except_bind_ok]
    rw [e2]
    simp only [except_bind_ok]
    exact e3
  · intro i
    rw [q3 cx hxz, q2 cx hxy]
    exact after_val _ _ _ _ _ _
  · intro i
    rw [q3 cy hyz, h2, after_val, den_only (τ := σ) (fun c hc => q1 c hc) oy, q1 cy hxy.symm]
  · intro i
    rw [h3, after_val, den_only (τ := σ) (fun c hc => (q2 c hc.2).trans (q1 c hc.1)) oz, q2 cz hyz.symm, q1 cz hxz.symm]
  · intro c a b d
    rw [q3 c d, q2 c b, q1 c a]
  · intro c
    obtain ⟨a, b⟩ := after_bounds σ2 cz rz r.zlo r.zhi c
    exact ⟨a.trans (b2 c).1.symm, b.trans (b2 c).2.symm⟩

/-- In-bounds from a margin. -/
theorem margin_sh {my : ℤ} {σ : Mem} {lo hi i : I3} (hm : Margin my σ lo hi) (hi' : InBox lo hi i) (c : Comp)
    {dj dk dl : ℤ} (h1 : -1 ≤ dj) (h2 : dj ≤ 1) (h3 : -my ≤ dk) (h4 : dk ≤ my) (h5 : -1 ≤ dl) (h6 : dl ≤ 1) :
    InBox (σ c).lo (σ c).hi (i.sh dj dk dl) := by
  obtain ⟨a1, a2, a3, a4, a5, a6⟩ := hm c
  obtain ⟨b1, b2, b3, b4, b5, b6⟩ := hi'
  unfold I3.sh InBox
  refine ⟨?_, ?_, ?_, ?_, ?_, ?_⟩ <;> simp only <;> omega

theorem margin_in {my : ℤ} {σ : Mem} {lo hi i : I3} (hmy : 0 ≤ my) (hm : Margin my σ lo hi) (hi' : InBox lo hi i) (c : Comp) :
    InBox (σ c).lo (σ c).hi i := by
  have := margin_sh (dj := 0) (dk := 0) (dl := 0) hm hi' c (by omega) (by omega) (by omega) (by omega) (by omega) (by omega)
  simpa [I3.sh] using this

end Picsar.Maxwell
