import Verif.Model.FArr
namespace Picsar.FArr
variable {α : Type}

theorem get_ok {a : FArr α} {i : ℤ} {v : α} (h : 1 ≤ i ∧ i ≤ a.n) (hv : a.val i = some v) :
    a.get i = .ok v := by
  unfold get; rw [if_pos h, hv]

theorem set_ok {a : FArr α} {i : ℤ} (v : α) (h : 1 ≤ i ∧ i ≤ a.n) :
    a.set i v = .ok ⟨a.n, Function.update a.val i (some v)⟩ := by
  unfold set; rw [if_pos h]

theorem get_oob {a : FArr α} {i : ℤ} (h : ¬ (1 ≤ i ∧ i ≤ a.n)) : a.get i = .error .outOfBounds := by
  unfold get; rw [if_neg h]

theorem set_oob {a : FArr α} {i : ℤ} (v : α) (h : ¬ (1 ≤ i ∧ i ≤ a.n)) :
    a.set i v = .error .outOfBounds := by
  unfold set; rw [if_neg h]

theorem Holds.get {a : FArr α} {l : List α} (h : a.Holds l) {i : ℕ} (hi : i < l.length) :
    a.get (i + 1) = .ok l[i] :=
  get_ok ⟨by omega, by have := h.1; omega⟩ (h.2 i hi)

theorem holds_ofList (l : List α) : (ofList l).Holds l := by
  refine ⟨Int.le_refl _, fun i hi => ?_⟩
  simp only [ofList]
  rw [if_pos (by omega), show ((i : ℤ) + 1 - 1).toNat = i by omega]
  exact List.getElem?_eq_getElem hi

end Picsar.FArr
