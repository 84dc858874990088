import Verif.Lemmas.Maxwell
import Verif.Spec.MaxwellGeo
import Mathlib.Tactic.Ring
import Mathlib.Algebra.BigOperators.Ring.Finset
import Mathlib.Algebra.BigOperators.Group.List.Basic
import Mathlib.Algebra.BigOperators.Group.Finset.Sigma
import Mathlib.Algebra.Order.BigOperators.Group.Finset
import Mathlib.Algebra.Order.Group.Unbundled.Int

namespace Picsar.Maxwell
open Picsar Picsar.Grid Picsar.Spec

/-! ### Translation-invariant stencils commute -/

/-- A stencil: a list of weights and displacements. -/
def conv (L : List (ℝ × ℤ × ℤ × ℤ)) (g : ℤ → ℤ → ℤ → ℝ) (j k l : ℤ) : ℝ :=
  (L.map fun p => p.1 * g (j + p.2.1) (k + p.2.2.1) (l + p.2.2.2)).sum

theorem conv_cons (p : ℝ × ℤ × ℤ × ℤ) (L : List (ℝ × ℤ × ℤ × ℤ)) (g : ℤ → ℤ → ℤ → ℝ) (j k l : ℤ) :
    conv (p :: L) g j k l = p.1 * g (j + p.2.1) (k + p.2.2.1) (l + p.2.2.2) + conv L g j k l := by
  simp [conv]

theorem conv_lin (L : List (ℝ × ℤ × ℤ × ℤ)) (a b : ℝ) (g h : ℤ → ℤ → ℤ → ℝ) (j k l : ℤ) :
    conv L (fun j k l => a * g j k l + b * h j k l) j k l = a * conv L g j k l + b * conv L h j k l := by
  induction L with
  | nil => simp [conv]
  | cons p L ih => rw [conv_cons, conv_cons, conv_cons, ih]; ring

theorem conv_shift (L : List (ℝ × ℤ × ℤ × ℤ)) (w : ℝ) (a b c : ℤ) (g : ℤ → ℤ → ℤ → ℝ) (j k l : ℤ) :
    conv L (fun j k l => w * g (j + a) (k + b) (l + c)) j k l = w * conv L g (j + a) (k + b) (l + c) := by
  induction L with
  | nil => simp [conv]
  | cons p L ih =>
    rw [conv_cons, conv_cons, ih]
    simp only [add_right_comm j, add_right_comm k, add_right_comm l]
    ring

theorem conv_add (L : List (ℝ × ℤ × ℤ × ℤ)) (g h : ℤ → ℤ → ℤ → ℝ) (j k l : ℤ) :
    conv L (fun j k l => g j k l + h j k l) j k l = conv L g j k l + conv L h j k l := by
  simpa using conv_lin L 1 1 g h j k l

theorem conv_zero (L : List (ℝ × ℤ × ℤ × ℤ)) (j k l : ℤ) : conv L (fun _ _ _ => 0) j k l = 0 := by
  simpa using conv_lin L 0 0 (fun _ _ _ => 0) (fun _ _ _ => 0) j k l

theorem conv_comm (L M : List (ℝ × ℤ × ℤ × ℤ)) (g : ℤ → ℤ → ℤ → ℝ) (j k l : ℤ) :
    conv L (conv M g) j k l = conv M (conv L g) j k l := by
  induction M with
  | nil =>
    have : conv [] g = fun _ _ _ => 0 := by funext j k l; simp [conv]
    rw [this, conv_zero]
    simp [conv]
  | cons p M ih =>
    have : conv (p :: M) g = fun j k l => p.1 * g (j + p.2.1) (k + p.2.2.1) (l + p.2.2.2) + conv M g j k l := by
      funext j k l; rw [conv_cons]
    rw [this, conv_add L (fun j k l => p.1 * g (j + p.2.1) (k + p.2.2.1) (l + p.2.2.2)) (conv M g), ih, conv_shift, conv_cons]

/-- Stencils of the averaged differences. -/
def lX (α β1 β2 γ : ℝ) : List (ℝ × ℤ × ℤ × ℤ) :=
  [(α, 1, 0, 0), (-α, 0, 0, 0), (β1, 1, 1, 0), (-β1, 0, 1, 0), (β1, 1, -1, 0), (-β1, 0, -1, 0),
   (β2, 1, 0, 1), (-β2, 0, 0, 1), (β2, 1, 0, -1), (-β2, 0, 0, -1),
   (γ, 1, 1, 1), (-γ, 0, 1, 1), (γ, 1, -1, 1), (-γ, 0, -1, 1), (γ, 1, 1, -1), (-γ, 0, 1, -1), (γ, 1, -1, -1), (-γ, 0, -1, -1)]
/-- y. -/
def lY (α β1 β2 γ : ℝ) : List (ℝ × ℤ × ℤ × ℤ) :=
  [(α, 0, 1, 0), (-α, 0, 0, 0), (β1, 1, 1, 0), (-β1, 1, 0, 0), (β1, -1, 1, 0), (-β1, -1, 0, 0),
   (β2, 0, 1, 1), (-β2, 0, 0, 1), (β2, 0, 1, -1), (-β2, 0, 0, -1),
   (γ, 1, 1, 1), (-γ, 1, 0, 1), (γ, -1, 1, 1), (-γ, -1, 0, 1), (γ, 1, 1, -1), (-γ, 1, 0, -1), (γ, -1, 1, -1), (-γ, -1, 0, -1)]
/-- z. -/
def lZ (α β1 β2 γ : ℝ) : List (ℝ × ℤ × ℤ × ℤ) :=
  [(α, 0, 0, 1), (-α, 0, 0, 0), (β1, 1, 0, 1), (-β1, 1, 0, 0), (β1, -1, 0, 1), (-β1, -1, 0, 0),
   (β2, 0, 1, 1), (-β2, 0, 1, 0), (β2, 0, -1, 1), (-β2, 0, -1, 0),
   (γ, 1, 1, 1), (-γ, 1, 1, 0), (γ, -1, 1, 1), (-γ, -1, 1, 0), (γ, 1, -1, 1), (-γ, 1, -1, 0), (γ, -1, -1, 1), (-γ, -1, -1, 0)]

theorem starX_conv (α β1 β2 γ : ℝ) (g : ℤ → ℤ → ℤ → ℝ) : starX α β1 β2 γ g = conv (lX α β1 β2 γ) g := by
  funext j k l
  simp only [starX, conv, lX, List.map_cons, List.map_nil, List.sum_cons, List.sum_nil, add_zero]
  ring

theorem starY_conv (α β1 β2 γ : ℝ) (g : ℤ → ℤ → ℤ → ℝ) : starY α β1 β2 γ g = conv (lY α β1 β2 γ) g := by
  funext j k l
  simp only [starY, conv, lY, List.map_cons, List.map_nil, List.sum_cons, List.sum_nil, add_zero]
  ring

theorem starZ_conv (α β1 β2 γ : ℝ) (g : ℤ → ℤ → ℤ → ℝ) : starZ α β1 β2 γ g = conv (lZ α β1 β2 γ) g := by
  funext j k l
  simp only [starZ, conv, lZ, List.map_cons, List.map_nil, List.sum_cons, List.sum_nil, add_zero]
  ring

/-- All displacements are at most one cell. -/
def Small (L : List (ℝ × ℤ × ℤ × ℤ)) : Prop := ∀ p ∈ L, |p.2.1| ≤ 1 ∧ |p.2.2.1| ≤ 1 ∧ |p.2.2.2| ≤ 1

theorem small_lX (α β1 β2 γ : ℝ) : Small (lX α β1 β2 γ) := by simp [Small, lX]
theorem small_lY (α β1 β2 γ : ℝ) : Small (lY α β1 β2 γ) := by simp [Small, lY]
theorem small_lZ (α β1 β2 γ : ℝ) : Small (lZ α β1 β2 γ) := by simp [Small, lZ]

/-- Two grid functions agree around a point. -/
def Agree (g h : ℤ → ℤ → ℤ → ℝ) (j k l : ℤ) : Prop :=
  ∀ a b c : ℤ, |a| ≤ 1 → |b| ≤ 1 → |c| ≤ 1 → g (j + a) (k + b) (l + c) = h (j + a) (k + b) (l + c)

theorem conv_congr {L : List (ℝ × ℤ × ℤ × ℤ)} (hL : Small L) {g h : ℤ → ℤ → ℤ → ℝ} {j k l : ℤ} (H : Agree g h j k l) :
    conv L g j k l = conv L h j k l := by
  unfold conv
  congr 1
  apply List.map_congr_left
  intro p hp
  obtain ⟨h1, h2, h3⟩ := hL p hp
  rw [H _ _ _ h1 h2 h3]

/-! ### The differences of the code are these stencils -/

theorem ckcDx_den (q : Ckc) (c : Comp) (σ : Mem) (j k l : ℤ) : (ckcDx q c).den σ ⟨j, k, l⟩ = ckcX q (at' σ c) j k l := by
  simp only [ckcDx, ckcX, starX, at', add_den, sub_den, mul_den, cst_den, rd_den, I3.sh, add_zero]
  ring

theorem ckcDy_den (q : Ckc) (c : Comp) (σ : Mem) (j k l : ℤ) : (ckcDy q c).den σ ⟨j, k, l⟩ = ckcY q (at' σ c) j k l := by
  simp only [ckcDy, ckcY, starY, at', add_den, sub_den, mul_den, cst_den, rd_den, I3.sh, add_zero]
  ring

theorem ckcDz_den (q : Ckc) (c : Comp) (σ : Mem) (j k l : ℤ) : (ckcDz q c).den σ ⟨j, k, l⟩ = ckcZ q (at' σ c) j k l := by
  simp only [ckcDz, ckcZ, starZ, at', add_den, sub_den, mul_den, cst_den, rd_den, I3.sh, add_zero]
  ring

theorem ckc2Dx_den (q : Ckc2) (c : Comp) (σ : Mem) (j k l : ℤ) :
    (ckc2Dx q c).den σ ⟨j, k, l⟩ = starX q.ax 0 q.bxz 0 (at' σ c) j k l := by
  simp only [ckc2Dx, starX, at', add_den, sub_den, mul_den, cst_den, rd_den, I3.sh, add_zero]
  ring

theorem ckc2Dz_den (q : Ckc2) (c : Comp) (σ : Mem) (j k l : ℤ) :
    (ckc2Dz q c).den σ ⟨j, k, l⟩ = starZ q.az q.bzx 0 0 (at' σ c) j k l := by
  simp only [ckc2Dz, starZ, at', add_den, sub_den, mul_den, cst_den, rd_den, I3.sh, add_zero]
  ring

/-! ### One-dimensional high-order differences -/

theorem sum_Icc_one (n : ℕ) (f : ℕ → ℝ) : ∑ m ∈ Finset.Icc 1 n, f m = ∑ m ∈ Finset.range n, f (m + 1) := by
  induction n with
  | zero => simp
  | succ n ih => rw [Finset.sum_Icc_succ_top (by omega), ih, Finset.sum_range_succ]

theorem fwdN_comm (n n' : ℕ) (c c' : ℕ → ℝ) (s s' : ℤ) (g : ℤ → ℤ → ℝ) (i i' : ℤ) :
    fwdN n c s (fun a => fwdN n' c' s' (g a) i') i = fwdN n' c' s' (fun b => fwdN n c s (fun a => g a b) i) i' := by
  unfold fwdN
  simp only [← Finset.sum_sub_distrib, Finset.mul_sum]
  rw [Finset.sum_comm]
  refine Finset.sum_congr rfl fun m _ => Finset.sum_congr rfl fun m' _ => ?_
  ring

theorem bwdN_comm (n n' : ℕ) (c c' : ℕ → ℝ) (s s' : ℤ) (g : ℤ → ℤ → ℝ) (i i' : ℤ) :
    bwdN n c s (fun a => bwdN n' c' s' (g a) i') i = bwdN n' c' s' (fun b => bwdN n c s (fun a => g a b) i) i' := by
  unfold bwdN
  simp only [← Finset.sum_sub_distrib, Finset.mul_sum]
  rw [Finset.sum_comm]
  refine Finset.sum_congr rfl fun m _ => Finset.sum_congr rfl fun m' _ => ?_
  ring

theorem fwdN_lin (n : ℕ) (c : ℕ → ℝ) (s : ℤ) (a b d : ℝ) (u v w : ℤ → ℝ) (i : ℤ) :
    fwdN n c s (fun t => a * u t + b * v t + d * w t) i = a * fwdN n c s u i + b * fwdN n c s v i + d * fwdN n c s w i := by
  unfold fwdN
  rw [Finset.mul_sum, Finset.mul_sum, Finset.mul_sum, ← Finset.sum_add_distrib, ← Finset.sum_add_distrib]
  exact Finset.sum_congr rfl fun m _ => by ring

theorem bwdN_lin (n : ℕ) (c : ℕ → ℝ) (s : ℤ) (a b d e : ℝ) (u v w x : ℤ → ℝ) (i : ℤ) :
    bwdN n c s (fun t => a * u t + b * v t + d * w t + e * x t) i =
      a * bwdN n c s u i + b * bwdN n c s v i + d * bwdN n c s w i + e * bwdN n c s x i := by
  unfold bwdN
  rw [Finset.mul_sum, Finset.mul_sum, Finset.mul_sum, Finset.mul_sum, ← Finset.sum_add_distrib, ← Finset.sum_add_distrib,
    ← Finset.sum_add_distrib]
  exact Finset.sum_congr rfl fun m _ => by ring

theorem usable_le (h : ℕ) (n g i : ℤ) : usable h n g i ≤ h := by unfold usable; omega

theorem fwdN_congr {h n : ℕ} (hn : n ≤ h) {c : ℕ → ℝ} {s : ℤ} (hs : s = 0 ∨ s = 1) {u v : ℤ → ℝ} {i : ℤ}
    (H : ∀ a : ℤ, |a| ≤ h → u (i + a) = v (i + a)) : fwdN n c s u i = fwdN n c s v i := by
  unfold fwdN
  refine Finset.sum_congr rfl fun m hm => ?_
  rw [Finset.mem_Icc] at hm
  have e1 := H m (by rw [abs_le]; omega)
  have e2 := H (-m + s) (by rw [abs_le]; omega)
  have e : i - (m : ℤ) + s = i + (-m + s) := by ring
  rw [e1, e, e2]

theorem bwdN_congr {h n : ℕ} (hn : n ≤ h) {c : ℕ → ℝ} {s : ℤ} (hs : s = 0 ∨ s = 1) {u v : ℤ → ℝ} {i : ℤ}
    (H : ∀ a : ℤ, |a| ≤ h → u (i + a) = v (i + a)) : bwdN n c s u i = bwdN n c s v i := by
  unfold bwdN
  refine Finset.sum_congr rfl fun m hm => ?_
  rw [Finset.mem_Icc] at hm
  have e1 := H (m - s) (by rw [abs_le]; omega)
  have e2 := H (-m) (by rw [abs_le]; omega)
  have e : i + (m : ℤ) - s = i + (m - s) := by ring
  have e' : i - (m : ℤ) = i + -m := by ring
  rw [e, e', e1, e2]

theorem nterms_usable (o : ℕ) (n g i : ℤ) : nterms o n g i = usable (o / 2) n g i := by
  unfold nterms usable
  push_cast
  rfl

end Picsar.Maxwell
