import Verif.Model.Multimode
import Mathlib.Analysis.Complex.Trigonometric

/-
Specification vocabulary for the field solver on azimuthal modes: a field is `Re Σ_m F_m(r,z) exp(-i m θ)` in cylindrical components. On the
staggered grid Er, Bt, Bz are half a cell above the nodes in r; Ez, Br, Bt half a cell above the nodes in z.
-/
namespace Picsar.Spec
open Picsar Picsar.Multimode

/-- One component of one mode on the grid. -/
abbrev ModeField := ℤ → ℤ → ℂ

/-- Inner radius and cell sizes. -/
structure RzGrid where
  rmin : ℝ
  dr : ℝ
  dz : ℝ

/-- Radius of node `j`, and half a cell above. -/
noncomputable def RzGrid.node (g : RzGrid) (j : ℤ) : ℝ := g.rmin + j * g.dr
noncomputable def RzGrid.half (g : RzGrid) (j : ℤ) : ℝ := g.rmin + (j + 1 / 2) * g.dr

/-- `∂/∂θ` on mode `m`. -/
noncomputable def turn (m : ℕ) (x : ℂ) : ℂ := -(Complex.I * m) * x

/-- Curl of E in cylindrical coordinates, at the points of B. -/
noncomputable def curlEr (g : RzGrid) (m : ℕ) (_er et ez : ModeField) (j k : ℤ) : ℂ :=
  turn m (ez j k) / g.node j - (et j (k + 1) - et j k) / g.dz

noncomputable def curlEt (g : RzGrid) (er _et ez : ModeField) (j k : ℤ) : ℂ :=
  (er j (k + 1) - er j k) / g.dz - (ez (j + 1) k - ez j k) / g.dr

noncomputable def curlEz (g : RzGrid) (m : ℕ) (er et _ez : ModeField) (j k : ℤ) : ℂ :=
  ((g.node (j + 1) * et (j + 1) k - g.node j * et j k) / g.dr - turn m (er j k)) / g.half j

/-- Curl of B in cylindrical coordinates, at the points of E. -/
noncomputable def curlBr (g : RzGrid) (m : ℕ) (_br bt bz : ModeField) (j k : ℤ) : ℂ :=
  turn m (bz j k) / g.half j - (bt j k - bt j (k - 1)) / g.dz

noncomputable def curlBt (g : RzGrid) (br _bt bz : ModeField) (j k : ℤ) : ℂ :=
  (br j k - br j (k - 1)) / g.dz - (bz j k - bz (j - 1) k) / g.dr

noncomputable def curlBz (g : RzGrid) (m : ℕ) (br bt _bz : ModeField) (j k : ℤ) : ℂ :=
  ((g.half j * bt j k - g.half (j - 1) * bt (j - 1) k) / g.dr - turn m (br j k)) / g.node j

/-- Divergence at the nodes (E, J) and in the middle of the cells (B). -/
noncomputable def divNodeM (g : RzGrid) (m : ℕ) (fr ft fz : ModeField) (j k : ℤ) : ℂ :=
  ((g.half j * fr j k - g.half (j - 1) * fr (j - 1) k) / g.dr + turn m (ft j k)) / g.node j + (fz j k - fz j (k - 1)) / g.dz

noncomputable def divCellM (g : RzGrid) (m : ℕ) (fr ft fz : ModeField) (j k : ℤ) : ℂ :=
  ((g.node (j + 1) * fr (j + 1) k - g.node j * fr j k) / g.dr + turn m (ft j k)) / g.half j + (fz j (k + 1) - fz j k) / g.dz

/-- Divergence on the axis, mode 0: flux out of a cylinder of radius `dr/2`. -/
noncomputable def divAxisM (g : RzGrid) (fr fz : ModeField) (k : ℤ) : ℂ := 4 * fr 0 k / g.dr + (fz 0 k - fz 0 (k - 1)) / g.dz

/-- The point belongs to the box. -/
def InsideM (b : Box) (j k : ℤ) : Prop := (b.lo1 ≤ j ∧ j ≤ b.hi1) ∧ (b.lo2 ≤ k ∧ k ≤ b.hi2)

/-- The point `j` lies on the axis of the cylinder. -/
def OnAxisM (g : RzGrid) (j : ℤ) : Prop := g.rmin = 0 ∧ j = 0

/-- What is passed for a step `dt` of the electric field (speed of light `c`) and of the magnetic field. -/
noncomputable def argsE (g : RzGrid) (c mu0 dt : ℝ) (r t z : Box) (n : ℕ) : Args :=
  ⟨r, t, z, n, mu0 * c ^ 2 * dt, c ^ 2 * dt / g.dr, c ^ 2 * dt / g.dz, g.rmin, g.dr⟩

noncomputable def argsB (g : RzGrid) (dt : ℝ) (r t z : Box) (n : ℕ) : Args := ⟨r, t, z, n, 0, dt / g.dr, dt / g.dz, g.rmin, g.dr⟩

/-- The box, grown by `a` points below and `b` points above, is part of all arrays. -/
def RoomFor (σ : Mem) (b : Box) (below above : ℤ) : Prop := ∀ f, (σ f).box.lo1 ≤ b.lo1 - below ∧ b.hi1 + above ≤ (σ f).box.hi1 ∧
  (σ f).box.lo2 ≤ b.lo2 - below ∧ b.hi2 + above ≤ (σ f).box.hi2

/-- No point of the box lies on the axis, apart from the first node of a grid that starts there: for the nodes, and half a cell above. -/
def ClearNodes (g : RzGrid) (b : Box) : Prop := ∀ j, b.lo1 ≤ j → j ≤ b.hi1 → OnAxisM g j ∨ g.node j ≠ 0
def ClearHalves (g : RzGrid) (b : Box) : Prop := ∀ j, b.lo1 ≤ j → j ≤ b.hi1 → g.half j ≠ 0

/-- Mode `m` of an array. -/
def modeOf (σ : Mem) (f : Fld) (m : ℕ) : ModeField := fun j k => (σ f).val j k m

/-- Cartesian components, at the angle `θ`, of a vector field with the radial and azimuthal amplitudes `a`, `b` on mode `m`. -/
noncomputable def sideX (m : ℕ) (a b : ℂ) (θ : ℝ) : ℝ :=
  (a * Complex.exp (-(m * θ * Complex.I))).re * Real.cos θ - (b * Complex.exp (-(m * θ * Complex.I))).re * Real.sin θ

noncomputable def sideY (m : ℕ) (a b : ℂ) (θ : ℝ) : ℝ :=
  (a * Complex.exp (-(m * θ * Complex.I))).re * Real.sin θ + (b * Complex.exp (-(m * θ * Complex.I))).re * Real.cos θ

/-! ### Histories -/

/-- A run: geometry, speed of light, magnetic constant, number of modes, the boxes in which each component is advanced. -/
structure RunM where
  g : RzGrid
  c : ℝ
  mu0 : ℝ
  n : ℕ
  rE : Box
  tE : Box
  zE : Box
  rB : Box
  tB : Box
  zB : Box

/-- What the outer code may do: anything, a step of the electric field, a step of the magnetic field. -/
inductive ActM
  | outer (f : Mem → Mem)
  | electric (dt : ℝ)
  | magnetic (dt : ℝ)

/-- Between the steps the outer code may change the currents, and the fields outside their boxes (the guard points), not the arrays' bounds. -/
def ActM.Legal (s : RunM) : ActM → Prop
  | .outer f => ∀ σ, (∀ x, (f σ x).box = (σ x).box) ∧ ∀ m j k,
      (InsideM s.rE j k → (f σ .er).val j k m = (σ .er).val j k m) ∧ (InsideM s.tE j k → (f σ .et).val j k m = (σ .et).val j k m) ∧
      (InsideM s.zE j k → (f σ .ez).val j k m = (σ .ez).val j k m) ∧ (InsideM s.rB j k → (f σ .br).val j k m = (σ .br).val j k m) ∧
      (InsideM s.tB j k → (f σ .bt).val j k m = (σ .bt).val j k m) ∧ (InsideM s.zB j k → (f σ .bz).val j k m = (σ .bz).val j k m)
  | _ => True

/-- Divergence at a node, on and off the axis. -/
noncomputable def divAtM (g : RzGrid) (m : ℕ) (fr ft fz : ModeField) (j k : ℤ) : ℂ :=
  open Classical in if OnAxisM g j then divAxisM g fr fz k else divNodeM g m fr ft fz j k

/-- The run, with the charge density at one node and mode, which follows the continuity equation. -/
noncomputable def historyM (s : RunM) (m : ℕ) (j k : ℤ) : List ActM → ℂ → Mem → Res (ℂ × Mem)
  | [], rho, σ => .ok (rho, σ)
  | .outer f :: l, rho, σ => historyM s m j k l rho (f σ)
  | .electric dt :: l, rho, σ => do
    let τ ← evec (argsE s.g s.c s.mu0 dt s.rE s.tE s.zE s.n) σ
    historyM s m j k l (rho - dt * divAtM s.g m (modeOf σ .jr m) (modeOf σ .jt m) (modeOf σ .jz m) j k) τ
  | .magnetic dt :: l, rho, σ => do
    let τ ← bvec (argsB s.g dt s.rB s.tB s.zB s.n) σ
    historyM s m j k l rho τ

/-- Cell sizes are not zero and the points of the boxes have radii that are not zero. -/
def RunM.Clear (s : RunM) : Prop :=
  s.g.dr ≠ 0 ∧ s.g.dz ≠ 0 ∧ ClearHalves s.g s.rE ∧ ClearNodes s.g s.zE ∧ ClearNodes s.g s.rB ∧ ClearHalves s.g s.zB

/-- The arrays contain the boxes and the neighbours. -/
def RunM.Room (s : RunM) (σ : Mem) : Prop :=
  (RoomFor σ s.rE 1 0 ∧ RoomFor σ s.tE 1 0 ∧ RoomFor σ s.zE 1 0) ∧ RoomFor σ s.rB 0 1 ∧ RoomFor σ s.tB 0 1 ∧ RoomFor σ s.zB 0 1

/-- The components around the cell `(j,k)` and around the node `(j,k)` are advanced. -/
def RunM.Cell (s : RunM) (j k : ℤ) : Prop :=
  InsideM s.rB j k ∧ InsideM s.rB (j + 1) k ∧ InsideM s.tB j k ∧ InsideM s.zB j k ∧ InsideM s.zB j (k + 1) ∧ ¬ OnAxisM s.g (j + 1)

def RunM.Node (s : RunM) (j k : ℤ) : Prop :=
  InsideM s.rE j k ∧ (OnAxisM s.g j ∨ InsideM s.rE (j - 1) k) ∧ InsideM s.tE j k ∧ InsideM s.zE j k ∧ InsideM s.zE j (k - 1)

end Picsar.Spec
