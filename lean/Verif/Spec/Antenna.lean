import Verif.Model.Antenna
import Verif.Spec.Loading

/-
Specification vocabulary for laser antennas: the asked field at the plane of the antenna.
-/
namespace Picsar.Spec
open Picsar Picsar.Loading Picsar.Antenna

/-- Settings of a laser: a direction, a polarisation orthogonal to it, a wavelength, a waist and an amplitude. -/
structure Usable (K : Consts) (s : Settings) : Prop where
  c : 0 < K.c
  me : 0 < K.me
  e : 0 < K.e
  vec : 0 < dot s.vec s.vec
  pol : 0 < dot s.pol s.pol
  orth : dot s.vec s.pol = 0
  lam : 0 < s.lam
  w0 : s.w0 ≠ 0
  amp : s.a1 ≠ 0 ∨ s.a2 ≠ 0

/-- Unit vector. -/
noncomputable def dirOf (v : V3) : V3 := fun i => v i / √(dot v v)

/-- Unit vectors of the polarisations: the given one, and the one orthogonal to it and to the direction of the laser. -/
noncomputable def polA (s : Settings) : V3 := dirOf s.pol
noncomputable def polB (s : Settings) : V3 := let v := dirOf s.vec; let p := dirOf s.pol; ![v 1 * p 2 - v 2 * p 1, v 2 * p 0 - v 0 * p 2, v 0 * p 1 - v 1 * p 0]

/-- Angular frequency. -/
noncomputable def omegaL (K : Consts) (s : Settings) : ℝ := 2 * Real.pi * K.c / s.lam

/-- Field of normalised amplitude `a`: `a m c ω / e`. -/
noncomputable def peakField (K : Consts) (s : Settings) (a : ℝ) : ℝ := a * K.me * K.c * omegaL K s / K.e

/-- Gaussian beam at the focus. -/
noncomputable def waist (s : Settings) (X Y : ℝ) : ℝ := Real.exp (-(X ^ 2 + Y ^ 2) / s.w0 ^ 2)

/-- Field of two polarisations with carrier `f`, envelope `g` and phase shift `2π polangle`. -/
noncomputable def fieldAt (K : Consts) (s : Settings) (f : ℝ → ℝ) (g : ℝ) (X Y t : ℝ) : V3 := fun i =>
  waist s X Y * g * (peakField K s s.a1 * f (omegaL K s * (t - s.tpeak)) * polA s i +
    peakField K s s.a2 * f (omegaL K s * (t - s.tpeak) + 2 * Real.pi * s.polangle) * polB s i)

/-- Gaussian pulse of duration `ctau/c` with the given order. -/
noncomputable def pulse (K : Consts) (s : Settings) (t : ℝ) : ℝ := Real.exp (-((t - s.tpeak) / (s.ctau / K.c)) ^ s.order)

/-- Hann window between 0 and `2 t_peak`. -/
noncomputable def hann (s : Settings) (t : ℝ) : ℝ := Real.sin (Real.pi * t / (2 * s.tpeak)) ^ 2

/-- Largest field, up to the phase shift. -/
noncomputable def topField (K : Consts) (s : Settings) : ℝ := √(peakField K s s.a1 ^ 2 + peakField K s s.a2 ^ 2)

/-- The middle of a cell. -/
def Middle (a : Axis) (n : ℤ) (x : ℝ) : Prop := ∃ j : ℤ, 0 ≤ j ∧ j < n ∧ x = a.lo + (j + 1 / 2) * a.d

/-- `n` is the direction along which the plane is parametrised: the last one with a component of the normal. -/
def LastDir (v : V3) (n : Fin 3) : Prop := v n ≠ 0 ∧ ∀ i, n < i → v i = 0

/-- Process `(r 0, r 1, r 2)` of a Cartesian decomposition. -/
noncomputable def piece (m : Fin 3 → Axis) (c : Fin 3 → ℕ → ℤ) (r : Fin 3 → ℕ) : Fin 3 → Axis := fun i => slice (m i) (c i) (r i)

/-- Position relative to the spot. -/
def rel (s : Settings) (p : V3) : V3 := fun i => p i - s.spot i

/-- The settings of the profile: an order that is not negative and a duration for a pulse, a peak time that is not zero for a Hann window. -/
structure Pulsed (s : Settings) : Prop where
  order : s.window = 0 → 0 ≤ s.order
  ctau : s.window = 0 → s.order ≠ 0 → s.ctau ≠ 0
  tpeak : s.window ≠ 0 → s.tpeak ≠ 0

open Classical in
/-- The field of the antenna at the point of coordinates `(X, Y)`: sine carrier with a pulse, sine carrier without end and without phase shift (order 0), or
cosine carrier in a Hann window that ends at `2 t_peak`. -/
noncomputable def asked (K : Consts) (s : Settings) (X Y t : ℝ) : V3 :=
  if s.window = 0 then
    if s.order = 0 then fieldAt K { s with polangle := 0 } Real.sin 1 X Y t else fieldAt K s Real.sin (pulse K s t) X Y t
  else if t ≤ 2 * s.tpeak then fieldAt K s Real.cos (hann s t) X Y t else fun _ => 0

/-- Velocity of an emitter: one hundredth of the speed of light where the field is the largest one. -/
noncomputable def quiver (K : Consts) (s : Settings) (charge X Y t : ℝ) : V3 := fun i => charge * (K.c / 100) * asked K s X Y t i / topField K s

/-- An emitter after the steps `its`; step `it` takes the field at the time `(it - 1/2) dt`. -/
noncomputable def moved (K : Consts) (s : Settings) (charge dt : ℝ) (its : List ℤ) (p : APart) : APart where
  pos := fun i => p.pos i + (its.map fun it : ℤ => dt * quiver K s charge p.X p.Y ((it - 1 / 2) * dt) i).sum
  u := match its.getLast? with
    | none => p.u
    | some it => quiver K s charge p.X p.Y ((it - 1 / 2) * dt)
  gaminv := if its = [] then p.gaminv else 1
  w := p.w
  X := p.X
  Y := p.Y

/-- A vector along axis `a`. -/
def OnAxis (v : V3) (a : Fin 3) : Prop := v a ≠ 0 ∧ ∀ i, i ≠ a → v i = 0

/-- An emitter with a given amplitude. -/
def driven (charge dt : ℝ) (src : V3) (p : APart) (a : V3) : APart :=
  { p with pos := fun i => p.pos i + dt * (charge * a i + src i), u := fun i => charge * a i + src i }

end Picsar.Spec
