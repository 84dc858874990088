import Verif.Model.Loading
import Verif.Spec.Tiling

/-
Specification vocabulary for the initial plasma: cells of a subdomain, cuts of a domain into subdomains.
-/
namespace Picsar.Spec
open Picsar Picsar.Loading

/-- The subdomain has `n` cells of positive size in this direction. -/
def HasCells (a : Axis) (n : ℤ) : Prop := 0 < a.d ∧ 0 ≤ n ∧ a.hi = a.lo + n * a.d

/-- `x` is in cell `j`. -/
def InCell1 (a : Axis) (j : ℤ) (x : ℝ) : Prop := a.lo + j * a.d ≤ x ∧ x < a.lo + (j + 1) * a.d

def InCell (m : Dom) (j k l : ℤ) (p : Site) : Prop := InCell1 m.x j p.x ∧ InCell1 m.y k p.y ∧ InCell1 m.z l p.z

/-- The middle of cell `j` is between the limits of the plasma. -/
def Filled (a : Axis) (smin smax : ℝ) (j : ℤ) : Prop := smin < a.lo + (j + 1 / 2) * a.d ∧ a.lo + (j + 1 / 2) * a.d ≤ smax

/-- Subdomain number `r` of a domain cut at the cells `c 0 = 0, c 1, ..., c R`. -/
noncomputable def slice (a : Axis) (c : ℕ → ℤ) (r : ℕ) : Axis := ⟨a.lo + c r * a.d, a.lo + c (r + 1) * a.d, a.d⟩

/-- The cuts cover the domain. -/
def Cuts (a : Axis) (c : ℕ → ℤ) (R : ℕ) : Prop := 0 < a.d ∧ c 0 = 0 ∧ (∀ r, c r ≤ c (r + 1)) ∧ a.hi = a.lo + c R * a.d

/-- One process of a Cartesian decomposition. -/
noncomputable def subdomain (m : Dom) (cx cy cz : ℕ → ℤ) (rx ry rz : ℕ) : Dom := ⟨slice m.x cx rx, slice m.y cy ry, slice m.z cz rz, m.nc, m.c⟩

/-- Position and weight of a loaded particle. -/
def siteOf (p : Deposition.Part) : Site := ⟨p.x, p.y, p.z, p.w⟩

/-- Drift plus seven thermal velocities stays below the speed of light. -/
def BelowLight (c : ℝ) (s : Sp) : Prop :=
  0 < c ∧ √(s.vdx ^ 2 + s.vdy ^ 2 + s.vdz ^ 2) + 7 * max |s.vtx| (max |s.vty| |s.vtz|) < c

/-- A generator of random numbers between 0 and 1. -/
def Uniform01 (rng : ℕ → ℝ) : Prop := ∀ i, 0 ≤ rng i ∧ rng i < 1

/-- What a particle of the plasma becomes in the tiles; the attributes other than the weight are not set (`junk`). -/
def stored (junk : Fin 3 → ℝ) (p : Deposition.Part) : Tiling.Part 3 :=
  ⟨p.x, p.y, p.z, p.ux, p.uy, p.uz, p.gaminv, fun i => if i = 0 then p.w else junk i⟩

end Picsar.Spec
