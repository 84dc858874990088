import Verif.Base
import Mathlib.Data.Real.Basic
import Mathlib.Data.Int.Notation
/-
Load balancing: 1-D split, searches and processor numbering (src/housekeeping/load_balancing.F90), and the 2×2 matrix helper
(src/parallelization/tiling/tiling.F90). Real arithmetic instead of floating point.
-/
namespace Picsar.LoadBalance
open Picsar

/-- The `DO WHILE` loop of `balance_in_dir` (load_balancing.F90:2016-2023) from cell `icell` with the load `cur` collected so far;
returns the final `curr_proc_load` and `icell`. -/
noncomputable def scan (load : List ℝ) (target cur : ℝ) (icell : ℕ) : Res (ℝ × ℕ) :=
  if icell + 1 < load.length then do
    let v ← rd load icell
    if target ≤ cur + v then .ok (cur + v, icell) else scan load target (cur + v) (icell + 1)
  else .ok (cur, icell)
termination_by load.length - icell

/-- State of the loop over processes: next cell, `curr_balanced_load`, `SUM(load_per_proc)`, ranges found so far. -/
structure BState where
  icell : ℕ
  target : ℝ
  used : ℝ
  ranges : List (ℕ × ℕ)

/-- Body of the loop over processes (load_balancing.F90:2011-2033). `b` is `balanced_load`, `P` is `nproc_in_dir`. -/
noncomputable def balanceStep (load : List ℝ) (b : ℝ) (P : ℕ) (s : BState) (iproc : ℕ) : Res BState := do
  let (cur, last) ← scan load s.target 0 s.icell
  let used := s.used + cur
  -- sanity check
  let top := if iproc = P - 1 ∧ last + 1 + 1 < load.length then load.length - 1 else last
  .ok ⟨last + 1, b + ((iproc + 1) * b - used), used, s.ranges ++ [(s.icell, top)]⟩

/-- `balance_in_dir` (load_balancing.F90:1996-2037): cell ranges `idirmin(i)..idirmax(i)` of the `P` processes. -/
noncomputable def balance (load : List ℝ) (P : ℕ) : Res (List (ℕ × ℕ)) := do
  let b := load.sum / P
  let s ← (List.range P).foldlM (balanceStep load b P) ⟨0, b, 0, []⟩
  .ok s.ranges

/-- Read of element `i` of an array with lower bound 0. -/
def rd0 {α : Type} (l : List α) (i : ℤ) : Res α := if 0 ≤ i then rd l i.toNat else .error .outOfBounds

/-- Loop of `get_proc_interval` (load_balancing.F90:2952-2965). Integer division of non-negative numbers. -/
def intervalLoop (ncmin ncmax : List ℤ) (ic imin imax : ℤ) : Res ℤ :=
  if h : imin ≤ imax then
    match rd0 ncmin ((imax + imin) / 2), rd0 ncmax ((imax + imin) / 2) with
    | .ok lo, .ok hi =>
      if lo ≤ ic ∧ ic ≤ hi then .ok ((imax + imin) / 2)
      else if ic < lo then intervalLoop ncmin ncmax ic imin ((imax + imin) / 2 - 1)
      else intervalLoop ncmin ncmax ic ((imax + imin) / 2 + 1) imax
    | .error e, _ => .error e
    | _, .error e => .error e
  else .ok (-1)
termination_by (imax - imin + 1).toNat
decreasing_by all_goals omega

/-- `get_proc_interval` (load_balancing.F90:2939-2967), `ncpus = length`. -/
def procInterval (ncmin ncmax : List ℤ) (ic : ℤ) : Res ℤ := intervalLoop ncmin ncmax ic 0 (ncmin.length - 1)

/-- Loop of `binary_search` (load_balancing.F90:2992-3005); `arr` has lower bound 1. -/
def searchLoop (arr : List ℤ) (key imin imax : ℤ) : Res ℤ :=
  if h : imin ≤ imax then
    match rd0 arr ((imax + imin) / 2 - 1) with
    | .ok v =>
      if v = key then .ok ((imax + imin) / 2)
      else if key ≤ v then searchLoop arr key imin ((imax + imin) / 2 - 1)
      else searchLoop arr key ((imax + imin) / 2 + 1) imax
    | .error e => .error e
  else .ok (-1)
termination_by (imax - imin + 1).toNat
decreasing_by all_goals omega

/-- `binary_search` (load_balancing.F90:2979-3007). -/
def binarySearch (arr : List ℤ) (key : ℤ) : Res ℤ := searchLoop arr key 1 arr.length

/-- `pxr_convertindtoproc` without Cartesian communicator (load_balancing.F90:134-146). -/
def convertInd (npx npy npz ix iy iz : ℤ) : ℤ :=
  let ixt := if ix < 0 then npx - 1 else ix
  let ixt := if npx - 1 < ixt then 0 else ixt
  let iyt := if iy < 0 then npy - 1 else iy
  let iyt := if npx - 1 < iyt then 0 else iyt
  let izt := if iz < 0 then npz - 1 else iz
  let izt := if npx - 1 < izt then 0 else izt
  ixt + iyt * npx + izt * npx * npy

/-- `pxr_convertindtoproc` with Cartesian communicator (load_balancing.F90:130-133): `MPI_CART_RANK` on coordinates `(iz, iy, ix)`;
by the MPI standard ranks of a Cartesian communicator are numbered row-major. -/
def convertIndCart (npx npy _npz ix iy iz : ℤ) : ℤ := (iz * npy + iy) * npx + ix

/-- `product_matrix_2c2` (tiling.F90:1938-1951). Indices `0, 1` stand for `1, 2`. -/
def productMatrix (M1 M2 M3 : Fin 2 → Fin 2 → ℝ) : Fin 2 → Fin 2 → ℝ :=
  let M3 := fun i j => 0 * M3 i j
  ([0, 1] : List (Fin 2)).foldl (fun M i => ([0, 1] : List (Fin 2)).foldl (fun M j =>
    ([0, 1] : List (Fin 2)).foldl (fun M k => Function.update M i (Function.update (M i) j (M1 i k * M2 k j))) M) M) M3

end Picsar.LoadBalance
