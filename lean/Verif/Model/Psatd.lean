import Verif.Model.Stencil
import Mathlib.Analysis.SpecialFunctions.Trigonometric.Basic
import Mathlib.Data.ZMod.Basic
import Mathlib.Data.Fin.VecNotation
import Mathlib.Algebra.BigOperators.Fin

/-
The pseudo-spectral Maxwell solver (src/field_solvers/Maxwell/GPSTD_solver/init_kspace_3D.F90 and fourier_psaotd.F90) without absorbing
layers, with one process per transform. Real numbers are exact. The transforms of the FFTW library are taken as the sums of its
documentation.
-/
namespace Picsar.Psatd
open Picsar Picsar.Stencil Complex

/-- `sinc` (init_kspace_3D.F90:96-109). -/
noncomputable def sinc (x : ℝ) : ℝ := if x ≠ 0 then Real.sin x / x else 1

/-- `ones(j)` (init_kspace_3D.F90:773-780). -/
noncomputable def ones (n j : ℕ) : ℝ := if j > n / 2 + 1 then -((j : ℝ) - 1) else (j : ℝ) - 1

/-- `onesp(j)` (init_kspace_3D.F90:773-780). -/
noncomputable def onesp (n j : ℕ) : ℝ := if j > n / 2 + 1 then n + ((j : ℝ) - 1) else (j : ℝ) - 1

/-- `kxx(k) = v` for an array of size `n`. -/
noncomputable def put (n : ℕ) (a : ℕ → ℝ) (k : ℕ) (v : ℝ) : Res (ℕ → ℝ) :=
  if 1 ≤ k ∧ k ≤ n then .ok (Function.update a k v) else .error .outOfBounds

/-- `DO i=a, b ; kxx(i+1) = kxx(i) + 1` (init_kspace_3D.F90:844-846, 849-851, 854-856, 859-861). -/
noncomputable def ramp (n : ℕ) (x : ℕ → ℝ) (a cnt : ℕ) : Res (ℕ → ℝ) :=
  (List.range' a cnt).foldlM (fun x (i : ℕ) => put n x (i + 1) (x i + 1)) x

/-- `fftfreq` (init_kspace_3D.F90:830-866). -/
noncomputable def fftfreq (n : ℕ) (d : ℝ) : Res (ℕ → ℝ) := do
  let x ← put n (fun _ => 0) 1 0
  let x ←
    if n % 2 = 0 then do
      let x ← ramp n x 1 (n / 2 - 1)
      let x ← put n x (n / 2 + 1) (-((n / 2 : ℕ) : ℝ))
      ramp n x (n / 2 + 1) (n - 1 - n / 2)
    else do
      let x ← ramp n x 1 ((n - 1) / 2)
      let x ← put n x ((n - 1) / 2 + 2) (-(((n - 1) / 2 : ℕ) : ℝ))
      ramp n x ((n - 1) / 2 + 2) (n - 1 - ((n - 1) / 2 + 1))
  .ok fun j => x j / (d * n) / 2 * Real.pi

/-- `kvec`, `kvecf`, `kvecb` at one index. -/
structure K1 where
  c : ℂ
  f : ℂ
  b : ℂ

/-- `compute_k_1d` (init_kspace_3D.F90:751-813) at the index `j`, `1 ≤ j ≤ n`. -/
noncomputable def k1d (n norder : ℕ) (d : ℝ) (stg : Bool) (j : ℕ) : Res K1 := do
  let kvec : ℝ ←
    if norder ≠ 0 then
      .ok ((List.range' 1 (norder / 2)).foldl (fun s (i : ℕ) =>
        if stg then s + 2 / d * weight norder stg i * Real.sin ((i * 2 - 1) * Real.pi * ones n j / n)
        else s + 2 / d * weight norder stg i * Real.sin (i * 2 * Real.pi * onesp n j / n)) 0)
    else do
      let x ← fftfreq n d
      .ok (x j)
  if stg then .ok ⟨kvec, kvec * exp (-I * Real.pi * onesp n j / n), kvec * exp (I * Real.pi * onesp n j / n)⟩
  else .ok ⟨kvec, kvec, kvec⟩

/-- What is asked of the solver: orders and cell sizes by axis, staggering, number of dimensions, time step, constants. -/
structure Par where
  norder : Fin 3 → ℕ
  d : Fin 3 → ℝ
  stg : Bool
  twoD : Bool
  dt : ℝ
  c : ℝ
  eps0 : ℝ
  mu0 : ℝ

/-- The blocks 1-9 of `kspace` (forward, backward) and block 10 at one mode. -/
structure Kv where
  f : Fin 3 → ℂ
  b : Fin 3 → ℂ
  K : ℝ

/-- `init_kspace` (init_kspace_3D.F90:420-442, 481-485), modes of the transform in natural order (no transposition). -/
noncomputable def kspace (P : Par) (n : Fin 3 → ℕ) (j : Fin 3 → ℕ) : Res Kv := do
  let kx ← k1d (n 0) (P.norder 0) (P.d 0) P.stg (j 0)
  let ky ← k1d (n 1) (P.norder 1) (P.d 1) P.stg (j 1)
  let kz ← k1d (n 2) (P.norder 2) (P.d 2) P.stg (j 2)
  let ky : K1 := if P.twoD then ⟨0, 0, 0⟩ else ky
  .ok ⟨![kx.f, ky.f, kz.f], ![kx.b, ky.b, kz.b], Real.sqrt (‖kz.c‖ ^ 2 + ‖ky.c‖ ^ 2 + ‖kx.c‖ ^ 2)⟩

/-- `at_op` 1 to 3 at one mode, the norm by which the code divides, and `switch`. -/
structure Ops where
  S : ℝ
  C : ℝ
  A : ℝ
  Kd : ℝ
  sw : Bool

/-- `at_op` (init_kspace_3D.F90:487-536); `first` says that this is the element (1,1,1). Block 4 is used nowhere and left out. The division
of 0 by 0 at another mode of norm 0 is a fault. -/
noncomputable def ops (P : Par) (K : ℝ) (first : Bool) : Res Ops :=
  let S := P.c * P.dt * sinc (P.dt * P.c * K)
  let C := Real.cos (P.dt * P.c * K)
  let sw : Bool := first && decide (K = 0)
  let Kd := if sw then 1 else K
  if Kd = 0 then .error .divByZero
  else .ok ⟨S, C, if sw then (P.c * P.dt) ^ 2 / 2 else (1 - C) / Kd ^ 2, Kd, sw⟩

/-- `cc_mat(:,:)` at one mode (`compute_cc_mat_merged_fields`, init_kspace_3D.F90:1316-1497), before normalisation. Blocks that are not set
are 0 (lines 1000-1004). -/
noncomputable def ccMat (P : Par) (k : Kv) (o : Ops) (row col : ℕ) : ℂ :=
  match row, col with
  | 1, 5 => -I * k.f 2 * P.c * o.S
  | 1, 6 => I * k.f 1 * P.c * o.S
  | 2, 4 => I * k.f 2 * P.c * o.S
  | 2, 6 => -I * k.f 0 * P.c * o.S
  | 3, 4 => -I * k.f 1 * P.c * o.S
  | 3, 5 => I * k.f 0 * P.c * o.S
  | 4, 2 => I * k.b 2 / P.c * o.S
  | 4, 3 => -I * k.b 1 / P.c * o.S
  | 5, 1 => -I * k.b 2 / P.c * o.S
  | 5, 3 => I * k.b 0 / P.c * o.S
  | 6, 1 => I * k.b 1 / P.c * o.S
  | 6, 2 => -I * k.b 0 / P.c * o.S
  | 1, 1 | 2, 2 | 3, 3 | 4, 4 | 5, 5 | 6, 6 => o.C
  | 1, 7 | 2, 8 | 3, 9 => (-1) * P.c * P.mu0 * o.S
  | 4, 8 => -P.mu0 * I * k.b 2 * o.A
  | 4, 9 => -P.mu0 * (-I) * k.b 1 * o.A
  | 5, 7 => -P.mu0 * (-I) * k.b 2 * o.A
  | 5, 9 => -P.mu0 * I * k.b 0 * o.A
  | 6, 7 => -P.mu0 * I * k.b 1 * o.A
  | 6, 8 => -P.mu0 * (-I) * k.b 0 * o.A
  | 1, 10 => rhoOld 0
  | 2, 10 => rhoOld 1
  | 3, 10 => rhoOld 2
  | 1, 11 => rhoNew 0
  | 2, 11 => rhoNew 1
  | 3, 11 => rhoNew 2
  | _, _ => 0
where
  rhoOld (i : Fin 3) : ℂ :=
    1 / P.eps0 * (if o.sw then -1 / 3 * I * (P.c * P.dt) ^ 2 else I * (o.C - 1 / (P.c * P.dt) * o.S) / o.Kd ^ 2 * k.b i)
  rhoNew (i : Fin 3) : ℂ :=
    1 / P.eps0 * (if o.sw then -1 / 6 * I * (P.c * P.dt) ^ 2 else I * (1 / (P.c * P.dt) * o.S - 1) / o.Kd ^ 2 * k.b i)

/-- `push_psaotd_ebfielfs_3d` (fourier_psaotd.F90:1538-1642) at one mode: new transforms of E and B. -/
def push3d (m : ℕ → ℕ → ℂ) (E B J : Fin 3 → ℂ) (rho rhoold : ℂ) : (Fin 3 → ℂ) × (Fin 3 → ℂ) :=
  (![m 1 1 * E 0 + m 1 5 * B 1 + m 1 6 * B 2 + m 1 7 * J 0 + m 1 11 * rho + m 1 10 * rhoold,
     m 2 2 * E 1 + m 2 4 * B 0 + m 2 6 * B 2 + m 2 8 * J 1 + m 2 11 * rho + m 2 10 * rhoold,
     m 3 3 * E 2 + m 3 4 * B 0 + m 3 5 * B 1 + m 3 9 * J 2 + m 3 11 * rho + m 3 10 * rhoold],
   ![m 4 4 * B 0 + m 4 2 * E 1 + m 4 3 * E 2 + m 4 8 * J 1 + m 4 9 * J 2,
     m 5 5 * B 1 + m 5 1 * E 0 + m 5 3 * E 2 + m 5 7 * J 0 + m 5 9 * J 2,
     m 6 6 * B 2 + m 6 1 * E 0 + m 6 2 * E 1 + m 6 7 * J 0 + m 6 8 * J 1])

/-- `push_psaotd_ebfielfs_2d` (fourier_psaotd.F90:1452-1535) at one mode. -/
def push2d (m : ℕ → ℕ → ℂ) (E B J : Fin 3 → ℂ) (rho rhoold : ℂ) : (Fin 3 → ℂ) × (Fin 3 → ℂ) :=
  (![m 1 1 * E 0 + m 1 5 * B 1 + m 1 7 * J 0 + m 1 11 * rho + m 1 10 * rhoold,
     m 2 2 * E 1 + m 2 4 * B 0 + m 2 6 * B 2 + m 2 8 * J 1,
     m 3 3 * E 2 + m 3 5 * B 1 + m 3 9 * J 2 + m 3 11 * rho + m 3 10 * rhoold],
   ![m 4 4 * B 0 + m 4 2 * E 1 + m 4 8 * J 1,
     m 5 5 * B 1 + m 5 1 * E 0 + m 5 3 * E 2 + m 5 7 * J 0 + m 5 9 * J 2,
     m 6 6 * B 2 + m 6 2 * E 1 + m 6 8 * J 1])

/-- Indices of an array of the transform, from 0 (0 is the lower bound). -/
abbrev Grid (nx ny nz : ℕ) := ZMod nx × ZMod ny × ZMod nz

variable {nx ny nz : ℕ}

/-- `exp(2 π i (kx x / nx + ky y / ny + kz z / nz))`. -/
noncomputable def basis (kx ky kz : ℕ) (p : Grid nx ny nz) : ℂ :=
  exp (2 * Real.pi * I * (kx * p.1.val / nx + ky * p.2.1.val / ny + kz * p.2.2.val / nz))

/-- `DFFTW_EXECUTE_DFT_R2C` at the mode `(kx, ky, kz)`, `0 ≤ kx ≤ nx/2`. -/
noncomputable def r2c [NeZero nx] [NeZero ny] [NeZero nz] (u : Grid nx ny nz → ℝ) (kx ky kz : ℕ) : ℂ :=
  ∑ p : Grid nx ny nz, u p * (basis kx ky kz p)⁻¹

/-- `DFFTW_EXECUTE_DFT_C2R`: the modes that are not stored are the conjugates of those that are; imaginary parts of the sums for `kx = 0`
and `kx = nx/2` are not used. -/
noncomputable def c2r (U : ℕ → ℕ → ℕ → ℂ) (p : Grid nx ny nz) : ℝ :=
  ∑ kx ∈ Finset.range (nx / 2 + 1), (if kx = 0 ∨ 2 * kx = nx then 1 else 2) *
    ∑ ky ∈ Finset.range ny, ∑ kz ∈ Finset.range nz, (U kx ky kz * basis kx ky kz p).re

/-- The coefficients at the mode with Fortran indices `(kx+1, ky+1, kz+1)`: `init_kspace`, `compute_cc_mat_merged_fields` and the
normalisation `coeff_norm` (init_kspace_3D.F90:1028-1037). -/
noncomputable def modeMat (P : Par) (nx ny nz kx ky kz : ℕ) : Res (ℕ → ℕ → ℂ) := do
  let k ← kspace P ![nx, ny, nz] ![kx + 1, ky + 1, kz + 1]
  let o ← ops P k.K (kx == 0 && ky == 0 && kz == 0)
  .ok fun i j => 1 / ((nx * ny * nz : ℕ) : ℂ) * ccMat P k o i j

/-- Electric and magnetic field on the array. -/
structure EB (nx ny nz : ℕ) where
  E : Fin 3 → Grid nx ny nz → ℝ
  B : Fin 3 → Grid nx ny nz → ℝ

/-- All stored modes, in the order of the loops (init_kspace_3D.F90:417-419). -/
def modes (nx ny nz : ℕ) : List (ℕ × ℕ × ℕ) :=
  (List.range nz).flatMap fun kz => (List.range ny).flatMap fun ky => (List.range (nx / 2 + 1)).map fun kx => (kx, ky, kz)

/-- The coefficients of all modes, computed once before the run (`init_gpstd`, init_kspace_3D.F90:877-1048). -/
noncomputable def initGpstd (P : Par) (nx ny nz : ℕ) : Res (ℕ → ℕ → ℕ → ℕ → ℕ → ℂ) :=
  (modes nx ny nz).foldlM (fun m k => do
    let a ← modeMat P nx ny nz k.1 k.2.1 k.2.2
    .ok fun kx ky kz => if (kx, ky, kz) = k then a else m kx ky kz) fun _ _ _ _ _ => 0

/-- One call of `push_psatd_ebfield` (maxwell_solver_manager.F90:574-640) with `g_spectral = .FALSE.`, on the arrays of the transform: `m` are
the coefficients; transforms of all fields, push, transforms back (fourier_psaotd.F90:991-1080, 1251-1300). -/
noncomputable def step [NeZero nx] [NeZero ny] [NeZero nz] (P : Par) (m : ℕ → ℕ → ℕ → ℕ → ℕ → ℂ) (F : EB nx ny nz)
    (J : Fin 3 → Grid nx ny nz → ℝ) (rho rhoold : Grid nx ny nz → ℝ) : EB nx ny nz :=
  let V (kx ky kz : ℕ) := (if P.twoD then push2d else push3d) (m kx ky kz) (fun i => r2c (F.E i) kx ky kz)
    (fun i => r2c (F.B i) kx ky kz) (fun i => r2c (J i) kx ky kz) (r2c rho kx ky kz) (r2c rhoold kx ky kz)
  ⟨fun i => c2r fun kx ky kz => (V kx ky kz).1 i, fun i => c2r fun kx ky kz => (V kx ky kz).2 i⟩

end Picsar.Psatd
