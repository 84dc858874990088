import Verif.Model.Psatd

/-
The pseudo-spectral solver by products of block matrices (`g_spectral = .TRUE.`), with merged fields or, as in runs with absorbing layers, with
the six fields split in two parts each: GPSTD.F90:322-450, init_kspace_3D.F90:877-1048, 1064-1302. The damping of the layers is not part of this
file. Threads write to different elements and are not modelled.
-/
namespace Picsar.Psatd
open Picsar Complex

/-- `block3d` (GPSTD.F90:66-80): an array of modes with its sizes; the indices of `v` begin at 0. -/
structure Blk where
  n1 : ℕ
  n2 : ℕ
  n3 : ℕ
  v : ℕ → ℕ → ℕ → ℂ

/-- Two arrays have the same sizes. -/
def Blk.Same (a b : Blk) : Prop := a.n1 = b.n1 ∧ a.n2 = b.n2 ∧ a.n3 = b.n3

instance (a b : Blk) : Decidable (a.Same b) := by unfold Blk.Same; infer_instance

/-- `is_usefull_per` (init_kspace_3D.F90:133-136). -/
def usefulPer : List ℕ :=
  [0, 4, 5, 6, 9, 10, 12, 14, 16, 18, 20, 21, 24, 25, 26, 30, 31, 32, 34, 35, 36, 40, 41, 44, 46, 48, 50, 52, 55, 56, 60, 61, 62]

/-- `is_usefull_abs` (init_kspace_3D.F90:159-164). -/
def usefulAbs : List ℕ :=
  [0, 10, 11, 12, 15, 16, 18, 25, 26, 36, 44, 45, 47, 49, 50, 54, 57, 58, 72, 76, 77, 82, 83, 84, 90, 91, 92, 106, 107, 108, 115, 116, 121,
   122, 126, 140, 141, 144, 148, 150, 153, 154, 162, 172, 173, 180, 182, 183, 187, 188, 198]

/-- The blocks of a matrix of `nb` times `nb` blocks in the order of the loops (init_kspace_3D.F90:926-946). -/
def blockPairs (nb : ℕ) : List (ℕ × ℕ) := (List.range' 1 nb).flatMap fun i => (List.range' 1 nb).map fun j => (i, j)

/-- The blocks that are allocated with full size (init_kspace_3D.F90:925-946); the first component of the state is `incr`. -/
def fullBlocks (useful : List ℕ) (nb : ℕ) : List (ℕ × ℕ) :=
  ((blockPairs nb).foldl (fun (s : ℕ × List (ℕ × ℕ)) ij =>
    if useful.getD (s.1 - 1) 0 = (ij.1 - 1) * nb + (ij.2 - 1) then (if s.1 < useful.length then s.1 + 1 else s.1, s.2 ++ [ij])
    else s) (1, [])).2

/-- The blocks that `compute_cc_mat_merged_fields` sets, in its order (init_kspace_3D.F90:1316-1497). -/
def setPer : List (ℕ × ℕ) :=
  [(1, 5), (1, 6), (2, 4), (2, 6), (3, 4), (3, 5), (4, 2), (4, 3), (5, 1), (5, 3), (6, 1), (6, 2), (1, 1), (2, 2), (3, 3), (4, 4), (5, 5), (6, 6),
   (1, 7), (2, 8), (3, 9), (4, 8), (4, 9), (5, 7), (5, 9), (6, 7), (6, 8), (1, 10), (2, 10), (3, 10), (1, 11), (2, 11), (3, 11)]

/-- The blocks that `compute_cc_mat_splitted_fields` sets, in its order (init_kspace_3D.F90:1087-1300). -/
def setAbs : List (ℕ × ℕ) :=
  [(1, 1), (2, 2), (3, 3), (4, 4), (5, 5), (6, 6), (7, 7), (8, 8), (9, 9), (10, 10), (11, 11), (12, 12), (1, 13), (3, 14), (5, 15),
   (1, 16), (3, 16), (5, 16), (1, 17), (3, 17), (5, 17), (7, 14), (7, 15), (9, 13), (9, 15), (11, 13), (11, 14),
   (2, 9), (2, 10), (1, 11), (1, 12), (4, 7), (4, 8), (3, 11), (3, 12), (6, 7), (6, 8), (5, 9), (5, 10),
   (8, 4), (8, 3), (7, 5), (7, 6), (10, 1), (10, 2), (9, 5), (9, 6), (12, 1), (12, 2), (11, 3), (11, 4)]

/-- `compute_cc_mat_splitted_fields` at one mode (init_kspace_3D.F90:1064-1302), before normalisation. Rows and columns: exy, exz, eyx, eyz, ezx,
ezy, bxy, bxz, byx, byz, bzx, bzy; further columns: the three currents, old and new charge density. -/
noncomputable def ccSplit (P : Par) (k : Kv) (o : Ops) (row col : ℕ) : ℂ :=
  match row, col with
  | 1, 1 | 2, 2 | 3, 3 | 4, 4 | 5, 5 | 6, 6 | 7, 7 | 8, 8 | 9, 9 | 10, 10 | 11, 11 | 12, 12 => o.C
  | 1, 13 | 3, 14 | 5, 15 => (-1) * P.c * P.mu0 * o.S
  | 1, 16 => rhoOld 0
  | 3, 16 => rhoOld 1
  | 5, 16 => rhoOld 2
  | 1, 17 => rhoNew 0
  | 3, 17 => rhoNew 1
  | 5, 17 => rhoNew 2
  | 7, 14 => -P.mu0 * I * k.b 2 * o.A
  | 7, 15 => -P.mu0 * (-I) * k.b 1 * o.A
  | 9, 13 => -P.mu0 * (-I) * k.b 2 * o.A
  | 9, 15 => -P.mu0 * I * k.b 0 * o.A
  | 11, 13 => -P.mu0 * I * k.b 1 * o.A
  | 11, 14 => -P.mu0 * (-I) * k.b 0 * o.A
  | 2, 9 | 2, 10 => -I * k.f 2 * P.c * o.S
  | 1, 11 | 1, 12 => I * k.f 1 * P.c * o.S
  | 4, 7 | 4, 8 => I * k.f 2 * P.c * o.S
  | 3, 11 | 3, 12 => -I * k.f 0 * P.c * o.S
  | 6, 7 | 6, 8 => -I * k.f 1 * P.c * o.S
  | 5, 9 | 5, 10 => I * k.f 0 * P.c * o.S
  | 8, 4 | 8, 3 => I * k.b 2 / P.c * o.S
  | 7, 5 | 7, 6 => -I * k.b 1 / P.c * o.S
  | 10, 1 | 10, 2 => -I * k.b 2 / P.c * o.S
  | 9, 5 | 9, 6 => I * k.b 0 / P.c * o.S
  | 12, 1 | 12, 2 => I * k.b 1 / P.c * o.S
  | 11, 3 | 11, 4 => -I * k.b 0 / P.c * o.S
  | _, _ => 0
where
  rhoOld (i : Fin 3) : ℂ :=
    1 / P.eps0 * (if o.sw then -1 / 3 * I * (P.c * P.dt) ^ 2 else I * (o.C - 1 / (P.c * P.dt) * o.S) / o.Kd ^ 2 * k.b i)
  rhoNew (i : Fin 3) : ℂ :=
    1 / P.eps0 * (if o.sw then -1 / 6 * I * (P.c * P.dt) ^ 2 else I * (1 / (P.c * P.dt) * o.S - 1) / o.Kd ^ 2 * k.b i)

/-- As `modeMat`, with `ccSplit`. -/
noncomputable def modeSplit (P : Par) (nx ny nz kx ky kz : ℕ) : Res (ℕ → ℕ → ℂ) := do
  let k ← kspace P ![nx, ny, nz] ![kx + 1, ky + 1, kz + 1]
  let o ← ops P k.K (kx == 0 && ky == 0 && kz == 0)
  .ok fun i j => 1 / ((nx * ny * nz : ℕ) : ℂ) * ccSplit P k o i j

/-- The values of the coefficients of all modes for merged or split fields (init_kspace_3D.F90:1006-1037). -/
noncomputable def initValues (P : Par) (split : Bool) (nx ny nz : ℕ) : Res (ℕ → ℕ → ℕ → ℕ → ℕ → ℂ) :=
  if split then
    (modes nx ny nz).foldlM (fun m k => do
      let a ← modeSplit P nx ny nz k.1 k.2.1 k.2.2
      .ok fun kx ky kz => if (kx, ky, kz) = k then a else m kx ky kz) fun _ _ _ _ _ => 0
  else initGpstd P nx ny nz

/-- `cc_mat(i,j) = ...` with an array of full size on the right. -/
def assign (full : Blk) (m : ℕ → ℕ → ℕ → ℕ → ℕ → ℂ) (cc : ℕ → ℕ → Blk) (ij : ℕ × ℕ) : Res (ℕ → ℕ → Blk) :=
  if (cc ij.1 ij.2).Same full then
    .ok fun i j => if (i, j) = ij then { cc i j with v := fun kx ky kz => m kx ky kz i j } else cc i j
  else .error .outOfBounds

/-- `init_gpstd` (init_kspace_3D.F90:900-1040): allocation, zeros, values with their normalisation. -/
noncomputable def initBlocks (P : Par) (split : Bool) (nx ny nz : ℕ) : Res (ℕ → ℕ → Blk) := do
  let m ← initValues P split nx ny nz
  let fb := if split then fullBlocks usefulAbs 17 else fullBlocks usefulPer 11
  let zero (i j : ℕ) : Blk := if (i, j) ∈ fb then ⟨nx / 2 + 1, ny, nz, fun _ _ _ => 0⟩ else ⟨1, 1, 1, fun _ _ _ => 0⟩
  (if split then setAbs else setPer).foldlM (assign ⟨nx / 2 + 1, ny, nz, fun _ _ _ => 0⟩ m) zero

/-- `anew(i,j,k) = anew(i,j,k) + x(i,j,k)` for the elements of an array with the sizes of `block1`. -/
def addTo (anew block1 : Blk) (x : ℕ → ℕ → ℕ → ℂ) : Res Blk :=
  if anew.Same block1 then
    .ok { anew with v := fun i j k => if i < block1.n1 ∧ j < block1.n2 ∧ k < block1.n3 then anew.v i j k + x i j k else anew.v i j k }
  else .error .outOfBounds

/-- `multiply_unit_blocks` (GPSTD.F90:400-450). -/
noncomputable def multiplyUnit (anew block1 coeff : Blk) : Res Blk :=
  if coeff.n1 * coeff.n2 * coeff.n3 = 1 then
    if (coeff.v 0 0 0).re = 0 ∧ (coeff.v 0 0 0).im = 0 then .ok anew
    else if (coeff.v 0 0 0).re = 1 ∧ (coeff.v 0 0 0).im = 0 then addTo anew block1 block1.v
    else addTo anew block1 fun i j k => block1.v i j k * coeff.v 0 0 0
  else if coeff.Same block1 then addTo anew block1 fun i j k => block1.v i j k * coeff.v i j k
  else .error .outOfBounds

/-- `multiply_mat_vector` (GPSTD.F90:322-382) with `nb` blocks; no row is marked as a source (`is_source_variable` is set only by
`point_to_vector_block_p2f`, which this solver does not call). -/
noncomputable def multiplyMat (nb : ℕ) (cc : ℕ → ℕ → Blk) (vold vnew : ℕ → Blk) : Res (ℕ → Blk) :=
  (List.range' 1 nb).foldlM (fun vnew irow => do
    let b ← (List.range' 1 nb).foldlM (fun b icol => multiplyUnit b (vold icol) (cc irow icol)) { vnew irow with v := fun _ _ _ => 0 }
    .ok fun i => if i = irow then b else vnew i) vnew

/-- `vold`: arrays of full size (init_kspace_3D.F90:955-986). -/
def oldVec (nx ny nz : ℕ) (u : ℕ → ℕ → ℕ → ℕ → ℂ) (i : ℕ) : Blk := ⟨nx / 2 + 1, ny, nz, u i⟩

/-- `vnew`: the first `nv` arrays have full size, the others one element (init_kspace_3D.F90:958-997); the values are those of the last step. -/
def newVec (nx ny nz nv : ℕ) (u : ℕ → ℕ → ℕ → ℕ → ℂ) (i : ℕ) : Blk := if i ≤ nv then ⟨nx / 2 + 1, ny, nz, u i⟩ else ⟨1, 1, 1, u i⟩

variable {nx ny nz : ℕ}

/-- The transforms of merged fields, `vold(1)` to `vold(11)` (fourier_psaotd.F90:1013-1036). -/
noncomputable def oldMerged [NeZero nx] [NeZero ny] [NeZero nz] (F : EB nx ny nz) (J : Fin 3 → Grid nx ny nz → ℝ)
    (rho rhoold : Grid nx ny nz → ℝ) (i : ℕ) : ℕ → ℕ → ℕ → ℂ :=
  match i with
  | 1 => r2c (F.E 0) | 2 => r2c (F.E 1) | 3 => r2c (F.E 2)
  | 4 => r2c (F.B 0) | 5 => r2c (F.B 1) | 6 => r2c (F.B 2)
  | 7 => r2c (J 0) | 8 => r2c (J 1) | 9 => r2c (J 2)
  | 10 => r2c rhoold | _ => r2c rho

/-- One call of `push_psatd_ebfield` (maxwell_solver_manager.F90:574-640) with `g_spectral = .TRUE.` and merged fields
(fourier_psaotd.F90:1012-1036, 1314-1328); `last` are the values that `vnew` had before. -/
noncomputable def stepMat [NeZero nx] [NeZero ny] [NeZero nz] (cc : ℕ → ℕ → Blk) (last : ℕ → ℕ → ℕ → ℕ → ℂ) (F : EB nx ny nz)
    (J : Fin 3 → Grid nx ny nz → ℝ) (rho rhoold : Grid nx ny nz → ℝ) : Res (EB nx ny nz) := do
  let w ← multiplyMat 11 cc (oldVec nx ny nz (oldMerged F J rho rhoold)) (newVec nx ny nz 6 last)
  .ok ⟨![c2r (w 1).v, c2r (w 2).v, c2r (w 3).v], ![c2r (w 4).v, c2r (w 5).v, c2r (w 6).v]⟩

/-- The split fields: part 0 of the components of E is exy, eyx, ezx, part 1 exz, eyz, ezy; B likewise. -/
structure SplitEB (nx ny nz : ℕ) where
  E : Fin 3 → Fin 2 → Grid nx ny nz → ℝ
  B : Fin 3 → Fin 2 → Grid nx ny nz → ℝ

/-- `merge_fields` (maxwell_solver_manager.F90:225-271), on the points of the transform. -/
def merge (F : SplitEB nx ny nz) : EB nx ny nz := ⟨fun i p => F.E i 0 p + F.E i 1 p, fun i p => F.B i 0 p + F.B i 1 p⟩

/-- The transforms of split fields, `vold(1)` to `vold(17)` (fourier_psaotd.F90:1037-1071). -/
noncomputable def oldSplit [NeZero nx] [NeZero ny] [NeZero nz] (F : SplitEB nx ny nz) (J : Fin 3 → Grid nx ny nz → ℝ)
    (rho rhoold : Grid nx ny nz → ℝ) (i : ℕ) : ℕ → ℕ → ℕ → ℂ :=
  match i with
  | 1 => r2c (F.E 0 0) | 2 => r2c (F.E 0 1) | 3 => r2c (F.E 1 0)
  | 4 => r2c (F.E 1 1) | 5 => r2c (F.E 2 0) | 6 => r2c (F.E 2 1)
  | 7 => r2c (F.B 0 0) | 8 => r2c (F.B 0 1) | 9 => r2c (F.B 1 0)
  | 10 => r2c (F.B 1 1) | 11 => r2c (F.B 2 0) | 12 => r2c (F.B 2 1)
  | 13 => r2c (J 0) | 14 => r2c (J 1) | 15 => r2c (J 2)
  | 16 => r2c rhoold | _ => r2c rho

/-- One call of `push_psatd_ebfield` with split fields (fourier_psaotd.F90:1037-1071, 1281-1313). -/
noncomputable def stepSplit [NeZero nx] [NeZero ny] [NeZero nz] (cc : ℕ → ℕ → Blk) (last : ℕ → ℕ → ℕ → ℕ → ℂ) (F : SplitEB nx ny nz)
    (J : Fin 3 → Grid nx ny nz → ℝ) (rho rhoold : Grid nx ny nz → ℝ) : Res (SplitEB nx ny nz) := do
  let w ← multiplyMat 17 cc (oldVec nx ny nz (oldSplit F J rho rhoold)) (newVec nx ny nz 12 last)
  .ok ⟨![![c2r (w 1).v, c2r (w 2).v], ![c2r (w 3).v, c2r (w 4).v], ![c2r (w 5).v, c2r (w 6).v]],
    ![![c2r (w 7).v, c2r (w 8).v], ![c2r (w 9).v, c2r (w 10).v], ![c2r (w 11).v, c2r (w 12).v]]⟩

end Picsar.Psatd
