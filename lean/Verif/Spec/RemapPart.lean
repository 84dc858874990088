import Verif.Model.RemapPart
import Verif.Spec.Tiling
import Verif.Spec.Remap
/-
Where particles belong after a new split of the domain.
-/
namespace Picsar.RemapPart
open Picsar Picsar.Grid Picsar.Tiling Picsar.Remap

variable {n : ℕ}

/-- Global grid along an axis and its new ranges of cells. -/
structure Cuts where
  gmin : ℝ
  d : ℝ
  N : ℕ
  ncmin : List ℤ
  ncmax : List ℤ

/-- The ranges are a split of the cells `0..N-1`. -/
structure Cuts.Ok (C : Cuts) : Prop where
  d : 0 < C.d
  len : C.ncmin.length = C.ncmax.length
  nonneg : ∀ v ∈ C.ncmin, 0 ≤ v
  nonempty : ∀ (i : ℕ) (h : i < C.ncmin.length) (h' : i < C.ncmax.length), C.ncmin[i] ≤ C.ncmax[i]
  ordered : ∀ (i j : ℕ) (h : j < C.ncmin.length) (h' : i < C.ncmax.length), i < j → C.ncmax[i] < C.ncmin[j]
  cover : ∀ c : ℤ, 0 ≤ c → c < C.N → ∃ (i : ℕ) (h : i < C.ncmin.length) (h' : i < C.ncmax.length), C.ncmin[i] ≤ c ∧ c ≤ C.ncmax[i]

/-- Position `v` is between the nodes `a` and `b`. -/
def Cuts.Btw (C : Cuts) (a b : ℤ) (v : ℝ) : Prop := C.gmin + a * C.d ≤ v ∧ v < C.gmin + b * C.d

/-- The three axes; `dim2`: the y axis is left out. -/
structure Domain where
  dim2 : Bool
  x : Cuts
  y : Cuts
  z : Cuts

/-- The limits `L` contain the particle. -/
def Domain.Owns (D : Domain) (L : Lim) (p : Part n) : Prop :=
  D.x.Btw L.lo.j L.hi.j p.x ∧ (D.dim2 = false → D.y.Btw L.lo.k L.hi.k p.y) ∧ D.z.Btw L.lo.l L.hi.l p.z

/-- The particle is in the domain. -/
def Domain.Has (D : Domain) (p : Part n) : Prop :=
  D.x.Btw 0 D.x.N p.x ∧ (D.dim2 = false → D.y.Btw 0 D.y.N p.y) ∧ D.z.Btw 0 D.z.N p.z

/-- The variables of an axis of a process with position `c` along the axis fit the new split. -/
structure Fit (C : Cuts) (A : AxisInfo) (c : ℕ) : Prop where
  gmin : A.gmin = C.gmin
  d : A.d = C.d
  coord : A.coord = c
  ncmin : A.ncmin = C.ncmin
  ncmax : A.ncmax = C.ncmax
  lo : A.lo = C.gmin + C.ncmin.getD c 0 * C.d
  hi : A.hi = C.gmin + (C.ncmax.getD c 0 + 1) * C.d

/-- Position of a process along the axes. -/
structure Place where
  x : ℕ
  y : ℕ
  z : ℕ

/-- The position exists. -/
def Place.In (D : Domain) (q : Place) : Prop :=
  q.x < D.x.ncmin.length ∧ q.y < D.y.ncmin.length ∧ q.z < D.z.ncmin.length ∧ (D.dim2 = true → q.y = 0)

/-- New limits of the process at a position: its nodes, as set by `get_1Darray_proclimits`. -/
def limits (D : Domain) (q : Place) : Lim :=
  ⟨⟨D.x.ncmin.getD q.x 0, if D.dim2 then 0 else D.y.ncmin.getD q.y 0, D.z.ncmin.getD q.z 0⟩,
    ⟨D.x.ncmax.getD q.x 0 + 1, if D.dim2 then 0 else D.y.ncmax.getD q.y 0 + 1, D.z.ncmax.getD q.z 0 + 1⟩⟩

/-- All processes agree on the new split: every position belongs to one process. -/
structure Agree {N : ℕ} (D : Domain) (at_ : Fin N → Place) (L1 L2 : Fin N → Lim) (P : Fin N → Proc n) : Prop where
  x : D.x.Ok
  y : D.dim2 = false → D.y.Ok
  z : D.z.Ok
  place : ∀ r, (at_ r).In D
  rank : ∀ q : Place, q.In D → ∃ r, at_ r = q ∧ ∀ s, (P s).conv q.x q.y q.z = (r.val : ℤ)
  inj : ∀ r s, at_ r = at_ s → r = s
  new : ∀ r, L2 r = limits D (at_ r)
  old : ∀ r, (L1 r).lo.j ≤ (L1 r).hi.j ∧ (L1 r).lo.k ≤ (L1 r).hi.k ∧ (L1 r).lo.l ≤ (L1 r).hi.l
  flat : D.dim2 = true → ∀ r, (L1 r).lo.k = 0 ∧ (L1 r).hi.k = 0
  dim2 : ∀ r, (P r).dim2 = D.dim2
  fx : ∀ r, Fit D.x (P r).x (at_ r).x
  fy : ∀ r, (P r).y.coord = (at_ r).y ∧ (D.dim2 = false → Fit D.y (P r).y (at_ r).y)
  fz : ∀ r, Fit D.z (P r).z (at_ r).z
  lists : ∀ r, (P r).nrecv = (recvFrom L1 L2 r).length ∧ (sendTo L1 L2 r).length ≤ 1000 ∧ (recvFrom L1 L2 r).length ≤ 1000
  ranks : ∀ r, (P r).ranks = (sendTo L1 L2 r).map fun d => (d.val : ℤ)

/-- The species of a process hold the particles `L i u` of species `i` in tile `u`. -/
def HoldsSp (Ss : List (Species n)) (L : ℕ → I3 → List (Part n)) : Prop := ∀ i S, Ss[i]? = some S → HoldsAll S (L i)

/-- Number of particles of all species. -/
def number (Ss : List (Species n)) (L : ℕ → I3 → List (Part n)) : ℕ := (Ss.mapIdx fun i S => Multiset.card (total S.nt (L i))).sum

open Classical in
/-- The particles of tiles at the border (`b`) that the limits `M` contain. -/
noncomputable def outer (D : Domain) (M : Lim) (b : I3 → Bool) (nt : I3) (L : I3 → List (Part n)) : Multiset (Part n) :=
  ((box ⟨1, 1, 1⟩ nt).map fun u => if b u = true then (((L u).filter fun p => decide (D.Owns M p) : List (Part n)) : Multiset (Part n)) else 0).sum

/-- The particles of all other tiles. -/
def inner (b : I3 → Bool) (nt : I3) (L : I3 → List (Part n)) : Multiset (Part n) :=
  ((box ⟨1, 1, 1⟩ nt).map fun u => if b u = true then 0 else (L u : Multiset (Part n))).sum

/-- State of all processes before the exchange: `K` species each, in `nt r` tiles, that hold the particles `L r`; all particles are in the
domain and inside the old limits of their process; a particle inside the new limits has a tile. -/
structure Start {N : ℕ} (D : Domain) (L1 L2 : Fin N → Lim) (K : ℕ) (nt : Fin N → I3) (idx : Fin N → Part n → I3) (Ss : Fin N → List (Species n))
    (L : Fin N → ℕ → I3 → List (Part n)) : Prop where
  len : ∀ r, (Ss r).length = K
  tiles : ∀ r, ∀ S ∈ Ss r, S.nt = nt r
  holds : ∀ r, HoldsSp (Ss r) (L r)
  old : ∀ r i u p, i < K → InBox ⟨1, 1, 1⟩ (nt r) u → p ∈ L r i u → D.Owns (L1 r) p ∧ D.Has p
  tile : ∀ r p, D.Owns (L2 r) p → InBox ⟨1, 1, 1⟩ (nt r) (idx r p)

end Picsar.RemapPart
