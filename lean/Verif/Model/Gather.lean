import Verif.Model.Deposition

/-
Field gathering ("energy conserving", Yee or nodal grid), orders 1, 2 and 3, 3D and 2D Cartesian:
src/field_gathering/energy_conserving/field_gathering_o{1,2,3}_3d.F90, field_gathering_on_3d.F90 and the same files in 2D.
The loop versions (`scalar` and arbitrary-order `n`) of the six components are the same program with the order, the staggering
of the component and the dimension substituted in; they are written once here. The unrolled default versions are in
Model/GatherUnrolled.lean. Reals for floating point; every read of a grid array is checked against its declared bounds.
-/
namespace Picsar.Gather
open Picsar Picsar.Grid Picsar.Deposition

/-- Interpolation order in one direction (`nox`, `noy` or `noz`), `l_lower_order_in_v`, `l_nodal`. -/
structure Cfg where
  n : ℕ
  lower : Bool
  nodal : Bool

/-- `stagger_shift` (o1_3d:108-112, 359-363, o2_3d:105-109, 398-402, o3_3d:118-122, 438-442, on_3d:89-93, 403-407 and the 2D files). -/
noncomputable def shift (c : Cfg) : ℝ := if c.nodal then 0 else 1 / 2

/-- `j0`: node of the staggered stencil. Lower order: `floor(x-stagger_shift)` at even order, `floor(x+0.5-stagger_shift)` at
odd order; otherwise the other way round (on_3d:132-180, o1_3d:144-149 and 231-236, o2_3d:146-151 and 245-250,
o3_3d:160-165 and 273-278). -/
noncomputable def node0 (c : Cfg) (x : ℝ) : ℤ :=
  if c.lower then
    if c.n = 2 then ⌊x - shift c⌋ else ⌊x + 1 / 2 - shift c⌋
  else
    if c.n = 2 then ⌊x + 1 / 2 - shift c⌋ else ⌊x - shift c⌋

/-- `sx0`: weights of the staggered stencil as functions of `xint = x-stagger_shift-j0`. With `l_lower_order_in_v` they are
the weights of the order below (order 0: the single weight 1), otherwise those of the order itself (on_3d:241-332). -/
noncomputable def wts0 (c : Cfg) (ξ : ℝ) : List (ℤ × ℝ) :=
  if c.lower then
    match c.n with
    | 1 => [(0, 1)]
    | 2 => wts 1 ξ
    | 3 => wts 2 ξ
    | _ => []
  else wts c.n ξ

/-- First index of the stencil in one direction: `j` or `j0`. -/
noncomputable def base (c : Cfg) (stag : Bool) (x : ℝ) : ℤ := if stag then node0 c x else node c.n x

/-- Weights in one direction: `sx` or `sx0`. -/
noncomputable def axisWts (c : Cfg) (stag : Bool) (x : ℝ) : List (ℤ × ℝ) :=
  if stag then wts0 c (x - shift c - node0 c x) else wts c.n (x - node c.n x)

/-- Directions in which the component is staggered: `ex` along x, `bx` along y and z, ... (the index triples of the
accumulation statements, o1_3d:176-208 for E, 426-460 for B). -/
def stag : Comp → Bool × Bool × Bool
  | .ex => (true, false, false)
  | .ey => (false, true, false)
  | .ez => (false, false, true)
  | .bx => (false, true, true)
  | .by' => (true, false, true)
  | .bz => (true, true, false)
  | _ => (false, false, false)

/-- The six components gathered. -/
def comps : List Comp := [.ex, .ey, .ez, .bx, .by', .bz]

/-- Position of the particle in units of cells from the lower corner of the tile's grid: `x = (xp(ip)-xmin)*dxi`. -/
structure Pos where
  x : ℝ
  y : ℝ
  z : ℝ

/-- `x = (xp(ip)-xmin)*dxi` with `dxi = 1/dx` (o1_3d:114-116, 139-141). -/
noncomputable def cellPos (g : Geo) (xp yp zp : ℝ) : Pos :=
  ⟨(xp - g.xmin) * (1 / g.dx), (yp - g.ymin) * (1 / g.dy), (zp - g.zmin) * (1 / g.dz)⟩

/-- Node and weights along y: in 2D the arrays have no y extent (`exg(j0+jj, 1, l+ll)`), a single index with weight 1;
2D arrays are indexed by `⟨j, 0, l⟩` here. -/
noncomputable def yBase (c : Cfg) (d2 : Bool) (st : Bool) (y : ℝ) : ℤ := if d2 then 0 else base c st y

/-- See `yBase`. -/
noncomputable def yWts (c : Cfg) (d2 : Bool) (st : Bool) (y : ℝ) : List (ℤ × ℝ) := if d2 then [(0, 1)] else axisWts c st y

/-- `nox, noy, noz`, `l_lower_order_in_v`, `l_nodal`; `d2` selects the 2D (x, z) routines. -/
structure Opts where
  nx : ℕ
  ny : ℕ
  nz : ℕ
  lower : Bool
  nodal : Bool
  d2 : Bool

/-- Along x. -/
def Opts.cx (o : Opts) : Cfg := ⟨o.nx, o.lower, o.nodal⟩
/-- Along y. -/
def Opts.cy (o : Opts) : Cfg := ⟨o.ny, o.lower, o.nodal⟩
/-- Along z. -/
def Opts.cz (o : Opts) : Cfg := ⟨o.nz, o.lower, o.nodal⟩

/-- `do ll; do kk; do jj: ex(ip) = ex(ip) + sx0(jj)*sy(kk)*sz(ll)*exg(j0+jj, k+kk, l+ll)` for the component `q` (o1_3d:176-208,
o2_3d:189-222, o3_3d:217-250, on_3d:336-360; in 2D the loop over `kk` is absent, o1_2d:139-168, o2_2d:145-175,
o3_2d:158-190, on_2d:330-350). The arbitrary-order routines are called with `l4symtry` false (manager_3d:238), so that `signx = 1`. -/
noncomputable def gatherComp (o : Opts) (a : Arr) (q : Comp) (p : Pos) (acc : ℝ) : Res ℝ :=
  (axisWts o.cz (stag q).2.2 p.z).foldlM (fun acc wz =>
    (yWts o.cy o.d2 (stag q).2.1 p.y).foldlM (fun acc wy =>
      (axisWts o.cx (stag q).1 p.x).foldlM (fun acc wx => do
        let v ← a.get ⟨base o.cx (stag q).1 p.x + wx.1, yBase o.cy o.d2 (stag q).2.1 p.y + wy.1, base o.cz (stag q).2.2 p.z + wz.1⟩
        pure (acc + wx.2 * wy.2 * wz.2 * v)) acc) acc) acc

/-- Body of the loop over particles for one particle: the components one after the other; `out` holds
`ex(ip), ..., bz(ip)`. (The E and B routines are two calls, scalar `gete3d`/`getb3d`; the components are independent.) -/
noncomputable def gatherPart (o : Opts) (σ : Mem) (p : Pos) (out : Comp → ℝ) : Res (Comp → ℝ) :=
  comps.foldlM (fun out q => do
    let v ← gatherComp o (σ q) q p (out q)
    pure (Function.update out q v)) out

/-- Indices visited by the blocked loops of the default versions: `DO ip=1, np, lvect; DO nn=ip, MIN(ip+lvect-1, np)`
(o1_3d:2039-2061, o2_3d:2790-2815, o3_3d:5690-5715; 2D `DO n=1, MIN(lvect, np-ip+1); nn=ip+n-1`). `fuel` bounds the number of
blocks left; `blocked np lvect (np+1) 1` is the whole loop. -/
def blocked (np lvect : ℕ) : ℕ → ℕ → List ℕ
  | 0, _ => []
  | fuel + 1, ip =>
    if ip ≤ np then
      ((List.range (min (ip + lvect - 1) np + 1 - ip)).map fun (i : ℕ) => ip + i) ++ blocked np lvect fuel (ip + lvect)
    else []

end Picsar.Gather
