import Verif.Model.Topology

/-
Specification of the processor grid and of the domain decomposition.
-/
namespace Picsar.Topology
open Picsar Picsar.Grid

/-- A processor grid with at least one process in each direction. -/
def PGrid.Ok (P : PGrid) : Prop := 1 ≤ P.nx ∧ 1 ≤ P.ny ∧ 1 ≤ P.nz

/-- A rank of the communicator. -/
def PGrid.Rank (P : PGrid) (r : ℤ) : Prop := 0 ≤ r ∧ r < P.nproc

/-- One of the 27 directions. -/
def Dir (d : I3) : Prop := InBox ⟨-1, -1, -1⟩ ⟨1, 1, 1⟩ d

/-- The opposite direction. -/
def opp (d : I3) : I3 := ⟨-d.j, -d.k, -d.l⟩

/-- The coordinates displaced by `d` on the periodic processor grid. -/
def shifted (P : PGrid) (c d : I3) : I3 := ⟨(c.j + d.j) % P.nx, (c.k + d.k) % P.ny, (c.l + d.l) % P.nz⟩

/-- `crd` assigns the subdomains to the ranks, one each. -/
def OneEach (P : PGrid) (crd : ℤ → I3) : Prop :=
  (∀ r, P.Rank r → InTopo P (crd r)) ∧ ∀ c, InTopo P c → ∃! r, P.Rank r ∧ crd r = c

/-- `nb r d` is the rank whose subdomain is displaced by `d` from the one of `r`, and `r` is in turn its neighbour in the opposite
direction. -/
def Neighbours (P : PGrid) (crd : ℤ → I3) (nb : ℤ → I3 → ℤ) : Prop :=
  ∀ r d, P.Rank r → Dir d → P.Rank (nb r d) ∧ crd (nb r d) = shifted P (crd r) d ∧ nb (nb r d) (opp d) = r

/-- The ranges `lo i .. hi i`, `i = 1..n`, are consecutive and cover `0..N-1`, each cell once, with sizes that differ by at most
one. -/
def SplitsEvenly (n N : ℤ) (lo hi : ℤ → ℤ) : Prop :=
  lo 1 = 0 ∧ hi n = N - 1 ∧ (∀ i, 1 ≤ i → i < n → lo (i + 1) = hi i + 1) ∧
  (∀ c, 0 ≤ c → c < N → ∃! i, (1 ≤ i ∧ i ≤ n) ∧ lo i ≤ c ∧ c ≤ hi i) ∧
  (∀ i c, 1 ≤ i → i ≤ n → lo i ≤ c → c ≤ hi i → 0 ≤ c ∧ c < N) ∧
  (∀ i k, 1 ≤ i → i ≤ n → 1 ≤ k → k ≤ n → hi i - lo i ≤ hi k - lo k + 1) ∧
  (n ≤ N → ∀ i, 1 ≤ i → i ≤ n → lo i ≤ hi i)

end Picsar.Topology
