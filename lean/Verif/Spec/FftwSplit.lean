import Verif.Model.FftwSplit
/-
The slabs of a distributed Fourier transform.
-/
namespace Picsar.Topology
open Picsar Picsar.Grid

/-- What `fftw_mpi_local_size_3d` gives to `n` processes for `N` planes: the process of rank `r` has the `nz r` planes from `z0 r` on, in the order of the
ranks, some possibly none. -/
def Slabs (n N : ℤ) (nz z0 : ℤ → ℤ) : Prop :=
  z0 0 = 0 ∧ z0 n = N ∧ ∀ r, 0 ≤ r → r < n → 0 ≤ nz r ∧ z0 (r + 1) = z0 r + nz r

end Picsar.Topology
