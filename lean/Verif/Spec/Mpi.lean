import Verif.Model.Mpi

/-
The result the asynchronous program is meant to compute: all processes perform the groups in lockstep.
-/
namespace Picsar.Mpi
open Picsar

variable {R σ μ : Type}

/-- Memory of process `r` after the receives `a, ..., a+n-1` when every process has memory `m` at the time of sending. -/
def absorb (P : Prog R σ μ) (m : R → σ) (r : R) (a : ℕ) : ℕ → σ
  | 0 => m r
  | n + 1 => match P.src (a + n) r with
    | some s => P.put (a + n) r (absorb P m r a n) (P.pay (a + n) s (m s))
    | none => absorb P m r a n

/-- Memory of all processes after `g` groups in lockstep. -/
def sync (P : Prog R σ μ) (m0 : R → σ) : ℕ → R → σ
  | 0 => m0
  | g + 1 => fun r => P.fin g r (absorb P (sync P m0 g) r (P.off g) (P.off (g + 1) - P.off g))

/-- What a program has to satisfy: communications are paired, groups are consecutive, and no receive of a group writes a location that
a send of the same group reads. -/
structure Prog.Ok (P : Prog R σ μ) : Prop where
  off0 : P.off 0 = 0
  mono : ∀ g, P.off g ≤ P.off (g + 1)
  pair : ∀ k s d, P.dst k s = some d ↔ P.src k d = some s
  apart : ∀ g k i r x m, P.off g ≤ k → k < P.off (g + 1) → P.off g ≤ i → i < P.off (g + 1) →
    P.pay k r (P.put i r x m) = P.pay k r x

end Picsar.Mpi
