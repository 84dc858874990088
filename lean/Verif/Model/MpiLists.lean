import Verif.Model.Mpi
/-
Message passing as in `Verif.Model.Mpi`, for routines whose lists of sends and receives depend on data (the particle exchange posts a
message only for directions with particles). The assumptions about MPI are the same.
-/
namespace Picsar.MpiLists
open Picsar Picsar.Mpi

/-- A program of `G` groups. In group `g` process `r` with memory `m` sends the messages `snd g r m` in this order and receives from the
processes `rcv g r m` in this order; the `i`-th received message is stored by `put g r m i`. `fin g` is the local computation after the
wait. -/
structure LProg (R σ μ : Type) where
  G : ℕ
  snd : ℕ → R → σ → List (R × μ)
  rcv : ℕ → R → σ → List R
  put : ℕ → R → σ → ℕ → μ → σ
  fin : ℕ → R → σ → σ

variable {R σ μ : Type} [DecidableEq R]

/-- One step of some process; `ns` and `nr` count the communications of the current group. -/
inductive Step (P : LProg R σ μ) : Conf R σ μ → Conf R σ μ → Prop
  | send (c : Conf R σ μ) (r d : R) (x : μ) : c.g r < P.G → (P.snd (c.g r) r (c.mem r))[c.ns r]? = some (d, x) →
      Step P c ⟨c.g, Function.update c.ns r (c.ns r + 1), c.nr, c.mem, push c.ch r d x⟩
  | recv (c : Conf R σ μ) (r s : R) (x : μ) (l : List μ) : c.g r < P.G → (P.rcv (c.g r) r (c.mem r))[c.nr r]? = some s → c.ch s r = x :: l →
      Step P c ⟨c.g, c.ns, Function.update c.nr r (c.nr r + 1), Function.update c.mem r (P.put (c.g r) r (c.mem r) (c.nr r) x), setCh c.ch s r l⟩
  | finish (c : Conf R σ μ) (r : R) : c.g r < P.G → c.ns r = (P.snd (c.g r) r (c.mem r)).length → c.nr r = (P.rcv (c.g r) r (c.mem r)).length →
      Step P c ⟨Function.update c.g r (c.g r + 1), Function.update c.ns r 0, Function.update c.nr r 0,
        Function.update c.mem r (P.fin (c.g r) r (c.mem r)), c.ch⟩

/-- Executions of any length: any interleaving of the processes. -/
inductive Exec (P : LProg R σ μ) : ℕ → Conf R σ μ → Conf R σ μ → Prop
  | nil (c : Conf R σ μ) : Exec P 0 c c
  | snoc {n : ℕ} {a b c : Conf R σ μ} : Exec P n a b → Step P b c → Exec P (n + 1) a c

/-- No process can make a step. -/
def Stuck (P : LProg R σ μ) (c : Conf R σ μ) : Prop := ∀ c', ¬ Step P c c'

end Picsar.MpiLists
