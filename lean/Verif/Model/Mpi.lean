import Verif.Base
import Mathlib.Data.Nat.Notation
import Mathlib.Logic.Function.Basic

/-
Message passing between MPI processes, as used by the exchange routines of the code: every process runs the same sequence of
groups; a group posts sends and receives (`MPI_ISEND`, `MPI_IRECV`) in a fixed order, waits for all of them (`MPI_WAITALL`) and then
computes locally. `MPI_SENDRECV` is a group with one send and one receive.

Trusted from the MPI standard: messages from one process to another with the same tag and communicator are matched in the order in
which they are posted; a posted send or receive may take place at any time until the wait returns. Sends do not block (the routines
always post the matching receive at the same time). Simplification: the sends of one process take place in the order of posting, and
so do its receives; sends and receives interleave arbitrarily, between processes and within a process.
-/
namespace Picsar.Mpi
open Picsar

/-- A program of `G` groups. Group `g` consists of the communications `off g, ..., off (g+1) - 1`. In communication `k` process `r`
sends `pay k r mem` to `dst k r` and receives from `src k r`; a received message is stored by `put`. `none` is `MPI_PROC_NULL`:
nothing is sent, and the receive buffer is left as it is. `fin g` is the local computation after the wait of group `g`. -/
structure Prog (R σ μ : Type) where
  G : ℕ
  off : ℕ → ℕ
  dst : ℕ → R → Option R
  src : ℕ → R → Option R
  pay : ℕ → R → σ → μ
  put : ℕ → R → σ → μ → σ
  fin : ℕ → R → σ → σ

/-- State of all processes: current group, communications sent and received so far, memory; messages in transit. -/
structure Conf (R σ μ : Type) where
  g : R → ℕ
  ns : R → ℕ
  nr : R → ℕ
  mem : R → σ
  ch : R → R → List μ

variable {R σ μ : Type} [DecidableEq R]

/-- Appends a message to the channel from `s` to `d`. -/
def push (ch : R → R → List μ) (s d : R) (m : μ) : R → R → List μ :=
  Function.update ch s (Function.update (ch s) d (ch s d ++ [m]))

/-- Replaces the content of the channel from `s` to `d`. -/
def setCh (ch : R → R → List μ) (s d : R) (l : List μ) : R → R → List μ :=
  Function.update ch s (Function.update (ch s) d l)

/-- One step of some process. -/
inductive Step (P : Prog R σ μ) : Conf R σ μ → Conf R σ μ → Prop
  | send (c : Conf R σ μ) (r d : R) : c.g r < P.G → c.ns r < P.off (c.g r + 1) → P.dst (c.ns r) r = some d →
      Step P c ⟨c.g, Function.update c.ns r (c.ns r + 1), c.nr, c.mem, push c.ch r d (P.pay (c.ns r) r (c.mem r))⟩
  | sendNull (c : Conf R σ μ) (r : R) : c.g r < P.G → c.ns r < P.off (c.g r + 1) → P.dst (c.ns r) r = none →
      Step P c ⟨c.g, Function.update c.ns r (c.ns r + 1), c.nr, c.mem, c.ch⟩
  | recv (c : Conf R σ μ) (r s : R) (m : μ) (l : List μ) : c.g r < P.G → c.nr r < P.off (c.g r + 1) →
      P.src (c.nr r) r = some s → c.ch s r = m :: l →
      Step P c ⟨c.g, c.ns, Function.update c.nr r (c.nr r + 1), Function.update c.mem r (P.put (c.nr r) r (c.mem r) m),
        setCh c.ch s r l⟩
  | recvNull (c : Conf R σ μ) (r : R) : c.g r < P.G → c.nr r < P.off (c.g r + 1) → P.src (c.nr r) r = none →
      Step P c ⟨c.g, c.ns, Function.update c.nr r (c.nr r + 1), c.mem, c.ch⟩
  | finish (c : Conf R σ μ) (r : R) : c.g r < P.G → c.ns r = P.off (c.g r + 1) → c.nr r = P.off (c.g r + 1) →
      Step P c ⟨Function.update c.g r (c.g r + 1), c.ns, c.nr, Function.update c.mem r (P.fin (c.g r) r (c.mem r)), c.ch⟩

/-- Executions of any length: any interleaving of the processes. -/
inductive Exec (P : Prog R σ μ) : ℕ → Conf R σ μ → Conf R σ μ → Prop
  | nil (c : Conf R σ μ) : Exec P 0 c c
  | snoc {n : ℕ} {a b c : Conf R σ μ} : Exec P n a b → Step P b c → Exec P (n + 1) a c

/-- All processes at the beginning, no message in transit. -/
def start (m0 : R → σ) : Conf R σ μ := ⟨fun _ => 0, fun _ => 0, fun _ => 0, m0, fun _ _ => []⟩

/-- No process can make a step. -/
def Stuck (P : Prog R σ μ) (c : Conf R σ μ) : Prop := ∀ c', ¬ Step P c c'

/-- One program after the other, without a barrier in between. -/
def Prog.seq (P Q : Prog R σ μ) : Prog R σ μ where
  G := P.G + Q.G
  off g := if g ≤ P.G then P.off g else P.off P.G + Q.off (g - P.G)
  dst k := if k < P.off P.G then P.dst k else Q.dst (k - P.off P.G)
  src k := if k < P.off P.G then P.src k else Q.src (k - P.off P.G)
  pay k := if k < P.off P.G then P.pay k else Q.pay (k - P.off P.G)
  put k := if k < P.off P.G then P.put k else Q.put (k - P.off P.G)
  fin g := if g < P.G then P.fin g else Q.fin (g - P.G)

end Picsar.Mpi
