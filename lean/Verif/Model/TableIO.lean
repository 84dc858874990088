import Verif.Base
import Mathlib.Data.Nat.Notation

/-
Model of the binary stream format of the lookup tables
(src/multi_physics/QED/src/lookup_tables.hpp:354-393, 694-746) and of the table files of the engines.

Memory is modelled byte by byte: a byte is `none` while it is indeterminate. `size_t` is an 8-byte little
endian integer (x86-64, the layout the code relies on implicitly). An element of type `_REAL` is a block of `w`
bytes. Simplification: allocation never fails, and file opening is not modelled (an unopened file is a failed
stream).
-/
namespace Picsar.IO

/-- `std::ifstream`: the bytes not read yet and the fail bit. -/
structure InStream where
  rest : List UInt8
  failed : Bool
  deriving DecidableEq

/-- `in.read(p, n)`: nothing happens on a failed stream; if fewer than `n` bytes are left they are all
delivered and the fail bit is set. Returns the bytes stored at `p`. -/
def InStream.read (s : InStream) (n : ℕ) : List UInt8 × InStream :=
  if s.failed then ([], s)
  else if n ≤ s.rest.length then (s.rest.take n, ⟨s.rest.drop n, false⟩)
  else (s.rest, ⟨[], true⟩)

/-- `k` bytes of a little-endian integer. -/
def leBytes : ℕ → ℕ → List UInt8
  | 0, _ => []
  | k + 1, n => UInt8.ofNat (n % 256) :: leBytes k (n / 256)

/-- Value of a little-endian integer. -/
def leVal : List UInt8 → ℕ
  | [] => 0
  | b :: bs => b.toNat + 256 * leVal bs

/-- picsar_vector.hpp:34-110, as far as the stream code is concerned: memory of the block
(`w * size` bytes), `v_size`, `should_manage_memory`. -/
structure BVec where
  bytes : List (Option UInt8)
  size : ℕ
  manage : Bool
  deriving DecidableEq

/-- picsar_vector.hpp:256-276 `resize`. -/
def BVec.resize (w : ℕ) (v : BVec) (n : ℕ) : Res BVec :=
  if v.manage then
    .ok ⟨v.bytes.take (w * n) ++ List.replicate (w * n - v.bytes.length) none, n, true⟩
  else .error .exception

/-- `in.read(reinterpret_cast<char*>(&size), sizeof(size))` followed by a use of `size`: if fewer than 8 bytes
were delivered the variable is (partly) indeterminate. lookup_tables.hpp:359-361, 366-368 and 2-D. -/
def readSize (s : InStream) : Res (ℕ × InStream) :=
  let (got, s') := s.read 8
  if got.length = 8 then .ok (leVal got, s') else .error .uninitialised

/-- Size, resize and payload of one vector: lookup_tables.hpp:359-364 (same code at 366-371, 699-704,
706-711, 713-718). -/
def readVec (w : ℕ) (v : BVec) (s : InStream) : Res (BVec × InStream) := do
  let (n, s1) ← readSize s
  let v1 ← v.resize w n
  let (got, s2) := s1.read (w * n)
  pure (⟨got.map some ++ v1.bytes.drop got.length, n, true⟩, s2)

/-- Bytes of a vector for `out.write(data, sizeof(_REAL)*size)`: fault on indeterminate bytes. -/
def payload : List (Option UInt8) → Res (List UInt8)
  | [] => .ok []
  | none :: _ => .error .uninitialised
  | some b :: bs => do
    let r ← payload bs
    pure (b :: r)

/-- lookup_tables.hpp:383-386 (same code at 387-390, 729-732, 734-737, 739-742). -/
def writeVec (v : BVec) : Res (List UInt8) := do
  let p ← payload v.bytes
  pure (leBytes 8 v.size ++ p)

/-- Members of `lookup_1d`. -/
structure Tab1 where
  coords : BVec
  data : BVec
  init : Bool
  deriving DecidableEq

/-- Members of `lookup_2d`. -/
structure Tab2 where
  coords0 : BVec
  coords1 : BVec
  data : BVec
  init : Bool
  deriving DecidableEq

/-- lookup_tables.hpp:354-374 `lookup_1d::read_from_stream_bin`. -/
def Tab1.read (w : ℕ) (t : Tab1) (s : InStream) : Res (Tab1 × InStream) := do
  let (c, s1) ← readVec w t.coords s
  let (d, s2) ← readVec w t.data s1
  pure (⟨c, d, true⟩, s2)

/-- lookup_tables.hpp:378-393 `lookup_1d::write_on_stream_bin`. -/
def Tab1.write (t : Tab1) : Res (List UInt8) := do
  let c ← writeVec t.coords
  let d ← writeVec t.data
  pure (c ++ d)

/-- lookup_tables.hpp:694-721 `lookup_2d::read_from_stream_bin`. -/
def Tab2.read (w : ℕ) (t : Tab2) (s : InStream) : Res (Tab2 × InStream) := do
  let (c, s1) ← readVec w t.coords0 s
  let (c', s2) ← readVec w t.coords1 s1
  let (d, s3) ← readVec w t.data s2
  pure (⟨c, c', d, true⟩, s3)

/-- lookup_tables.hpp:724-746 `lookup_2d::write_on_stream_bin`. -/
def Tab2.write (t : Tab2) : Res (List UInt8) := do
  let c ← writeVec t.coords0
  let c' ← writeVec t.coords1
  let d ← writeVec t.data
  pure (c ++ c' ++ d)

/-- The tables of the two engines: breit_wheeler_engine.hpp `TTfunc_table`, `cum_distrib_table`;
quantum_sync_engine.hpp `KKfunc_table`, `cum_distrib_table`. -/
structure EngineTabs where
  dndt : Tab1
  cum : Tab2
  deriving DecidableEq

/-- breit_wheeler_engine.hpp:848-856, quantum_sync_engine.hpp:814-822 `read_dN_dt_table`: the state of the stream
is never looked at; the file is closed and forgotten. -/
def EngineTabs.readDnDt (w : ℕ) (e : EngineTabs) (file : List UInt8) : Res EngineTabs := do
  let (t, _) ← e.dndt.read w ⟨file, false⟩
  pure { e with dndt := t }

/-- breit_wheeler_engine.hpp:861-869, quantum_sync_engine.hpp:827-835 `read_cumulative_…_table`. -/
def EngineTabs.readCum (w : ℕ) (e : EngineTabs) (file : List UInt8) : Res EngineTabs := do
  let (t, _) ← e.cum.read w ⟨file, false⟩
  pure { e with cum := t }

/-- A table of either kind, for files/streams holding several tables. -/
inductive AnyTab
  | one (t : Tab1)
  | two (t : Tab2)

/-- Writing several tables one after another on the same stream. -/
def writeAll : List AnyTab → Res (List UInt8)
  | [] => .ok []
  | .one t :: ts => do
    let b ← t.write
    let r ← writeAll ts
    pure (b ++ r)
  | .two t :: ts => do
    let b ← t.write
    let r ← writeAll ts
    pure (b ++ r)

/-- Reading into several tables one after another from the same stream. -/
def readAll (w : ℕ) : List AnyTab → InStream → Res (List AnyTab × InStream)
  | [], s => .ok ([], s)
  | .one t :: ts, s => do
    let (t', s1) ← t.read w s
    let (r, s2) ← readAll w ts s1
    pure (.one t' :: r, s2)
  | .two t :: ts, s => do
    let (t', s1) ← t.read w s
    let (r, s2) ← readAll w ts s1
    pure (.two t' :: r, s2)

end Picsar.IO
