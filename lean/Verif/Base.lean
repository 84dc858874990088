/-
Outcome type shared by all models: every undefined behaviour, exception or
out-of-range access of the C++/Fortran code is a distinct outcome.
-/
namespace Picsar

/-- The ways an operation of the modelled code can fail to produce a value. -/
inductive Fault
  /-- access outside an array (undefined behaviour in C++ and Fortran) -/
  | outOfBounds
  /-- access through a null pointer -/
  | nullDeref
  /-- access to a block after it was freed -/
  | useAfterFree
  /-- a block is freed a second time -/
  | doubleFree
  /-- a value is read before it was written -/
  | uninitialised
  /-- memory that was not obtained by `new[]` in the library is passed to `delete[]` -/
  | badFree
  /-- an object is used outside its lifetime -/
  | deadObject
  /-- a negative real converted to an unsigned integer type (undefined behaviour) -/
  | badConversion
  /-- a floating-point division by zero (result is infinite or NaN in the code) -/
  | divByZero
  /-- the code throws an exception (`std::logic_error`, `std::bad_function_call`) -/
  | exception
  deriving DecidableEq, Repr

/-- Result of an operation of the modelled code. -/
abbrev Res (α : Type _) := Except Fault α

/-- Unchecked array read `a[i]` of the C++ code: reading outside is undefined behaviour,
which the model reports as `Fault.outOfBounds`. -/
def rd {α : Type _} (l : List α) (i : Nat) : Res α :=
  match l[i]? with
  | some x => .ok x
  | none => .error .outOfBounds

/-- Unchecked array write `a[i] = x`. -/
def wr {α : Type _} (l : List α) (i : Nat) (x : α) : Res (List α) :=
  if i < l.length then .ok (l.set i x) else .error .outOfBounds

theorem rd_ok {α : Type _} {l : List α} {i : Nat} (h : i < l.length) : rd l i = .ok l[i] := by
  simp [rd, h]

theorem rd_oob {α : Type _} {l : List α} {i : Nat} (h : l.length ≤ i) :
    rd l i = .error .outOfBounds := by
  simp [rd, h]

theorem wr_ok {α : Type _} {l : List α} {i : Nat} {x : α} (h : i < l.length) :
    wr l i x = .ok (l.set i x) := by
  simp [wr, h]

theorem wr_oob {α : Type _} {l : List α} {i : Nat} {x : α} (h : l.length ≤ i) :
    wr l i x = .error .outOfBounds := by
  simp [wr, Nat.not_lt.mpr h]

@[simp] theorem except_bind_ok {ε α β : Type _} (a : α) (f : α → Except ε β) :
    (Except.ok a >>= f) = f a := rfl

@[simp] theorem except_bind_error {ε α β : Type _} (e : ε) (f : α → Except ε β) :
    ((Except.error e : Except ε α) >>= f) = .error e := rfl

@[simp] theorem except_pure {ε α : Type _} (a : α) : (pure a : Except ε α) = .ok a := rfl

end Picsar
