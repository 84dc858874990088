import Verif.Model.TableIO

/-
Specification vocabulary for C12–C13.
-/
namespace Picsar.IO

/-- Object representation of an element type: `w` bytes per value, decodable. -/
structure ObjRep (α : Type) (w : ℕ) where
  enc : α → List UInt8
  dec : List UInt8 → α
  enc_length : ∀ a, (enc a).length = w
  dec_enc : ∀ a, dec (enc a) = a

/-- The vector holds exactly the values `l` (all bytes determinate). -/
def BVec.HoldsVals {α : Type} {w : ℕ} (R : ObjRep α w) (v : BVec) (l : List α) : Prop :=
  v.size = l.length ∧ v.bytes = (l.flatMap R.enc).map some

/-- The vector holds some value whose bytes are not all determinate. -/
def BVec.Indeterminate (v : BVec) : Prop := none ∈ v.bytes

/-- The element count fits in a `size_t`. -/
def Fits {α : Type} (l : List α) : Prop := l.length < 2 ^ 64

/-- Contents of a 1-D or 2-D table. -/
inductive Content (α : Type)
  | one (coords data : List α)
  | two (coords0 coords1 data : List α)

/-- Every list of the content fits. -/
def Content.Fits {α : Type} : Content α → Prop
  | .one c d => IO.Fits c ∧ IO.Fits d
  | .two c c' d => IO.Fits c ∧ IO.Fits c' ∧ IO.Fits d

/-- The table holds the content, and is flagged as initialised iff `b`. -/
def AnyTab.HoldsContent {α : Type} {w : ℕ} (R : ObjRep α w) : AnyTab → Content α → Prop
  | .one t, .one c d => t.coords.HoldsVals R c ∧ t.data.HoldsVals R d
  | .two t, .two c c' d => t.coords0.HoldsVals R c ∧ t.coords1.HoldsVals R c' ∧ t.data.HoldsVals R d
  | _, _ => False

/-- Initialisation flag. -/
def AnyTab.initFlag : AnyTab → Bool
  | .one t => t.init
  | .two t => t.init

/-- The table can be read into: its vectors manage their memory. -/
def AnyTab.Managed : AnyTab → Prop
  | .one t => t.coords.manage = true ∧ t.data.manage = true
  | .two t => t.coords0.manage = true ∧ t.coords1.manage = true ∧ t.data.manage = true

/-- The two tables are of the same kind. -/
def SameKind : AnyTab → AnyTab → Prop
  | .one _, .one _ => True
  | .two _, .two _ => True
  | _, _ => False

end Picsar.IO
