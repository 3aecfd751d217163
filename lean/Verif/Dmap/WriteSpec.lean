import Verif.Dmap.Spec
import Verif.Dmap.Model.Conversions
import Verif.Dmap.Model.Writer
/-!
# Specification of the records that can be written

Independent of the writer: says which records have a faithful DMAP encoding, how
many bytes it takes and what a reader shows for them.
-/
namespace Verif.Spec
open Verif

/-- Names and strings that the format can hold and the writer writes faithfully. -/
def PlainText (s : PyStr) : Prop := Ascii s ∧ NulFree s

/-- `v` is a value of format `fm` that survives writing. -/
inductive ValueOK : Fmt → PyVal → Prop
  | str {t : PyStr} : PlainText t → ValueOK .s (.str t)
  | f32 {b : BitVec 32} : ¬ IsSNaN b → ValueOK .f (.f32 b)
  | f64 {b : BitVec 64} : ValueOK .d (.f64 b)
  | char {n : Nat} : n < 128 → ValueOK .c (.int n)
  | i16 {v : Int} : -2 ^ 15 ≤ v → v < 2 ^ 15 → ValueOK .h (.int v)
  | i32 {v : Int} : -2 ^ 31 ≤ v → v < 2 ^ 31 → ValueOK .i (.int v)
  | i64 {v : Int} : -2 ^ 63 ≤ v → v < 2 ^ 63 → ValueOK .q (.int v)
  | u8 {n : Nat} : n < 2 ^ 8 → ValueOK .B (.int n)
  | u16 {n : Nat} : n < 2 ^ 16 → ValueOK .H (.int n)
  | u32 {n : Nat} : n < 2 ^ 32 → ValueOK .I (.int n)
  | u64 {n : Nat} : n < 2 ^ 64 → ValueOK .Q (.int n)

/-- A scalar that survives writing. -/
structure ScalarOK (s : DmapScalar) : Prop where
  name : PlainText s.name
  code : s.dataType = code s.fmt
  value : ValueOK s.fmt s.value

/-- An array that survives writing in a block of `size` bytes: every dimension at least 1
(`slist` may be empty, if NumPy can hold an array of this shape), rank, shape, type code and cells consistent.  The writer itself
looks at the first element of a char array. -/
structure ArrayOK (maxRank size : Nat) (a : DmapArray) : Prop where
  name : PlainText a.name
  numeric : isNumeric a.fmt = true
  code : a.dataType = Spec.code a.fmt
  rank : a.dimension = a.value.shape.length
  rankPos : 1 ≤ a.value.shape.length
  rankMax : a.value.shape.length ≤ maxRank
  shape : a.shape = a.value.shape.map Int.ofNat
  dims : (∀ n ∈ a.value.shape, 1 ≤ n) ∨
    (mayBeEmpty a.name ∧ prodNonzero a.value.shape * cellSize a.fmt < 2 ^ 63)
  dimsSmall : ∀ n ∈ a.value.shape, n < size
  charFirst : a.fmt = .c → a.value.shape.head? ≠ some 0
  charType : a.fmt = .c → a.value.shape.length = 1 → ∀ n, a.value.dtype ≠ .other n true
  count : a.value.cells.length = prod a.value.shape
  cells : ∀ x ∈ a.value.cells, x.length = cellSize a.fmt

/-- Bytes taken by a scalar value. -/
def valueSize (fm : Fmt) : PyVal → Nat
  | .str t => t.length + 1
  | _ => cellSize fm

/-- Bytes taken by a scalar. -/
def scalarSize (s : DmapScalar) : Nat := s.name.length + 1 + 1 + valueSize s.fmt s.value

/-- Bytes taken by an array. -/
def arraySize (a : DmapArray) : Nat :=
  a.name.length + 1 + 1 + 4 + 4 * a.value.shape.length + prod a.value.shape * cellSize a.fmt

/-- Bytes taken by a block. -/
def blockSize (ss : List DmapScalar) (as : List DmapArray) : Nat :=
  16 + (ss.map scalarSize).sum + (as.map arraySize).sum

/-- A record with scalars `ss` and arrays `as` in this order, keyed by their names. -/
def fieldsOf (ss : List DmapScalar) (as : List DmapArray) : Rec :=
  ss.map (fun s => (s.name, .scalar s)) ++ as.map (fun a => (a.name, .array a))

/-- The record can be written and read back. -/
def Encodable (maxRank : Nat) (r : Rec) : Prop :=
  ∃ ss as, r = fieldsOf ss as ∧ ss ≠ [] ∧ as ≠ [] ∧ (r.map Prod.fst).Nodup ∧
    (∀ s ∈ ss, ScalarOK s) ∧ (∀ a ∈ as, ArrayOK maxRank (blockSize ss as) a) ∧
    blockSize ss as < 2 ^ 31

/-- How a reader shows an array: only the NumPy class of 64-bit integers differs
(`int64` becomes the equivalent `longlong`). -/
def present (a : DmapArray) : DmapArray :=
  { a with value := { a.value with dtype := presented a.fmt } }

/-- How a reader shows a field. -/
def presentField : Field → Field
  | .array a => .array (present a)
  | f => f

/-- How a reader shows a record: same names in the same order. -/
def presentRec (r : Rec) : Rec := r.map fun p => (p.1, presentField p.2)

/-- Python type of a scalar handed to the user. -/
def shownTy : Fmt → PyTy
  | .c => .np .int8 | .h => .np .int16 | .i => .int | .f => .float | .d => .np .float64
  | .s => .str | .q => .np .int64 | .B => .np .uint8 | .H => .np .uint16 | .I => .np .uint32
  | .Q => .np .uint64 | .dmap => .str

/-- Plain value handed to the user for a field. -/
def plainField : Field → PlainVal
  | .array a => .arr (present a).value
  | .scalar s => .scalar (shownTy s.fmt) s.value
  | .other => .scalar .str (.str [])

/-- Plain dictionary handed to the user for a record. -/
def plainRec (r : Rec) : PlainRec := r.map fun p => (p.1, plainField p.2)

/-- The caller's list of DMAP records. -/
def dmapInput (recs : List Rec) : WInput :=
  ⟨true, recs.map fun r => r.map fun p => (p.1, .dmap p.2)⟩

/-- What a write may do to a field: reverse the shape list of a multi-dimensional array. -/
def Touched (f f' : Field) : Prop :=
  f' = f ∨ ∃ a, f = .array a ∧ 1 < a.dimension ∧ f' = .array { a with shape := a.shape.reverse }

/-- Two lists of the same length, related position by position. -/
inductive Pairs {α : Type} (R : α → α → Prop) : List α → List α → Prop
  | nil : Pairs R [] []
  | cons {x y : α} {xs ys : List α} : R x y → Pairs R xs ys → Pairs R (x :: xs) (y :: ys)

/-- Records before and after a write: same names in the same order, fields touched at most. -/
def TouchedRec (r r' : Rec) : Prop := Pairs (fun p q => q.1 = p.1 ∧ Touched p.2 q.2) r r'

/-- The field after a successful write. -/
def afterWrite : Field → Field
  | .array a => if 1 < a.dimension then .array { a with shape := a.shape.reverse } else .array a
  | f => f

/-- No multi-dimensional array in the record. -/
def FlatRec (r : Rec) : Prop := ∀ k a, (k, Field.array a) ∈ r → a.dimension ≤ 1

/-- Row-major position of an index in an array of the given shape (`none` outside). -/
def rowMajor : List Nat → List Nat → Option Nat
  | [], [] => some 0
  | n :: ns, i :: is => if i < n then (rowMajor ns is).map fun k => i * prod ns + k else none
  | _, _ => none

/-- Position of an index in the DMAP convention: the first dimension varies fastest. -/
def firstFastest : List Nat → List Nat → Option Nat
  | [], [] => some 0
  | n :: ns, i :: is => if i < n then (firstFastest ns is).map fun k => i + n * k else none
  | _, _ => none

/-- The element of an array at an index. -/
def elementAt (a : NdArr) (idx : List Nat) : Option Bytes :=
  (rowMajor a.shape idx).bind fun k => a.cells[k]?

end Verif.Spec
