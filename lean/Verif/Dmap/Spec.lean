import Verif.Dmap.Model.Types
/-!
# Specification of the DMAP byte format

Written from the format description (RST DataMap), independently of the reader
and the writer: it uses only the data structures of `Model/Types.lean` and the
byte primitives of `Verif/Py`.

A block is

    identifier (4) | block size (4) | #scalars (4) | #arrays (4) | scalars | arrays

a scalar is `name NUL, type code, value`, an array is
`name NUL, type code, rank (4), dimensions (4 each, fastest varying first), cells`.
-/
namespace Verif.Spec
open Verif

/-- NUL-terminated UTF-8. -/
def encStr (s : PyStr) : Bytes := utf8Encode s ++ [0]

/-- No NUL character. -/
def NulFree (s : PyStr) : Prop := Char.ofNat 0 ∉ s

/-- All characters below 128. -/
def Ascii (s : PyStr) : Prop := ∀ ch ∈ s, ch.toNat < 128

instance (s : PyStr) : Decidable (NulFree s) := inferInstanceAs (Decidable (_ ∉ _))
instance (s : PyStr) : Decidable (Ascii s) := inferInstanceAs (Decidable (∀ ch ∈ s, _))

/-- Type code of a format. -/
def code : Fmt → Nat
  | .dmap => 0 | .c => 1 | .h => 2 | .i => 3 | .f => 4 | .d => 8 | .s => 9
  | .q => 10 | .B => 16 | .H => 17 | .I => 18 | .Q => 19

/-- Number of bytes of an array cell. -/
def cellSize : Fmt → Nat
  | .c => 1 | .h => 2 | .i => 4 | .f => 4 | .d => 8 | .q => 8
  | .B => 1 | .H => 2 | .I => 4 | .Q => 8 | .s => 1 | .dmap => 0

/-- Formats an array may have. -/
def isNumeric : Fmt → Bool
  | .dmap => false | .s => false | _ => true

/-- Value `v` is stored by the bytes `bs` in a scalar of format `fmt`. -/
inductive ValEnc : Fmt → PyVal → Bytes → Prop
  | str {t : PyStr} : NulFree t → ValEnc .s (.str t) (encStr t)
  /-- A signalling NaN is shown as the quiet one. -/
  | f32 {b : BitVec 32} : ValEnc .f (.f32 (quiet32 b)) (natLE 4 b.toNat)
  | f64 {b : BitVec 64} : ValEnc .d (.f64 b) (natLE 8 b.toNat)
  /-- The reader shows a char as the number of its byte. -/
  | char {n : Nat} : n < 256 → ValEnc .c (.int n) [UInt8.ofNat n]
  | i16 {v : Int} : -2 ^ 15 ≤ v → v < 2 ^ 15 → ValEnc .h (.int v) (intLE 2 v)
  | i32 {v : Int} : -2 ^ 31 ≤ v → v < 2 ^ 31 → ValEnc .i (.int v) (intLE 4 v)
  | i64 {v : Int} : -2 ^ 63 ≤ v → v < 2 ^ 63 → ValEnc .q (.int v) (intLE 8 v)
  | u8 {n : Nat} : n < 2 ^ 8 → ValEnc .B (.int n) (natLE 1 n)
  | u16 {n : Nat} : n < 2 ^ 16 → ValEnc .H (.int n) (natLE 2 n)
  | u32 {n : Nat} : n < 2 ^ 32 → ValEnc .I (.int n) (natLE 4 n)
  | u64 {n : Nat} : n < 2 ^ 64 → ValEnc .Q (.int n) (natLE 8 n)

/-- Scalar `s` is stored by `bs`. -/
structure ScalarEnc (s : DmapScalar) (bs : Bytes) : Prop where
  name : NulFree s.name
  code : s.dataType = code s.fmt
  bytes : ∃ vb, ValEnc s.fmt s.value vb ∧
    bs = encStr s.name ++ [UInt8.ofNat (Spec.code s.fmt)] ++ vb

/-- dtype with which an array of the given format is presented. -/
def presented : Fmt → DType
  | .c => .int8 | .h => .int16 | .i => .int32 | .f => .float32 | .d => .float64
  | .q => .longlong | .B => .uint8 | .H => .uint16 | .I => .uint32 | .Q => .ulonglong
  | .s => .other 1 true | .dmap => .other 0 false

/-- Number of cells of an array of this shape. -/
def prod : List Nat → Nat
  | [] => 1
  | n :: ns => n * prod ns

/-- The product of the dimensions that are not zero. -/
def prodNonzero : List Nat → Nat
  | [] => 1
  | n :: ns => (if n = 0 then 1 else n) * prodNonzero ns

/-- The only field that may be empty. -/
def mayBeEmpty (name : PyStr) : Prop := name = py! "slist"

/-- Array `a` is stored by `bs`, in a block of `size` bytes, when it is shown with the
dtype `dt` (the dtype is not part of the file).  An empty array must be one that NumPy can hold:
the other dimensions together are below 2^63 bytes. -/
structure ArrayEnc (maxRank : Nat) (size : Nat) (dt : Fmt → DType) (a : DmapArray) (bs : Bytes) :
    Prop where
  name : NulFree a.name
  numeric : isNumeric a.fmt = true
  code : a.dataType = Spec.code a.fmt
  dtype : a.value.dtype = dt a.fmt
  rank : a.dimension = a.value.shape.length
  rankPos : 1 ≤ a.value.shape.length
  rankMax : a.value.shape.length ≤ maxRank
  shape : a.shape = a.value.shape.map Int.ofNat
  dims : (∀ n ∈ a.value.shape, 1 ≤ n) ∨
    (mayBeEmpty a.name ∧ prodNonzero a.value.shape * cellSize a.fmt < 2 ^ 63)
  dimsSmall : ∀ n ∈ a.value.shape, n < size
  count : a.value.cells.length = prod a.value.shape
  cells : ∀ x ∈ a.value.cells, x.length = cellSize a.fmt
  bytes : bs = encStr a.name ++ [UInt8.ofNat (Spec.code a.fmt)] ++ natLE 4 a.value.shape.length ++
    (a.value.shape.reverse.flatMap fun n => natLE 4 n) ++ a.value.cells.flatten

/-- A block: the identifier and the fields in file order. -/
structure Block where
  ident : Bytes
  scalars : List DmapScalar
  arrays : List DmapArray
  deriving DecidableEq, Repr

/-- Fields of a list are stored one after the other. -/
inductive SeqEnc {α : Type} (R : α → Bytes → Prop) : List α → Bytes → Prop
  | nil : SeqEnc R [] []
  | cons {x : α} {xs : List α} {b bs : Bytes} :
      R x b → SeqEnc R xs bs → SeqEnc R (x :: xs) (b ++ bs)

/-- Block `b` is stored by `bs`. -/
structure BlockEnc (maxRank : Nat) (b : Block) (bs : Bytes) : Prop where
  ident : b.ident.length = 4
  scalars : b.scalars ≠ []
  arrays : b.arrays ≠ []
  small : bs.length < 2 ^ 31
  bytes : ∃ sb ab, SeqEnc ScalarEnc b.scalars sb ∧
    SeqEnc (ArrayEnc maxRank bs.length presented) b.arrays ab ∧
    bs = b.ident ++ natLE 4 bs.length ++ natLE 4 b.scalars.length ++ natLE 4 b.arrays.length ++
      sb ++ ab

/-- A file: blocks one after the other. -/
def FileEnc (maxRank : Nat) (bl : List Block) (bs : Bytes) : Prop :=
  SeqEnc (BlockEnc maxRank) bl bs

/-- The fields of a block as (name, field) pairs in file order. -/
def Block.fields (b : Block) : List (PyStr × Field) :=
  b.scalars.map (fun s => (s.name, .scalar s)) ++ b.arrays.map (fun a => (a.name, .array a))

/-- The record dictionary of a block: position of the first, value of the last
occurrence of a name. -/
def Block.record (b : Block) : Rec := Dict.ofList b.fields

/-- Not a single-precision NaN. -/
def NotNaN : PyVal → Prop
  | .f32 x => ¬ IsNaN32 x
  | _ => True

instance (v : PyVal) : Decidable (NotNaN v) := by cases v <;> unfold NotNaN <;> infer_instance

/-- No single-precision scalar is a NaN. -/
def Block.NoNaN (b : Block) : Prop := ∀ s ∈ b.scalars, NotNaN s.value

instance (b : Block) : Decidable b.NoNaN := inferInstanceAs (Decidable (∀ s ∈ b.scalars, NotNaN s.value))

/-- The bytes contain, somewhere, the beginning of an array named `slist` with a
negative dimension. -/
def NegSlist (buf : Bytes) : Prop :=
  ∃ pre suf tcode, ∃ dims : List Int,
    buf = pre ++ (encStr (py! "slist") ++ [tcode] ++ natLE 4 dims.length ++ dims.flatMap (intLE 4)) ++ suf ∧
    ∃ d ∈ dims, -2 ^ 31 ≤ d ∧ d < 0

/-- Starting at offset `c`, blocks of the given sizes follow each other up to the exact end
of the bytes, every size being the one stored in the second header word of its block. -/
def Tiles (buf : Bytes) : Nat → List Nat → Prop
  | c, [] => c = buf.length
  | c, n :: ns => 0 < n ∧ n < 2 ^ 31 ∧ c + 8 ≤ buf.length ∧
      (buf.drop (c + 4)).take 4 = natLE 4 n ∧ Tiles buf (c + n) ns

/-- The exceptions documented for reading DMAP data. -/
inductive Documented : Err → Prop
  | cursor : Documented .cursorError
  | zero (rn : Nat) : Documented (.zeroByte rn)
  | negative (rn : Nat) : Documented (.negativeByte rn)
  | mismatch (rn : Nat) : Documented (.mismatchByte rn)
  | dataType (name : PyStr) (code rn : Nat) : Documented (.dmapDataType name code rn)
  | data : Documented .dmapDataError

end Verif.Spec
