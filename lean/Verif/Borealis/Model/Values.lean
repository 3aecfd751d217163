import Verif.Py.Dict
import Verif.Py.Str
/-!
# Borealis values

Numpy arrays, scalars and dictionaries as the Borealis code handles them.  An array is a shape
with its elements in row-major (C) order, which is what `reshape` and `flatten` preserve.
-/
namespace Verif.Bor

/-- `type(v)` of a scalar and `dtype.type` of an array: the types named in
/repo/pydarnio/borealis/borealis_formats.py, some that occur by mistake, and any other. -/
inductive Ty
  | str | npStr | npBytes | npBool
  | u8 | u16 | u32 | i16 | i32 | i64
  | f32 | f64 | c64
  | pyInt | pyFloat
  | other (n : Nat)
  deriving DecidableEq, Repr

/-- One element.  Floating point numbers are their bit patterns.  `cast t e` is the result of
converting `e` to another type `t`, which no property looks into. -/
inductive Elt
  | int (i : Int)
  | flt (bits : Nat)
  | cpx (re im : Nat)
  | str (s : PyStr)
  | bytes (b : Bytes)
  | cast (t : Ty) (e : Elt)
  deriving DecidableEq, Repr

/-- Number of elements of an array of a shape. -/
def prod : List Nat → Nat
  | [] => 1
  | d :: ds => d * prod ds

/-- An `np.ndarray`: element type, shape, elements in row-major order. -/
structure NdArr where
  ty : Ty
  shape : List Nat
  data : List Elt
  deriving DecidableEq, Repr

/-- The index is one of an array of the shape. -/
def inBounds : List Nat → List Nat → Bool
  | [], [] => true
  | d :: ds, i :: is => decide (i < d) && inBounds ds is
  | _, _ => false

/-- Row-major position of an index. -/
def ravel : List Nat → List Nat → Nat
  | _ :: ds, i :: is => i * prod ds + ravel ds is
  | _, _ => 0

/-- All indices of a shape in row-major order. -/
def indices : List Nat → List (List Nat)
  | [] => [[]]
  | d :: ds => (List.range d).flatMap fun i => (indices ds).map (i :: ·)

namespace NdArr

/-- There are as many elements as the shape says (true of every numpy array). -/
def WF (a : NdArr) : Prop := a.data.length = prod a.shape

/-- `a[i, j, …]` with one index per dimension. -/
def get? (a : NdArr) (idx : List Nat) : Option Elt :=
  if inBounds a.shape idx then a.data[ravel a.shape idx]? else none

/-- The array with the elements `f idx`. -/
def ofFn (t : Ty) (shape : List Nat) (f : List Nat → Elt) : NdArr :=
  ⟨t, shape, (indices shape).map f⟩

/-- `a[i, j, …]`, with an arbitrary element outside the bounds. -/
def get (a : NdArr) (idx : List Nat) : Elt := (a.get? idx).getD (.int 0)

end NdArr

/-- A Python value. -/
inductive Val
  /-- A Python object of the type, without `shape` and `dtype`. -/
  | py (t : Ty) (e : Elt)
  /-- A numpy scalar of the type; its `shape` is `()`. -/
  | np (t : Ty) (e : Elt)
  /-- A numpy array. -/
  | arr (a : NdArr)
  deriving DecidableEq, Repr

/-- A site record, or the dictionary of an array file. -/
abbrev Rec := Dict PyStr Val

/-- Site records: record name ↦ record. -/
abbrev Records := Dict PyStr Rec

/-- A table of field types. -/
abbrev TyTable := Dict PyStr Ty

/-- Exceptions: /repo/pydarnio/exceptions/borealis_exceptions.py and the Python exceptions that
escape.  The messages are dropped; the fields named in them are kept. -/
inductive Err
  | structure
  | fieldMissing (fields : List PyStr)
  | extraField (fields : List PyStr)
  | dataFormatType (fields : List (PyStr × Ty))
  | numberOfRecords (shapes : List (PyStr × List Nat))
  | badRecords (missing extra : List (PyStr × List PyStr)) (types : List (PyStr × List (PyStr × Ty)))
  | fileType
  | version (v : PyStr)
  | restructure
  | overwrite
  | conversionTypes
  | notConvertible
  | keyError
  | indexError
  | typeError
  | attributeError
  | valueError
  | overflowError
  | osError
  /-- Behaviour outside the model (see the place that returns it). -/
  | unmodelled
  deriving DecidableEq, Repr

deriving instance DecidableEq for Except

/-- `isinstance(v, np.ndarray)`. -/
def Val.isArr : Val → Bool
  | .arr _ => true
  | _ => false

/-- `type(v) == t` for a scalar type `t`. -/
def Val.hasType (v : Val) (t : Ty) : Bool :=
  match v with
  | .py t' _ => t' == t
  | .np t' _ => t' == t
  | .arr _ => false

/-- `v.shape`; a Python object has none. -/
def Val.shape? : Val → Except Err (List Nat)
  | .py _ _ => .error .attributeError
  | .np _ _ => .ok []
  | .arr a => .ok a.shape

/-- `v.dtype.type`; a Python object has none. -/
def Val.dtype? : Val → Except Err Ty
  | .py _ _ => .error .attributeError
  | .np t _ => .ok t
  | .arr a => .ok a.ty

/-- `d[k]`. -/
def field {α : Type} (d : Dict PyStr α) (k : PyStr) : Except Err α :=
  match d.get? k with
  | some v => .ok v
  | none => .error .keyError

end Verif.Bor
