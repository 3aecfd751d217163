import Verif.Borealis.Model.Values
import Verif.Py.Repr
/-!
# Texts of exceptions of checks of Borealis files

A relation between an exception and a string, because a set is shown in the order in which Python iterates over it.
-/
namespace Verif.Bor

/-- The name of a class (NumPy 2 calls `bool_` `numpy.bool`); `other`: those of the types that the model does not tell apart. -/
def tyName (other : Nat → PyStr) : Ty → PyStr
  | .str => py! "str" | .npStr => py! "numpy.str_" | .npBytes => py! "numpy.bytes_" | .npBool => py! "numpy.bool_"
  | .u8 => py! "numpy.uint8" | .u16 => py! "numpy.uint16" | .u32 => py! "numpy.uint32"
  | .i16 => py! "numpy.int16" | .i32 => py! "numpy.int32" | .i64 => py! "numpy.int64"
  | .f32 => py! "numpy.float32" | .f64 => py! "numpy.float64" | .c64 => py! "numpy.complex64"
  | .pyInt => py! "int" | .pyFloat => py! "float"
  | .other n => other n

/-- `str(t)` of a class. -/
def tyStr (other : Nat → PyStr) (t : Ty) : PyStr := py! "<class '" ++ (tyName other t ++ py! "'>")

/-- Dimensions, and the closing bracket of a tuple of at least two. -/
def dimsText : List Nat → PyStr
  | [] => py! ")"
  | [n] => Nat.toDigits 10 n ++ py! ")"
  | n :: m :: l => Nat.toDigits 10 n ++ (py! ", " ++ dimsText (m :: l))

/-- `repr` of a shape, a tuple. -/
def shapeText : List Nat → PyStr
  | [] => py! "()"
  | [n] => py! "(" ++ (Nat.toDigits 10 n ++ py! ",)")
  | n :: m :: l => py! "(" ++ dimsText (n :: m :: l)

/-- The type that a field should have (/repo/pydarnio/borealis/borealis_utilities.py:262, 268-269, 322, 343-344). -/
def expectedText (other : Nat → PyStr) (p : Bool × Ty) : PyStr :=
  (if p.1 then py! "np.ndarray of " else []) ++ tyStr other p.2

/-- `repr` of fields and their types (/repo/pydarnio/borealis/borealis_utilities.py:262-272, 322-351).  `dset`: which of the fields
are datasets, the others being attributes; no format has a field that is both. -/
def typesText (printable : Char → Bool) (other : Nat → PyStr) (dset : PyStr → Bool) (l : List (PyStr × Ty)) : PyStr :=
  reprDict (reprStr printable) (fun p => reprStr printable (expectedText other p)) (l.map fun p => (p.1, dset p.1, p.2))

/-- `repr` of records and their fields (/repo/pydarnio/borealis/borealis_utilities.py:491-508). -/
def fieldsText (printable : Char → Bool) (l : List (PyStr × List PyStr)) : PyStr :=
  reprDict (reprStr printable) (reprSet (reprStr printable)) l

/-- `BorealisFieldMissingError(filename, fields)` (/repo/pydarnio/exceptions/borealis_exceptions.py:115-129); that of a record
does not leave `check_records`. -/
def missingText (printable : Char → Bool) (fn : PyStr) (fields : List PyStr) : PyStr :=
  py! "The following fields in file " ++ (fn ++ (py! " are missing: " ++ reprSet (reprStr printable) fields))

/-- `BorealisExtraFieldError(filename, fields)` (/repo/pydarnio/exceptions/borealis_exceptions.py:154-167). -/
def extraText (printable : Char → Bool) (fn : PyStr) (fields : List PyStr) : PyStr :=
  py! "The following fields in file " ++ (fn ++ (py! " are not allowed: " ++ reprSet (reprStr printable) fields))

/-- `BorealisDataFormatTypeError(filename, incorrect_types)` (/repo/pydarnio/exceptions/borealis_exceptions.py:192-206). -/
def wrongTypesText (printable : Char → Bool) (other : Nat → PyStr) (dset : PyStr → Bool) (fn : PyStr) (l : List (PyStr × Ty)) : PyStr :=
  py! "In file " ++ (fn ++ (py! ", the following parameters are not of their given correct type: " ++ typesText printable other dset l))

/-- `BorealisNumberOfRecordsError(filename, array_types)` (/repo/pydarnio/exceptions/borealis_exceptions.py:232-242). -/
def numbersText (printable : Char → Bool) (fn : PyStr) (l : List (PyStr × List Nat)) : PyStr :=
  py! "The number of records in file " ++ (fn ++ (py! " cannot be determined due to varying shapes of arrays for the unshared " ++
    (py! "parameters. All arrays of the unshared parameters should have the same first dimension size equal to number of records: " ++
      reprDict (reprStr printable) shapeText l)))

/-- `BorealisBadRecordsError(filename, missing_dict, extra_dict, incorrect_dict)`
(/repo/pydarnio/exceptions/borealis_exceptions.py:53-63). -/
def badText (printable : Char → Bool) (other : Nat → PyStr) (dset : PyStr → Bool) (fn : PyStr) (missing extra : List (PyStr × List PyStr))
    (types : List (PyStr × List (PyStr × Ty))) : PyStr :=
  fn ++ (py! " contains invalid records.\n\tRecords with missing fields: " ++ (fieldsText printable missing ++
    (py! "\n\tRecords with extra fields: " ++ (fieldsText printable extra ++
      (py! "\n\tRecords with fields of incorrect types: " ++ reprDict (reprStr printable) (typesText printable other dset) types)))))

/-- `BorealisVersionError(filename, file_version)` (/repo/pydarnio/exceptions/borealis_exceptions.py:425-433). -/
def versionText (fn v : PyStr) : PyStr :=
  py! "Version " ++ (v ++ (py! " from the borealis_git_hash is not a recognized Borealis version or has not been implemented yet. " ++
    (fn ++ py! " was not used.")))

/-- The same records, with the fields in any order. -/
inductive Reordered : List (PyStr × List PyStr) → List (PyStr × List PyStr) → Prop
  | nil : Reordered [] []
  | cons {n : PyStr} {a b : List PyStr} {l m : List (PyStr × List PyStr)} (h : a.Perm b) (t : Reordered l m) :
    Reordered ((n, a) :: l) ((n, b) :: m)

/-- A text of an exception of the checks of the file `fn`; `dset`: the datasets of the format. -/
inductive ShownAs (printable : Char → Bool) (other : Nat → PyStr) (dset : PyStr → Bool) (fn : PyStr) : Err → PyStr → Prop
  | missing {fields order : List PyStr} (h : order.Perm fields) :
    ShownAs printable other dset fn (.fieldMissing fields) (missingText printable fn order)
  | extra {fields order : List PyStr} (h : order.Perm fields) :
    ShownAs printable other dset fn (.extraField fields) (extraText printable fn order)
  | types {l : List (PyStr × Ty)} : ShownAs printable other dset fn (.dataFormatType l) (wrongTypesText printable other dset fn l)
  | numbers {l : List (PyStr × List Nat)} : ShownAs printable other dset fn (.numberOfRecords l) (numbersText printable fn l)
  | bad {missing extra missing' extra' : List (PyStr × List PyStr)} {types : List (PyStr × List (PyStr × Ty))}
    (hm : Reordered missing' missing) (he : Reordered extra' extra) :
    ShownAs printable other dset fn (.badRecords missing extra types) (badText printable other dset fn missing' extra' types)
  | version {v : PyStr} : ShownAs printable other dset fn (.version v) (versionText fn v)

end Verif.Bor
