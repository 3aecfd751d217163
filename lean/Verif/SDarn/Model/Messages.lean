import Verif.Dmap.Model.Types
import Verif.Py.Repr
/-!
# Texts of exceptions of checks and writers

A text is a relation between an exception and a string, because a set is shown in the order in which Python iterates over it,
which is not determined.
-/
namespace Verif

/-- The format as a string (/repo/pydarnio/dmap/dmap.py:74-98). -/
def fmtStr : Fmt → PyStr
  | .c => py! "c" | .h => py! "h" | .i => py! "i" | .f => py! "f" | .d => py! "d" | .s => py! "s" | .q => py! "q"
  | .B => py! "B" | .H => py! "H" | .I => py! "I" | .Q => py! "Q" | .dmap => []

/-- `SuperDARNFieldMissingError(rec_num, fields)` (/repo/pydarnio/exceptions/superdarn_exceptions.py:43-51). -/
def missingText (printable : Char → Bool) (rn : Nat) (fields : List PyStr) : PyStr :=
  py! "Error: The following fields in record " ++ decText rn ++ py! " are missing: " ++ reprSet (reprStr printable) fields

/-- `SuperDARNExtraFieldError(rec_num, fields)` (/repo/pydarnio/exceptions/superdarn_exceptions.py:66-74). -/
def extraText (printable : Char → Bool) (rn : Nat) (fields : List PyStr) : PyStr :=
  py! "Error: The following fields in record " ++ decText rn ++ py! " are not allowed: " ++ reprSet (reprStr printable) fields

/-- `SuperDARNDataFormatTypeError(incorrect_types, rec_num)` (/repo/pydarnio/exceptions/superdarn_exceptions.py:89-97). -/
def wrongTypesText (printable : Char → Bool) (fields : List (PyStr × Fmt)) (rn : Nat) : PyStr :=
  py! "Error: In record " ++ decText rn ++ py! ", following parameters need to be the data type: " ++
    reprDict (reprStr printable) (fun x => reprStr printable (fmtStr x)) fields

/-- `DmapCharError(data_name, rec_num)` (/repo/pydarnio/exceptions/dmap_exceptions.py:67-77); the name is stored as a tuple. -/
def charText (printable : Char → Bool) (name : PyStr) (rn : Nat) : PyStr :=
  py! "Error: For field (" ++ reprStr printable name ++ py! ",) at record number " ++ decText rn ++
    py! " is a string type trying to be written in as a char. DMAP treats char as int8. Please revise this field type"

/-- `DmapTypeError(filename, data_type, rec_num)` (/repo/pydarnio/exceptions/dmap_exceptions.py:209-221).  `cls`: the name of
the class of the value. -/
def dmapTypeText (cls : PyStr) (rn : Nat) : PyStr :=
  py! "Error: <class '" ++ cls ++ (py! "'> does not match the DMAP data type structures: DmapScalar, DmapArray." ++
    py! " Please make sure you have the correct Data Structure. Failed at record ") ++ decText rn

/-- A text of an exception of the checks of records or of the writer. -/
inductive ShownAs (printable : Char → Bool) : Err → PyStr → Prop
  | missing {rn : Nat} {fields order : List PyStr} (h : order.Perm fields) :
    ShownAs printable (.sdFieldMissing rn fields) (missingText printable rn order)
  | extra {rn : Nat} {fields order : List PyStr} (h : order.Perm fields) :
    ShownAs printable (.sdExtraField rn fields) (extraText printable rn order)
  | types {fields : List (PyStr × Fmt)} {rn : Nat} : ShownAs printable (.sdDataFormatType fields rn) (wrongTypesText printable fields rn)
  | char {name : PyStr} {rn : Nat} : ShownAs printable (.dmapCharError name rn) (charText printable name rn)
  | type {cls : PyStr} {rn : Nat} : ShownAs printable (.dmapTypeError rn) (dmapTypeText cls rn)

end Verif
