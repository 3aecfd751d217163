import Verif.Dmap.Model.Types
import Verif.Py.Repr
/-!
# What texts of exceptions have to tell
-/
namespace Verif.Spec
open Verif

/-- The decimal digits of a number. -/
def digits (n : Nat) : PyStr := (toString n).toList

/-- The name of the class of an exception that pyDARNio defines. -/
def className : Err → Option PyStr
  | .emptyFile => some (py! "EmptyFileError")
  | .cursorError => some (py! "CursorError")
  | .zeroByte _ => some (py! "ZeroByteError")
  | .negativeByte _ => some (py! "NegativeByteError")
  | .mismatchByte _ => some (py! "MismatchByteError")
  | .dmapDataType _ _ _ => some (py! "DmapDataTypeError")
  | .dmapDataError => some (py! "DmapDataError")
  | .dmapTypeError _ => some (py! "DmapTypeError")
  | .dmapCharError _ _ => some (py! "DmapCharError")
  | .filenameRequired => some (py! "FilenameRequiredError")
  | .sdFieldMissing _ _ => some (py! "SuperDARNFieldMissingError")
  | .sdExtraField _ _ => some (py! "SuperDARNExtraFieldError")
  | .sdDataFormatType _ _ => some (py! "SuperDARNDataFormatTypeError")
  | _ => none

/-- What follows the number of the record in the text of an exception of this class when reading a file. -/
def afterNumber (fn cls : PyStr) : PyStr :=
  if cls = py! "ZeroByteError" ∨ cls = py! "NegativeByteError" ∨ cls = py! "MismatchByteError" then py! "."
  else if cls = py! "DmapDataTypeError" then py! " does not exist in dmap data types. Filename: " ++ fn
  else []

/-- The text tells the number of a record: `... record 5`, followed by what the class of the exception puts there. -/
def TellsRecord (fn cls : PyStr) (n : Nat) (text : PyStr) : Prop :=
  ∃ before, text = before ++ (' ' :: digits n) ++ afterNumber fn cls ∧
    (py! " record" <:+ before ∨ py! " record =" <:+ before)

/-- The text tells the name of the file. -/
def TellsFile (fn text : PyStr) : Prop := fn <:+: text

end Verif.Spec
