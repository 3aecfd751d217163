import Verif.Dmap.Spec
import Verif.Dmap.SpecMessages
/-!
# What texts of exceptions say about numbers
-/
namespace Verif.Spec
open Verif

/-- A number as it is written. -/
def shown (x : Int) : PyStr := (toString x).toList

/-- The numbers of a list as they are written, in brackets. -/
def shownList (l : List Int) : PyStr := ('[' :: List.intercalate (py! ", ") (l.map shown)) ++ [']']

/-- `SaysTrue fn len rn cls text`: a text for record `rn` of the file `fn` of `len` bytes, of which the numbers are as the text
says: what is called negative is negative, what is called larger is larger, and so on. -/
inductive SaysTrue (fn : PyStr) (len rn : Nat) : PyStr → PyStr → Prop
  | zero (what : PyStr) : SaysTrue fn len rn (py! "ZeroByteError")
      (py! "Error: " ++ fn ++ py! " contains an " ++ what ++ py! " 0 == 0 at record " ++ digits rn ++ py! ".")
  | negative (what : PyStr) {x : Int} (h : x < 0) : SaysTrue fn len rn (py! "NegativeByteError")
      (py! "Error: " ++ fn ++ py! " contains an " ++ what ++ py! " " ++ shown x ++ py! " < 0 at record " ++ digits rn ++ py! ".")
  | larger (what bound : PyStr) {x y : Int} (h : y < x) : SaysTrue fn len rn (py! "MismatchByteError")
      (py! "Error: " ++ fn ++ py! " contains an " ++ what ++ py! " " ++ shown x ++ py! " > " ++ bound ++ py! " " ++ shown y ++
        py! " at record = " ++ digits rn ++ py! ".")
  | unknown (name : PyStr) {n : Nat} (h : ∀ fmt, code fmt ≠ n) : SaysTrue fn len rn (py! "DmapDataTypeError")
      (py! "Error: Dmap data type " ++ digits n ++ py! " for " ++ name ++ py! " at record " ++ digits rn ++
        py! " does not exist in dmap data types. Filename: " ++ fn)
  | outside {c : Int} (h : len ≤ c) : SaysTrue fn len rn (py! "CursorError")
      (py! "Error: Cursor " ++ shown c ++ py! " extends out of buffer " ++ digits len ++ py! ". Fails at record " ++ digits rn)
  | unaligned {n : Nat} {left : Int} (h : left < n) (hl : 0 < left) : SaysTrue fn len rn (py! "CursorError")
      (py! "Error: Byte offsets " ++ shown left ++ py! " into buffer " ++ digits n ++ py! " are not aligned. Failed at record " ++
        digits rn)
  /-- The second number is the size of the block. -/
  | position {start c size : Int} (h : c ≠ start + size) (hs : 0 < size) : SaysTrue fn len rn (py! "CursorError")
      (py! "Error: Cursor is at " ++ shown c ++ py! " andit needs to be " ++ shown size ++ py! ". Failed at record " ++ digits rn)
  | nested : SaysTrue fn len rn (py! "DmapDataError")
      (py! " The following error for " ++ fn ++ py! " was raised: Error: Trying to read DMap data type for a scalar. Failed at record " ++
        digits rn)
  | shape {l : List Int} (h : ∃ x ∈ l, x ≤ 0) : SaysTrue fn len rn (py! "DmapDataError")
      (py! " The following error for " ++ fn ++ py! " was raised: Error: Array shape " ++ shownList l ++
        py! " contains dimension size <= 0. Failed at record " ++ digits rn)
  | dimension {i : Nat} {x size : Int} (h : size ≤ x) : SaysTrue fn len rn (py! "DmapDataError")
      (py! " The following error for " ++ fn ++ py! " was raised: Error: Array " ++ digits i ++ py! "-dimension size " ++ shown x ++
        py! " exceeds record size: " ++ shown size ++ py! ". Failed at record " ++ digits rn)
  | strings : SaysTrue fn len rn (py! "DmapDataError")
      (py! " The following error for " ++ fn ++ py! " was raised: Error: Trying to read array of strings. Currently not implemented. " ++
        py! "Failed at record " ++ digits rn)
  | nestedArray : SaysTrue fn len rn (py! "DmapDataError")
      (py! " The following error for " ++ fn ++ py! " was raised: Trying to read DMap array data type. Failed at record " ++ digits rn)

end Verif.Spec
