import Verif.Borealis.Model.Convert
import Verif.Py.Repr
/-!
# Texts of refused conversions

The conversion once more, with the texts of `BorealisConvert2IqdatError` and `BorealisConvert2RawacfError`.  How NumPy shows an
array is a parameter.
-/
namespace Verif.Bor
open Verif

/-- An exception, with its text if it is one of the two conversion errors. -/
structure Said where
  kind : Err
  text : Option PyStr
  deriving DecidableEq, Repr

/-- Exceptions whose text is not told. -/
def untoldE {α : Type} : Except Err α → Except Said α
  | .ok a => .ok a
  | .error e => .error ⟨e, none⟩

/-- The text of a conversion error (/repo/pydarnio/exceptions/borealis_exceptions.py:293-299, 317-323). -/
def convertText : Target → PyStr → PyStr
  | .iqdat, s => py! "The file cannot be converted to SDARN DMap iqdat due to the following error: " ++ s
  | .rawacf, s => py! "The file cannot be converted to SDARN DMap rawacf due to the following error: " ++ s

/-- What is wrong with `blanked_samples` (/repo/pydarnio/borealis/borealis_convert.py:391-400, 467-476). -/
def blankedText (t : Target) (name blanked pulses : PyStr) (spacing : Nat) : PyStr :=
  (match t with
    | .iqdat => py! "Increased complexity: Borealis bfiq file record "
    | .rawacf => py! "Increased complexity: Borealis rawacf file record ") ++
  (name ++ (py! " blanked_samples " ++ (blanked ++ (py! " is not correct for pulses array converted to sample number " ++
    (pulses ++ (py! " * " ++ (Nat.toDigits 10 spacing ++ py! ".")))))))

/-- What is wrong with `pulse_phase_offset` (/repo/pydarnio/borealis/borealis_convert.py:402-407). -/
def phaseText (name phases : PyStr) : PyStr :=
  py! "Increased complexity: Borealis bfiq file record " ++ (name ++ (py! " pulse_phase_offset " ++ (phases ++ py! " contains non-zero values.")))

/-- `blankedCheck` with the text (/repo/pydarnio/borealis/borealis_convert.py:362-400, 438-476). -/
def blankedCheckM (shown : Val → PyStr) (t : Target) (name : PyStr) (r : Rec) : Except Said Unit := do
  let s ← untoldE (sampleSpacing r)
  let h ← untoldE (do (← field r (py! "borealis_git_hash")).text)
  let old ← untoldE (do oldVersion (← revisions h))
  let p ← untoldE (field r (py! "pulses"))
  let ps ← untoldE p.u32s
  let b ← untoldE (field r (py! "blanked_samples"))
  let bs ← untoldE b.u32s
  if bs = expectedBlanked old ps s bs then .ok ()
  else .error ⟨.notConvertible, some (convertText t (blankedText t name (shown b) (shown p) s))⟩

/-- `phaseCheck` with the text (/repo/pydarnio/borealis/borealis_convert.py:401-407). -/
def phaseCheckM (shown : Val → PyStr) (ops : Ops) (name : PyStr) (r : Rec) : Except Said Unit := do
  let v ← untoldE (field r (py! "pulse_phase_offset"))
  let a ← untoldE v.arr?
  if ← untoldE (allZero ops a) then .ok ()
  else .error ⟨.notConvertible, some (convertText .iqdat (phaseText name (shown v)))⟩

/-- The loop of `_is_convertible_to_iqdat` with the text (/repo/pydarnio/borealis/borealis_convert.py:338-408). -/
def checkIqdatM (shown : Val → PyStr) (ops : Ops) : Records → Except Said Unit
  | [] => .ok ()
  | (n, r) :: rs => do
    blankedCheckM shown .iqdat n r
    phaseCheckM shown ops n r
    checkIqdatM shown ops rs

/-- The loop of `_is_convertible_to_rawacf` with the text (/repo/pydarnio/borealis/borealis_convert.py:410-478). -/
def checkRawacfM (shown : Val → PyStr) : Records → Except Said Unit
  | [] => .ok ()
  | (n, r) :: rs => do
    blankedCheckM shown .rawacf n r
    checkRawacfM shown rs

/-- The check before the conversion. -/
def checkTargetM (shown : Val → PyStr) (ops : Ops) : Target → Records → Except Said Unit
  | .iqdat, rs => checkIqdatM shown ops rs
  | .rawacf, rs => checkRawacfM shown rs

/-- `_convert_records_to_dmap` with the text (/repo/pydarnio/borealis/borealis_convert.py:318-336, 480-523, 754-786).
`cause`: the text of the exception that the conversion of the records or `dict2dmap` raised. -/
def convertToDmapM (shown : Val → PyStr) (cause : PyStr) (cfg : NpCfg) (ops : Ops) (t : Target) (slice : Val) (origin : PyStr)
    (factor : Int) (rs : Records) : Except Said (List Verif.Rec) :=
  match checkTargetM shown ops t rs with
  | .error e => .error e
  | .ok () =>
    match convertAll cfg ops t slice origin factor rs with
    | .error _ => .error ⟨.notConvertible, some (convertText t cause)⟩
    | .ok ds =>
      match dict2dmap ds with
      | .error _ => .error ⟨.notConvertible, some (convertText t cause)⟩
      | .ok recs => .ok recs

end Verif.Bor
