import Verif.SDarn.Model.Checks
/-!
# Specification of the SuperDARN file formats

What it means for a record to conform to a file type, independent of how the code
checks it.  It uses only the field tables.
-/
namespace Verif.SD

/-- Field groups of a file type that must be complete or absent. -/
def required : FileType → List Table
  | .iqdat => [Iqdat.types]
  | .rawacf => [Rawacf.types, Rawacf.correlationField, Rawacf.digitizingField, Rawacf.fittexField,
      Rawacf.crossCorrelationField]
  | .fitacf => [Fitacf.types, Fitacf.fittedFields, Fitacf.xcfFields, Fitacf.xcfFieldsFitacf3,
      Fitacf.xcfFieldsFitacf2]
  | .snd => [Snd.types, Snd.fittedFields, Snd.xcfFields]
  | .grid => [Grid.types, Grid.fittedFields, Grid.extraFields]
  | .map => [Map.types, Map.partialFields, Map.hmbFields, Map.modelFields, Map.fitFields,
      Map.extraFields]

/-- Field groups of which any part may be present. -/
def optional : FileType → List Table
  | .iqdat => [Iqdat.optionalFields]
  | .rawacf => [Rawacf.optionalFields]
  | .fitacf => [Fitacf.optionalFields]
  | .snd => [Snd.optionalFields]
  | .grid => [Grid.optionalFields]
  | .map => [Map.optionalFields]

/-- The field occurs in the record. -/
def Has (r : Rec) (k : PyStr) : Prop := ∃ f, (k, f) ∈ r

/-- The table lists the field with this format. -/
def Lists (gs : List Table) (k : PyStr) (t : Fmt) : Prop := ∃ g ∈ gs, (k, t) ∈ g

/-- The field belongs to a group of `req` of which the record has some but not all fields, and
is one of those it does not have. -/
def Missing (req : List Table) (r : Rec) (k : PyStr) : Prop :=
  ∃ g ∈ req, (∃ t, (k, t) ∈ g) ∧ ¬ Has r k ∧ ∃ k' t', (k', t') ∈ g ∧ Has r k'

/-- The field is in the record but in no group. -/
def Extra (gs : List Table) (r : Rec) (k : PyStr) : Prop := Has r k ∧ ¬ ∃ t, Lists gs k t

/-- The field has a format other than `t`, the one its table lists. -/
def WrongType (gs : List Table) (r : Rec) (k : PyStr) (t : Fmt) : Prop :=
  Lists gs k t ∧ ∃ f, (k, f) ∈ r ∧ f.fmt? ≠ some t

/-- The record satisfies a format made of groups that are complete or absent (`req`) and optional
groups: groups complete or absent, no unknown field, every field of the listed format. -/
structure Satisfies (req opt : List Table) (r : Rec) : Prop where
  complete : ∀ g ∈ req, (∀ k t, (k, t) ∈ g → Has r k) ∨ (∀ k t, (k, t) ∈ g → ¬ Has r k)
  known : ∀ k, Has r k → ∃ t, Lists (req ++ opt) k t
  typed : ∀ k f, (k, f) ∈ r → ∀ t, Lists (req ++ opt) k t → f.fmt? = some t

/-- The record satisfies the format of the file type. -/
def Conforms (ft : FileType) (r : Rec) : Prop := Satisfies (required ft) (optional ft) r

/-- Every name is listed with one format only. -/
def OneFormat (gs : List Table) : Prop := ∀ k t t', Lists gs k t → Lists gs k t' → t = t'

end Verif.SD
