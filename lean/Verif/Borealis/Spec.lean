import Verif.Borealis.Model.Values
/-!
# Specification of the Borealis field checks

What it means for a site record or an array file to conform to a table of single-element fields
(`attrs`) and a table of array fields (`dsets`), independent of how the code checks it.
-/
namespace Verif.Bor

/-- `s` can follow `vX.Y` in a `borealis_git_hash`: nothing, a patch level or a commit. -/
def VersionTail (s : PyStr) : Prop := s = [] ∨ ∃ t, s = '.' :: t ∨ s = '-' :: t

/-- The table lists a field of the name. -/
def Listed (t : TyTable) (k : PyStr) : Prop := ∃ ty, (k, ty) ∈ t

/-- The dictionary holds the value under the name. -/
def Holds (r : Rec) (k : PyStr) (v : Val) : Prop := r.get? k = some v

/-- A required field is not there. -/
def Missing (attrs dsets : TyTable) (r : Rec) (k : PyStr) : Prop :=
  (Listed attrs k ∨ Listed dsets k) ∧ ¬ ∃ v, Holds r k v

/-- A field is there that is not required. -/
def Extra (attrs dsets : TyTable) (r : Rec) (k : PyStr) : Prop :=
  (∃ v, Holds r k v) ∧ ¬ (Listed attrs k ∨ Listed dsets k)

/-- A scalar of the type. -/
def IsScalar (t : Ty) : Val → Prop
  | .py t' _ => t' = t
  | .np t' _ => t' = t
  | .arr _ => False

/-- An array of elements of the type. -/
def IsArray (t : Ty) : Val → Prop
  | .arr a => a.ty = t
  | _ => False

/-- A numpy scalar or array of the type. -/
def IsNumpy (t : Ty) : Val → Prop
  | .np t' _ => t' = t
  | .arr a => a.ty = t
  | .py _ _ => False

/-- A Python object (without `dtype`). -/
def IsPython : Val → Prop
  | .py _ _ => True
  | _ => False

/-- A numpy scalar. -/
def IsNpScalar : Val → Prop
  | .np _ _ => True
  | _ => False

/-- The field has another type than its table lists.  `ok` says which values an array field may
have. -/
def Wrong (ok : PyStr → Ty → Val → Prop) (attrs dsets : TyTable) (r : Rec) (k : PyStr) (t : Ty) : Prop :=
  ((k, t) ∈ attrs ∧ ∃ v, Holds r k v ∧ ¬ IsScalar t v) ∨
  ((k, t) ∈ dsets ∧ ∃ v, Holds r k v ∧ ¬ ok k t v)

/-- The dictionary has exactly the listed fields, each of its type. -/
structure Conforms (ok : PyStr → Ty → Val → Prop) (attrs dsets : TyTable) (r : Rec) : Prop where
  complete : ∀ k, ¬ Missing attrs dsets r k
  known : ∀ k, ¬ Extra attrs dsets r k
  typed : ∀ k t, ¬ Wrong ok attrs dsets r k t

/-- A site record conforms: scalars and arrays of the listed types. -/
abbrev ConformsRecord := Conforms fun _ => IsArray

/-- The value is an array with a first dimension of `n`. -/
def HasRecords (n : Nat) : Val → Prop
  | .arr a => ∃ ds, a.shape = n :: ds
  | _ => False

/-- An array file conforms: scalars and arrays of the listed types, and all unshared fields have
the same number of records. -/
structure ConformsArrays (attrs dsets : TyTable) (unshared : List PyStr) (r : Rec) : Prop
    extends Conforms (fun _ => IsArray) attrs dsets r where
  records : ∃ n, ∀ k ∈ unshared, ∃ v, Holds r k v ∧ HasRecords n v

/-- The table of a format: no name twice, no name in both parts, not empty. -/
structure GoodTables (attrs dsets : TyTable) : Prop where
  nodup : (attrs.keys ++ dsets.keys).Nodup
  nonempty : attrs ≠ [] ∨ dsets ≠ []

/-- A field that has to be a single value is an array, or one that has to be an array is not. -/
def WrongKind (attrs dsets : TyTable) (r : Rec) : Prop :=
  (∃ k v, Listed attrs k ∧ Holds r k v ∧ v.isArr) ∨ (∃ k v, Listed dsets k ∧ Holds r k v ∧ ¬ v.isArr)

/-- The record holds a Python object where its type is looked up as that of a numpy value: an
array field that is a Python object, or a single-element field that is one of another type. -/
def PythonMistyped (attrs dsets : TyTable) (r : Rec) : Prop :=
  (∃ k t v, (k, t) ∈ attrs ∧ Holds r k v ∧ IsPython v ∧ ¬ IsScalar t v) ∨
  (∃ k v, Listed dsets k ∧ Holds r k v ∧ IsPython v)

/-- What `check_arrays` accepts for an array field: an array of the type, any array of strings,
and for `pulse_phase_offset` an array of two 64-bit integers. -/
def ArrayAccepted (k : PyStr) (t : Ty) : Val → Prop
  | .arr a => a.ty = t ∨ a.ty = .npStr ∨ (k = py! "pulse_phase_offset" ∧ a.ty = .i64 ∧ a.shape = [2])
  | _ => False

/-- None of the required fields is there. -/
def HasNothing (attrs dsets : TyTable) (r : Rec) : Prop :=
  ∀ k, Listed attrs k ∨ Listed dsets k → ¬ ∃ v, Holds r k v

/-- The record is one on which an exception escapes from `check_records`: it has none of the
fields, or has exactly the right fields with a mistyped Python object among them. -/
def Escapes (attrs dsets : TyTable) (r : Rec) : Prop :=
  HasNothing attrs dsets r ∨
  ((∀ k, ¬ Missing attrs dsets r k) ∧ (∀ k, ¬ Extra attrs dsets r k) ∧ PythonMistyped attrs dsets r)

end Verif.Bor
