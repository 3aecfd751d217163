import Verif.Borealis.Spec
import Verif.Borealis.Model.Formats
/-!
# Specification of Borealis files

What a file keeps of the data written to it, independent of how it is written and read.
-/
namespace Verif.Bor

/-- The text does not end in NUL. -/
def NoNulEnd (s : PyStr) : Prop := s.getLast? ≠ some '\x00'

/-- Every character is ASCII. -/
def AsciiText (s : PyStr) : Prop := ∀ c ∈ s, c.toNat < 128

/-- An array that exists in NumPy, has a dimension and, if it is one of strings, holds strings that do
not end in NUL. -/
structure KeptArray (a : NdArr) : Prop where
  wf : a.data.length = prod a.shape
  rank : a.shape ≠ []
  text : a.ty = .npStr → ∀ e ∈ a.data, ∃ s, e = .str s ∧ NoNulEnd s

/-- A value that a file keeps. -/
def KeptVal : Val → Prop
  | .py _ e => ∀ s, e = .str s → NoNulEnd s
  | .np _ _ => True
  | .arr a => KeptArray a

/-- A file keeps every field, and those that are arrays by the table are arrays. -/
def KeptRec (dsets : TyTable) (r : Rec) : Prop :=
  ∀ k v, Holds r k v → KeptVal v ∧ (Listed dsets k → ∃ a, v = .arr a)

/-- Python objects are ASCII texts. -/
def AsciiRec (r : Rec) : Prop := ∀ k t e, Holds r k (.py t e) → t = .str ∧ ∃ s, e = .str s ∧ AsciiText s

/-- The two dictionaries hold the same values under the same names. -/
def SameFields (r r' : Rec) : Prop := ∀ k v, Holds r k v ↔ Holds r' k v

/-- The pulse phase offset of a record, if there is one, has the shape of the pulses. -/
def PpoLikePulses (r : Rec) : Prop :=
  ∀ v, Holds r (py! "pulse_phase_offset") v →
    ∃ p s, Holds r (py! "pulses") p ∧ v.shape? = .ok s ∧ p.shape? = .ok s

/-- The pulse phase offset of arrays, if there is one, is not a pair. -/
def PpoNoPair (r : Rec) : Prop :=
  ∀ v, Holds r (py! "pulse_phase_offset") v → ∃ s, v.shape? = .ok s ∧ s ≠ [2]

/-- A name without a special meaning in HDF5. -/
def PlainName (n : PyStr) : Prop := n ≠ [] ∧ n ≠ py! "." ∧ '/' ∉ n

/-- The list has the same elements, in the order of their characters. -/
structure SortedNames (ns l : List PyStr) : Prop where
  perm : List.Perm l ns
  sorted : l.Pairwise fun s t => ¬ t < s

/-- The records have the same names and each the same fields. -/
def SameRecords (rs rs' : Records) : Prop :=
  (∀ n, n ∈ rs.keys ↔ n ∈ rs'.keys) ∧
  ∀ n r r', rs.get? n = some r → rs'.get? n = some r' → SameFields r r'

/-- The record, or the arrays, name a version of the software: its name, possibly with a patch level or
a commit. -/
def OfVersion (v : Version) (r : Rec) : Prop :=
  ∃ s, Holds r (py! "borealis_git_hash") (.py .str (.str (v.name ++ s))) ∧ VersionTail s

/-- The first record by name is of the version. -/
def FirstOfVersion (v : Version) (rs : Records) : Prop :=
  ∃ n r, rs.get? n = some r ∧ (∀ m ∈ rs.keys, ¬ m < n) ∧ OfVersion v r

end Verif.Bor
