import Verif.Borealis.SpecFiles
import Verif.Borealis.SpecShapes
import Verif.Borealis.Model.Hdf5
/-!
# Specification of files that are restructured
-/
namespace Verif.Bor
open Verif

/-- A group (or the root) with the fields of two tables as the writers leave it: single elements are attributes,
texts as bytes; arrays are datasets, those of texts with the size of the strings.  Other attributes and datasets are
not restricted. -/
structure PlainGroup (attrs dsets : TyTable) (g : Group) : Prop where
  nodupA : g.attrs.NodupKeys
  nodupD : g.dsets.NodupKeys
  scalar : ∀ k ∈ attrs.keys, k ∉ g.dsets.keys
  array : ∀ k ∈ dsets.keys, k ∉ g.attrs.keys
  text : ∀ k, attrs.get? k = some .str → ∀ a, g.attrs.get? k = some a → ∃ b, a = .bytes b
  value : ∀ k ty, attrs.get? k = some ty → ty ≠ .str → ∀ a, g.attrs.get? k = some a → ∃ v, a = .value v
  texts : ∀ k d, k ∈ dsets.keys → g.dsets.get? k = some d → (d.itemsize.isSome = true ↔ dsets.get? k = some .npStr)

/-- Bytes that are ASCII. -/
def AsciiBytes (b : Bytes) : Prop := ∀ x ∈ b, x.toNat < 128

/-- The name of the field with phase offsets. -/
abbrev ppoName : PyStr := py! "pulse_phase_offset"

/-- Two dictionaries with the same fields in the same order, and the same values except phase offsets. -/
def SameButPpo (r r' : Rec) : Prop := r.keys = r'.keys ∧ ∀ k, k ≠ ppoName → r.get? k = r'.get? k

/-- Two lists of records with the same names, and related records. -/
inductive AllRec (R : Rec → Rec → Prop) : Records → Records → Prop
  | nil : AllRec R [] []
  | cons {n r r' rs rs'} : R r r' → AllRec R rs rs' → AllRec R ((n, r) :: rs) ((n, r') :: rs')

/-- A site file as the writers leave it, with the records in it before a reader changes the phase offsets: groups of
records of one slice with the shapes of their format, no record with more beams than the first one, no name that
means something else. -/
structure PlainSite (v : Version) (t : FType) (o : Ppo) (c : Common) (f : H5) (rs : Records) : Prop where
  root : ∀ k ∈ f.root.attrs.keys, k ∈ defaultAttrs
  names : py! "borealis_git_hash" ∉ f.keys
  groups : ∀ n g, f.groups.get? n = some g → PlainGroup (formatOf v t).siteSingleTypes (formatOf v t).siteArrayTypes g
  ascii : ∀ n g, f.groups.get? n = some g → ∀ k ∈ (formatOf v t).unshared, (formatOf v t).single.get? k = some .str →
    ∀ b, g.attrs.get? k = some (.bytes b) → AsciiBytes b
  read : readRecords f = .ok rs
  records : SiteRecords (formatOf v t) t o c (flatFields v t) rs
  pulses : ppoName ∈ (formatOf v t).unshared →
    ∀ p ∈ rs, ∃ a, p.2.get? (py! "pulses") = some (.arr a) ∧ a.shape = [c.pulses]
  offsets : ppoName ∈ (formatOf v t).unshared → o ≠ .flat
  shared : ∀ p ∈ rs, ∀ w, p.2.get? ppoName = some w → ∃ a, w = .arr a ∧ a.ty = .f32
  beams : t ≠ .antennasIq → ∀ p q, rs.head? = some p → q ∈ rs → beamsOf q.2 ≤ beamsOf p.2

/-- The types of the datasets of an array file, without those that name the dimensions (in v0.7 these can be bytes or
strings): a text of each record is an array of strings there. -/
def datasetTypes (f : Format) : TyTable :=
  (f.arrayArrayTypes.filter fun p => p.1 ∉ descriptorFields).map fun p => (p.1, if p.2 = .str then .npStr else p.2)

/-- The numbers of an array file that dimensions of records are made of. -/
def countFields : List PyStr := [py! "num_sequences", py! "num_beams", py! "num_blanked_samples"]

/-- An array file as the writers leave it, with the arrays in it: no phase offsets that the readers replace, no
negative numbers of sequences, beams or blanked samples. -/
structure PlainArrays (v : Version) (t : FType) (f : H5) (A : Rec) : Prop where
  root : PlainGroup (formatOf v t).arraySingleTypes (datasetTypes (formatOf v t)) f.root
  read : readArrays f = .ok A
  offsets : ∀ a, A.get? ppoName = some (.arr a) → a.shape ≠ [2]
  counts : ∀ k ∈ countFields, ∀ a, A.get? k = some (.arr a) → ∀ n, .int n ∈ a.data → 0 ≤ n

/-- There are phase offsets for the sequences of record `i`, or none at all. -/
def OffsetsCut (A : Rec) (i : Nat) : Prop :=
  ∀ a w n, A.get? ppoName = some (.arr a) → A.get? (py! "num_sequences") = some w → w.elemInt i = .ok n →
    n ≤ prod a.shape ∨ ∃ m, a.shape = [m, 0]

/-- Records of one slice, as the software writes them to a site file: of the listed types, with texts and arrays that
files keep, with the shapes of their format.  No record has more beams than the first one by name, and offsets are not
given per pulse. -/
structure SliceRecords (tkey : Elt → Except Err PyStr) (v : Version) (t : FType) (o : Ppo) (c : Common) (rs : Records) :
    Prop where
  slice : SiteRecords (formatOf v t) t o c (flatFields v t) rs
  one : OneSlice tkey (formatOf v t) t rs
  first : FirstOfVersion v rs
  types : ∀ p ∈ rs, ConformsRecord (formatOf v t).siteSingleTypes (formatOf v t).siteArrayTypes p.2
  kept : ∀ p ∈ rs, KeptRec (formatOf v t).siteArrayTypes p.2
  ascii : ∀ p ∈ rs, AsciiRec p.2
  texts : ∀ p ∈ rs, ∀ k e, ¬ Holds p.2 k (.np .str e)
  dicts : ∀ p ∈ rs, p.2.NodupKeys
  names : ∀ n ∈ rs.keys, PlainName n ∧ n ≠ py! "borealis_git_hash"
  offsets : o ≠ .flat
  pulses : ppoName ∈ (formatOf v t).unshared →
    ∀ p ∈ rs, ∃ a, p.2.get? (py! "pulses") = some (.arr a) ∧ a.shape = [c.pulses]
  pair : ppoName ∉ (formatOf v t).unshared → ∀ p ∈ rs, ∀ a, p.2.get? ppoName = some (.arr a) → a.shape ≠ [2]
  beams : t ≠ .antennasIq → ∀ n r, rs.get? n = some r → (∀ m ∈ rs.keys, ¬ m < n) →
    ∀ q ∈ rs, beamsOf q.2 ≤ beamsOf r

end Verif.Bor
