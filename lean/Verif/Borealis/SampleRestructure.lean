import Verif.Borealis.Model.FileRestructure
import Verif.Borealis.Model.ConvertObject
import Verif.Borealis.Lemmas.Samples
import Verif.Borealis.SampleFiles
/-!
# Sample files to restructure
-/
namespace Verif.Bor
open Verif

/-- A sample record as in `sampleSite`, with shared fields of the listed types. -/
def typedSite (v : Version) (t : FType) (o : Ppo) (n b z ts : Nat) : Rec :=
  let f := formatOf v t
  update (sampleSite v t o n b z ts) ((f.shared.filter fun k => k ∉ f.unshared).map fun k =>
    (k,
      match f.single.get? k with
      | some ty => fileScalar v k ty
      | none => sampleArray ((f.arrays.get? k).getD .u8)))

/-- A record with its name. -/
def namedSite (v : Version) (t : FType) (o : Ppo) (n b z ts : Nat) : PyStr × Rec :=
  (List.replicate ts '0', typedSite v t o n b z ts)

/-- Two records with 2 and 3 sequences, `b` and `b'` beams, 3 and 1 blanked samples. -/
def typedRecords (v : Version) (t : FType) (o : Ppo) (b b' : Nat) : Records :=
  [namedSite v t o 2 b 3 5, namedSite v t o 3 b' 1 9]

/-- A site file. -/
def siteFile (v : Version) (t : FType) (rs : Records) : H5 :=
  (writeRecords sampleH5 none (formatOf v t) .new rs).2

/-- An array file. -/
def arrayFile (v : Version) (t : FType) (r : Rec) : H5 := (writeArrays sampleH5 none (formatOf v t) .new r).2

/-- The array file of records. -/
def stackedFile (v : Version) (t : FType) (rs : Records) : H5 :=
  match siteToArray (formatOf v t) rs with
  | .ok r => arrayFile v t r
  | .error _ => .new

/-- One file, under the name `in`. -/
def oneFile (f : H5) : FSys := ⟨id, fun n => if n = py! "in" then some (.h5 f) else none⟩

/-- The same file under the name `./in`. -/
def aliasFile (f : H5) : FSys := ⟨fun n => if n = py! "./in" then py! "in" else n, (oneFile f).file⟩

end Verif.Bor
