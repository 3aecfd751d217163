import Verif.Borealis.Model.Objects
import Verif.Borealis.SpecFiles
/-!
# Sample files
-/
namespace Verif.Bor
open Verif

/-- The length of the longest string, at least 1. -/
def widthOf : List Elt → Nat
  | [] => 1
  | .str s :: l => Nat.max s.length (widthOf l)
  | _ :: l => widthOf l

/-- h5py with its filters, and NumPy with arrays of strings as wide as needed. -/
def sampleH5 : H5Cfg where
  hasFilter c := c ∈ [py! "gzip", py! "lzf", py! "szip"]
  width a := widthOf a.data

theorem widthOf_le (l : List Elt) : 0 < widthOf l ∧ ∀ s, Elt.str s ∈ l → s.length ≤ widthOf l := by
  induction l with
  | nil => exact ⟨by decide, by simp⟩
  | cons e l ih =>
    cases e with
    | str t =>
      refine ⟨Nat.lt_of_lt_of_le ih.1 (Nat.le_max_right _ _), fun s hs => ?_⟩
      rcases List.mem_cons.1 hs with h | h
      · cases h; exact Nat.le_max_left _ _
      · exact Nat.le_trans (ih.2 s h) (Nat.le_max_right _ _)
    | _ =>
      refine ⟨ih.1, fun s hs => ?_⟩
      rcases List.mem_cons.1 hs with h | h
      · cases h
      · exact ih.2 s h

theorem sampleH5_fits : sampleH5.Fits := fun a => widthOf_le a.data

/-- No files. -/
def noFiles : FSys := ⟨id, fun _ => none⟩

/-- A text or number of a type; the version is a real one. -/
def fileScalar (v : Version) (k : PyStr) (t : Ty) : Val :=
  if k = py! "borealis_git_hash" then .py .str (.str (v.name ++ py! ".1-2-gabc"))
  else if t = .str then .py .str (.str (py! "text"))
  else .np t (.int 1)

/-- A vector of two elements of a type. -/
def sampleArray (t : Ty) : Val :=
  if t = .npStr then .arr ⟨.npStr, [2], [.str (py! "ab"), .str (py! "c")]⟩
  else .arr ⟨t, [2], [.int 1, .int 2]⟩

/-- A record of a format. -/
def sampleFileRecord (v : Version) (t : FType) : Rec :=
  ((formatOf v t).siteSingleTypes.map fun p => (p.1, fileScalar v p.1 p.2)) ++
  ((formatOf v t).siteArrayTypes.map fun p => (p.1, sampleArray p.2))

/-- Two records. -/
def sampleFileRecords (v : Version) (t : FType) : Records :=
  [(py! "1600000003", sampleFileRecord v t), (py! "1600000000", sampleFileRecord v t)]

/-- A 2×1 array of a type. -/
def sampleArray2 (t : Ty) : Val :=
  if t = .npStr then .arr ⟨.npStr, [2, 1], [.str (py! "ab"), .str (py! "c")]⟩
  else .arr ⟨t, [2, 1], [.int 1, .int 2]⟩

/-- Arrays of a format. -/
def sampleFileArrays (v : Version) (t : FType) : Rec :=
  ((formatOf v t).arraySingleTypes.map fun p => (p.1, fileScalar v p.1 p.2)) ++
  ((formatOf v t).arrayArrayTypes.map fun p => (p.1, sampleArray2 p.2))

end Verif.Bor
