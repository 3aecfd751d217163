import Verif.Dmap.Model.WriteMessages
import Verif.Dmap.SpecMessages
/-!
# Specification of the texts of exceptions when writing
-/
namespace Verif

/-- A field of record `n` that cannot be written, and the text that says so. -/
inductive SaysWhy (sh : Shown) (fn : PyStr) (n : Nat) : PyStr × Field → PyStr → Prop
  | charScalar {k x : PyStr} {s : DmapScalar} : s.fmt = .c → s.value = .str x → SaysWhy sh fn n (k, .scalar s)
      (fillIn (py! "Error: For field ({},) at record number {} is a string type trying to be written in as a char. DMAP treats char as int8. Please revise this field type")
        [reprStr sh.printable s.name, decText n])
  | charArray {k : PyStr} {a : DmapArray} {m : Nat} : a.fmt = .c → a.value.dtype = .other m true → SaysWhy sh fn n (k, .array a)
      (fillIn (py! "Error: For field ({},) at record number {} is a string type trying to be written in as a char. DMAP treats char as int8. Please revise this field type")
        [reprStr sh.printable a.name, decText n])
  | strings {k : PyStr} {a : DmapArray} : a.fmt = .s → SaysWhy sh fn n (k, .array a)
      (fillIn (py! " The following error for {} was raised: Error: Trying to read array of strings. Currently not implemented. Failed at record {}")
        [fn, decText n])
  | other {k : PyStr} : SaysWhy sh fn n (k, .other)
      (fillIn (py! "Error: {} does not match the DMAP data type structures: DmapScalar, DmapArray. Please make sure you have the correct Data Structure. Failed at record {}")
        [sh.type n k, decText n])

end Verif
