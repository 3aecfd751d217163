import Verif.SDarn.Model.Objects
import Verif.SDarn.Programs
import Verif.Dmap.Model.ReadAgain
/-!
# Calling the methods of `SDarnRead` again after the caller has written into arrays

The `read_X` methods (/repo/pydarnio/dmap/superdarn.py:415-543) convert `self._dmap_records` with `dmap2dict` as `read_records`
does, so their arrays are the same views of the reader's `bytearray`.
-/
namespace Verif.SD
open Verif

/-- The calls `cs` on the reader `rd` (/repo/pydarnio/dmap/superdarn.py:415-543, /repo/pydarnio/dmap/dmap.py:375-407), when its
memory has these bytes and its records lie at these places. -/
def darnChanged (cfg : NpCfg) (rd : DarnReader) (mem : Bytes) (vs : List VRec) (cs : List Call) :
    List (Except Err (List PlainRec)) :=
  (runCalls cfg { rd with base := { rd.base with buf := mem, dmapRecords := vs.map (shownRec mem) } } cs).1

end Verif.SD
