import Verif.Dmap.Model.ReaderObj
import Verif.Dmap.Model.Writer
import Verif.Py.Repr
/-!
# Texts of the DMAP objects

The file name is a string, or `stream` for a stream (/repo/pydarnio/dmap/dmap.py:164, 182); the reader of the model does not
hold it, so it is an argument here.
-/
namespace Verif

/-- `DmapRead.__repr__` (/repo/pydarnio/dmap/dmap.py:189-199); `cls`: the name of the class. -/
def Reader.repr (cls filename : PyStr) (r : Reader) : PyStr :=
  cls ++ py! "(" ++ filename ++ py! ", " ++ decText r.cursor ++ py! ", " ++ decText r.recNum ++ py! ", " ++
    decText r.buf.length ++ py! ")"

/-- `DmapRead.__str__` (/repo/pydarnio/dmap/dmap.py:201-213). -/
def Reader.str (filename : PyStr) (r : Reader) : PyStr :=
  py! "Reading from " ++ filename ++ py! " at cursor: " ++ decText r.cursor ++ py! " record number: " ++ decText r.recNum ++
    py! " with a total number of bytes: " ++ decText r.buf.length

/-- `DmapWrite.__repr__` (/repo/pydarnio/dmap/dmap.py:899-907). -/
def Writer.repr (cls : PyStr) (w : Writer) : PyStr :=
  cls ++ py! "(" ++ w.filename ++ py! ", " ++ decText w.recNum ++ py! ")"

/-- `DmapWrite.__str__` (/repo/pydarnio/dmap/dmap.py:909-916). -/
def Writer.str (w : Writer) : PyStr :=
  py! "Writing to filename: " ++ w.filename ++ py! " at record number: " ++ decText w.recNum

end Verif
