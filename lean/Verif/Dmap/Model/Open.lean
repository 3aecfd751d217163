import Verif.Dmap.Model.Writer
import Verif.Dmap.Model.ReaderObj
import Verif.SDarn.Model.Objects
/-!
# Opening files and streams

The constructors of `DmapRead` and `SDarnRead`, with what they are given.
-/
namespace Verif

/-- The first argument: a name, or bytes. -/
inductive Source
  | path (name : PyStr)
  | data (bs : Bytes)
  deriving DecidableEq, Repr

/-- A reader with `self.dmap_file`. -/
structure Opened where
  reader : Reader
  file : PyStr
  deriving DecidableEq, Repr

/-- What a constructor raises: `FileNotFoundError`, `EmptyFileError` with its text, `ValueError`, `TypeError`. -/
inductive OpenErr
  | notFound
  | empty (text : PyStr)
  | valueError
  | typeError
  deriving DecidableEq, Repr

/-- The text of `EmptyFileError` (/repo/pydarnio/exceptions/dmap_exceptions.py:46-51). -/
def emptyFileText (fn : PyStr) : PyStr :=
  py! "Error: " ++ (fn ++ py! " is empty or please check this is the correct file")

/-- The end of the constructor, with the bytes and `self.dmap_file` (/repo/pydarnio/dmap/dmap.py:184-187). -/
def openBytes (bs : Bytes) (file : PyStr) : Except OpenErr Opened :=
  match Reader.new bs with
  | .error _ => .error (.empty (emptyFileText file))
  | .ok r => .ok ⟨r, file⟩

/-- The branch for files (/repo/pydarnio/dmap/dmap.py:167-175).  `os.path.getsize` raises `ValueError` for a name with a NUL.
Directories, files that may not be read, and other names of a file are not modelled. -/
def openPath (fs : FileSys) (name : PyStr) : Except OpenErr Opened :=
  if '\x00' ∈ name then .error .valueError
  else
    match fs name with
    | none => .error .notFound
    | some bs => if bs.length = 0 then .error (.empty (emptyFileText name)) else openBytes bs name

/-- The branch for streams (/repo/pydarnio/dmap/dmap.py:177-183).  `bytearray` of a string without an encoding raises
`TypeError`. -/
def openStream : Source → Except OpenErr Opened
  | .path name => if name.length = 0 then .error (.empty (emptyFileText (py! "data stream"))) else .error .typeError
  | .data bs =>
    if bs.length = 0 then .error (.empty (emptyFileText (py! "data stream"))) else openBytes bs (py! "stream")

/-- `DmapRead(dmap_file, data_stream)` (/repo/pydarnio/dmap/dmap.py:127-187); `isFalse` is `data_stream is False`.  Bytes are
taken for a name by `os.path.getsize` and `open`, decoded by `fsdecode`; `self.dmap_file` is kept as bytes, here as the name. -/
def dmapRead (fsdecode : Bytes → PyStr) (fs : FileSys) (src : Source) (isFalse : Bool) : Except OpenErr Opened :=
  if isFalse then
    match src with
    | .path name => openPath fs name
    | .data bs => if 0 ∈ bs then .error .valueError else openPath fs (fsdecode bs)
  else openStream src

namespace SD

/-- `SDarnRead(filename, stream)` (/repo/pydarnio/dmap/superdarn.py:300-325): no records have been read. -/
def sdarnRead (fsdecode : Bytes → PyStr) (fs : FileSys) (src : Source) (isFalse : Bool) : Except OpenErr (DarnReader × PyStr) :=
  match dmapRead fsdecode fs src isFalse with
  | .error e => .error e
  | .ok o => .ok (⟨o.reader, none⟩, o.file)

end SD

end Verif
