import Verif.SDarn.Model.Objects
import Verif.Dmap.Model.Session
/-!
# Streams as objects, with `SDarnWrite`

`SDarnWrite` inherits `write_dmap_stream` and `write_dmap` of `DmapWrite`, and its own `write_X` methods extend the same
`bytearray` (/repo/pydarnio/dmap/superdarn.py:612-849, 899).  Simplified as in `Dmap/Model/Session.lean`.
-/
namespace Verif.SD
open Verif

/-- What a program with writers of both classes does. -/
inductive DCall
  | base (c : SCall)
  | newDarn (inp : WInput) (filename : PyStr)
  | darn (ft : FileType) (i : Nat) (filename : PyStr)

/-- One call.  `SDarnWrite(...)` makes a new `bytearray` (/repo/pydarnio/dmap/superdarn.py:594-610), `write_X` extends it and writes
it to the file (/repo/pydarnio/dmap/superdarn.py:612-849). -/
def darnStep (s : Session) : DCall → Session
  | .base c => s.step c
  | .newDarn inp name =>
    match darnWriter inp name with
    | .error _ => s
    | .ok w => { s with writers := s.writers ++ [(w, s.next)], arrays := setArray s.arrays s.next w.buf, next := s.next + 1 }
  | .darn ft i name =>
    match s.writers[i]? with
    | none => s
    | some (w, id) =>
      match darnWrite ft { w with buf := s.arrays id } s.files name with
      | (_, w', files) =>
        { s with writers := s.writers.set i (w', id), arrays := setArray s.arrays id w'.buf, files := files }

/-- A program from here on. -/
def darnRun (s : Session) : List DCall → Session
  | [] => s
  | c :: cs => darnRun (darnStep s c) cs

end Verif.SD
