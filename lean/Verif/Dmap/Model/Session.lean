import Verif.Dmap.Programs
/-!
# Streams as objects

`write_dmap_stream` returns `self.dmap_bytearr` itself (/repo/pydarnio/dmap/dmap.py:983), not a copy.  Here every `bytearray` has
a number and its contents are in a table; writers and callers hold numbers.  Simplified: records belong to one writer (shape
lists that writers share are in `SharedShapes.lean`); the caller reads streams but does not change them, and holds no view of
them (a `bytearray` with views cannot grow); files are written as in `Writer.writeDmap`.
-/
namespace Verif

/-- The writers of a program with the number of their `bytearray`, the contents of these, and the streams that calls returned, as
they were then. -/
structure Session where
  writers : List (Writer × Nat)
  arrays : Nat → Bytes
  next : Nat
  returned : List (Nat × Bytes)
  files : FileSys

/-- What a program does. -/
inductive SCall
  | new (inp : WInput) (filename : PyStr)
  | stream (i : Nat) (inp : WInput)
  | file (i : Nat) (filename : PyStr)

/-- Set the contents of one `bytearray`. -/
def setArray (arrays : Nat → Bytes) (id : Nat) (bs : Bytes) : Nat → Bytes := fun j => if j = id then bs else arrays j

/-- One call.  `DmapWrite(...)` makes a new `bytearray` (/repo/pydarnio/dmap/dmap.py:891-897), `write_dmap_stream` extends it and
returns it (/repo/pydarnio/dmap/dmap.py:964-983, 1061-1065), `write_dmap` extends it and writes it to the file
(/repo/pydarnio/dmap/dmap.py:944-962).  An exception ends the call and not the program. -/
def Session.step (s : Session) : SCall → Session
  | .new inp name =>
    match Writer.new inp name with
    | .error _ => s
    | .ok w => { s with writers := s.writers ++ [(w, s.next)], arrays := setArray s.arrays s.next w.buf, next := s.next + 1 }
  | .stream i inp =>
    match s.writers[i]? with
    | none => s
    | some (w, id) =>
      match { w with buf := s.arrays id }.writeStream inp with
      | (res, w') =>
        { s with
          writers := s.writers.set i (w', id)
          arrays := setArray s.arrays id w'.buf
          returned := s.returned ++ match res with
            | .ok out => [(id, out)]
            | .error _ => [] }
  | .file i name =>
    match s.writers[i]? with
    | none => s
    | some (w, id) =>
      match { w with buf := s.arrays id }.writeDmap s.files name with
      | (_, w', files) =>
        { s with writers := s.writers.set i (w', id), arrays := setArray s.arrays id w'.buf, files := files }

/-- A program from here on. -/
def Session.run (s : Session) : List SCall → Session
  | [] => s
  | c :: cs => (s.step c).run cs

/-- Before the first call. -/
def Session.start (files : FileSys) : Session := ⟨[], fun _ => [], 0, [], files⟩

end Verif
