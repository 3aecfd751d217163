import Verif.Dmap.Model.ReaderObj
/-!
# Streams and their readers as objects

`DmapRead(stream, True)` makes a `bytearray` of its own from the stream (`bytearray(self.dmap_file)`,
/repo/pydarnio/dmap/dmap.py:180), of which `dmap_buffer` and the arrays that are read are views
(/repo/pydarnio/dmap/dmap.py:183, 800-810).  Here every `bytearray` has a number and its contents are in a table.  Simplified:
what a reader gives once something was written into its arrays is in `ReadAgain.lean` and not here (`read` then gives `none`).
-/
namespace Verif

/-- A reader with the number of its `bytearray`; whether something was written into its arrays. -/
structure SReader where
  reader : Reader
  mem : Nat
  touched : Bool

/-- The contents of all `bytearray`s, those the caller made, and the readers. -/
structure Streams where
  mem : Nat → Bytes
  next : Nat
  mine : List Nat
  readers : List SReader

/-- What a program does: make a stream, change one, make a reader of one, call `read_records`, and write into arrays of a reader,
after which its memory has these bytes. -/
inductive RCall
  | make (bs : Bytes)
  | change (s : Nat) (bs : Bytes)
  | «open» (s : Nat)
  | read (i : Nat)
  | write (i : Nat) (bs : Bytes)

/-- Set the contents of one `bytearray`. -/
def setMem (mem : Nat → Bytes) (id : Nat) (bs : Bytes) : Nat → Bytes := fun j => if j = id then bs else mem j

/-- What a call gives. -/
abbrev Given := Option (Except Err (List PlainRec))

/-- One call.  `DmapRead(stream, True)`: /repo/pydarnio/dmap/dmap.py:152-187; `read_records`:
/repo/pydarnio/dmap/dmap.py:375-407.  Arrays cannot make the memory of a reader longer or shorter. -/
def Streams.step (cfg : NpCfg) (s : Streams) : RCall → Given × Streams
  | .make bs => (none, { s with mem := setMem s.mem s.next bs, next := s.next + 1, mine := s.mine ++ [s.next] })
  | .change k bs =>
    match s.mine[k]? with
    | none => (none, s)
    | some id => (none, { s with mem := setMem s.mem id bs })
  | .open k =>
    match s.mine[k]? with
    | none => (none, s)
    | some id =>
      match Reader.new (s.mem id) with
      | .error e => (some (.error e), s)
      | .ok r =>
        (none, { s with
          mem := setMem s.mem s.next (s.mem id)
          next := s.next + 1
          readers := s.readers ++ [⟨r, s.next, false⟩] })
  | .read i =>
    match s.readers[i]? with
    | none => (none, s)
    | some r =>
      if r.touched then (none, s)
      else
        match { r.reader with buf := s.mem r.mem }.readRecords cfg with
        | (res, r') => (some res, { s with readers := s.readers.set i { r with reader := r' } })
  | .write i bs =>
    match s.readers[i]? with
    | none => (none, s)
    | some r =>
      if bs.length = (s.mem r.mem).length then
        (none, { s with mem := setMem s.mem r.mem bs, readers := s.readers.set i { r with touched := true } })
      else (none, s)

/-- The state after a program. -/
def Streams.run (cfg : NpCfg) (s : Streams) : List RCall → Streams
  | [] => s
  | c :: cs => (s.step cfg c).2.run cfg cs

/-- Before the first call. -/
def Streams.start : Streams := ⟨fun _ => [], 0, [], []⟩

end Verif
