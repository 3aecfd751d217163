import Verif.Dmap.Model.Writer
/-!
# Lists of records as objects

`__check_dmap_dict` returns the list it was given, or one that `dict2dmap` made (/repo/pydarnio/dmap/dmap.py:918-938), and the
writer keeps it as the public attribute `dmap_records`.  The default arguments `dmap_records=[]` of `__init__` and
`write_dmap_stream` (/repo/pydarnio/dmap/dmap.py:857, 964) are one list each for all calls.  Here every list has a number and its
contents are in a table.  Simplified: lists only (no `deque`); a record belongs to one list (shape lists that records share are
in `SharedShapes.lean`); `write_dmap`, which calls `write_dmap_stream()`, is left out, and so are file names.
-/
namespace Verif

/-- A writer: the number of its list `dmap_records`, its `bytearray` and `rec_num`. -/
structure LWriter where
  held : Nat
  buf : Bytes
  recNum : Nat

/-- The lists, those the caller made, and the writers. -/
structure Lists where
  lists : Nat → List (Dict PyStr InVal)
  next : Nat
  mine : List Nat
  writers : List LWriter

/-- What a program does: make a list, append to it, make a writer with such a list or without argument, call
`write_dmap_stream` with such a list or without argument, and `writer.dmap_records.append(record)`. -/
inductive LCall
  | list (recs : List (Dict PyStr InVal))
  | append (l : Nat) (rec : Dict PyStr InVal)
  | new (given : Option Nat)
  | stream (i : Nat) (given : Option Nat)
  | appendTo (i : Nat) (rec : Dict PyStr InVal)

/-- The default argument of `__init__` (/repo/pydarnio/dmap/dmap.py:857). -/
def initDefault : Nat := 0

/-- The default argument of `write_dmap_stream` (/repo/pydarnio/dmap/dmap.py:964). -/
def streamDefault : Nat := 1

/-- Set the contents of one list. -/
def setList (lists : Nat → List (Dict PyStr InVal)) (id : Nat) (l : List (Dict PyStr InVal)) : Nat → List (Dict PyStr InVal) :=
  fun j => if j = id then l else lists j

/-- The list an argument stands for. -/
def Lists.given (s : Lists) (default : Nat) : Option Nat → Option Nat
  | none => some default
  | some l => s.mine[l]?

/-- `__check_dmap_dict` (/repo/pydarnio/dmap/dmap.py:918-938): the list itself, or a new one for plain values. -/
def Lists.adopt (s : Lists) (g : Nat) : Except Err (Nat × Lists) :=
  match s.lists g with
  | ((_, .plain _) :: _) :: _ =>
    match asPlainRecs (s.lists g) with
    | .error e => .error e
    | .ok ps =>
      match dict2dmap ps with
      | .error e => .error e
      | .ok rs =>
        .ok (s.next, { s with
          lists := setList s.lists s.next (rs.map fun r => r.map fun p => (p.1, .dmap p.2))
          next := s.next + 1 })
  | _ => .ok (g, s)

/-- The records of a list after writing: the arrays have the shape lists as they were left
(/repo/pydarnio/dmap/dmap.py:1147-1150). -/
def leftBehind (old : List (Dict PyStr InVal)) (rs : List Rec) : List (Dict PyStr InVal) :=
  old.zipWith (fun d r => d.zipWith (fun p q => match p.2 with
    | .dmap _ => (p.1, .dmap q.2)
    | .plain v => (p.1, .plain v)) r) rs

/-- One call, with what it returns (`none`: there is no such list or writer, or nothing is returned).  `DmapWrite`:
/repo/pydarnio/dmap/dmap.py:891-897; `write_dmap_stream`: /repo/pydarnio/dmap/dmap.py:978-989, 1010-1065. -/
def Lists.step (s : Lists) : LCall → Option (Except Err Bytes) × Lists
  | .list recs =>
    (none, { s with lists := setList s.lists s.next recs, next := s.next + 1, mine := s.mine ++ [s.next] })
  | .append l rec =>
    match s.mine[l]? with
    | none => (none, s)
    | some id => (none, { s with lists := setList s.lists id (s.lists id ++ [rec]) })
  | .new given =>
    match s.given initDefault given with
    | none => (none, s)
    | some g =>
      match s.adopt g with
      | .error e => (some (.error e), s)
      | .ok (h, s) => (none, { s with writers := s.writers ++ [⟨h, [], 0⟩] })
  | .stream i given =>
    match s.writers[i]?, s.given streamDefault given with
    | some w, some g =>
      match (if (s.lists w.held).isEmpty then s.adopt g else .ok (w.held, s)) with
      | .error e => (some (.error e), s)
      | .ok (h, s) =>
        if (s.lists h).isEmpty then
          (some (.error .dmapDataError), { s with writers := s.writers.set i { w with held := h } })
        else
          match recordsToBytes 0 w.recNum w.buf (asDmapRecs (s.lists h)) with
          | (res, buf, rn, rs) =>
            (some (match res with
              | .ok () => .ok buf
              | .error e => .error e),
             { s with lists := setList s.lists h (leftBehind (s.lists h) rs), writers := s.writers.set i ⟨h, buf, rn⟩ })
    | _, _ => (none, s)
  | .appendTo i rec =>
    match s.writers[i]? with
    | none => (none, s)
    | some w => (none, { s with lists := setList s.lists w.held (s.lists w.held ++ [rec]) })

/-- The state after a program. -/
def Lists.run (s : Lists) : List LCall → Lists
  | [] => s
  | c :: cs => (s.step c).2.run cs

/-- Before the first call: the two default arguments are empty lists. -/
def Lists.start : Lists := ⟨fun _ => [], 2, [], []⟩

end Verif
