import Verif.Borealis.Model.Formats
import Verif.Borealis.Model.Checks
import Verif.Py.Struct
/-!
# HDF5 files: `read_records`, `read_arrays`, `write_records`, `write_arrays`

Model of /repo/pydarnio/borealis/base_format.py:1234-1429 and of the part of h5py it uses.

* A file has attributes and datasets at the root and groups with attributes and datasets.  Groups
  within groups are not modelled.
* h5py lists names in alphabetical order; here the order is that of creation.  It only determines
  the order of the fields in a dictionary, except where the code sorts.
* An attribute is what h5py returns for it.  Attributes larger than 64 KiB, which HDF5 rejects,
  are not distinguished.
* The width of the strings of an array (`dtype.itemsize // 4`) is not part of `NdArr` and a
  parameter here.
-/
namespace Verif.Bor

/-- What h5py and NumPy decide. -/
structure H5Cfg where
  /-- The compression filters that h5py knows by name. -/
  hasFilter : PyStr → Bool
  /-- `a.dtype.itemsize // 4` for an array of strings. -/
  width : NdArr → Nat

/-- What is true of the width of every NumPy array of strings: no string is longer. -/
def H5Cfg.Fits (h : H5Cfg) : Prop :=
  ∀ a : NdArr, 0 < h.width a ∧ ∀ s, Elt.str s ∈ a.data → s.length ≤ h.width a

/-- The value of an attribute as h5py returns it. -/
inductive Attr
  /-- `np.bytes_`: the NULs at the end of the stored string are not part of it. -/
  | bytes (b : Bytes)
  /-- `h5py.Empty` of a type. -/
  | empty (t : Ty)
  /-- Anything else. -/
  | value (v : Val)
  deriving DecidableEq, Repr

/-- A dataset, with the attribute `itemsize` if it has `strtype`. -/
structure Dset where
  arr : NdArr
  itemsize : Option Nat
  deriving DecidableEq, Repr

/-- A group, or the root: attributes and datasets. -/
structure Group where
  attrs : Dict PyStr Attr
  dsets : Dict PyStr Dset
  deriving DecidableEq, Repr

/-- A group without anything. -/
def Group.new : Group := ⟨[], []⟩

/-- A file. -/
structure H5 where
  root : Group
  groups : Dict PyStr Group
  deriving DecidableEq, Repr

/-- The file that `h5py.File(filename, 'a')` creates. -/
def H5.new : H5 := ⟨.new, []⟩

/-- `f.keys()`. -/
def H5.keys (f : H5) : List PyStr := f.groups.keys ++ f.root.dsets.keys

/-! ## Strings -/

/-- Drop the NULs at the end. -/
def stripNul {α : Type} [BEq α] (z : α) (l : List α) : List α := (l.reverse.dropWhile (· == z)).reverse

/-- `np.bytes_(s)`: ASCII only. -/
def asciiBytes : PyStr → Except Err Bytes
  | [] => .ok []
  | c :: s => if c.toNat < 128 then do .ok (UInt8.ofNat c.toNat :: (← asciiBytes s)) else .error .valueError

/-- The four bytes of a character of a NumPy string. -/
def charBytes (c : Char) : Bytes := natLE 4 c.toNat

/-- The bytes of a string of the width `w`. -/
def strBytes (w : Nat) (s : PyStr) : Bytes := (s ++ List.replicate (w - s.length) '\x00').flatMap charBytes

/-- The bytes of all strings of an array. -/
def textBytes (w : Nat) : List Elt → Except Err Bytes
  | [] => .ok []
  | .str s :: l => do .ok (strBytes w s ++ (← textBytes w l))
  | _ :: _ => .error .unmodelled

/-- Change the last dimension. -/
def mapLast (g : Nat → Nat) : List Nat → List Nat
  | [] => []
  | [d] => [g d]
  | d :: ds => d :: mapLast g ds

/-- `a.view(np.uint8)` of an array of strings of the width `w`. -/
def viewBytes (w : Nat) (a : NdArr) : Except Err NdArr :=
  match a.shape with
  | [] => .error .valueError
  | _ => do
    let b ← textBytes w a.data
    .ok ⟨.u8, mapLast (· * (4 * w)) a.shape, b.map fun x => .int x.toNat⟩

/-- A character from four bytes; other numbers are no characters. -/
def charOf (b : Bytes) : Except Err Char :=
  if (leNat b).isValidChar then .ok (Char.ofNat (leNat b)) else .error .valueError

/-- The elements of a uint8 array. -/
def bytesOfElts : List Elt → Except Err Bytes
  | [] => .ok []
  | .int i :: l => do .ok (UInt8.ofNat i.toNat :: (← bytesOfElts l))
  | _ :: _ => .error .unmodelled

/-- `n` characters from the bytes, and the bytes left. -/
def takeChars : Nat → Bytes → Except Err (PyStr × Bytes)
  | 0, b => .ok ([], b)
  | n + 1, b => do
    let c ← charOf (b.take 4)
    let p ← takeChars n (b.drop 4)
    .ok (c :: p.1, p.2)

/-- `n` strings of the width `w` from the bytes. -/
def takeStrs (w : Nat) : Nat → Bytes → Except Err (List Elt)
  | 0, _ => .ok []
  | n + 1, b => do
    let p ← takeChars w b
    let l ← takeStrs w n p.2
    .ok (.str (stripNul '\x00' p.1) :: l)

/-- `a.view((np.str_, w))` of an array of uint8. -/
def viewText (w : Nat) (a : NdArr) : Except Err NdArr :=
  match a.shape.getLast? with
  | none => .error .valueError
  | some d =>
    if w = 0 ∨ a.ty ≠ .u8 then .error .unmodelled
    else if d % (4 * w) = 0 then do
      let b ← bytesOfElts a.data
      let shape := mapLast (· / (4 * w)) a.shape
      .ok ⟨.npStr, shape, ← takeStrs w (prod shape) b⟩
    else .error .valueError

/-! ## Reading -/

/-- The number zero of a type: `dtype()`. -/
def zeroOf : Ty → Except Err Elt
  | .npBool | .u8 | .u16 | .u32 | .i16 | .i32 | .i64 => .ok (.int 0)
  | .f32 | .f64 => .ok (.flt 0)
  | .c64 => .ok (.cpx 0 0)
  | _ => .error .unmodelled

/-- `b.decode('utf-8')`. -/
def decodeUtf8 (b : Bytes) : Except Err PyStr :=
  match utf8Decode b with
  | some s => .ok s
  | none => .error .valueError

/-- The value of an attribute (/repo/pydarnio/borealis/base_format.py:1282-1294, 1345-1357). -/
def readAttr : Attr → Except Err Val
  | .bytes b => do .ok (.py .str (.str (← decodeUtf8 b)))
  | .empty .npBytes => .ok (.py .str (.str []))
  | .empty t => do .ok (.np t (← zeroOf t))
  | .value v => .ok v

/-- `dset[:]`; a dataset without dimensions cannot be sliced. -/
def Dset.all (d : Dset) : Except Err NdArr :=
  match d.arr.shape with
  | [] => .error .valueError
  | _ => .ok d.arr

/-- The value of a dataset (/repo/pydarnio/borealis/base_format.py:1270-1275, 1333-1338). -/
def readDset (d : Dset) : Except Err Val := do
  let a ← d.all
  match d.itemsize with
  | none => .ok (.arr a)
  | some w => .ok (.arr (← viewText w a))

/-- The attributes that are not fields (/repo/pydarnio/borealis/base_format.py:1280, 1343). -/
def defaultAttrs : List PyStr :=
  [py! "CLASS", py! "TITLE", py! "VERSION", py! "DEEPDISH_IO_VERSION", py! "PYTABLES_FORMAT_VERSION"]

/-- The loop over the attributes (/repo/pydarnio/borealis/base_format.py:1278-1294, 1341-1357). -/
def readAttrs : Dict PyStr Attr → Except Err Rec
  | [] => .ok []
  | (k, a) :: l =>
    if k ∈ defaultAttrs then readAttrs l
    else do
      let v ← readAttr a
      let r ← readAttrs l
      .ok ((k, v) :: r)

/-- The loop over the datasets (/repo/pydarnio/borealis/base_format.py:1266-1275, 1329-1338). -/
def readDsets : Dict PyStr Dset → Except Err Rec
  | [] => .ok []
  | (k, d) :: l => do
    let v ← readDset d
    let r ← readDsets l
    .ok ((k, v) :: r)

/-- The fields of a group or of the root. -/
def readGroup (g : Group) : Except Err Rec := do
  let d ← readDsets g.dsets
  let a ← readAttrs g.attrs
  .ok (update d a)

/-- `s < t` for strings. -/
def strLt : PyStr → PyStr → Bool
  | [], [] => false
  | [], _ :: _ => true
  | _ :: _, [] => false
  | c :: s, d :: t => if c = d then strLt s t else decide (c.toNat < d.toNat)

/-- Insert into a sorted list of strings. -/
def insertStr (s : PyStr) : List PyStr → List PyStr
  | [] => [s]
  | t :: l => if strLt t s then t :: insertStr s l else s :: t :: l

/-- `sorted`. -/
def sortStrs : List PyStr → List PyStr
  | [] => []
  | s :: l => insertStr s (sortStrs l)

/-- The loop over the records; a dataset has no `keys`
(/repo/pydarnio/borealis/base_format.py:1262-1297). -/
def readNames (f : H5) : List PyStr → Except Err Records
  | [] => .ok []
  | n :: ns =>
    match f.groups.get? n with
    | none => .error .attributeError
    | some g => do
      let r ← readGroup g
      let rs ← readNames f ns
      .ok ((n, r) :: rs)

/-- `read_records` (/repo/pydarnio/borealis/base_format.py:1234-1299). -/
def readRecords (f : H5) : Except Err Records := readNames f (sortStrs f.keys)

/-- `read_arrays` (/repo/pydarnio/borealis/base_format.py:1301-1360).  A group cannot be sliced. -/
def readArrays (f : H5) : Except Err Rec :=
  match f.groups with
  | [] => readGroup f.root
  | _ :: _ => .error .typeError

/-! ## Writing -/

/-- `group.attrs[k] = v` (/repo/pydarnio/borealis/base_format.py:1386-1389, 1419-1422): what h5py
returns for it afterwards. -/
def storeAttr : Val → Except Err Attr
  | .py .str (.str s) => do .ok (.bytes (stripNul 0 (← asciiBytes s)))
  | .np .npStr (.str s) => do .ok (.bytes (stripNul 0 (← asciiBytes s)))
  | .np .npBytes (.bytes b) => .ok (.bytes (stripNul 0 b))
  | .np .npStr _ | .np .npBytes _ | .np (.other _) _ => .error .unmodelled
  | .np t e => .ok (.value (.np t e))
  | .py .pyInt (.int n) => if signedOk 8 n then .ok (.value (.np .i64 (.int n))) else .error .unmodelled
  | .py .pyFloat e => .ok (.value (.np .f64 e))
  | .py _ _ | .arr _ => .error .unmodelled

/-- The check of the compression in `create_dataset`. -/
def compressionCheck (h : H5Cfg) (comp : Option PyStr) (shape : List Nat) : Except Err Unit :=
  match comp with
  | none => .ok ()
  | some c =>
    if shape = [] then .error .typeError
    else if h.hasFilter c then .ok ()
    else .error .valueError

/-- `create_dataset(k, data=v, compression=compression)`
(/repo/pydarnio/borealis/base_format.py:1390-1397, 1423-1429). -/
def storeDset (h : H5Cfg) (comp : Option PyStr) : Val → Except Err Dset
  | .py _ _ => .error .attributeError
  | .np .npStr _ | .np (.other _) _ => .error .unmodelled
  | .np t e => do
    compressionCheck h comp []
    .ok ⟨⟨t, [], [e]⟩, none⟩
  | .arr a =>
    match a.ty with
    | .other _ => .error .unmodelled
    | .npStr => do
      let b ← viewBytes (h.width a) a
      compressionCheck h comp b.shape
      .ok ⟨b, some (h.width a)⟩
    | _ => do
      compressionCheck h comp a.shape
      .ok ⟨a, none⟩

/-- The loop over the fields (/repo/pydarnio/borealis/base_format.py:1384-1397, 1417-1429): the
group as it is left, also by an exception.  `taken`: names in use besides those of the datasets. -/
def writeFields (h : H5Cfg) (comp : Option PyStr) (attrs : TyTable) (taken : List PyStr) :
    Group → Rec → Except Err Unit × Group
  | g, [] => (.ok (), g)
  | g, (k, v) :: r =>
    if k ∈ attrs.keys then
      match storeAttr v with
      | .error e => (.error e, g)
      | .ok a => writeFields h comp attrs taken { g with attrs := g.attrs.set k a } r
    else
      match storeDset h comp v with
      | .error e => (.error e, g)
      | .ok d =>
        if k ∈ taken ∨ k ∈ g.dsets.keys then (.error .valueError, g)
        else writeFields h comp attrs taken { g with dsets := g.dsets ++ [(k, d)] } r

/-- The name of a group is not taken apart. -/
def plainName (n : PyStr) : Bool := n != [] && n != py! "." && !n.contains '/'

/-- `write_records` on an open file (/repo/pydarnio/borealis/base_format.py:1382-1397). -/
def writeRecords (h : H5Cfg) (comp : Option PyStr) (fmt : Format) : H5 → Records → Except Err Unit × H5
  | f, [] => (.ok (), f)
  | f, (n, r) :: rs =>
    if !plainName n then (.error .unmodelled, f)
    else if n ∈ f.keys then (.error .valueError, f)
    else
      match writeFields h comp fmt.siteSingleTypes [] .new r with
      | (.error e, g) => (.error e, { f with groups := f.groups ++ [(n, g)] })
      | (.ok (), g) => writeRecords h comp fmt { f with groups := f.groups ++ [(n, g)] } rs

/-- `write_arrays` on an open file (/repo/pydarnio/borealis/base_format.py:1417-1429). -/
def writeArrays (h : H5Cfg) (comp : Option PyStr) (fmt : Format) (f : H5) (r : Rec) :
    Except Err Unit × H5 :=
  match writeFields h comp fmt.arraySingleTypes f.groups.keys f.root r with
  | (res, g) => (res, { f with root := g })

end Verif.Bor
