import Verif.Borealis.Model.ConvertObject
import Verif.Dmap.Model.Texts
/-!
# Texts and names of the Borealis objects

The readers of the model do not hold the name of the file, so it is an argument here.
-/
namespace Verif.Bor

/-- The property `record_names` of `BorealisRead` (/repo/pydarnio/borealis/borealis.py:171-178,
borealis_site.py:168-175, borealis_array.py:156-163). -/
def Handler.recordNames (tkey : Elt → Except Err PyStr) (x : Handler) : Except Err (List PyStr) :=
  match x with
  | .site r => .ok r.names
  | .array r => do .ok (sortStrs (← recordsOf tkey (formatOf r.version r.ftype) r.content).keys)

/-- `BorealisSiteRead.__str__` (/repo/pydarnio/borealis/borealis_site.py:160-166). -/
def siteReadStr (filename : PyStr) (r : Reader Records) : PyStr :=
  py! "Reading from " ++ filename ++ py! " a total number of records: " ++ decText r.content.keys.length

/-- The classes with texts. -/
inductive Cls
  | read | write | siteRead | siteWrite | arrayRead | arrayWrite | restructure | convert
  deriving DecidableEq, Repr

/-- All of them. -/
def Cls.all : List Cls := [.read, .write, .siteRead, .siteWrite, .arrayRead, .arrayWrite, .restructure, .convert]

/-- The attributes and properties of an object after the constructor
(/repo/pydarnio/borealis/borealis.py:115-213, 341-445, borealis_site.py:109-232, 347-458, borealis_array.py:108-217, 320-426,
borealis_restructure.py:106-166, borealis_convert.py:199-297); methods are left out. -/
def Cls.attributes : Cls → List PyStr
  | .read => [py! "filename", py! "borealis_filetype", py! "_reader", py! "_borealis_file_structure",
      py! "borealis_file_structure", py! "record_names", py! "records", py! "arrays", py! "software_version", py! "format"]
  | .write => [py! "filename", py! "data", py! "borealis_filetype", py! "_writer", py! "_borealis_file_structure",
      py! "borealis_file_structure", py! "compression", py! "record_names", py! "records", py! "arrays",
      py! "software_version", py! "format"]
  | .siteRead => [py! "filename", py! "borealis_filetype", py! "_record_names", py! "_borealis_version", py! "_format",
      py! "_records", py! "record_names", py! "records", py! "arrays", py! "software_version", py! "format"]
  | .siteWrite => [py! "_records", py! "borealis_filetype", py! "filename", py! "compression", py! "_record_names",
      py! "_borealis_version", py! "_format", py! "record_names", py! "records", py! "arrays", py! "software_version",
      py! "format"]
  | .arrayRead => [py! "filename", py! "borealis_filetype", py! "_borealis_version", py! "_format", py! "_arrays",
      py! "record_names", py! "records", py! "arrays", py! "software_version", py! "format"]
  | .arrayWrite => [py! "filename", py! "_arrays", py! "borealis_filetype", py! "_borealis_version", py! "_format",
      py! "compression", py! "record_names", py! "records", py! "arrays", py! "software_version", py! "format"]
  | .restructure => [py! "infile_name", py! "outfile_name", py! "compression", py! "borealis_filetype",
      py! "outfile_structure", py! "record_names", py! "borealis_structure", py! "_borealis_version", py! "_format",
      py! "software_version", py! "format"]
  | .convert => [py! "filename", py! "borealis_filetype", py! "_reader", py! "_borealis_file_structure",
      py! "borealis_file_structure", py! "record_names", py! "records", py! "arrays", py! "software_version", py! "format",
      py! "borealis_records", py! "sdarn_filename", py! "borealis_filename", py! "_borealis_slice_id",
      py! "_sdarn_dmap_records", py! "_sdarn_dict", py! "_scaling_factor", py! "_sdarn_filetype", py! "sdarn_dmap_records",
      py! "sdarn_dict", py! "sdarn_filetype", py! "borealis_slice_id", py! "scaling_factor"]

/-- The attributes that `__repr__` takes, in this order (/repo/pydarnio/borealis/borealis.py:148-156, 367-373,
borealis_site.py:151-158, 381-386, borealis_array.py:140-148, 349-355, borealis_restructure.py:135-142,
borealis_convert.py:243-250). -/
def Cls.reprNames : Cls → List PyStr
  | .read => [py! "filename", py! "borealis_filetype"]
  | .write => [py! "filename", py! "current_record_name"]
  | .siteRead => [py! "filename"]
  | .siteWrite => [py! "filename"]
  | .arrayRead => [py! "filename", py! "borealis_filetype"]
  | .arrayWrite => [py! "filename", py! "current_record_name"]
  | .restructure => [py! "infile_name", py! "borealis_filetype", py! "outfile_name"]
  | .convert => [py! "records", py! "borealis_filetype", py! "sdarn_filename"]

/-- The attributes that `__str__` takes (/repo/pydarnio/borealis/borealis.py:158-162, 375-381, borealis_site.py:160-166,
388-392, borealis_array.py:150-154, 357-363, borealis_restructure.py:144-151, borealis_convert.py:252-259). -/
def Cls.strNames : Cls → List PyStr
  | .read => [py! "filename"]
  | .write => [py! "filename", py! "current_record_name"]
  | .siteRead => [py! "filename", py! "records"]
  | .siteWrite => [py! "filename"]
  | .arrayRead => [py! "filename"]
  | .arrayWrite => [py! "filename", py! "current_record_name"]
  | .restructure => [py! "infile_name", py! "outfile_structure", py! "outfile_name"]
  | .convert => [py! "borealis_records", py! "borealis_filetype", py! "sdarn_filename"]

/-- Take attributes of an object: their values, for an object that has those of its class. -/
def takeAttributes {α : Type} (c : Cls) (value : PyStr → Except Err α) : List PyStr → Except Err (List α)
  | [] => .ok []
  | n :: ns =>
    if n ∈ c.attributes then do
      let x ← value n
      let xs ← takeAttributes c value ns
      .ok (x :: xs)
    else .error .attributeError

end Verif.Bor
