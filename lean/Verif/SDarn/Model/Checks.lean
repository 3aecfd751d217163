import Verif.SDarn.Model.Formats
/-!
# `SDarnUtilities`: the SuperDARN field checks

Model of /repo/pydarnio/dmap/superdarn.py:49-248 and of the table lists used by the
read and write methods.  A Python `set` of field names is a list without
repetitions; its order carries no meaning and no property depends on it.
-/
namespace Verif.SD

/-- `dict_key_diff(dict1, dict2)` (/repo/pydarnio/dmap/superdarn.py:79-101). -/
def keyDiff {α β : Type} (d1 : Dict PyStr α) (d2 : Dict PyStr β) : List PyStr :=
  d1.keys.filter fun k => k ∉ d2.keys

/-- `set.union`. -/
def setUnion (s t : List PyStr) : List PyStr := s ++ t.filter fun k => k ∉ s

/-- `dict_list2set(dict_list)` (/repo/pydarnio/dmap/superdarn.py:106-131).  (`set.union()` of
an empty list raises `TypeError`; the methods never pass an empty list.) -/
def dictList2set : List Table → List PyStr
  | [] => []
  | g :: gs => setUnion g.keys (dictList2set gs)

/-- `dict1 == dict2` for two tables: same keys with the same values, in any order. -/
def tableEq (a b : Table) : Bool :=
  a.length = b.length && a.all fun p => b.get? p.1 = some p.2

/-- `file_struct in optional_list`. -/
def inTables (g : Table) (l : List Table) : Bool := l.any fun o => tableEq g o

/-- The loop of `missing_field_check` (/repo/pydarnio/dmap/superdarn.py:171-181): the set of
missing fields collected so far is `acc`. -/
def missingFields (opt : List Table) (r : Rec) : List PyStr → List Table → List PyStr
  | acc, [] => acc
  | acc, g :: gs =>
    if inTables g opt then missingFields opt r acc gs
    else
      let diff := keyDiff g r
      if diff.length ≠ 0 ∧ diff.length ≠ g.length then
        missingFields opt r (setUnion acc diff) gs
      else missingFields opt r acc gs

/-- `missing_field_check` (/repo/pydarnio/dmap/superdarn.py:133-185). -/
def missingFieldCheck (gs : List Table) (r : Rec) (rn : Nat) (opt : List Table) : Except Err Unit :=
  let missing := missingFields opt r [] gs
  if missing.length > 0 then .error (.sdFieldMissing rn missing) else .ok ()

/-- `extra_field_check` (/repo/pydarnio/dmap/superdarn.py:187-213). -/
def extraFieldCheck (gs : List Table) (r : Rec) (rn : Nat) : Except Err Unit :=
  let extra := r.keys.filter fun k => k ∉ dictList2set gs
  if extra.length > 0 then .error (.sdExtraField rn extra) else .ok ()

/-- `complete_dict` (/repo/pydarnio/dmap/superdarn.py:239-241). -/
def completeDict (gs : List Table) : Table :=
  gs.foldl (fun d g => g.foldl (fun d p => d.set p.1 p.2) d) []

/-- The dictionary comprehension of `incorrect_types_check`
(/repo/pydarnio/dmap/superdarn.py:242-245).  A value without the attribute
`data_type_fmt` raises `AttributeError`, a name without entry `KeyError`. -/
def incorrectTypes (complete : Table) : Rec → Except Err (List (PyStr × Fmt))
  | [] => .ok []
  | (k, f) :: r =>
    match f.fmt? with
    | none => .error .attributeError
    | some fm =>
      match complete.get? k with
      | none => .error .keyError
      | some t =>
        match incorrectTypes complete r with
        | .error e => .error e
        | .ok l => .ok (if fm ≠ t then (k, t) :: l else l)

/-- `incorrect_types_check` (/repo/pydarnio/dmap/superdarn.py:218-248). -/
def incorrectTypesCheck (gs : List Table) (r : Rec) (rn : Nat) : Except Err Unit :=
  match incorrectTypes (completeDict gs) r with
  | .error e => .error e
  | .ok l => if l.length > 0 then .error (.sdDataFormatType l rn) else .ok ()

/-- The checks of `_read_darn_record` in their order (/repo/pydarnio/dmap/superdarn.py:366-370). -/
def readCheck (gs opt : List Table) (rn : Nat) (r : Rec) : Except Err Unit := do
  missingFieldCheck gs r rn opt
  extraFieldCheck gs r rn
  incorrectTypesCheck gs r rn

/-- The checks of `superDARN_file_structure_to_bytes` in their order
(/repo/pydarnio/dmap/superdarn.py:893-898). -/
def writeCheck (gs opt : List Table) (rn : Nat) (r : Rec) : Except Err Unit := do
  extraFieldCheck gs r rn
  missingFieldCheck gs r rn opt
  incorrectTypesCheck gs r rn

/-- The SuperDARN file types. -/
inductive FileType
  | iqdat | rawacf | fitacf | snd | grid | map
  deriving DecidableEq, Repr

/-- `file_struct_list` of the read methods: `read_iqdat`
(/repo/pydarnio/dmap/superdarn.py:425), `read_rawacf` (441-445), `read_fitacf` (466-471),
`read_snd` (488-491), `read_grid` (511-513), `read_map` (535-540). -/
def readGroups : FileType → List Table
  | .iqdat => [Iqdat.types]
  | .rawacf => [Rawacf.types, Rawacf.correlationField, Rawacf.crossCorrelationField,
      Rawacf.digitizingField, Rawacf.fittexField]
  | .fitacf => [Fitacf.types, Fitacf.optionalFields, Fitacf.fittedFields, Fitacf.xcfFields,
      Fitacf.xcfFieldsFitacf3, Fitacf.xcfFieldsFitacf2]
  | .snd => [Snd.types, Snd.optionalFields, Snd.fittedFields, Snd.xcfFields]
  | .grid => [Grid.types, Grid.fittedFields, Grid.extraFields]
  | .map => [Map.types, Map.partialFields, Map.extraFields, Map.fitFields, Map.hmbFields,
      Map.modelFields]

/-- `optional_list` of the read methods (/repo/pydarnio/dmap/superdarn.py:472, 492; the other
methods pass none, 393-394). -/
def readOptional : FileType → List Table
  | .fitacf => [Fitacf.optionalFields]
  | .snd => [Snd.optionalFields]
  | _ => []

/-- `file_struct_list` of the write methods: `write_iqdat`
(/repo/pydarnio/dmap/superdarn.py:640), `write_rawacf` (673-677), `write_fitacf` (715-721),
`write_snd` (755-759), `write_grid` (797-799), `write_map` (840-845). -/
def writeGroups : FileType → List Table
  | .iqdat => [Iqdat.types]
  | .rawacf => [Rawacf.types, Rawacf.correlationField, Rawacf.crossCorrelationField,
      Rawacf.digitizingField, Rawacf.fittexField]
  | .fitacf => [Fitacf.types, Fitacf.optionalFields, Fitacf.fittedFields, Fitacf.xcfFields,
      Fitacf.xcfFieldsFitacf3, Fitacf.xcfFieldsFitacf2]
  | .snd => [Snd.types, Snd.optionalFields, Snd.fittedFields, Snd.xcfFields]
  | .grid => [Grid.types, Grid.fittedFields, Grid.extraFields]
  | .map => [Map.types, Map.extraFields, Map.partialFields, Map.fitFields, Map.modelFields,
      Map.hmbFields]

/-- `optional_list` of the write methods (/repo/pydarnio/dmap/superdarn.py:641, 678, 722, 760,
800, 846). -/
def writeOptional : FileType → List Table
  | .iqdat => [Iqdat.optionalFields]
  | .rawacf => [Rawacf.optionalFields]
  | .fitacf => [Fitacf.optionalFields]
  | .snd => [Snd.optionalFields]
  | .grid => [Grid.optionalFields]
  | .map => [Map.optionalFields]

end Verif.SD
