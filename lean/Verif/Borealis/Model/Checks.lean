import Verif.Borealis.Model.Values
/-!
# `BorealisUtilities`: the field checks

Model of /repo/pydarnio/borealis/borealis_utilities.py:43-514, 619-640.  A Python `set` of field
names is a list without repetitions; its order carries no meaning and no property depends on it.
Iteration over a dictionary is in insertion order; `sorted` only affects the order of messages.
-/
namespace Verif.Bor

/-- `set_diff(dict1, dict2)` (/repo/pydarnio/borealis/borealis_utilities.py:82-103) of the keys
of two dictionaries. -/
def setDiff {α β : Type} (d1 : Dict PyStr α) (d2 : Dict PyStr β) : List PyStr :=
  d1.keys.filter fun k => k ∉ d2.keys

/-- `set.union`. -/
def setUnion (s t : List PyStr) : List PyStr := s ++ t.filter fun k => k ∉ s

/-- `missing_field_check` (/repo/pydarnio/borealis/borealis_utilities.py:131-191) with the list
`[attribute_types, dataset_types]`, the only one it is called with. -/
def missingFieldCheck (attrs dsets : TyTable) (r : Rec) : Except Err Unit :=
  let missing := setUnion (setDiff attrs r) (setDiff dsets r)
  if missing.length = attrs.length + dsets.length then .error .structure
  else if missing.length > 0 then .error (.fieldMissing missing)
  else .ok ()

/-- `extra_field_check` (/repo/pydarnio/borealis/borealis_utilities.py:197-230). -/
def extraFieldCheck (attrs dsets : TyTable) (r : Rec) : Except Err Unit :=
  let extra := r.keys.filter fun k => k ∉ setUnion attrs.keys dsets.keys
  if extra.length > 0 then .error (.extraField extra) else .ok ()

/-- The comprehension over the attributes
(/repo/pydarnio/borealis/borealis_utilities.py:262-266, 322-326): the attributes whose type is
not the listed one.  Their `shape` is evaluated, so a Python object raises `AttributeError`. -/
def wrongAttrs (r : Rec) : TyTable → Except Err (List (PyStr × Ty))
  | [] => .ok []
  | (k, t) :: l => do
    let v ← field r k
    if v.hasType t then wrongAttrs r l
    else
      let _ ← v.shape?
      let rest ← wrongAttrs r l
      .ok ((k, t) :: rest)

/-- The comprehension over the datasets of a record
(/repo/pydarnio/borealis/borealis_utilities.py:268-272). -/
def wrongDsets (r : Rec) : TyTable → Except Err (List (PyStr × Ty))
  | [] => .ok []
  | (k, t) :: l => do
    let v ← field r k
    let t' ← v.dtype?
    let rest ← wrongDsets r l
    .ok (if t' ≠ t then (k, t) :: rest else rest)

/-- `record_incorrect_types_check` (/repo/pydarnio/borealis/borealis_utilities.py:235-275). -/
def recordTypesCheck (attrs dsets : TyTable) (r : Rec) : Except Err Unit := do
  let a ← wrongAttrs r attrs
  let d ← wrongDsets r dsets
  if (a ++ d).length > 0 then .error (.dataFormatType (a ++ d)) else .ok ()

/-- The fields of a table whose value is (not) an array
(/repo/pydarnio/borealis/borealis_utilities.py:305-311, 328-332).  The code goes through the
sorted names; only the error raised when two fields are absent could tell, and none is absent
after the missing field check. -/
def anyArr (r : Rec) : TyTable → Except Err (Bool × Bool)
  | [] => .ok (false, true)
  | (k, _) :: l => do
    let v ← field r k
    let p ← anyArr r l
    .ok (v.isArr || p.1, v.isArr && p.2)

/-- The comprehension over the datasets of an array file
(/repo/pydarnio/borealis/borealis_utilities.py:343-348): an array of `np.str_` is never wrong. -/
def wrongArrayDsets (r : Rec) : TyTable → Except Err (List (PyStr × Ty))
  | [] => .ok []
  | (k, t) :: l => do
    let v ← field r k
    let t' ← v.dtype?
    let rest ← wrongArrayDsets r l
    .ok (if t' ≠ t ∧ t' ≠ .npStr then (k, t) :: rest else rest)

/-- The exception for `pulse_phase_offset`
(/repo/pydarnio/borealis/borealis_utilities.py:349-351). -/
def ppoHack (r : Rec) (l : List (PyStr × Ty)) : List (PyStr × Ty) :=
  match Dict.get? r (py! "pulse_phase_offset") with
  | some (.arr a) =>
    if a.ty = .i64 ∧ a.shape = [2] then l.filter fun p => p.1 ≠ py! "pulse_phase_offset" else l
  | some (.np _ _) | some (.py _ _) | none => l

/-- `array_incorrect_types_check` (/repo/pydarnio/borealis/borealis_utilities.py:278-356). -/
def arrayTypesCheck (attrs dsets : TyTable) (r : Rec) : Except Err Unit := do
  let p ← anyArr r attrs
  if p.1 then .error .structure
  else
    let a ← wrongAttrs r attrs
    let q ← anyArr r dsets
    if !q.2 then .error .structure
    else
      let d ← wrongArrayDsets r dsets
      let wrong := ppoHack r (a ++ d)
      if wrong.length > 0 then .error (.dataFormatType wrong) else .ok ()

/-- The shapes of the unshared fields (/repo/pydarnio/borealis/borealis_utilities.py:380-381). -/
def shapesOf (r : Rec) : List PyStr → Except Err (List (PyStr × List Nat))
  | [] => .ok []
  | k :: ks => do
    let v ← field r k
    let s ← v.shape?
    let rest ← shapesOf r ks
    .ok ((k, s) :: rest)

/-- `array_num_records_check` (/repo/pydarnio/borealis/borealis_utilities.py:359-395).  An
`IndexError` (a field without dimensions) gives the same exception. -/
def numRecordsCheck (unshared : List PyStr) (r : Rec) : Except Err Unit := do
  let shapes ← shapesOf r unshared
  match shapes with
  | [] => .ok ()
  | (_, s) :: _ =>
    if shapes.all fun p => p.2.head? == s.head? && p.2.head?.isSome then .ok ()
    else .error (.numberOfRecords shapes)

/-- `check_arrays` (/repo/pydarnio/borealis/borealis_utilities.py:398-446). -/
def checkArrays (attrs dsets : TyTable) (unshared : List PyStr) (r : Rec) : Except Err Unit := do
  missingFieldCheck attrs dsets r
  extraFieldCheck attrs dsets r
  arrayTypesCheck attrs dsets r
  numRecordsCheck unshared r

/-- The three checks of one record (/repo/pydarnio/borealis/borealis_utilities.py:496-502). -/
def checkRecord (attrs dsets : TyTable) (r : Rec) : Except Err Unit := do
  missingFieldCheck attrs dsets r
  extraFieldCheck attrs dsets r
  recordTypesCheck attrs dsets r

/-- What `check_records` collects (/repo/pydarnio/borealis/borealis_utilities.py:491-493). -/
structure Bad where
  missing : List (PyStr × List PyStr)
  extra : List (PyStr × List PyStr)
  types : List (PyStr × List (PyStr × Ty))
  deriving DecidableEq, Repr

/-- The loop of `check_records` (/repo/pydarnio/borealis/borealis_utilities.py:494-511): three
exceptions are collected, every other one ends the loop. -/
def collectBad (attrs dsets : TyTable) : Records → Except Err Bad
  | [] => .ok ⟨[], [], []⟩
  | (n, r) :: rs =>
    match checkRecord attrs dsets r with
    | .ok () => collectBad attrs dsets rs
    | .error (.fieldMissing fs) => do
      let b ← collectBad attrs dsets rs
      .ok { b with missing := (n, fs) :: b.missing }
    | .error (.extraField fs) => do
      let b ← collectBad attrs dsets rs
      .ok { b with extra := (n, fs) :: b.extra }
    | .error (.dataFormatType fs) => do
      let b ← collectBad attrs dsets rs
      .ok { b with types := (n, fs) :: b.types }
    | .error e => .error e

/-- `check_records` (/repo/pydarnio/borealis/borealis_utilities.py:449-514). -/
def checkRecords (attrs dsets : TyTable) (rs : Records) : Except Err Unit := do
  let b ← collectBad attrs dsets rs
  if b.missing = [] ∧ b.extra = [] ∧ b.types = [] then .ok ()
  else .error (.badRecords b.missing b.extra b.types)

/-- `np.zeros(shape, dtype=np.float32)`. -/
def zerosF32 (shape : List Nat) : Val := .arr ⟨.f32, shape, List.replicate (prod shape) (.flt 0)⟩

/-- `pulse_phase_offset_array_fix` (/repo/pydarnio/borealis/borealis_utilities.py:620-628).  An
`IndexError` comes from `num_sequences` without dimensions. -/
def ppoArrayFix (r : Rec) : Except Err Rec :=
  match Dict.get? r (py! "pulse_phase_offset") with
  | none => .ok r
  | some ppo => do
    let s ← ppo.shape?
    if s = [2] then
      let ns ← field r (py! "num_sequences")
      match ← ns.shape? with
      | [] => .error .indexError
      | n :: _ => .ok (r.set (py! "pulse_phase_offset") (zerosF32 [n, 0]))
    else .ok r

/-- The body of the loop of `pulse_phase_offset_site_fix`
(/repo/pydarnio/borealis/borealis_utilities.py:636-640). -/
def ppoSiteFix1 (r : Rec) : Except Err Rec :=
  match Dict.get? r (py! "pulse_phase_offset") with
  | none => .ok r
  | some ppo => do
    let s ← ppo.shape?
    let p ← field r (py! "pulses")
    let ps ← p.shape?
    if s ≠ ps then .ok (r.set (py! "pulse_phase_offset") (zerosF32 ps)) else .ok r

/-- `pulse_phase_offset_site_fix` (/repo/pydarnio/borealis/borealis_utilities.py:631-640). -/
def ppoSiteFix : Records → Except Err Records
  | [] => .ok []
  | (n, r) :: rs => do
    let r' ← ppoSiteFix1 r
    let rs' ← ppoSiteFix rs
    .ok ((n, r') :: rs')

end Verif.Bor
