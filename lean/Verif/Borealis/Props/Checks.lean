import Verif.Borealis.Lemmas.ArrayChecks
import Verif.Borealis.Model.Formats
/-!
# C34, C35: the Borealis field checks
-/
namespace Verif.Bor
open Verif

/-! ## The tables of the formats -/

/-- **C34** The theorems below apply to all formats but rawrf: the tables of site records are well
formed. -/
theorem C34_site_tables (v : Version) (t : FType) (h : t ≠ .rawrf) :
    GoodTables (formatOf v t).siteSingleTypes (formatOf v t).siteArrayTypes := by
  cases v <;> cases t <;> first | exact absurd rfl h | exact ⟨by decide +kernel, by decide +kernel⟩

/-- **C34** The tables of array files are well formed, and every unshared field is an array. -/
theorem C34_array_tables (v : Version) (t : FType) (h : t ≠ .rawrf) :
    GoodTables (formatOf v t).arraySingleTypes (formatOf v t).arrayArrayTypes ∧
    ∀ k ∈ (formatOf v t).unshared, Listed (formatOf v t).arrayArrayTypes k := by
  have h1 : ((formatOf v t).arraySingleTypes.keys ++ (formatOf v t).arrayArrayTypes.keys).Nodup ∧
      ((formatOf v t).arraySingleTypes ≠ [] ∨ (formatOf v t).arrayArrayTypes ≠ []) ∧
      ∀ k ∈ (formatOf v t).unshared, k ∈ (formatOf v t).arrayArrayTypes.keys := by
    cases v <;> cases t <;> first | exact absurd rfl h | decide +kernel
  exact ⟨⟨h1.1, h1.2.1⟩, fun k hk => listed_iff.2 (h1.2.2 k hk)⟩

/-! ## One record -/

/-- **C34** Site records: accepted exactly when no field is missing, none is extra, every
single-element field has its type and every array field is a numpy value of its type.  Missing
from the full claim: a numpy scalar passes for an array (`C34_record_violation`). -/
theorem C34_record_partial (attrs dsets : TyTable) (g : GoodTables attrs dsets) (r : Rec) :
    checkRecord attrs dsets r = .ok () ↔ Conforms (fun _ => IsNumpy) attrs dsets r :=
  checkRecord_ok_iff g r

/-- **C34** Without numpy scalars in the array fields, the check of a record decides conformance. -/
theorem C34_record_arrays_partial (attrs dsets : TyTable) (g : GoodTables attrs dsets) (r : Rec)
    (hn : ∀ k v, Listed dsets k → Holds r k v → ¬ IsNpScalar v) :
    checkRecord attrs dsets r = .ok () ↔ ConformsRecord attrs dsets r := by
  rw [checkRecord_ok_iff g r]
  have key : ∀ k t, Wrong (fun _ => IsNumpy) attrs dsets r k t ↔ Wrong (fun _ => IsArray) attrs dsets r k t := by
    intro k t
    refine or_congr Iff.rfl (and_congr_right fun hm => exists_congr fun v => and_congr_right fun hv => ?_)
    have := hn k v ⟨t, hm⟩ hv
    cases v with
    | py t e => exact Iff.rfl
    | np t e => exact absurd trivial this
    | arr a => exact Iff.rfl
  constructor
  · intro h; exact ⟨h.complete, h.known, fun k t hw => h.typed k t ((key k t).2 hw)⟩
  · intro h; exact ⟨h.complete, h.known, fun k t hw => h.typed k t ((key k t).1 hw)⟩

/-- **C34** Every conforming record is accepted. -/
theorem C34_record_accepts (attrs dsets : TyTable) (g : GoodTables attrs dsets) (r : Rec)
    (h : ConformsRecord attrs dsets r) : checkRecord attrs dsets r = .ok () := by
  rw [checkRecord_ok_iff g r]
  refine ⟨h.complete, h.known, fun k t hw => h.typed k t ?_⟩
  rcases hw with hw | ⟨hm, v, hv, hn⟩
  · exact .inl hw
  · refine .inr ⟨hm, v, hv, fun ha => hn ?_⟩
    cases v with
    | py t e => exact ha.elim
    | np t e => exact ha.elim
    | arr a => exact ha

/-- **C34** The order of the checks of a record: a missing field is reported whatever else is
wrong, and exactly the missing fields are. -/
theorem C34_record_missing (attrs dsets : TyTable) (g : GoodTables attrs dsets) (r : Rec)
    (h : ∃ k, Missing attrs dsets r k) (h' : ¬ HasNothing attrs dsets r) :
    ∃ fs, checkRecord attrs dsets r = .error (.fieldMissing fs) ∧ ∀ k, k ∈ fs ↔ Missing attrs dsets r k := by
  have ho := checkRecord_outcome g r
  generalize checkRecord attrs dsets r = res at ho
  cases ho with
  | nothing h0 => exact absurd h0 h'
  | missing fs _ _ hf => exact ⟨fs, rfl, hf⟩
  | extra fs h0 _ _ => exact absurd h (fun ⟨k, hk⟩ => h0 k hk)
  | next _ h0 _ _ => exact absurd h (fun ⟨k, hk⟩ => h0 k hk)

/-- **C34** With all fields there, an extra field is reported whatever the types are, and exactly
the extra fields are. -/
theorem C34_record_extra (attrs dsets : TyTable) (g : GoodTables attrs dsets) (r : Rec)
    (hm : ∀ k, ¬ Missing attrs dsets r k) (h : ∃ k, Extra attrs dsets r k) :
    ∃ fs, checkRecord attrs dsets r = .error (.extraField fs) ∧ ∀ k, k ∈ fs ↔ Extra attrs dsets r k := by
  have ho := checkRecord_outcome g r
  generalize checkRecord attrs dsets r = res at ho
  cases ho with
  | nothing h0 =>
    rcases g.nonempty with hx | hx
    · obtain ⟨p, hp⟩ := List.exists_mem_of_ne_nil _ hx
      exact absurd ⟨.inl ⟨p.2, hp⟩, h0 p.1 (.inl ⟨p.2, hp⟩)⟩ (hm p.1)
    · obtain ⟨p, hp⟩ := List.exists_mem_of_ne_nil _ hx
      exact absurd ⟨.inr ⟨p.2, hp⟩, h0 p.1 (.inr ⟨p.2, hp⟩)⟩ (hm p.1)
  | missing fs h0 _ _ => exact absurd h0 (fun ⟨k, hk⟩ => hm k hk)
  | extra fs _ _ hf => exact ⟨fs, rfl, hf⟩
  | next _ _ h0 _ => exact absurd h (fun ⟨k, hk⟩ => h0 k hk)

/-- **C34** With exactly the fields there and no mistyped Python object, the wrong types are
reported and exactly those. -/
theorem C34_record_types_partial (attrs dsets : TyTable) (g : GoodTables attrs dsets) (r : Rec)
    (hm : ∀ k, ¬ Missing attrs dsets r k) (he : ∀ k, ¬ Extra attrs dsets r k)
    (hp : ¬ PythonMistyped attrs dsets r) (h : ∃ k t, Wrong (fun _ => IsNumpy) attrs dsets r k t) :
    ∃ fs, checkRecord attrs dsets r = .error (.dataFormatType fs) ∧
      ∀ k t, (k, t) ∈ fs ↔ Wrong (fun _ => IsNumpy) attrs dsets r k t := by
  have ho := checkRecord_outcome g r
  generalize checkRecord attrs dsets r = res at ho
  cases ho with
  | nothing h0 =>
    rcases g.nonempty with hx | hx
    · obtain ⟨p, hp⟩ := List.exists_mem_of_ne_nil _ hx
      exact absurd ⟨.inl ⟨p.2, hp⟩, h0 p.1 (.inl ⟨p.2, hp⟩)⟩ (hm p.1)
    · obtain ⟨p, hp⟩ := List.exists_mem_of_ne_nil _ hx
      exact absurd ⟨.inr ⟨p.2, hp⟩, h0 p.1 (.inr ⟨p.2, hp⟩)⟩ (hm p.1)
  | missing fs h0 _ _ => exact absurd h0 (fun ⟨k, hk⟩ => hm k hk)
  | extra fs _ h0 _ => exact absurd h0 (fun ⟨k, hk⟩ => he k hk)
  | next _ _ _ ht =>
    cases ht with
    | ok h0 => exact absurd h (fun ⟨k, t, hk⟩ => h0 k t hk)
    | python h0 => exact absurd h0 hp
    | types fs _ _ hf => exact ⟨fs, rfl, hf⟩

/-- A record with one element per field, to have something concrete. -/
def sampleRecord (f : Format) : Rec :=
  (f.siteSingleTypes.map fun p => (p.1, if p.2 = .str then Val.py .str (.str (py! "x")) else .np p.2 (.int 1))) ++
  (f.siteArrayTypes.map fun p => (p.1, Val.arr ⟨p.2, [1], [.int 1]⟩))

/-- An array file of one record with one element per field. -/
def sampleArrays (f : Format) : Rec :=
  (f.arraySingleTypes.map fun p => (p.1, if p.2 = .str then Val.py .str (.str (py! "x")) else .np p.2 (.int 1))) ++
  (f.arrayArrayTypes.map fun p => (p.1, Val.arr ⟨p.2, [1], [.int 1]⟩))

/-- The sample conforms, so the theorems are about something. -/
example : checkRecord Format.rawacf7.siteSingleTypes Format.rawacf7.siteArrayTypes
    (sampleRecord .rawacf7) = .ok () := by decide +kernel

example : Conforms (fun _ => IsNumpy) Format.rawacf7.siteSingleTypes Format.rawacf7.siteArrayTypes
    (sampleRecord .rawacf7) :=
  (C34_record_partial _ _ (C34_site_tables .v07 .rawacf nofun) _).1 (by decide +kernel)

example : checkRecord Format.bfiq6.siteSingleTypes Format.bfiq6.siteArrayTypes
      ((sampleRecord .bfiq6).filter fun p => p.1 ≠ py! "data") =
    .error (.fieldMissing [py! "data"]) := by decide +kernel

example : checkRecord Format.bfiq6.siteSingleTypes Format.bfiq6.siteArrayTypes
      ((py! "dat", .np .u8 (.int 1)) :: sampleRecord .bfiq6) =
    .error (.extraField [py! "dat"]) := by decide +kernel

example : checkRecord Format.bfiq6.siteSingleTypes Format.bfiq6.siteArrayTypes
      (Dict.set (sampleRecord .bfiq6) (py! "int_time") (.np .f64 (.flt 0))) =
    .error (.dataFormatType [(py! "int_time", .f32)]) := by decide +kernel

/-- **C34** violated: a numpy scalar is accepted where the format lists an array. -/
theorem C34_record_violation : ∃ r,
    checkRecord Format.rawacf7.siteSingleTypes Format.rawacf7.siteArrayTypes r = .ok () ∧
    ¬ ConformsRecord Format.rawacf7.siteSingleTypes Format.rawacf7.siteArrayTypes r := by
  refine ⟨Dict.set (sampleRecord .rawacf7) (py! "main_acfs") (.np .c64 (.cpx 0 0)), by decide +kernel, ?_⟩
  intro h
  exact h.typed (py! "main_acfs") .c64
    (.inr ⟨by decide +kernel, .np .c64 (.cpx 0 0), by unfold Holds; decide +kernel, id⟩)

/-- **C34** violated: a Python object of another type in a single-element field raises
`AttributeError` instead of the type error. -/
theorem C34_record_escape_violation : ∃ r,
    (∀ k, ¬ Missing Format.rawacf7.siteSingleTypes Format.rawacf7.siteArrayTypes r k) ∧
    (∀ k, ¬ Extra Format.rawacf7.siteSingleTypes Format.rawacf7.siteArrayTypes r k) ∧
    checkRecord Format.rawacf7.siteSingleTypes Format.rawacf7.siteArrayTypes r = .error .attributeError := by
  refine ⟨Dict.set (sampleRecord .rawacf7) (py! "int_time") (.py .pyFloat (.flt 0)), ?_, ?_, by decide +kernel⟩
  · intro k hk
    have hk := mem_missingSet.2 hk
    have : missingSet Format.rawacf7.siteSingleTypes Format.rawacf7.siteArrayTypes
        (Dict.set (sampleRecord .rawacf7) (py! "int_time") (.py .pyFloat (.flt 0))) = [] := by decide +kernel
    rw [this] at hk
    cases hk
  · intro k hk
    have hk := mem_extraSet.2 hk
    have : extraSet Format.rawacf7.siteSingleTypes Format.rawacf7.siteArrayTypes
        (Dict.set (sampleRecord .rawacf7) (py! "int_time") (.py .pyFloat (.flt 0))) = [] := by decide +kernel
    rw [this] at hk
    cases hk

/-! ## Array files -/

/-- The outcome of `check_arrays`. -/
theorem checkArrays_ok_iff {attrs dsets : TyTable} {unshared : List PyStr} (g : GoodTables attrs dsets)
    (hu : ∀ k ∈ unshared, Listed dsets k) (r : Rec) :
    checkArrays attrs dsets unshared r = .ok () ↔
      Conforms ArrayAccepted attrs dsets r ∧ ∃ n, ∀ k ∈ unshared, ∃ v, Holds r k v ∧ HasRecords n v := by
  have ho := checkArrays_outcome g hu r
  generalize checkArrays attrs dsets unshared r = res at ho
  have hkind : WrongKind attrs dsets r → ¬ Conforms ArrayAccepted attrs dsets r := by
    rintro (⟨k, v, ⟨t, hm⟩, hv, ha⟩ | ⟨k, v, ⟨t, hm⟩, hv, ha⟩) hc
    · refine hc.typed k t (.inl ⟨hm, v, hv, ?_⟩)
      cases v <;> first | exact id | cases ha
    · refine hc.typed k t (.inr ⟨hm, v, hv, ?_⟩)
      cases v <;> first | exact id | exact absurd rfl ha
  cases ho with
  | nothing h =>
    refine ⟨nofun, fun hc => ?_⟩
    rcases g.nonempty with hx | hx
    · obtain ⟨p, hp⟩ := List.exists_mem_of_ne_nil _ hx
      exact absurd ⟨.inl ⟨p.2, hp⟩, h p.1 (.inl ⟨p.2, hp⟩)⟩ (hc.1.complete p.1)
    · obtain ⟨p, hp⟩ := List.exists_mem_of_ne_nil _ hx
      exact absurd ⟨.inr ⟨p.2, hp⟩, h p.1 (.inr ⟨p.2, hp⟩)⟩ (hc.1.complete p.1)
  | missing fs h h' hf => exact ⟨nofun, fun hc => absurd h (fun ⟨k, hk⟩ => hc.1.complete k hk)⟩
  | extra fs h h' hf => exact ⟨nofun, fun hc => absurd h' (fun ⟨k, hk⟩ => hc.1.known k hk)⟩
  | next _ h h' hp =>
    cases hp with
    | arrayAttr hk => exact ⟨nofun, fun hc => absurd hc.1 (hkind (.inl hk))⟩
    | python hpy _ =>
      refine ⟨nofun, fun hc => ?_⟩
      obtain ⟨k, t, v, hm, hv, _, hs⟩ := hpy
      exact absurd (.inl ⟨hm, v, hv, hs⟩) (hc.1.typed k t)
    | scalarDset hk => exact ⟨nofun, fun hc => absurd hc.1 (hkind (.inr hk))⟩
    | types fs _ _ hw _ => exact ⟨nofun, fun hc => absurd hw (fun ⟨k, t, hk⟩ => hc.1.typed k t hk)⟩
    | records shapes _ _ hr => exact ⟨nofun, fun hc => absurd hc.2 hr⟩
    | ok hk hw hr => exact ⟨fun _ => ⟨⟨h, h', hw⟩, hr⟩, fun _ => rfl⟩

/-- **C34** Array files: accepted exactly when no field is missing, none is extra, every
single-element field has its type, every array field is an array of its type, and all unshared
fields have the same number of records.  Missing from the full claim: an array of strings passes
for an array of any type, and `pulse_phase_offset` may be two 64-bit integers
(`C34_arrays_violation`). -/
theorem C34_arrays_partial (attrs dsets : TyTable) (unshared : List PyStr) (g : GoodTables attrs dsets)
    (hu : ∀ k ∈ unshared, Listed dsets k) (r : Rec) :
    checkArrays attrs dsets unshared r = .ok () ↔
      Conforms ArrayAccepted attrs dsets r ∧ ∃ n, ∀ k ∈ unshared, ∃ v, Holds r k v ∧ HasRecords n v :=
  checkArrays_ok_iff g hu r

/-- **C34** Where no array field is an array of strings or of 64-bit integers by mistake, the check
decides conformance. -/
theorem C34_arrays_typed_partial (attrs dsets : TyTable) (unshared : List PyStr)
    (g : GoodTables attrs dsets) (hu : ∀ k ∈ unshared, Listed dsets k) (r : Rec)
    (hs : ∀ k t a, (k, t) ∈ dsets → Holds r k (.arr a) → a.ty = .npStr → t = .npStr)
    (hi : ∀ t a, (py! "pulse_phase_offset", t) ∈ dsets → Holds r (py! "pulse_phase_offset") (.arr a) →
      a.ty = .i64 → t = .i64) :
    checkArrays attrs dsets unshared r = .ok () ↔ ConformsArrays attrs dsets unshared r := by
  rw [checkArrays_ok_iff g hu r]
  have key : ∀ k t, Wrong ArrayAccepted attrs dsets r k t ↔ Wrong (fun _ => IsArray) attrs dsets r k t := by
    intro k t
    refine or_congr Iff.rfl (and_congr_right fun hm => exists_congr fun v => and_congr_right fun hv => not_congr ?_)
    cases v with
    | py t e => exact Iff.rfl
    | np t e => exact Iff.rfl
    | arr a =>
      constructor
      · rintro (h | h | ⟨rfl, h, _⟩)
        · exact h
        · exact h.trans (hs k t a hm hv h).symm
        · exact h.trans (hi t a hm hv h).symm
      · exact .inl
  constructor
  · rintro ⟨h, hr⟩
    exact ⟨⟨h.complete, h.known, fun k t hw => h.typed k t ((key k t).2 hw)⟩, hr⟩
  · intro h
    exact ⟨⟨h.complete, h.known, fun k t hw => h.typed k t ((key k t).1 hw)⟩, h.records⟩

/-- **C34** Every conforming array file is accepted. -/
theorem C34_arrays_accepts (attrs dsets : TyTable) (unshared : List PyStr) (g : GoodTables attrs dsets)
    (hu : ∀ k ∈ unshared, Listed dsets k) (r : Rec) (h : ConformsArrays attrs dsets unshared r) :
    checkArrays attrs dsets unshared r = .ok () := by
  rw [checkArrays_ok_iff g hu r]
  refine ⟨⟨h.complete, h.known, fun k t hw => h.typed k t ?_⟩, h.records⟩
  rcases hw with hw | ⟨hm, v, hv, hn⟩
  · exact .inl hw
  · refine .inr ⟨hm, v, hv, fun ha => hn ?_⟩
    cases v with
    | py t e => exact ha.elim
    | np t e => exact ha.elim
    | arr a => exact .inl ha

/-- **C34** The order of the checks of an array file: missing, extra, scalars and arrays mixed up,
types, number of records; each error only when the checks before found nothing, and it names
exactly the offending fields. -/
theorem C34_arrays_order_partial (attrs dsets : TyTable) (unshared : List PyStr)
    (g : GoodTables attrs dsets) (hu : ∀ k ∈ unshared, Listed dsets k) (r : Rec) :
    (∀ fs, checkArrays attrs dsets unshared r = .error (.fieldMissing fs) →
      (∃ k, Missing attrs dsets r k) ∧ ∀ k, k ∈ fs ↔ Missing attrs dsets r k) ∧
    (∀ fs, checkArrays attrs dsets unshared r = .error (.extraField fs) →
      (∀ k, ¬ Missing attrs dsets r k) ∧ (∃ k, Extra attrs dsets r k) ∧
        ∀ k, k ∈ fs ↔ Extra attrs dsets r k) ∧
    (∀ fs, checkArrays attrs dsets unshared r = .error (.dataFormatType fs) →
      (∀ k, ¬ Missing attrs dsets r k) ∧ (∀ k, ¬ Extra attrs dsets r k) ∧
        ¬ WrongKind attrs dsets r ∧ (∃ k t, Wrong ArrayAccepted attrs dsets r k t) ∧
        ∀ k t, (k, t) ∈ fs ↔ Wrong ArrayAccepted attrs dsets r k t) ∧
    (∀ shapes, checkArrays attrs dsets unshared r = .error (.numberOfRecords shapes) →
      Conforms ArrayAccepted attrs dsets r ∧
        ¬ ∃ n, ∀ k ∈ unshared, ∃ v, Holds r k v ∧ HasRecords n v) ∧
    (checkArrays attrs dsets unshared r = .error .structure →
      HasNothing attrs dsets r ∨
        (∀ k, ¬ Missing attrs dsets r k) ∧ (∀ k, ¬ Extra attrs dsets r k) ∧ WrongKind attrs dsets r) := by
  have ho := checkArrays_outcome g hu r
  generalize checkArrays attrs dsets unshared r = res at ho
  cases ho with
  | nothing h => exact ⟨nofun, nofun, nofun, nofun, fun _ => .inl h⟩
  | missing fs h h' hf =>
    refine ⟨?_, nofun, nofun, nofun, nofun⟩
    rintro _ ⟨⟩
    exact ⟨h, hf⟩
  | extra fs h h' hf =>
    refine ⟨nofun, ?_, nofun, nofun, nofun⟩
    rintro _ ⟨⟩
    exact ⟨h, h', hf⟩
  | next _ h h' hp =>
    cases hp with
    | arrayAttr hk => exact ⟨nofun, nofun, nofun, nofun, fun _ => .inr ⟨h, h', .inl hk⟩⟩
    | python hpy _ => exact ⟨nofun, nofun, nofun, nofun, nofun⟩
    | scalarDset hk => exact ⟨nofun, nofun, nofun, nofun, fun _ => .inr ⟨h, h', .inr hk⟩⟩
    | types fs hk hpy hw hf =>
      refine ⟨nofun, nofun, ?_, nofun, nofun⟩
      rintro _ ⟨⟩
      exact ⟨h, h', hk, hw, hf⟩
    | records shapes hk hw hr =>
      refine ⟨nofun, nofun, nofun, ?_, nofun⟩
      rintro _ ⟨⟩
      exact ⟨⟨h, h', hw⟩, hr⟩
    | ok hk hw hr => exact ⟨nofun, nofun, nofun, nofun, nofun⟩

example : checkArrays Format.rawacf7.arraySingleTypes Format.rawacf7.arrayArrayTypes
    Format.rawacf7.unshared (sampleArrays .rawacf7) = .ok () := by decide +kernel

example : checkArrays Format.rawacf7.arraySingleTypes Format.rawacf7.arrayArrayTypes
      Format.rawacf7.unshared
      (Dict.set (sampleArrays .rawacf7) (py! "xcfs") (.arr ⟨.c64, [2], [.cpx 0 0, .cpx 0 0]⟩)) ≠ .ok () := by
  decide +kernel

example : checkArrays Format.rawacf7.arraySingleTypes Format.rawacf7.arrayArrayTypes
      Format.rawacf7.unshared
      (Dict.set (sampleArrays .rawacf7) (py! "xcfs") (.arr ⟨.f32, [1], [.flt 0]⟩)) =
    .error (.dataFormatType [(py! "xcfs", .c64)]) := by decide +kernel

example : checkArrays Format.rawacf7.arraySingleTypes Format.rawacf7.arrayArrayTypes
      Format.rawacf7.unshared (Dict.set (sampleArrays .rawacf7) (py! "xcfs") (.np .c64 (.cpx 0 0))) =
    .error .structure := by decide +kernel

/-- **C34** violated: an array of strings is accepted as the correlations. -/
theorem C34_arrays_violation : ∃ r,
    checkArrays Format.rawacf7.arraySingleTypes Format.rawacf7.arrayArrayTypes
      Format.rawacf7.unshared r = .ok () ∧
    ¬ ConformsArrays Format.rawacf7.arraySingleTypes Format.rawacf7.arrayArrayTypes
      Format.rawacf7.unshared r := by
  refine ⟨Dict.set (sampleArrays .rawacf7) (py! "main_acfs") (.arr ⟨.npStr, [1], [.str (py! "x")]⟩),
    by decide +kernel, ?_⟩
  intro h
  exact h.typed (py! "main_acfs") .c64
    (.inr ⟨by decide +kernel, .arr ⟨.npStr, [1], [.str (py! "x")]⟩, by unfold Holds; decide +kernel,
      fun h => nomatch h⟩)

/-- **C34** violated: `pulse_phase_offset` of two 64-bit integers is accepted. -/
theorem C34_arrays_ppo_violation : ∃ r,
    checkArrays Format.bfiq5.arraySingleTypes Format.bfiq5.arrayArrayTypes
      Format.bfiq5.unshared r = .ok () ∧
    ¬ ConformsArrays Format.bfiq5.arraySingleTypes Format.bfiq5.arrayArrayTypes
      Format.bfiq5.unshared r := by
  refine ⟨Dict.set (sampleArrays .bfiq5) (py! "pulse_phase_offset") (.arr ⟨.i64, [2], [.int 0, .int 0]⟩),
    by decide +kernel, ?_⟩
  intro h
  exact h.typed (py! "pulse_phase_offset") .f32
    (.inr ⟨by decide +kernel, .arr ⟨.i64, [2], [.int 0, .int 0]⟩, by unfold Holds; decide +kernel,
      fun h => nomatch h⟩)

/-! ## All records of a file -/

/-- Which exceptions of `checkRecord` escape. -/
theorem checkRecord_collected {attrs dsets : TyTable} (g : GoodTables attrs dsets) (r : Rec) :
    (∀ e, checkRecord attrs dsets r = .error e → Collected e = false → Escapes attrs dsets r) ∧
    (Escapes attrs dsets r → HasNothing attrs dsets r ∧ checkRecord attrs dsets r = .error .structure ∨
      PythonMistyped attrs dsets r ∧ checkRecord attrs dsets r = .error .attributeError) := by
  have ho := checkRecord_outcome g r
  have hnot : HasNothing attrs dsets r → ∃ k, Missing attrs dsets r k := by
    intro h
    rcases g.nonempty with hx | hx
    · obtain ⟨p, hp⟩ := List.exists_mem_of_ne_nil _ hx
      exact ⟨p.1, .inl ⟨p.2, hp⟩, h p.1 (.inl ⟨p.2, hp⟩)⟩
    · obtain ⟨p, hp⟩ := List.exists_mem_of_ne_nil _ hx
      exact ⟨p.1, .inr ⟨p.2, hp⟩, h p.1 (.inr ⟨p.2, hp⟩)⟩
  generalize checkRecord attrs dsets r = res at ho
  cases ho with
  | nothing h => exact ⟨fun e _ _ => .inl h, fun _ => .inl ⟨h, rfl⟩⟩
  | missing fs h h' hf =>
    refine ⟨?_, ?_⟩
    · rintro _ ⟨⟩ h0; cases h0
    · rintro (h0 | ⟨h0, _⟩)
      · obtain ⟨k, hk, hv⟩ := h'; exact absurd hv (h0 k hk)
      · exact absurd h (fun ⟨k, hk⟩ => h0 k hk)
  | extra fs h h' hf =>
    refine ⟨?_, ?_⟩
    · rintro _ ⟨⟩ h0; cases h0
    · rintro (h0 | ⟨_, h0, _⟩)
      · exact absurd (hnot h0) (fun ⟨k, hk⟩ => h k hk)
      · exact absurd h' (fun ⟨k, hk⟩ => h0 k hk)
  | next _ h h' hp =>
    cases hp with
    | ok hw =>
      refine ⟨nofun, ?_⟩
      rintro (h0 | ⟨_, _, h0⟩)
      · exact absurd (hnot h0) (fun ⟨k, hk⟩ => h k hk)
      · exfalso
        rcases h0 with ⟨k, t, v, h1, h2, _, h3⟩ | ⟨k, v, ⟨t, h1⟩, h2, h3⟩
        · exact hw k t (.inl ⟨h1, v, h2, h3⟩)
        · refine hw k t (.inr ⟨h1, v, h2, ?_⟩)
          cases v with
          | py t' e => exact id
          | np t' e => cases h3
          | arr a => cases h3
    | python hpy => exact ⟨fun e _ _ => .inr ⟨h, h', hpy⟩, fun _ => .inr ⟨hpy, rfl⟩⟩
    | types fs hp hw hf =>
      refine ⟨?_, ?_⟩
      · rintro _ ⟨⟩ h0; cases h0
      · rintro (h0 | ⟨_, _, h0⟩)
        · exact absurd (hnot h0) (fun ⟨k, hk⟩ => h k hk)
        · exact absurd h0 hp

/-- **C35** The check of a file succeeds exactly when every record conforms (with numpy scalars
standing for arrays, see C34). -/
theorem C35_accepts_partial (attrs dsets : TyTable) (g : GoodTables attrs dsets) (rs : Records) :
    checkRecords attrs dsets rs = .ok () ↔
      ∀ n r, (n, r) ∈ rs → Conforms (fun _ => IsNumpy) attrs dsets r := by
  constructor
  · intro h
    rcases exists_first (fun p : PyStr × Rec => ∃ e, checkRecord attrs dsets p.2 = .error e ∧ Collected e = false) rs
      with hno | ⟨pre, ⟨n, r⟩, post, rfl, hpre, e, he, hc⟩
    · have hno' : ∀ n r e, (n, r) ∈ rs → checkRecord attrs dsets r = .error e → Collected e = true := by
        intro n r e hm he
        cases hc : Collected e with
        | true => rfl
        | false => exact absurd ⟨e, he, hc⟩ (hno (n, r) hm)
      obtain ⟨b, hb, h1, h2, h3⟩ := collectBad_ok hno'
      intro n r hm
      rw [← checkRecord_ok_iff g r]
      cases hcr : checkRecord attrs dsets r with
      | ok u => rfl
      | error e =>
        exfalso
        unfold checkRecords at h
        rw [hb] at h
        simp only [bind, Except.bind] at h
        have hcoll := hno' n r e hm hcr
        split at h
        · rename_i hempty
          obtain ⟨e1, e2, e3⟩ := hempty
          cases e <;> simp only [Collected] at hcoll <;> try cases hcoll
          · rename_i fs
            have := (h1 n fs).2 ⟨r, hm, hcr⟩
            rw [e1] at this; cases this
          · rename_i fs
            have := (h2 n fs).2 ⟨r, hm, hcr⟩
            rw [e2] at this; cases this
          · rename_i fs
            have := (h3 n fs).2 ⟨r, hm, hcr⟩
            rw [e3] at this; cases this
        · cases h
    · exfalso
      unfold checkRecords at h
      rw [collectBad_escapes (fun n r e hm he => by
        cases hc' : Collected e with
        | true => rfl
        | false => exact absurd ⟨e, he, hc'⟩ (hpre (n, r) hm)) he hc] at h
      cases h
  · intro h
    have hno' : ∀ n r e, (n, r) ∈ rs → checkRecord attrs dsets r = .error e → Collected e = true := by
      intro n r e hm he
      rw [(checkRecord_ok_iff g r).2 (h n r hm)] at he
      cases he
    obtain ⟨b, hb, h1, h2, h3⟩ := collectBad_ok hno'
    have none : ∀ n r e, (n, r) ∈ rs → checkRecord attrs dsets r ≠ .error e := by
      intro n r e hm he
      rw [(checkRecord_ok_iff g r).2 (h n r hm)] at he
      cases he
    unfold checkRecords
    rw [hb]
    simp only [bind, Except.bind]
    rw [if_pos]
    refine ⟨?_, ?_, ?_⟩
    · exact List.eq_nil_iff_forall_not_mem.2 fun ⟨n, fs⟩ hm => by
        obtain ⟨r, hm, he⟩ := (h1 n fs).1 hm; exact none n r _ hm he
    · exact List.eq_nil_iff_forall_not_mem.2 fun ⟨n, fs⟩ hm => by
        obtain ⟨r, hm, he⟩ := (h2 n fs).1 hm; exact none n r _ hm he
    · exact List.eq_nil_iff_forall_not_mem.2 fun ⟨n, fs⟩ hm => by
        obtain ⟨r, hm, he⟩ := (h3 n fs).1 hm; exact none n r _ hm he

/-- **C35** If some record does not conform and no exception escapes, the error lists exactly the
records that fail, each with its first kind of defect and the offending fields.  Missing from the
full claim: records on which an exception escapes (`C35_escape_partial`). -/
theorem C35_reports_partial (attrs dsets : TyTable) (g : GoodTables attrs dsets) (rs : Records)
    (hesc : ∀ n r, (n, r) ∈ rs → ¬ Escapes attrs dsets r)
    (hbad : ∃ n r, (n, r) ∈ rs ∧ ¬ Conforms (fun _ => IsNumpy) attrs dsets r) :
    ∃ m e t, checkRecords attrs dsets rs = .error (.badRecords m e t) ∧
      (∀ n, (∃ fs, (n, fs) ∈ m) ↔ ∃ r, (n, r) ∈ rs ∧ ∃ k, Missing attrs dsets r k) ∧
      (∀ n fs, (n, fs) ∈ m → ∃ r, (n, r) ∈ rs ∧ ∀ k, k ∈ fs ↔ Missing attrs dsets r k) ∧
      (∀ n, (∃ fs, (n, fs) ∈ e) ↔ ∃ r, (n, r) ∈ rs ∧ (∀ k, ¬ Missing attrs dsets r k) ∧
        ∃ k, Extra attrs dsets r k) ∧
      (∀ n fs, (n, fs) ∈ e → ∃ r, (n, r) ∈ rs ∧ ∀ k, k ∈ fs ↔ Extra attrs dsets r k) ∧
      (∀ n, (∃ fs, (n, fs) ∈ t) ↔ ∃ r, (n, r) ∈ rs ∧ (∀ k, ¬ Missing attrs dsets r k) ∧
        (∀ k, ¬ Extra attrs dsets r k) ∧ ∃ k ty, Wrong (fun _ => IsNumpy) attrs dsets r k ty) ∧
      (∀ n fs, (n, fs) ∈ t → ∃ r, (n, r) ∈ rs ∧
        ∀ k ty, (k, ty) ∈ fs ↔ Wrong (fun _ => IsNumpy) attrs dsets r k ty) := by
  have hno' : ∀ n r e, (n, r) ∈ rs → checkRecord attrs dsets r = .error e → Collected e = true := by
    intro n r e hm he
    cases hc : Collected e with
    | true => rfl
    | false => exact absurd ((checkRecord_collected g r).1 e he hc) (hesc n r hm)
  obtain ⟨b, hb, h1, h2, h3⟩ := collectBad_ok hno'
  have hres : checkRecords attrs dsets rs = .error (.badRecords b.missing b.extra b.types) := by
    have hne : checkRecords attrs dsets rs ≠ .ok () := by
      rw [Ne, C35_accepts_partial attrs dsets g rs]
      obtain ⟨n, r, hm, hn⟩ := hbad
      exact fun h => hn (h n r hm)
    unfold checkRecords at hne ⊢
    rw [hb] at hne ⊢
    simp only [bind, Except.bind] at hne ⊢
    split at hne
    · exact absurd rfl hne
    · rw [if_neg (by assumption)]
  -- what each kind of error says about the record
  have hM : ∀ r fs, checkRecord attrs dsets r = .error (.fieldMissing fs) →
      (∃ k, Missing attrs dsets r k) ∧ ∀ k, k ∈ fs ↔ Missing attrs dsets r k := by
    intro r fs he
    have ho := checkRecord_outcome g r
    rw [he] at ho
    cases ho with
    | missing _ h _ hf => exact ⟨h, hf⟩
    | next _ _ _ hp => cases hp
  have hE : ∀ r fs, checkRecord attrs dsets r = .error (.extraField fs) →
      ((∀ k, ¬ Missing attrs dsets r k) ∧ ∃ k, Extra attrs dsets r k) ∧ ∀ k, k ∈ fs ↔ Extra attrs dsets r k := by
    intro r fs he
    have ho := checkRecord_outcome g r
    rw [he] at ho
    cases ho with
    | extra _ h h' hf => exact ⟨⟨h, h'⟩, hf⟩
    | next _ _ _ hp => cases hp
  have hT : ∀ r fs, checkRecord attrs dsets r = .error (.dataFormatType fs) →
      ((∀ k, ¬ Missing attrs dsets r k) ∧ (∀ k, ¬ Extra attrs dsets r k) ∧
        ∃ k ty, Wrong (fun _ => IsNumpy) attrs dsets r k ty) ∧
      ∀ k ty, (k, ty) ∈ fs ↔ Wrong (fun _ => IsNumpy) attrs dsets r k ty := by
    intro r fs he
    have ho := checkRecord_outcome g r
    rw [he] at ho
    cases ho with
    | next _ h h' hp =>
      cases hp with
      | types _ _ hw hf => exact ⟨⟨h, h', hw⟩, hf⟩
  refine ⟨b.missing, b.extra, b.types, hres, ?_, ?_, ?_, ?_, ?_, ?_⟩
  · intro n
    constructor
    · rintro ⟨fs, hm⟩
      obtain ⟨r, hm, he⟩ := (h1 n fs).1 hm
      exact ⟨r, hm, (hM r fs he).1⟩
    · rintro ⟨r, hm, hk⟩
      obtain ⟨fs, he, _⟩ := C34_record_missing attrs dsets g r hk fun h0 => hesc n r hm (.inl h0)
      exact ⟨fs, (h1 n fs).2 ⟨r, hm, he⟩⟩
  · intro n fs hm
    obtain ⟨r, hm, he⟩ := (h1 n fs).1 hm
    exact ⟨r, hm, (hM r fs he).2⟩
  · intro n
    constructor
    · rintro ⟨fs, hm⟩
      obtain ⟨r, hm, he⟩ := (h2 n fs).1 hm
      exact ⟨r, hm, (hE r fs he).1⟩
    · rintro ⟨r, hm, hk, hx⟩
      obtain ⟨fs, he, _⟩ := C34_record_extra attrs dsets g r hk hx
      exact ⟨fs, (h2 n fs).2 ⟨r, hm, he⟩⟩
  · intro n fs hm
    obtain ⟨r, hm, he⟩ := (h2 n fs).1 hm
    exact ⟨r, hm, (hE r fs he).2⟩
  · intro n
    constructor
    · rintro ⟨fs, hm⟩
      obtain ⟨r, hm, he⟩ := (h3 n fs).1 hm
      exact ⟨r, hm, (hT r fs he).1⟩
    · rintro ⟨r, hm, hk, hx, hw⟩
      obtain ⟨fs, he, _⟩ := C34_record_types_partial attrs dsets g r hk hx
        (fun hp => hesc n r hm (.inr ⟨hk, hx, hp⟩)) hw
      exact ⟨fs, (h3 n fs).2 ⟨r, hm, he⟩⟩
  · intro n fs hm
    obtain ⟨r, hm, he⟩ := (h3 n fs).1 hm
    exact ⟨r, hm, (hT r fs he).2⟩

/-- **C35** Otherwise the first record on which an exception escapes decides: the error is the bare
`BorealisStructureError` or `AttributeError` of that record and names no record. -/
theorem C35_escape_partial (attrs dsets : TyTable) (g : GoodTables attrs dsets) (pre post : Records)
    (n : PyStr) (r : Rec) (hpre : ∀ n r, (n, r) ∈ pre → ¬ Escapes attrs dsets r)
    (h : Escapes attrs dsets r) :
    checkRecords attrs dsets (pre ++ (n, r) :: post) = .error .structure ∧ HasNothing attrs dsets r ∨
    checkRecords attrs dsets (pre ++ (n, r) :: post) = .error .attributeError ∧
      PythonMistyped attrs dsets r := by
  have hpre' : ∀ n r e, (n, r) ∈ pre → checkRecord attrs dsets r = .error e → Collected e = true := by
    intro n r e hm he
    cases hc : Collected e with
    | true => rfl
    | false => exact absurd ((checkRecord_collected g r).1 e he hc) (hpre n r hm)
  unfold checkRecords
  rcases (checkRecord_collected g r).2 h with ⟨hx, he⟩ | ⟨hx, he⟩
  · rw [collectBad_escapes hpre' he rfl]
    exact .inl ⟨rfl, hx⟩
  · rw [collectBad_escapes hpre' he rfl]
    exact .inr ⟨rfl, hx⟩

/-- Three records, the second without its data and the third with a wrong type. -/
example : checkRecords Format.bfiq6.siteSingleTypes Format.bfiq6.siteArrayTypes
    [(py! "1", sampleRecord .bfiq6),
     (py! "2", (sampleRecord .bfiq6).filter fun p => p.1 ≠ py! "data"),
     (py! "3", Dict.set (sampleRecord .bfiq6) (py! "int_time") (.np .f64 (.flt 0)))] =
    .error (.badRecords [(py! "2", [py! "data"])] [] [(py! "3", [(py! "int_time", .f32)])]) := by
  decide +kernel

/-- **C35** violated: one empty record hides the defects of the others. -/
theorem C35_violation : ∃ rs n r,
    (n, r) ∈ rs ∧ (∃ k, Missing Format.bfiq6.siteSingleTypes Format.bfiq6.siteArrayTypes r k) ∧
    ¬ HasNothing Format.bfiq6.siteSingleTypes Format.bfiq6.siteArrayTypes r ∧
    checkRecords Format.bfiq6.siteSingleTypes Format.bfiq6.siteArrayTypes rs = .error .structure := by
  refine ⟨[(py! "1", (sampleRecord .bfiq6).filter fun p => p.1 ≠ py! "data"), (py! "2", [])],
    py! "1", (sampleRecord .bfiq6).filter fun p => p.1 ≠ py! "data", by simp, ⟨py! "data", ?_⟩, ?_, by decide +kernel⟩
  · exact mem_missingSet.1 (by decide +kernel)
  · intro h
    refine h (py! "int_time") (.inl (listed_iff.2 (by decide +kernel))) (holds_iff.2 (by decide +kernel))

end Verif.Bor
