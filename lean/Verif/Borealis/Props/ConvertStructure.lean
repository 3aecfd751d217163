import Verif.Borealis.Props.RestructureBack
import Verif.Borealis.Model.ConvertObject
import Verif.Borealis.SampleConvert
/-!
# C66: conversion depends on the values of the fields only
-/
namespace Verif.Bor
open Verif

/-- The same values of all fields that the conversion knows; the order of the fields may differ. -/
def SameValues (r r' : Rec) : Prop := ∀ k, k ≠ py! "data_descriptors" → r.get? k = r'.get? k

theorem SameValues.field {r r' : Rec} (h : SameValues r r') {k : PyStr} (hk : k ≠ py! "data_descriptors") :
    Bor.field r k = Bor.field r' k := by
  unfold Bor.field
  rw [h k hk]

theorem convertBfiq_same {cfg : NpCfg} {ops : Ops} {sl : Val} {n origin : PyStr} {factor : Int} {r r' : Rec} (h : SameValues r r') :
    convertBfiq cfg ops ⟨sl, n, r, origin, factor⟩ = convertBfiq cfg ops ⟨sl, n, r', origin, factor⟩ := by
  have hf : ∀ k, k ≠ py! "data_descriptors" → Bor.field r k = Bor.field r' k := fun k hk => h.field hk
  unfold SameValues at h
  simp (decide := true) only [convertBfiq, iqdatRecord, iqdatFields, commonFields, Source.date, Source.i16, Source.fl16,
    Source.round16, Source.status, Source.command, Source.combf, hf, h, ne_eq]

theorem convertRawacf_same {cfg : NpCfg} {ops : Ops} {sl : Val} {n origin : PyStr} {factor : Int} {r r' : Rec} (h : SameValues r r') :
    convertRawacf cfg ops ⟨sl, n, r, origin, factor⟩ = convertRawacf cfg ops ⟨sl, n, r', origin, factor⟩ := by
  have hf : ∀ k, k ≠ py! "data_descriptors" → Bor.field r k = Bor.field r' k := fun k hk => h.field hk
  unfold SameValues at h
  simp (decide := true) only [convertRawacf, rawacfRecord, rawacfFields, commonFields, Source.date, Source.i16, Source.fl16,
    Source.round16, Source.status, Source.command, Source.combf, rawacfDims, shapedField, txpowOf, hf, h, ne_eq]

theorem convertAll_same {cfg : NpCfg} {ops : Ops} {t : Target} {sl : Val} {origin : PyStr} {factor : Int} {rs rs' : Records}
    (h : AllRec SameValues rs rs') : convertAll cfg ops t sl origin factor rs = convertAll cfg ops t sl origin factor rs' := by
  induction h with
  | nil => rfl
  | cons hr _ ih =>
    rw [convertAll, convertAll, ih]
    cases t
    · rw [convertRecord, convertRecord, convertBfiq_same hr]
    · rw [convertRecord, convertRecord, convertRawacf_same hr]

theorem blankedCheck_same {r r' : Rec} (h : SameValues r r') : blankedCheck r = blankedCheck r' := by
  have hf : ∀ k, k ≠ py! "data_descriptors" → Bor.field r k = Bor.field r' k := fun k hk => h.field hk
  simp (decide := true) only [blankedCheck, sampleSpacing, hf, ne_eq]

theorem phaseCheck_same {ops : Ops} {r r' : Rec} (h : SameValues r r') : phaseCheck ops r = phaseCheck ops r' := by
  have hf : ∀ k, k ≠ py! "data_descriptors" → Bor.field r k = Bor.field r' k := fun k hk => h.field hk
  simp (decide := true) only [phaseCheck, hf, ne_eq]

theorem checkTarget_same {ops : Ops} {t : Target} {rs rs' : Records} (h : AllRec SameValues rs rs') :
    checkTarget ops t rs = checkTarget ops t rs' := by
  cases t
  · show checkIqdat ops rs = checkIqdat ops rs'
    induction h with
    | nil => rfl
    | cons hr _ ih => rw [checkIqdat, checkIqdat, ih, blankedCheck_same hr, phaseCheck_same hr]
  · show checkRawacf rs = checkRawacf rs'
    induction h with
    | nil => rfl
    | cons hr _ ih => rw [checkRawacf, checkRawacf, ih, blankedCheck_same hr]

/-- What `BorealisConvert` makes of a reader of the input file, apart from the tests of its arguments: the slice, and the
records for the DMAP writer. -/
def convertHandler (cfg : NpCfg) (ops : Ops) (tkey : Elt → Except Err PyStr) (t : Target) (inp : PyStr) (slice : Option Int)
    (factor : Int) (x : Handler) : Except Err (List Verif.Rec) := do
  let rs ← x.records tkey
  let sl ← sliceIdOf rs slice
  convertToDmap cfg ops t sl inp factor rs

/-- The object does nothing else. -/
theorem convertPrepare_handler {cfg : NpCfg} {ops : Ops} {tkey : Elt → Except Err PyStr} {fs : FSys} {inp out : PyStr} {ft : FType}
    {t : Target} {slice : Option Int} {st : Option PyStr} {factor : Int} {x : Handler} (hx : borealisRead fs inp ft.name st = .ok x)
    (ht : allowedConversion ft = some t) (hne : inp ≠ out) :
    convertPrepare cfg ops tkey fs inp ft.name out slice st factor =
      (convertHandler cfg ops tkey t inp slice factor x).map fun l => (t, l) := by
  unfold convertPrepare convertHandler
  rw [bind_of_ok hx, show (parseFType ft.name).bind allowedConversion = some t by rw [parseFType_iff.2 rfl]; exact ht]
  simp only [if_neg hne]
  cases x.records tkey with
  | error e => rfl
  | ok rs =>
    simp only [bind, Except.bind]
    cases sliceIdOf rs slice with
    | error e => rfl
    | ok sl =>
      simp only
      cases convertToDmap cfg ops t sl inp factor rs <;> rfl

/-- **C66** The order of the fields in a record is irrelevant, and so is `data_descriptors`: two readers with records of the
same names and the same values are converted in the same way, or fail with the same exception. -/
theorem C66_values (cfg : NpCfg) (ops : Ops) (tkey : Elt → Except Err PyStr) (t : Target) (inp : PyStr) (slice : Option Int)
    (factor : Int) {x x' : Handler} {rs rs' : Records} (hx : x.records tkey = .ok rs) (hx' : x'.records tkey = .ok rs')
    (h : AllRec SameValues rs rs') :
    convertHandler cfg ops tkey t inp slice factor x = convertHandler cfg ops tkey t inp slice factor x' := by
  unfold convertHandler
  rw [bind_of_ok hx, bind_of_ok hx']
  have hs : sliceIdOf rs slice = sliceIdOf rs' slice := by
    unfold sliceIdOf
    cases h with
    | nil => rfl
    | cons hr _ =>
      simp only [firstRec, bind, Except.bind]
      rw [hr _ (by decide)]
  have hc : ∀ sl, convertToDmap cfg ops t sl inp factor rs = convertToDmap cfg ops t sl inp factor rs' := by
    intro sl
    unfold convertToDmap
    rw [checkTarget_same h, convertAll_same h]
  rw [hs]
  cases sliceIdOf rs' slice with
  | error e => rfl
  | ok sl => exact hc sl

/-- **C66** Arrays that were made from the records of a slice are converted like these records: the same DMAP records, or the
same exception.  The records have the listed types, as all that a reader holds.

Partial: for the records of C38; and not for bfiq of v0.7, see `C66_violation`. -/
theorem C66_structure_partial (cfg : NpCfg) (ops : Ops) (tkey : Elt → Except Err PyStr) (t : Target) (inp : PyStr)
    (slice : Option Int) (factor : Int) (v : Version) (ft : FType) (hft : ft ≠ .rawrf) (hno : ¬ (v = .v07 ∧ ft = .bfiq))
    (o : Ppo) (c : Common) (rs : Records) (h : SiteRecords (formatOf v ft) ft o c (flatFields v ft) rs)
    (h1 : OneSlice tkey (formatOf v ft) ft rs) (hf : FlatPpoOK o c rs)
    (hc : ∀ p ∈ rs, Conforms (fun _ => IsNumpy) (formatOf v ft).siteSingleTypes (formatOf v ft).siteArrayTypes p.2)
    {A : Rec} (hA : siteToArray (formatOf v ft) rs = .ok A) (names names' : List PyStr) :
    convertHandler cfg ops tkey t inp slice factor (.array ⟨ft, v, names, A⟩) =
      convertHandler cfg ops tkey t inp slice factor (.site ⟨ft, v, names', rs⟩) := by
  obtain ⟨A', out, h2, h3, h4, h5⟩ := roundtrip (coherent v ft hft) h h1 hf
  rw [hA] at h2
  cases h2
  have hlen : out.length = rs.length := by
    have := congrArg List.length h4
    simpa [Dict.keys] using this
  have hk : ∀ i (hi : i < out.length) (hi' : i < rs.length) k, out[i].2.get? k = rs[i].2.get? k :=
    fun i hi hi' k => (h5 i hi' hi).2 k (kept v ft hft k fun hc => hno ⟨hc.1, hc.2.1⟩)
  refine C66_values cfg ops tkey t inp slice factor (rs := out) (rs' := rs) ?_ rfl
    (allRec_of_index h4 fun i hi hi' k _ => hk i hi hi' k)
  have hck : checkRecords (formatOf v ft).siteSingleTypes (formatOf v ft).siteArrayTypes out = .ok () := by
    refine checkRecords_ok_iff.2 fun n r hr => (checkRecord_ok_iff (C34_site_tables v ft hft) r).2 ?_
    obtain ⟨i, hi, hie⟩ := List.getElem_of_mem hr
    have hi' : i < rs.length := by omega
    have e := hk i hi hi'
    rw [hie] at e
    exact conforms_same (fun k w => by unfold Holds; rw [e k]) (hc _ (List.getElem_mem hi'))
  show recordsOf tkey (formatOf v ft) A = .ok out
  unfold recordsOf
  rw [h3]
  simp only [bind, Except.bind]
  rw [hck]

/-- The records that an array file of bfiq v0.7 is turned into have `data_descriptors` of another type than the format
lists. -/
theorem descriptors_of_arrays {tkey : Elt → Except Err PyStr} {A : Rec} {out : Records}
    (h : arrayToSite tkey (formatOf .v07 .bfiq) A = .ok out) {n : PyStr} {r : Rec} (hr : out.get? n = some r) :
    r.get? (py! "data_descriptors") = some (vec .npStr ((dimNames .bfiq).map .str)) := by
  obtain ⟨ts, m, ds, rows, -, -, hrows, hout⟩ := arrayToSite_inv h
  obtain ⟨r0, hr0, hfl⟩ := ((mapRecords_inv hout).2 n).1 r hr
  rw [mapFieldsOf_other hfl _ (by decide +kernel)]
  have hm := Dict.mem_ofList (Dict.mem_of_get? hr0)
  obtain ⟨i, hi, hie⟩ := List.getElem_of_mem hm
  obtain ⟨hl, hrow⟩ := siteRows_inv hrows
  obtain ⟨-, hs⟩ := hrow i (by omega) hi
  rw [hie] at hs
  unfold siteRecord at hs
  obtain ⟨shared, -, hs⟩ := bind_ok hs
  obtain ⟨spec, hsp, hs⟩ := bind_ok hs
  obtain ⟨un, hun, hs⟩ := bind_ok hs
  have hs : update (update (update [] shared) spec) un = r0 := Except.ok.inj hs
  rw [← hs]
  obtain ⟨hsk, hsv⟩ := forFields_of hsp
  obtain ⟨huk, -⟩ := forFields_of hun
  have hspn : spec.NodupKeys := by unfold Dict.NodupKeys; rw [hsk]; decide +kernel
  rw [get?_update (by unfold Dict.NodupKeys; rw [huk]; decide +kernel), get?_update hspn,
    Dict.get?_eq_none_iff.2 (by rw [huk]; decide +kernel), Option.none_or]
  have hmem : py! "data_descriptors" ∈ spec.keys := by rw [hsk]; decide +kernel
  obtain ⟨w, hw⟩ := Dict.mem_keys_iff.1 hmem
  rw [hw, Option.some_or]
  obtain ⟨g, hg, he⟩ := hsv _ _ (Dict.mem_of_get? hw)
  have hall : ∀ p ∈ (formatOf .v07 .bfiq).genSite, p.1 = py! "data_descriptors" → p.2 = .const .npStr (dimNames .bfiq) := by
    decide +kernel
  have := hall _ hg rfl
  simp only at this
  rw [this] at he
  cases he
  rfl

/-- **C66** violated: no array file of bfiq v0.7 can be converted, whatever it holds and whoever wrote it. -/
theorem C66_violation (cfg : NpCfg) (ops : Ops) (tkey : Elt → Except Err PyStr) (t : Target) (inp : PyStr)
    (slice : Option Int) (factor : Int) (names : List PyStr) (A : Rec) :
    ¬ ∃ l, convertHandler cfg ops tkey t inp slice factor (.array ⟨.bfiq, .v07, names, A⟩) = .ok l := by
  intro ⟨l, hl⟩
  unfold convertHandler at hl
  obtain ⟨rs, hrs, hl⟩ := bind_ok hl
  obtain ⟨sl, hsl, -⟩ := bind_ok hl
  have hrs : recordsOf tkey (formatOf .v07 .bfiq) A = .ok rs := hrs
  unfold recordsOf at hrs
  simp only at hrs
  split at hrs
  · rename_i rs' h
    cases hrs
    obtain ⟨rs', h', h⟩ := bind_ok h
    obtain ⟨u, hck, h⟩ := bind_ok h
    cases h
    cases rs with
    | nil => cases hsl
    | cons p rs =>
      obtain ⟨n, r⟩ := p
      have hd := descriptors_of_arrays h' (n := n) (r := r) (by simp [Dict.get?])
      have hc := (checkRecord_ok_iff (C34_site_tables .v07 .bfiq (by decide)) r).1
        (checkRecords_ok_iff.1 hck n r (List.mem_cons_self ..))
      exact hc.typed (py! "data_descriptors") .npBytes (.inr ⟨by decide +kernel, _, hd, by simp [IsNumpy, vec]⟩)
  · cases hrs

/-! ## The name of the input file -/

/-- Two plain records that agree in all fields but one, in the same order. -/
inductive SameBut (k : PyStr) : PlainRec → PlainRec → Prop
  | nil : SameBut k [] []
  | same {p : PyStr × PlainVal} {d d' : PlainRec} : SameBut k d d' → SameBut k (p :: d) (p :: d')
  | other {v v' : PlainVal} {d d' : PlainRec} : SameBut k d d' → SameBut k ((k, v) :: d) ((k, v') :: d')

/-- Two lists of the same length with related members. -/
inductive AllPairs {α : Type} (R : α → α → Prop) : List α → List α → Prop
  | nil : AllPairs R [] []
  | cons {x y : α} {l m : List α} : R x y → AllPairs R l m → AllPairs R (x :: l) (y :: m)

theorem AllPairs.append {α : Type} {R : α → α → Prop} {l l' m m' : List α} (h : AllPairs R l l') (h' : AllPairs R m m') :
    AllPairs R (l ++ m) (l' ++ m') := by
  induction h with
  | nil => exact h'
  | cons hr _ ih => exact .cons hr ih

theorem dictOf_append_same {k : PyStr} {m m' : List Entry} (h : RelOr (SameBut k) (dictOf m) (dictOf m')) :
    ∀ l : List Entry, RelOr (SameBut k) (dictOf (l ++ m)) (dictOf (l ++ m'))
  | [] => h
  | (k', x) :: l => by
    have ih := dictOf_append_same h l
    rw [List.cons_append, List.cons_append, dictOf, dictOf]
    cases x with
    | error e => rfl
    | ok v =>
      simp only [bind, Except.bind]
      revert ih
      cases dictOf (l ++ m) <;> cases dictOf (l ++ m') <;> intro ih
      · exact ih
      · exact ih.elim
      · exact ih.elim
      · exact .same ih

theorem dictOf_same : ∀ (k : PyStr) (m : List Entry), RelOr (SameBut k) (dictOf m) (dictOf m)
  | _, [] => .nil
  | k, (k', x) :: l => by
    have ih := dictOf_same k l
    rw [dictOf]
    cases x with
    | error e => rfl
    | ok v =>
      simp only [bind, Except.bind]
      revert ih
      cases dictOf l <;> intro ih
      · rfl
      · exact .same ih

theorem dictOf_other {k : PyStr} {x x' : Except Err PlainVal} (h : RelOr (fun _ _ => True) x x') (m : List Entry) :
    RelOr (SameBut k) (dictOf ((k, x) :: m)) (dictOf ((k, x') :: m)) := by
  have ih := dictOf_same k m
  rw [dictOf, dictOf]
  cases x <;> cases x' <;> first | exact h.elim | skip
  · exact h
  · simp only [bind, Except.bind]
    revert ih
    cases dictOf m <;> intro ih
    · rfl
    · exact .other ih

theorem combf_origin (sl : Val) (n : PyStr) (r : Rec) (o o' : PyStr) (f : Int) :
    RelOr (fun _ _ => True) (Source.combf ⟨sl, n, r, o, f⟩) (Source.combf ⟨sl, n, r, o', f⟩) := by
  unfold Source.combf text
  simp only [bind, Except.bind]
  cases Bor.field r (py! "beam_nums") with
  | error e => rfl
  | ok a =>
    simp only
    cases a.len with
    | error e => rfl
    | ok m =>
      simp only
      cases Bor.field r (py! "experiment_comment") with
      | error e => rfl
      | ok a =>
        simp only
        cases a.text with
        | error e => rfl
        | ok e =>
          simp only
          cases Bor.field r (py! "slice_comment") with
          | error e => rfl
          | ok a =>
            simp only
            cases a.text with
            | error e => rfl
            | ok e => trivial

theorem mapE_rel {α β : Type} {R : β → β → Prop} {g g' : α → Except Err β} (h : ∀ x, RelOr R (g x) (g' x)) :
    ∀ l : List α, RelOr (AllPairs R) (mapE g l) (mapE g' l)
  | [] => .nil
  | x :: l => by
    have h1 := h x
    have h2 := mapE_rel h l
    rw [mapE, mapE]
    revert h1 h2
    cases g x <;> cases g' x <;> intro h1 <;> first | exact h1.elim | skip
    · exact fun _ => h1
    · simp only [bind, Except.bind]
      cases mapE g l <;> cases mapE g' l <;> intro h2 <;> first | exact h2.elim | skip
      · exact h2
      · exact .cons h1 h2

theorem relOr_bind {α β : Type} {R : β → β → Prop} (x : Except Err α) {g g' : α → Except Err β} (h : ∀ y, RelOr R (g y) (g' y)) :
    RelOr R (x >>= g) (x >>= g') := by
  cases x with
  | error e => rfl
  | ok y => exact h y

/-- The name of the input file in the conversion of one record. -/
theorem convertRecord_origin (cfg : NpCfg) (ops : Ops) (t : Target) (sl : Val) (n : PyStr) (r : Rec) (o o' : PyStr) (f : Int) :
    RelOr (AllPairs (SameBut (py! "combf"))) (convertRecord cfg ops t ⟨sl, n, r, o, f⟩) (convertRecord cfg ops t ⟨sl, n, r, o', f⟩) := by
  cases t with
  | iqdat =>
    show RelOr _ (convertBfiq _ _ _) (convertBfiq _ _ _)
    unfold convertBfiq
    iterate 18 refine relOr_bind _ fun _ => ?_
    refine mapE_rel (fun p => ?_) _
    unfold iqdatRecord
    refine relOr_bind _ fun l => ?_
    unfold iqdatFields
    refine dictOf_append_same (l := commonFields ..) ?_
    refine dictOf_append_same (l := [_, _, _, _, _, _]) ?_
    exact dictOf_other (combf_origin ..) _
  | rawacf =>
    show RelOr _ (convertRawacf _ _ _) (convertRawacf _ _ _)
    unfold convertRawacf
    iterate 12 refine relOr_bind _ fun _ => ?_
    split
    · refine mapE_rel (fun p => ?_) _
      unfold rawacfRecord
      iterate 4 refine relOr_bind _ fun _ => ?_
      unfold rawacfFields
      refine dictOf_append_same (l := commonFields ..) ?_
      refine dictOf_append_same (l := [_, _, _, _, _, _]) ?_
      exact dictOf_other (combf_origin ..) _
    · rfl

/-- **C66** The name of the input file is seen in `combf` only: with another name there are as many DMAP records, with the
same values of all other fields, or the same exception. -/
theorem C66_name (cfg : NpCfg) (ops : Ops) (t : Target) (sl : Val) (o o' : PyStr) (factor : Int) (rs : Records) :
    RelOr (AllPairs (SameBut (py! "combf"))) (convertAll cfg ops t sl o factor rs) (convertAll cfg ops t sl o' factor rs) := by
  induction rs with
  | nil => exact .nil
  | cons p rs ih =>
    obtain ⟨n, r⟩ := p
    have h := convertRecord_origin cfg ops t sl n r o o' factor
    rw [convertAll, convertAll]
    revert h ih
    cases convertRecord cfg ops t ⟨sl, n, r, o, factor⟩ <;> cases convertRecord cfg ops t ⟨sl, n, r, o', factor⟩ <;> intro ih h <;>
      first | exact h.elim | skip
    · exact h
    · simp only [bind, Except.bind]
      revert ih
      cases convertAll cfg ops t sl o factor rs <;> cases convertAll cfg ops t sl o' factor rs <;> intro ih <;>
        first | exact ih.elim | skip
      · exact ih
      · exact h.append ih

/-! ## Samples -/

/-- Two rawacf records of v0.6 that can be converted, with two beams and one. -/
def convertibleSlice : Records :=
  (typedRecords .v06 .rawacf .none 2 1).map fun p => (p.1, update p.2
    [(py! "tau_spacing", .np .u32 (.int 5)), (py! "blanked_samples", vec .u32 [.int 5, .int 6, .int 10, .int 11]),
     (py! "station", .py .str (.str (py! "sas"))),
     (py! "lags", .arr ⟨.u32, [3, 2], [.int 0, .int 0, .int 9, .int 12, .int 12, .int 12]⟩)])

theorem convertibleSlice_ok : SliceRecords sampleKey .v06 .rawacf .none sampleCommon convertibleSlice :=
  sliceRecordsB_sound (by decide +kernel)

/-- The arrays of these records are converted to three DMAP records, like the records. -/
example : ∃ A l, siteToArray (formatOf .v06 .rawacf) convertibleSlice = .ok A ∧ l.length = 3 ∧
    convertHandler numpy2 sampleOps sampleKey .rawacf (py! "in") none 1 (.site ⟨.rawacf, .v06, [], convertibleSlice⟩) = .ok l ∧
    convertHandler numpy2 sampleOps sampleKey .rawacf (py! "in") none 1 (.array ⟨.rawacf, .v06, [], A⟩) = .ok l := by
  have hs := convertibleSlice_ok
  obtain ⟨A, out, hA, -⟩ := C38_partial .v06 .rawacf (by decide) .none sampleCommon convertibleSlice sampleKey hs.slice hs.one nofun
  obtain ⟨l, hl, hlen⟩ : ∃ l, convertHandler numpy2 sampleOps sampleKey .rawacf (py! "in") none 1
      (.site ⟨.rawacf, .v06, [], convertibleSlice⟩) = .ok l ∧ l.length = 3 := by
    have h : okAnd (convertHandler numpy2 sampleOps sampleKey .rawacf (py! "in") none 1
      (.site ⟨.rawacf, .v06, [], convertibleSlice⟩)) (fun l => l.length == 3) = true := by decide +kernel
    revert h
    cases convertHandler numpy2 sampleOps sampleKey .rawacf (py! "in") none 1 (.site ⟨.rawacf, .v06, [], convertibleSlice⟩) with
    | error e => exact nofun
    | ok l => exact fun h => ⟨l, rfl, by simpa [okAnd] using h⟩
  refine ⟨A, l, hA, hlen, hl, ?_⟩
  rw [C66_structure_partial numpy2 sampleOps sampleKey .rawacf (py! "in") none 1 .v06 .rawacf (by decide) (by decide) .none
    sampleCommon convertibleSlice hs.slice hs.one nofun (fun p hp => ?_) hA [] [], hl]
  have hc := hs.types p hp
  refine ⟨hc.complete, hc.known, fun k t hk => hc.typed k t ?_⟩
  rcases hk with hk | ⟨h1, v, hv, h2⟩
  · exact .inl hk
  · refine .inr ⟨h1, v, hv, fun h3 => h2 ?_⟩
    cases v <;> first | exact h3 | exact h3.elim

/-- With other names of the input file, `combf` differs. -/
example : ∃ d d', convertAll numpy2 sampleOps .rawacf (.np .u32 (.int 1)) (py! "in") 1 convertibleSlice = .ok d ∧
    convertAll numpy2 sampleOps .rawacf (.np .u32 (.int 1)) (py! "other") 1 convertibleSlice = .ok d' ∧ d ≠ d' := by
  have h : okAnd (convertAll numpy2 sampleOps .rawacf (.np .u32 (.int 1)) (py! "in") 1 convertibleSlice) (fun d =>
      okAnd (convertAll numpy2 sampleOps .rawacf (.np .u32 (.int 1)) (py! "other") 1 convertibleSlice) fun d' =>
        decide (d ≠ d')) = true := by decide +kernel
  revert h
  cases convertAll numpy2 sampleOps .rawacf (.np .u32 (.int 1)) (py! "in") 1 convertibleSlice <;>
    cases convertAll numpy2 sampleOps .rawacf (.np .u32 (.int 1)) (py! "other") 1 convertibleSlice <;> intro h <;>
    simp only [okAnd, decide_eq_true_eq] at h <;> first | cases h | exact ⟨_, _, rfl, rfl, h⟩

end Verif.Bor
