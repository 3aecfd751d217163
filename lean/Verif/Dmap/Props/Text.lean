import Verif.Dmap.Lemmas.Char
import Verif.Dmap.Sample
/-!
# C13, C14, C15: which records survive a write/read cycle
-/
namespace Verif
open Spec

/-- What a reader shows for a list of encodable records. -/
theorem roundtrip_get (cfg : NpCfg) {recs : List Rec} (h : ∀ r ∈ recs, Encodable cfg.maxDims r)
    {j : Nat} {r : Rec} (hj : recs[j]? = some r) {nm : PyStr} {s : DmapScalar} (hg : (nm, Field.scalar s) ∈ r) :
    ∃ rs ds r' d, writeThenRead cfg recs = .ok (rs, ds) ∧ rs.length = recs.length ∧
      rs[j]? = some r' ∧ ds[j]? = some d ∧
      Dict.get? r' nm = some (.scalar s) ∧ Dict.get? d nm = some (.scalar (shownTy s.fmt) s.value) := by
  have hne : recs ≠ [] := by rintro rfl; simp at hj
  obtain ⟨bs, h1, h2⟩ := writeBytes_ok hne h
  refine ⟨recs.map presentRec, recs.map plainRec, presentRec r, plainRec r, ?_, by simp, by simp [hj],
    by simp [hj], ?_, ?_⟩
  · unfold writeThenRead; rw [h1]; exact readFile_written hne h h2
  all_goals
    obtain ⟨ss, as, _, _, _, hnd, _⟩ := h r (List.mem_of_getElem? hj)
    refine Dict.get?_of_mem ?_ (List.mem_map.2 ⟨_, hg, rfl⟩)
    unfold Dict.NodupKeys Dict.keys
    simpa [presentRec, plainRec, Function.comp_def] using hnd

/-! ## C13 -/

/-- **C13** (partial: values 0..127, as part of encodable records.)  A char scalar written by
`DmapWrite` is read back with the same value, in the DMAP record and as `np.int8` in the plain
dictionary. -/
theorem C13_char_partial (cfg : NpCfg) {recs : List Rec} (h : ∀ r ∈ recs, Encodable cfg.maxDims r)
    {j : Nat} {r : Rec} (hj : recs[j]? = some r) {nm : PyStr} {n : Nat} {s : DmapScalar}
    (hg : (nm, Field.scalar s) ∈ r) (hf : s.fmt = .c) (hv : s.value = .int n) (_hn : n < 128) :
    ∃ rs ds r' d, writeThenRead cfg recs = .ok (rs, ds) ∧ rs[j]? = some r' ∧ ds[j]? = some d ∧
      Dict.get? r' nm = some (.scalar s) ∧ Dict.get? d nm = some (.scalar (.np .int8) (.int n)) := by
  obtain ⟨rs, ds, r', d, h1, _, h2, h3, h4, h5⟩ := roundtrip_get cfg h hj hg
  refine ⟨rs, ds, r', d, h1, h2, h3, h4, ?_⟩
  rw [h5, hf, hv]
  rfl

example := C13_char_partial numpy1 (recs := [Sample.record]) (j := 0) (r := Sample.record) (nm := py! "chan")
  (n := 127) (s := ⟨py! "chan", .int 127, 1, .c⟩)
  (by intro r hr; rw [List.mem_singleton.1 hr]; exact Sample.record_encodable (by decide)) rfl (by decide)
  rfl rfl (by decide)

/-- **C13** fails for negative values: whatever else is in the records, the write does not succeed. -/
theorem C13_negative_violation {recs : List Rec} {r : Rec} (hr : r ∈ recs) {nm : PyStr} {s : DmapScalar}
    {v : Int} (hg : (nm, Field.scalar s) ∈ r) (hf : s.fmt = .c) (hv : s.value = .int v) (hneg : v < 0) :
    ∃ e, writeBytes recs = .error e := by
  cases hw : writeBytes recs with
  | error e => exact ⟨e, rfl⟩
  | ok bs =>
    exfalso
    have hl := (writeBytes_inv hw).2
    clear hw
    have key : ∀ (r : Rec) (rn : Nat) (data : Bytes), Written rn r data → (nm, Field.scalar s) ∈ r → False := by
      intro r rn data hw hg
      induction hw with
      | nil => cases hg
      | scalar h1 _ ih =>
        rcases List.mem_cons.1 hg with hg | hg
        · cases hg
          obtain ⟨_, _, _, h2, _⟩ := scalarToBytes_inv h1
          obtain ⟨nm', v', dt, fm⟩ := s
          simp only at hf hv
          subst hf hv
          simp only [scalarValueBytes] at h2
          unfold chrEncode at h2
          rw [if_pos (by omega)] at h2
          cases h2
        · exact ih hg
      | array _ _ ih =>
        rcases List.mem_cons.1 hg with hg | hg
        · cases hg
        · exact ih hg
    generalize 0 = k at hl
    induction hl with
    | nil => cases hr
    | cons h1 _ _ _ _ ih =>
      rcases List.mem_cons.1 hr with rfl | hr
      · exact key _ _ _ h1 hg
      · exact ih hr

example : writeBytes [fieldsOf [⟨py! "a", .int (-1), 1, .c⟩] Sample.arrays] = .error .valueError := by
  decide +kernel

example : ∃ e, writeBytes [fieldsOf [⟨py! "a", .int (-1), 1, .c⟩] Sample.arrays] = .error e :=
  C13_negative_violation (List.mem_singleton.2 rfl) (s := ⟨py! "a", .int (-1), 1, .c⟩) (nm := py! "a")
    (by decide) rfl rfl (by decide)

/-- **C13** fails for 128..255: whenever a list with such a char scalar (preceded by encodable
records and fields, in a record with ASCII names) is written, reading the stream raises
`UnicodeDecodeError`. -/
theorem C13_high_violation (cfg : NpCfg) {recs1 recs2 : List Rec} (h1 : ∀ r ∈ recs1, Encodable cfg.maxDims r)
    {ss1 ss2 : List DmapScalar} {as : List DmapArray} {nm : PyStr} {n : Nat} (hn1 : 128 ≤ n) (hn2 : n < 256)
    (hss1 : ∀ s ∈ ss1, ScalarOK s) (hnm : PlainText nm) (hss2 : ∀ s ∈ ss2, PlainText s.name)
    (has : ∀ a ∈ as, PlainText a.name) (hne : as ≠ []) {bs : Bytes}
    (hw : writeBytes (recs1 ++ fieldsOf (ss1 ++ ⟨nm, .int n, 1, .c⟩ :: ss2) as :: recs2) = .ok bs) :
    readFile cfg bs = .error .unicodeDecodeError := by
  obtain ⟨_, hl⟩ := writeBytes_inv hw
  obtain ⟨b1, b2, rfl, w1, w2⟩ := writtenList_append_inv hl
  have hf := writtenList_encodable w1 h1
  cases w2 with
  | @cons _ _ _ data b3 g1 g2 g3 g4 g5 =>
    have hat : At (b1 ++ (blockBytes (fieldsOf (ss1 ++ ⟨nm, .int n, 1, .c⟩ :: ss2) as) data ++ b3)) b1.length
        (blockBytes (fieldsOf (ss1 ++ ⟨nm, .int n, 1, .c⟩ :: ss2) as) data) := ⟨b1, b3, by simp, rfl⟩
    obtain ⟨c', he⟩ := readRecord_highChar cfg (recs1.map blockOf).length hn1 hn2 g1 hat g2 hss1 hnm hss2 has hne
    refine readFile_stops hf ⟨[], _, by simp; rfl, rfl⟩ ?_ he
    have : 0 < (blockBytes (fieldsOf (ss1 ++ ⟨nm, .int n, 1, .c⟩ :: ss2) as) data).length := by
      simp only [blockBytes, List.length_append, length_natLE]; omega
    simp only [List.length_append] at this ⊢
    omega

/-- A record whose only scalar is the char 200. -/
def highChar : Rec := fieldsOf ([] ++ ⟨py! "a", .int (200 : Nat), 1, .c⟩ :: [])
  [⟨py! "b", ⟨.float64, [1], [[0, 0, 0, 0, 0, 0, 240, 63]]⟩, 8, .d, 1, [1]⟩]

/-- The stream written for `highChar`. -/
def highCharBytes : Bytes :=
  [1, 0, 1, 0, 40, 0, 0, 0, 1, 0, 0, 0, 1, 0, 0, 0, 97, 0, 1, 195, 136,
   98, 0, 8, 1, 0, 0, 0, 1, 0, 0, 0, 0, 0, 0, 0, 0, 0, 240, 63]

example : readFile numpy1 highCharBytes = .error .unicodeDecodeError :=
  C13_high_violation numpy1 (recs1 := []) (recs2 := []) (by simp) (by decide) (by decide) (by simp)
    ⟨by decide, by decide⟩ (by simp)
    (by intro a ha; rw [List.mem_singleton.1 ha]; exact ⟨by decide, by decide⟩) (by simp)
    (show writeBytes [highChar] = .ok highCharBytes by decide +kernel)

/-! ## C14 -/

/-- **C14** The writer produces the NUL-terminated UTF-8 bytes of a string exactly when the string is
ASCII. -/
theorem C14_string_bytes (s : PyStr) : packStr s = encStr s ↔ Ascii s := by
  constructor
  · intro h; exact (packStr_length_le s).2 (by rw [h])
  · exact packStr_ascii

example : packStr (py! "abc") = [97, 98, 99, 0] := by decide
example : packStr (py! "é") = [195, 169] := by decide

/-- **C14** (partial: ASCII NUL-free names and strings, in encodable records.)  A string scalar is read
back unchanged under its name. -/
theorem C14_string_partial (cfg : NpCfg) {recs : List Rec} (h : ∀ r ∈ recs, Encodable cfg.maxDims r)
    {j : Nat} {r : Rec} (hj : recs[j]? = some r) {nm t : PyStr} {s : DmapScalar}
    (hg : (nm, Field.scalar s) ∈ r) (hf : s.fmt = .s) (hv : s.value = .str t) :
    ∃ rs ds r' d, writeThenRead cfg recs = .ok (rs, ds) ∧ rs[j]? = some r' ∧ ds[j]? = some d ∧
      Dict.get? r' nm = some (.scalar s) ∧ Dict.get? d nm = some (.scalar .str (.str t)) := by
  obtain ⟨rs, ds, r', d, h1, _, h2, h3, h4, h5⟩ := roundtrip_get cfg h hj hg
  refine ⟨rs, ds, r', d, h1, h2, h3, h4, ?_⟩
  rw [h5, hf, hv]
  rfl

example := C14_string_partial numpy1 (recs := [Sample.record]) (j := 0) (r := Sample.record) (nm := py! "combf")
  (t := py! "a b") (s := ⟨py! "combf", .str (py! "a b"), 9, .s⟩)
  (by intro r hr; rw [List.mem_singleton.1 hr]; exact Sample.record_encodable (by decide)) rfl (by decide)
  rfl rfl

/-- **C14, C01** The encodability condition is exact: a record (no char scalar above 127, no negative
entry in a shape list) comes back from a write/read cycle if and only if it is encodable.  In
particular one non-ASCII or NUL character in any name or string, one array before a scalar, a
repeated name or an out-of-range number is enough to lose the record. -/
theorem C14_survives_iff (cfg : NpCfg) {r : Rec}
    (hc : ∀ k s, (k, Field.scalar s) ∈ r → s.fmt = .c → ∀ n, s.value = .int n → n < 128)
    (hnn : ∀ k a, (k, Field.array a) ∈ r → ∀ x ∈ a.shape, 0 ≤ x) :
    writeThenRead cfg [r] = .ok ([presentRec r], [plainRec r]) ↔ Encodable cfg.maxDims r := by
  constructor
  · intro h; exact survive_encodable h hc hnn
  · intro h
    have h' : ∀ x ∈ [r], Encodable cfg.maxDims x := by
      intro x hx; rw [List.mem_singleton.1 hx]; exact h
    obtain ⟨bs, h1, h2⟩ := writeBytes_ok (by simp) h'
    unfold writeThenRead
    rw [h1]
    exact readFile_written (by simp) h' h2

example : writeThenRead numpy2 [Sample.record] = .ok ([presentRec Sample.record], [plainRec Sample.record]) :=
  (C14_survives_iff numpy2
    (by intro k s h hf n hn
        simp only [Sample.record, fieldsOf, Sample.scalars, Sample.arrays, List.map_cons, List.map_nil,
          List.cons_append, List.nil_append, List.mem_cons, Prod.mk.injEq, Field.scalar.injEq, reduceCtorEq,
          and_false, List.not_mem_nil, or_false] at h
        rcases h with ⟨_, rfl⟩ | ⟨_, rfl⟩ | ⟨_, rfl⟩ | ⟨_, rfl⟩ | ⟨_, rfl⟩ <;> simp_all
        omega)
    (by intro k a h
        simp only [Sample.record, fieldsOf, Sample.scalars, Sample.arrays, List.map_cons, List.map_nil,
          List.cons_append, List.nil_append, List.mem_cons, Prod.mk.injEq, Field.array.injEq, reduceCtorEq,
          and_false, List.not_mem_nil, or_false, false_or] at h
        rcases h with ⟨_, rfl⟩ | ⟨_, rfl⟩ | ⟨_, rfl⟩ <;> decide)).2 (Sample.record_encodable (by decide))

/-- **C14** One non-ASCII or NUL character in a string value or in a field name and the record does not
come back. -/
theorem C14_text_violation (cfg : NpCfg) {r : Rec}
    (hc : ∀ k s, (k, Field.scalar s) ∈ r → s.fmt = .c → ∀ n, s.value = .int n → n < 128)
    (hnn : ∀ k a, (k, Field.array a) ∈ r → ∀ x ∈ a.shape, 0 ≤ x)
    (hbad : (∃ k s, (k, Field.scalar s) ∈ r ∧ ¬ PlainText s.name) ∨
      (∃ k s t, (k, Field.scalar s) ∈ r ∧ s.fmt = .s ∧ s.value = .str t ∧ ¬ PlainText t) ∨
      (∃ k a, (k, Field.array a) ∈ r ∧ ¬ PlainText a.name)) (ds : List PlainRec) :
    writeThenRead cfg [r] ≠ .ok ([presentRec r], ds) := by
  intro h
  obtain ⟨ss, as, rfl, _, _, _, h4, h5, _⟩ := survive_encodable h hc hnn
  have hs : ∀ k s, (k, Field.scalar s) ∈ fieldsOf ss as → s ∈ ss := by
    intro k s hm
    rcases List.mem_append.1 hm with hm | hm
    · obtain ⟨x, hx, he⟩ := List.mem_map.1 hm; cases he; exact hx
    · obtain ⟨x, hx, he⟩ := List.mem_map.1 hm; cases he
  have ha : ∀ k a, (k, Field.array a) ∈ fieldsOf ss as → a ∈ as := by
    intro k s hm
    rcases List.mem_append.1 hm with hm | hm
    · obtain ⟨x, hx, he⟩ := List.mem_map.1 hm; cases he
    · obtain ⟨x, hx, he⟩ := List.mem_map.1 hm; cases he; exact hx
  rcases hbad with ⟨k, s, hm, hb⟩ | ⟨k, s, t, hm, hf, hv, hb⟩ | ⟨k, a, hm, hb⟩
  · exact hb (h4 s (hs k s hm)).name
  · have := (h4 s (hs k s hm)).value
    rw [hf, hv] at this
    cases this with
    | str ht => exact hb ht
  · exact hb (h5 a (ha k a hm)).name

/-- A record with the string `é`. -/
def accented : Rec := fieldsOf [⟨py! "a", .str (py! "é"), 9, .s⟩]
  [⟨py! "b", ⟨.float64, [1], [[0, 0, 0, 0, 0, 0, 240, 63]]⟩, 8, .d, 1, [1]⟩]

example : writeThenRead numpy1 [accented] ≠ .ok ([presentRec accented], [plainRec accented]) :=
  C14_text_violation numpy1
    (by intro k s h hf; simp [accented, fieldsOf] at h; obtain ⟨_, rfl⟩ := h; cases hf)
    (by intro k a h; simp [accented, fieldsOf] at h; obtain ⟨_, rfl⟩ := h; decide)
    (.inr (.inl ⟨py! "a", ⟨py! "a", .str (py! "é"), 9, .s⟩, py! "é", by decide, rfl, rfl,
      fun h => absurd h.1 (by decide)⟩)) _

/-- What actually happens: the terminator is cut off and the string swallows the next name. -/
example : writeThenRead numpy1 [accented] = .error (.mismatchByte 0) := by decide +kernel

/-! ## C15 -/

/-- **C15** (partial: scalars stay before arrays.)  Any reordering of the scalars among themselves
and of the arrays among themselves can be written and is read back in that order. -/
theorem C15_order_partial (cfg : NpCfg) {ss ss' : List DmapScalar} {as as' : List DmapArray}
    (h : Encodable cfg.maxDims (fieldsOf ss as)) (h1 : ss'.Perm ss) (h2 : as'.Perm as) :
    writeThenRead cfg [fieldsOf ss' as'] =
      .ok ([presentRec (fieldsOf ss' as')], [plainRec (fieldsOf ss' as')]) := by
  have he : Encodable cfg.maxDims (fieldsOf ss' as') := by
    obtain ⟨ss0, as0, e, g1, g2, g3, g4, g5, g6⟩ := h
    have e1 := congrArg scalarsOf e
    have e2 := congrArg arraysOf e
    rw [scalarsOf_fieldsOf, scalarsOf_fieldsOf] at e1
    rw [arraysOf_fieldsOf, arraysOf_fieldsOf] at e2
    subst e1 e2
    have hp : (fieldsOf ss' as').Perm (fieldsOf ss as) := (h1.map _).append (h2.map _)
    have hsz : blockSize ss' as' = blockSize ss as := by
      unfold blockSize
      rw [(h1.map scalarSize).sum_nat, (h2.map arraySize).sum_nat]
    refine ⟨ss', as', rfl, fun hn => g1 ?_, fun hn => g2 ?_, (hp.map _).nodup_iff.2 g3,
      fun s hs => g4 s (h1.mem_iff.1 hs), fun a ha => ?_, by rw [hsz]; exact g6⟩
    · subst hn; exact h1.symm.eq_nil
    · subst hn; exact h2.symm.eq_nil
    · rw [hsz]; exact g5 a (h2.mem_iff.1 ha)
  have h' : ∀ x ∈ [fieldsOf ss' as'], Encodable cfg.maxDims x := by
    intro x hx; rw [List.mem_singleton.1 hx]; exact he
  obtain ⟨bs, h1, h2⟩ := writeBytes_ok (by simp) h'
  unfold writeThenRead
  rw [h1]
  exact readFile_written (by simp) h' h2

example : writeThenRead numpy1 [fieldsOf Sample.scalars.reverse Sample.arrays.reverse] =
    .ok ([presentRec (fieldsOf Sample.scalars.reverse Sample.arrays.reverse)],
      [plainRec (fieldsOf Sample.scalars.reverse Sample.arrays.reverse)]) :=
  C15_order_partial numpy1 (Sample.record_encodable (by decide)) (List.reverse_perm _) (List.reverse_perm _)

/-- **C15** fails as soon as an array stands before a scalar: such a record never comes back, not even
as a dictionary with the same entries in another order. -/
theorem C15_order_violation (cfg : NpCfg) {ss1 : List DmapScalar} {a : DmapArray} {rest : Rec}
    (hss1 : ∀ s ∈ ss1, ScalarOK s) (hname : PlainText a.name)
    (hrest : ∃ k s, (k, Field.scalar s) ∈ rest) {r' : Rec} (ds : List PlainRec)
    (hperm : r'.Perm (presentRec ((ss1.map fun s => (s.name, Field.scalar s)) ++ (a.name, .array a) :: rest))) :
    writeThenRead cfg [(ss1.map fun s => (s.name, Field.scalar s)) ++ (a.name, .array a) :: rest] ≠
      .ok ([r'], ds) := by
  intro h
  generalize hr : (ss1.map fun s => (s.name, Field.scalar s)) ++ (a.name, .array a) :: rest = r at h hperm
  obtain ⟨data, c', h1, h2, h3, h4, h5⟩ := writeThenRead_one h
  obtain ⟨ss, as, sb, g1, g2, g3, g4, g5, g6, g7, _⟩ := readRecord_written h2 h3 h4 h5
  have e : addArrays (addScalars [] ss) as =
      (fieldsOf ss as).foldl (fun d p => Dict.set d p.1 p.2) [] := by
    unfold addArrays addScalars fieldsOf
    rw [List.foldl_append]
  rw [e] at g7
  have hlen := h1.length
  have hpl : (presentRec r).length = r.length := by simp [presentRec]
  have hfl : (fieldsOf ss as).length = ss.length + as.length := by simp [fieldsOf]
  obtain ⟨_, hnd⟩ := Dict.nodup_of_length (fieldsOf ss as) ([] : Dict PyStr Field) (by simp)
  have hnd := hnd (by
    rw [← g7, hperm.length_eq, hpl, hfl]; simp; omega)
  simp only [List.nil_append] at hnd
  have hof := Dict.ofList_of_nodup hnd
  unfold Dict.ofList at hof
  rw [hof] at g7
  subst g7
  -- the bytes of the array stand where the reader looks for a scalar
  have hw := h1
  rw [← hr] at hw
  obtain ⟨d1, d2, rfl, w1, w2⟩ := hw.append_inv
  have hd : At (blockBytes r (d1 ++ d2)) 16 (d1 ++ d2) := at_data (k := 0) (at_self _)
  obtain ⟨k1, k2⟩ := at_append.1 hd
  have hcount : ss1.length < ss.length := by
    rw [g3, ← hr]
    obtain ⟨k, s, hs⟩ := hrest
    have hpos : 0 < (scalarsOf rest).length := by
      apply List.length_pos_of_mem (a := s)
      simp only [scalarsOf, List.mem_filterMap]
      exact ⟨_, hs, rfl⟩
    have : scalarsOf ((ss1.map fun s => (s.name, Field.scalar s)) ++ (a.name, .array a) :: rest) =
        ss1 ++ scalarsOf rest := by
      simp [scalarsOf, List.filterMap_append, List.filterMap_map, Function.comp_def]
    rw [this, List.length_append]; omega
  have hstart : ∃ t, d2 = encStr a.name ++ t := by
    generalize hq : (a.name, Field.array a) :: rest = q at w2
    cases w2 with
    | nil => cases hq
    | scalar => cases hq
    | array i1 i2 =>
      cases hq
      obtain ⟨tb, db, sb', _, _, _, _, rfl, _⟩ := arrayToBytes_inv i1
      exact ⟨_, by rw [packStr_ascii hname.1]; simp only [List.append_assoc]; rfl⟩
  obtain ⟨t, ht⟩ := hstart
  subst ht
  have hname2 := (at_append.1 k2).1
  generalize hbuf : blockBytes r (d1 ++ (encStr a.name ++ t)) = buf at *
  have hfind : ∀ (ss1 : List DmapScalar) (d1 : Bytes) (ss : List DmapScalar) (sb : Bytes) (c : Int),
      SeqEnc ScalarEnc ss1 d1 → SeqEnc ScalarEnc ss sb → At buf c d1 → At buf c sb →
      At buf (c + d1.length) (encStr a.name) → ss1.length < ss.length →
      ∃ s ∈ ss, s.name = a.name := by
    intro ss1
    induction ss1 with
    | nil =>
      intro d1 ss sb c e1 e2 a1 a2 a3 hl
      cases e1
      cases e2 with
      | nil => simp at hl
      | @cons x xs b bs hx hxs =>
        refine ⟨x, by simp, ?_⟩
        obtain ⟨q1, q2, vb, q3, rfl⟩ := hx
        have a4 := (at_append.1 (at_append.1 (at_append.1 a2).1).1).1
        have r1 := readDataS_run 0 q1 a4
        have r2 := readDataS_run 0 hname.2 (by simpa using a3)
        rw [r1] at r2
        injection r2 with r2 _
        injection r2
    | cons s ss1 ih =>
      intro d1 ss sb c e1 e2 a1 a2 a3 hl
      cases e1 with
      | @cons _ _ b1 bs1 hx1 hxs1 =>
        cases e2 with
        | nil => simp at hl
        | @cons x xs b bs hx hxs =>
          obtain ⟨p1, p2⟩ := at_append.1 a1
          obtain ⟨p3, p4⟩ := at_append.1 a2
          have hb1 := p1.bounds
          have hb2 := p3.bounds
          have r1 := ((readScalar_exact (buf := buf) 0) c s _ hb1.1 (by omega)).2 ⟨b1, hx1, p1, rfl⟩
          have r2 := ((readScalar_exact (buf := buf) 0) c x _ hb1.1 (by omega)).2 ⟨b, hx, p3, rfl⟩
          rw [r1] at r2
          injection r2 with r2 r3
          have hl2 : b1.length = b.length := by omega
          obtain ⟨y, hy, hy2⟩ := ih bs1 xs bs (c + b1.length) hxs1 hxs p2 (by rw [r3]; exact p4)
            (by rw [show c + (b1.length : Int) + bs1.length = c + ((b1 ++ bs1).length : Nat) by simp; omega]; exact a3)
            (by simpa using hl)
          exact ⟨y, by simp [hy], hy2⟩
  obtain ⟨s, hs, hsn⟩ := hfind ss1 d1 ss sb 16 (w1.scalars_enc hss1) g5 k1 g6 hname2 hcount
  have m1 : (a.name, Field.scalar s) ∈ fieldsOf ss as :=
    List.mem_append_left _ (List.mem_map.2 ⟨s, hs, by rw [hsn]⟩)
  have m2 : (a.name, Field.array (present a)) ∈ fieldsOf ss as := by
    refine hperm.mem_iff.2 ?_
    rw [← hr]
    exact List.mem_map.2 ⟨(a.name, .array a), by simp, rfl⟩
  have q1 := Dict.get?_of_mem hnd m1
  have q2 := Dict.get?_of_mem hnd m2
  rw [q1] at q2
  cases q2

/-- A record with its array first. -/
def arrayFirst : Rec := [(py! "b", .array ⟨py! "b", ⟨.float64, [1], [[0, 0, 0, 0, 0, 0, 240, 63]]⟩, 8, .d, 1, [1]⟩),
  (py! "a", .scalar ⟨py! "a", .int 7, 3, .i⟩)]

example : writeThenRead numpy1 [arrayFirst] ≠ .ok ([presentRec arrayFirst], [plainRec arrayFirst]) :=
  C15_order_violation numpy1 (ss1 := [])
    (a := ⟨py! "b", ⟨.float64, [1], [[0, 0, 0, 0, 0, 0, 240, 63]]⟩, 8, .d, 1, [1]⟩)
    (rest := [(py! "a", .scalar ⟨py! "a", .int 7, 3, .i⟩)]) (by simp) ⟨by decide, by decide⟩
    ⟨_, _, List.mem_singleton.2 rfl⟩ [plainRec arrayFirst] (List.Perm.refl _)

/-- What actually happens. -/
example : writeThenRead numpy1 [arrayFirst] = .error (.zeroByte 0) := by decide +kernel

end Verif
