import Verif.Dmap.Lemmas.WriteMessages
import Verif.Dmap.Props.WriteErrors
import Verif.Dmap.Props.Messages
/-!
# C78: texts of exceptions when writing
-/
namespace Verif
open Spec

theorem writeStreamM_eq (sh : Shown) {w : Writer} (hne : w.recs ≠ []) (inp : WInput) :
    w.writeStreamM sh inp =
      match recordsToBytesM sh w.filename 0 w.recNum w.buf w.recs with
      | (.error e, buf, rn, rs) => (.error e, { w with buf := buf, recNum := rn, recs := rs })
      | (.ok (), buf, rn, rs) => (.ok buf, { w with buf := buf, recNum := rn, recs := rs }) := by
  unfold Writer.writeStreamM
  rw [isEmptyList_of_ne hne]
  simp only [Bool.false_eq_true, if_false, Writer.emptyRecordCheckM]
  rw [isEmptyList_of_ne (by exact hne)]
  rfl

/-- **C78.** The writer with texts is the writer of the other theorems: same bytes, same exceptions, same object afterwards. -/
theorem C78_agrees (sh : Shown) (w : Writer) (inp : WInput) : untold (w.writeStreamM sh inp) = w.writeStream inp := by
  unfold Writer.writeStreamM Writer.writeStream
  have h0 : (if w.isEmptyList then plainly (checkDmapDict inp) else .ok (w.isList, w.recs)) =
      plainly (if w.isEmptyList then checkDmapDict inp else .ok (w.isList, w.recs)) := by
    split <;> rfl
  rw [h0]
  generalize (if w.isEmptyList then checkDmapDict inp else .ok (w.isList, w.recs)) = x
  cases x with
  | error e => rfl
  | ok p =>
    obtain ⟨isList, recs⟩ := p
    simp only [plainly, Writer.emptyRecordCheckM, Writer.emptyRecordCheck]
    cases Writer.isEmptyList { w with isList := isList, recs := recs } with
    | true => rfl
    | false =>
      simp only [Bool.false_eq_true, if_false, Writer.recordsToBytes]
      rw [← (recordsToBytesM_spec sh w.filename recs 0 w.recNum w.buf).1]
      rcases recordsToBytesM sh w.filename 0 w.recNum w.buf recs with ⟨res, b, n, l⟩
      cases res <;> rfl

/-- **C78.** So is the writing of files: the same files are written. -/
theorem C78_agrees_file (sh : Shown) (w : Writer) (fs : FileSys) (filename : PyStr) :
    untold (w.writeDmapM sh fs filename) = w.writeDmap fs filename := by
  unfold Writer.writeDmapM Writer.writeDmap
  rcases w.filenameCheck filename with ⟨res, w1⟩
  cases res with
  | error e => rfl
  | ok u =>
    simp only
    rw [← C78_agrees sh w1 noRecords]
    rcases w1.writeStreamM sh noRecords with ⟨res, w2⟩
    cases res <;> rfl

/-- **C78** (partial: exceptions of Python have no text of pyDARNio, see C50; not every text tells field and file, see the violations.)
If writing raises an exception of pyDARNio, the text is that of the first field that cannot be written of the first record that cannot
be written, with the number of this record. -/
theorem C78_told_partial (sh : Shown) {w w' : Writer} (hne : w.recs ≠ []) {inp : WInput} {e : Exc}
    (h : w.writeStreamM sh inp = (.error e, w')) :
    (e.text = none ↔ className e.err = none) ∧
    ∀ t, e.text = some t → ∃ good bad rest g pre p post b, w.recs = good ++ bad :: rest ∧ WrittenList 0 good g ∧
      bad = pre ++ p :: post ∧ Written good.length pre b ∧ SaysWhy sh w.filename good.length p t ∧ w'.recNum = good.length := by
  have hu := C78_agrees sh w inp
  rw [h] at hu
  obtain ⟨good, bad, rest, g, e1, e2, -, -, e5⟩ := C50_write_errors_partial hne hu.symm
  rw [writeStreamM_eq sh hne] at h
  obtain ⟨-, hs⟩ := recordsToBytesM_spec sh w.filename w.recs 0 w.recNum w.buf
  rcases hr : recordsToBytesM sh w.filename 0 w.recNum w.buf w.recs with ⟨res, b, n, l⟩
  rw [hr] at h
  cases res with
  | ok u => cases h
  | error e' =>
    cases h
    rcases hs _ _ _ _ hr with ⟨h1, h2⟩ | ⟨good', bad', rest', f1, f2, f3, pre, p, post, b', t', f4, f5, f6, f7⟩
    · exact ⟨by simp [h1, h2], fun t ht => by rw [h1] at ht; cases ht⟩
    · refine ⟨by simp [f6, f3], fun t ht => ?_⟩
      rw [f6] at ht
      cases ht
      have e5 : n = good.length := e5
      rw [Nat.zero_add] at f2
      have hl : good.length = good'.length := by rw [← e5, f2]
      obtain ⟨hg, hb⟩ := List.append_inj (e1.symm.trans f1) hl
      cases hb
      rw [f2, ← hl] at f5 f7
      exact ⟨good, bad, rest, g, pre, p, post, b', e1, e2, f4, f5, f7, e5⟩

/-- A text for a character in the second record. -/
def textForChar (name : PyStr) : Rec :=
  [(name, .scalar { name := name, value := .str (py! "a"), dataType := 1, fmt := .c })]

/-- Texts as those of Python for characters up to 127, and every value a number. -/
def someShown : Shown := ⟨fun _ => false, fun _ _ => py! "<class 'int'>"⟩

example : ∃ w', (writerOf [Sample.record2, textForChar (py! "x")] (py! "f")).writeStreamM someShown noRecords =
    (.error ⟨.dmapCharError (py! "x") 1, some (py! "Error: For field ('x',) at record number 1 is a string type trying to be written in as a char. DMAP treats char as int8. Please revise this field type")⟩, w') :=
  ⟨_, Prod.ext (by decide +kernel) rfl⟩

example : ∃ w', (writerOf [Sample.record2, [(py! "x", .other)]] (py! "f")).writeStreamM someShown noRecords =
    (.error ⟨.dmapTypeError 1, some (py! "Error: <class 'int'> does not match the DMAP data type structures: DmapScalar, DmapArray. Please make sure you have the correct Data Structure. Failed at record 1")⟩, w') :=
  ⟨_, Prod.ext (by decide +kernel) rfl⟩

/-- **C78.** Without records, or without a name, the text says so. -/
theorem C78_nothing (sh : Shown) (fn fn' : PyStr) (fs : FileSys) (b : Bytes) (n : Nat) :
    (Writer.writeStreamM sh ⟨fn, true, [], b, n⟩ noRecords).1 =
      .error ⟨.dmapDataError, some (fillIn (py! " The following error for {} was raised: DMap record is empty there is nothing to write.") [fn])⟩ ∧
    (Writer.writeDmapM sh ⟨[], true, [], b, n⟩ fs []).1 = .error ⟨.filenameRequired, some (py! "Error: Filename is required")⟩ ∧
    (fn' ≠ [] → (Writer.writeDmapM sh ⟨fn, true, [], b, n⟩ fs fn').1 =
      .error ⟨.dmapDataError, some (fillIn (py! " The following error for {} was raised: DMap record is empty there is nothing to write.") [fn'])⟩) := by
  refine ⟨?_, rfl, fun h => ?_⟩
  · simp [Writer.writeStreamM, Writer.isEmptyList, checkDmapDict, noRecords, plainly, Writer.emptyRecordCheckM, dataText, fillIn]
  · simp [Writer.writeDmapM, Writer.filenameCheck, h, Writer.writeStreamM, Writer.isEmptyList, checkDmapDict, noRecords, plainly,
      Writer.emptyRecordCheckM, dataText, fillIn]

/-- **C78.** The text for a character tells name and record without doubt. -/
theorem C78_char (sh : Shown) (name name' : PyStr) (n n' : Nat) (h : charErrorText sh name n = charErrorText sh name' n') :
    name = name' ∧ n = n' := by
  unfold charErrorText at h
  simp only [List.append_assoc] at h
  have h := List.append_cancel_left (List.append_cancel_left h)
  obtain ⟨h1, h2⟩ := reprStr_telling sh.printable _ _ _ _ h
  have h2 := List.append_cancel_left (List.append_cancel_left h2)
  exact ⟨h1, (digits_split (x := ' ') (y := ' ') (by decide) (by decide) h2).1⟩

/-- **C78.** The texts for other classes and for arrays of strings tell the record without doubt. -/
theorem C78_record (fn fn' type type' : PyStr) (n n' : Nat) :
    (typeErrorText type n = typeErrorText type' n' → type = type' ∧ n = n') ∧
    (stringArrayText fn n = stringArrayText fn' n' → fn = fn' ∧ n = n') := by
  constructor
  · intro h
    unfold typeErrorText at h
    have hn : n = n' := (digits_last (x := ' ') (y := ' ')
      (a := py! "Error: " ++ type ++ py! " does not match the DMAP data type structures: DmapScalar, DmapArray." ++
        py! " Please make sure you have the correct Data Structure. Failed at record")
      (b := py! "Error: " ++ type' ++ py! " does not match the DMAP data type structures: DmapScalar, DmapArray." ++
        py! " Please make sure you have the correct Data Structure. Failed at record") (by decide) (by decide)
      (by simpa [decText] using h)).1
    subst hn
    exact ⟨List.append_cancel_left (List.append_cancel_right (List.append_cancel_right (List.append_cancel_right h))), rfl⟩
  · intro h
    unfold stringArrayText dataText at h
    have hn : n = n' := (digits_last (x := ' ') (y := ' ')
      (a := py! " The following error for " ++ fn ++ py! " was raised: " ++
        py! "Error: Trying to read array of strings. Currently not implemented. Failed at record")
      (b := py! " The following error for " ++ fn' ++ py! " was raised: " ++
        py! "Error: Trying to read array of strings. Currently not implemented. Failed at record") (by decide) (by decide)
      (by simpa [decText] using h)).1
    subst hn
    exact ⟨List.append_cancel_left (List.append_cancel_right (List.append_cancel_right h)), rfl⟩

/-- An array of texts. -/
def textArray (name : PyStr) : Rec :=
  [(name, .array { name := name, value := ⟨.other 4 true, [1], [[0, 0, 0, 0]]⟩, dataType := 9, fmt := .s, dimension := 1, shape := [1] })]

/-- **C78** is violated: the text does not tell the field if it is no DMAP structure or an array of strings. -/
theorem C78_field_violation (sh : Shown) (fn name name' : PyStr) (hs : sh.type 0 name = sh.type 0 name') :
    ((writerOf [[(name, .other)]] fn).writeStreamM sh noRecords).1 = ((writerOf [[(name', .other)]] fn).writeStreamM sh noRecords).1 ∧
    ((writerOf [textArray name] fn).writeStreamM sh noRecords).1 = ((writerOf [textArray name'] fn).writeStreamM sh noRecords).1 ∧
    ∃ t, ((writerOf [textArray name] fn).writeStreamM sh noRecords).1 = .error ⟨.dmapDataError, some t⟩ := by
  refine ⟨?_, rfl, _, rfl⟩
  show (Except.error ⟨.dmapTypeError 0, some (typeErrorText (sh.type 0 name) 0)⟩ : Except Exc Bytes) =
    .error ⟨.dmapTypeError 0, some (typeErrorText (sh.type 0 name') 0)⟩
  rw [hs]

/-- **C78** is violated: the text does not tell the file if a character is a text or a field is no DMAP structure. -/
theorem C78_file_violation (sh : Shown) (fn fn' name : PyStr) :
    ((writerOf [textForChar name] fn).writeStreamM sh noRecords).1 = ((writerOf [textForChar name] fn').writeStreamM sh noRecords).1 ∧
    ((writerOf [[(name, .other)]] fn).writeStreamM sh noRecords).1 = ((writerOf [[(name, .other)]] fn').writeStreamM sh noRecords).1 ∧
    ∃ t t', ((writerOf [textForChar name] fn).writeStreamM sh noRecords).1 = .error ⟨.dmapCharError name 0, some t⟩ ∧
      ((writerOf [[(name, .other)]] fn).writeStreamM sh noRecords).1 = .error ⟨.dmapTypeError 0, some t'⟩ :=
  ⟨rfl, rfl, _, _, rfl, rfl⟩

/-- **C78** is violated: the name of the field is shown as a tuple, for every field. -/
theorem C78_name_violation (sh : Shown) (fn name : PyStr) :
    ∃ a b, ((writerOf [textForChar name] fn).writeStreamM sh noRecords).1 =
      .error ⟨.dmapCharError name 0, some (a ++ py! "(" ++ reprStr sh.printable name ++ py! ",)" ++ b)⟩ := by
  refine ⟨py! "Error: For field ", py! " at record number " ++ decText 0 ++
    py! " is a string type trying to be written in as a char. DMAP treats char as int8. Please revise this field type", ?_⟩
  show (Except.error ⟨.dmapCharError name 0, some (charErrorText sh name 0)⟩ : Except Exc Bytes) = _
  simp [charErrorText]

end Verif
