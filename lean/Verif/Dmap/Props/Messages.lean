import Verif.Dmap.Lemmas.Messages
import Verif.Dmap.Props.ReadState
/-!
# C70: texts of exceptions when reading
-/
namespace Verif
open Spec

theorem told_some {fn : PyStr} {rn : Nat} {e : Exc} (h : Told fn rn e) {cls : PyStr} (hc : className e.err = some cls) :
    ∃ t, e.text = some t ∧ TellsRecord fn cls rn t ∧ (cls ≠ py! "CursorError" → TellsFile fn t) := by
  unfold Told at h
  split at h
  · rw [h] at hc; cases hc
  · rename_i t ht
    obtain ⟨cls', h1, h2, h3⟩ := h
    rw [h1] at hc
    cases hc
    exact ⟨t, ht, h2, fun hn => h3.resolve_left hn⟩

theorem readRecords_withText (cfg : NpCfg) (fn : PyStr) (r : Reader) :
    untold (r.readRecordsM cfg fn) = r.readRecords cfg ∧
      ((∀ e, dmap2dict cfg (r.readLoop cfg (r.buf.length - r.cursor).toNat).2.dmapRecords = .error e → className e = none) →
        ∀ e r', r.readRecordsM cfg fn = (.error e, r') → Told fn r'.recNum e) := by
  obtain ⟨h1, h2⟩ := readLoop_withText cfg fn (r.buf.length - r.cursor).toNat r
  unfold Reader.readRecordsM Reader.readRecords
  rw [← h1]
  generalize r.readLoopM cfg fn (r.buf.length - r.cursor).toNat = z at h2 ⊢
  rcases z with ⟨x, r'⟩
  cases x with
  | error e => exact ⟨rfl, fun _ e' c h => by cases h; exact h2 _ _ rfl⟩
  | ok u =>
    by_cases hc : r'.cursor > r'.buf.length
    · simp only [untold, if_pos hc]
      exact ⟨trivial, fun _ e' c h => by cases h; exact mismatch_told _ _ _⟩
    · simp only [untold, if_neg hc]
      cases hd : dmap2dict cfg r'.dmapRecords with
      | ok ds => exact ⟨rfl, nofun⟩
      | error e => exact ⟨rfl, fun hp e' c h => by cases h; exact hp e rfl⟩

/-- **C70** The reader with texts is the reader of the other theorems: same records, same exceptions, same object afterwards. -/
theorem C70_agrees (cfg : NpCfg) (fn : PyStr) (bs : Bytes) :
    untold ((freshReader bs).readRecordsM cfg fn) = (freshReader bs).readRecords cfg :=
  (readRecords_withText cfg fn _).1

/-- **C70** If reading raises an exception of pyDARNio, for any content: its text tells the number of records read before and,
except for a `CursorError`, the name of the file. -/
theorem C70_number_partial (cfg : NpCfg) (fn : PyStr) {bs : Bytes} {e : Exc} {rd' : Reader}
    (h : (freshReader bs).readRecordsM cfg fn = (.error e, rd')) {cls : PyStr} (hc : className e.err = some cls) :
    ∃ t, e.text = some t ∧ TellsRecord fn cls rd'.dmapRecords.length t ∧ (cls ≠ py! "CursorError" → TellsFile fn t) := by
  obtain ⟨h1, h2⟩ := readRecords_withText cfg fn (freshReader bs)
  rw [h] at h1
  have h3 := C68_number cfg h1.symm
  rw [← h3.1]
  refine told_some (h2 (fun e' he => ?_) _ _ h) hc
  rcases hl : (freshReader bs).readLoop cfg ((freshReader bs).buf.length - (freshReader bs).cursor).toNat with ⟨x, r1⟩
  rw [hl] at he
  cases x with
  | ok u =>
    have hs := readLoop_shaped cfg _ _ _ _ (by simp [freshReader]) (by simp [freshReader]) (by simp [freshReader]) hl
    rw [(dmap2dict_err hs he).1]
    rfl
  | error e2 =>
    have hs := readLoop_shaped cfg _ _ _ _ (by simp [freshReader]) (by simp [freshReader]) (by simp [freshReader]) hl
    rw [(dmap2dict_err hs he).1]
    rfl

/-- **C70** Only the exceptions of Python itself have no text of pyDARNio. -/
theorem C70_texts (cfg : NpCfg) (fn : PyStr) {bs : Bytes} {e : Exc} {rd' : Reader}
    (h : (freshReader bs).readRecordsM cfg fn = (.error e, rd')) : e.text = none ↔ className e.err = none := by
  constructor
  · intro ht
    cases hc : className e.err with
    | none => rfl
    | some cls =>
      obtain ⟨t, h1, -⟩ := C70_number_partial cfg fn h hc
      rw [ht] at h1
      cases h1
  · intro hc
    cases ht : e.text with
    | none => rfl
    | some t =>
      obtain ⟨h1, h2⟩ := readRecords_withText cfg fn (freshReader bs)
      have hd : Told fn rd'.recNum e := by
        refine h2 (fun e' he => ?_) _ _ h
        rcases hl : (freshReader bs).readLoop cfg ((freshReader bs).buf.length - (freshReader bs).cursor).toNat with ⟨x, r1⟩
        rw [hl] at he
        have hs := readLoop_shaped cfg _ _ _ _ (by simp [freshReader]) (by simp [freshReader]) (by simp [freshReader]) hl
        rw [(dmap2dict_err hs he).1]
        rfl
      unfold Told at hd
      rw [ht] at hd
      obtain ⟨cls, h3, -⟩ := hd
      rw [hc] at h3
      cases h3

theorem tellsRecord_unique {fn cls t : PyStr} {n m : Nat} (h1 : TellsRecord fn cls n t) (h2 : TellsRecord fn cls m t) : n = m := by
  obtain ⟨a, ha, -⟩ := h1
  obtain ⟨b, hb, -⟩ := h2
  rw [ha] at hb
  have h := List.append_cancel_right hb
  simp only [digits, Nat.toString_eq_ofList_toDigits, String.toList_ofList] at h
  exact (digits_last (by decide) (by decide) h).1

/-- **C70** The text tells the record without doubt: if two files of the same name, of any content, fail with the same class of
exception and the same text, the same number of records was read. -/
theorem C70_same_text (cfg : NpCfg) (fn : PyStr) {bs bs' : Bytes} {e e' : Exc} {rd rd' : Reader}
    (h : (freshReader bs).readRecordsM cfg fn = (.error e, rd)) (h' : (freshReader bs').readRecordsM cfg fn = (.error e', rd'))
    {cls : PyStr} (hc : className e.err = some cls) (hc' : className e'.err = some cls) (ht : e.text = e'.text) :
    rd.dmapRecords.length = rd'.dmapRecords.length := by
  obtain ⟨t, h1, h2, -⟩ := C70_number_partial cfg fn h hc
  obtain ⟨t', h3, h4, -⟩ := C70_number_partial cfg fn h' hc'
  rw [h1, h3] at ht
  cases ht
  exact tellsRecord_unique h2 h4

/-- **C70** The text for an unknown type tells type and name of the field. -/
theorem C70_data_type (fn name name' : PyStr) (code code' rn rn' : Nat)
    (h : dataTypeText fn name code rn = dataTypeText fn name' code' rn') : name = name' ∧ code = code' ∧ rn = rn' := by
  have hn : rn = rn' := by
    have h1 := (dataType_told fn rn name code)
    have h2 := (dataType_told fn rn' name' code')
    rw [← h] at h2
    obtain ⟨t1, a1, a2, -⟩ := told_some h1 rfl
    obtain ⟨t2, b1, b2, -⟩ := told_some h2 rfl
    cases a1
    cases b1
    exact tellsRecord_unique a2 b2
  subst hn
  unfold dataTypeText at h
  have h := List.append_cancel_right (List.append_cancel_right (List.append_cancel_right h))
  have h : Nat.toDigits 10 code ++ ' ' :: ('f' :: 'o' :: 'r' :: ' ' :: (name ++ py! " at record ")) =
      Nat.toDigits 10 code' ++ ' ' :: ('f' :: 'o' :: 'r' :: ' ' :: (name' ++ py! " at record ")) := by
    simpa [decText] using h
  obtain ⟨h1, h2⟩ := digits_split (by decide) (by decide) h
  refine ⟨?_, h1, rfl⟩
  simp only [List.cons.injEq, true_and] at h2
  exact List.append_cancel_right h2

/-- **C70** violated: the text of a `CursorError` does not tell the file. -/
theorem C70_file_violation : ∃ t rd', (freshReader shortBlock).readRecordsM numpy1 (py! "a.rawacf") =
    (.error ⟨.cursorError, some t⟩, rd') ∧ ¬ TellsFile (py! "a.rawacf") t :=
  ⟨py! "Error: Cursor is at 42 andit needs to be 41. Failed at record 0", _, rfl, fun h =>
    absurd (h.mem (a := 'w') (by decide)) (by decide)⟩

/-- **C70** violated: for a record after the first, a `CursorError` tells a wrong position.  The second block ends at 83. -/
theorem C70_position_violation : ∃ rd', (freshReader (Sample.bytes2 ++ shortBlock)).readRecordsM numpy1 (py! "a.rawacf") =
    (.error ⟨.cursorError, some (py! "Error: Cursor is at 84 andit needs to be 41. Failed at record 1")⟩, rd') := ⟨_, by rfl⟩

/-- **C70** violated: the integrity test tells record 0, whichever block is bad. -/
theorem C70_integrity_violation (fn : PyStr) {bs : Bytes} {e : Exc} {rd' : Reader}
    (h : (freshReader bs).testIntegrityM fn = (.error e, rd')) {cls : PyStr} (hc : className e.err = some cls) :
    ∃ t, e.text = some t ∧ TellsRecord fn cls 0 t := by
  unfold Reader.testIntegrityM at h
  rw [if_neg (by simp [freshReader])] at h
  have hl := (integrityLoop_withText fn bs 0 bs.length 0 0).2
  generalize hz : integrityLoopM fn (freshReader bs).buf (freshReader bs).recNum (freshReader bs).buf.length 0 (freshReader bs).cursor = z at h
  have hz : integrityLoopM fn bs 0 bs.length 0 0 = z := hz
  rcases z with ⟨x, c⟩
  cases x with
  | error e' =>
    cases h
    obtain ⟨t, h1, h2, -⟩ := told_some (hl _ _ hz) hc
    exact ⟨t, h1, h2⟩
  | ok total =>
    simp only at h
    split at h
    · cases h; cases hc
    · cases h

theorem C70_integrity_agrees (fn : PyStr) (bs : Bytes) : untold ((freshReader bs).testIntegrityM fn) = (freshReader bs).testIntegrity := by
  unfold Reader.testIntegrityM Reader.testIntegrity
  split
  · rfl
  · rw [← (integrityLoop_withText fn _ _ _ _ _).1]
    generalize integrityLoopM fn (freshReader bs).buf (freshReader bs).recNum (freshReader bs).buf.length 0 (freshReader bs).cursor = z
    rcases z with ⟨x, c⟩
    cases x with
    | error e => rfl
    | ok total =>
      by_cases ht : total ≠ (freshReader bs).buf.length
      · simp only [untold, if_pos ht]
      · simp only [untold, if_neg ht]

example : ∃ rd', (freshReader (Sample.bytes2 ++ [1, 0, 1, 0, 0, 0, 0, 0])).readRecordsM numpy1 (py! "a.rawacf") =
    (.error ⟨.zeroByte 1, some (py! "Error: a.rawacf contains an block size 0 == 0 at record 1.")⟩, rd') := ⟨_, rfl⟩

example : TellsRecord (py! "a.rawacf") (py! "ZeroByteError") 1 (py! "Error: a.rawacf contains an block size 0 == 0 at record 1.") :=
  ⟨py! "Error: a.rawacf contains an block size 0 == 0 at record", by decide +kernel,
    .inl ⟨py! "Error: a.rawacf contains an block size 0 == 0 at", by decide +kernel⟩⟩

example : ∃ rd', (freshReader (Sample.bytes2 ++ [1, 0, 1, 0, 0, 0, 0, 0])).testIntegrityM (py! "a.rawacf") =
    (.error ⟨.zeroByte 0, some (py! "Error: a.rawacf contains an block size 0 == 0 at record 0.")⟩, rd') := ⟨_, rfl⟩

end Verif
