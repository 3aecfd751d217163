import Verif.Dmap.Lemmas.Header
import Verif.Dmap.Sample
/-!
# C07, C08, C09, C22: corrupt files and independence
-/
namespace Verif
open Spec

/-! ## C07 -/

/-- **C07** (partial: no negative `slist` dimension in the bytes.)  Replacing the four identifier bytes
of a record, at any offset of any buffer, changes neither the result, nor the exception, nor the
cursor of `read_record`. -/
theorem C07_identifier_partial (cfg : NpCfg) (rn : Nat) {pre ident ident' post : Bytes}
    (h1 : ident.length = 4) (h2 : ident'.length = 4) (hneg : ¬ NegSlist (pre ++ ident ++ post)) :
    readRecord cfg (pre ++ ident ++ post) rn pre.length =
      readRecord cfg (pre ++ ident' ++ post) rn pre.length := by
  apply readRecord_same _ hneg
  constructor
  · simp [h1, h2]
  · have a1 : pre.length + 4 = (pre ++ ident).length := by simp [h1]
    have a2 : pre.length + 4 = (pre ++ ident').length := by simp [h2]
    rw [a1, List.drop_left, ← a1, a2, List.drop_left]

example : readRecord numpy1 ([] ++ [1, 0, 1, 0] ++ Sample.bytes2.drop 4) 0 0 =
    readRecord numpy1 ([] ++ [255, 255, 255, 255] ++ Sample.bytes2.drop 4) 0 0 :=
  C07_identifier_partial numpy1 0 (pre := []) rfl rfl Sample.bytes2_plain

/-- The rest of a record whose `slist` has the dimension −32, moving the cursor back to byte 3. -/
def backToIdentifier : Bytes :=
  [35, 0, 0, 0, 1, 0, 0, 0, 2, 0, 0, 0, 97, 0, 16, 7,
   115, 108, 105, 115, 116, 0, 16, 1, 0, 0, 0, 224, 255, 255, 255]

/-- **C07** fails in general: a negative `slist` dimension makes the reader decode the identifier
as a field, so the identifier decides which exception is raised. -/
theorem C07_identifier_violation : ∃ i1 i2 post : Bytes, i1.length = 4 ∧ i2.length = 4 ∧
    readRecord numpy1 (i1 ++ post) 0 0 ≠ readRecord numpy1 (i2 ++ post) 0 0 :=
  ⟨[1, 0, 1, 0], [1, 0, 1, 65], backToIdentifier, rfl, rfl, by decide +kernel⟩

/-! ## C08 -/

/-- **C08** (partial: undocumented exceptions do occur, see below.)  Reading any byte string raises
only the documented exceptions, `IndexError`, `UnicodeDecodeError`, `ValueError`, `struct.error`
and (with NumPy 2, or after a negative `slist` dimension) `OverflowError`. -/
theorem C08_exceptions_partial (cfg : NpCfg) {bs : Bytes} {e : Err} (h : readFile cfg bs = .error e) :
    (bs = [] ∧ e = .emptyFile) ∨ Documented e ∨ e = .indexError ∨ e = .unicodeDecodeError ∨
      e = .valueError ∨ e = .structError ∨ (e = .overflowError ∧ (cfg.intWraps = false ∨ NegSlist bs)) := by
  by_cases hb : bs = []
  · subst hb
    left
    rw [readFile, reader_new_nil] at h
    cases h
    exact ⟨rfl, rfl⟩
  · right
    unfold readFile at h
    rw [reader_new hb] at h
    simp only at h
    unfold Reader.readRecords at h
    cases hl : (freshReader bs).readLoop cfg ((freshReader bs).buf.length - (freshReader bs).cursor).toNat with
    | mk x r1 =>
      rw [hl] at h
      cases x with
      | error e' =>
        cases h
        have := readLoop_err cfg _ _ r1 _ (Nat.le_refl _) hl
        cases this with
        | doc hd => exact .inl hd
        | index => simp
        | unicode => simp
        | value => simp
        | struct => simp
        | overflow =>
          refine .inr (.inr (.inr (.inr (.inr ⟨rfl, .inr (Classical.byContradiction fun hneg => ?_)⟩))))
          have := readLoop_err_in cfg _ _ r1 _ hneg ⟨by simp [freshReader], by simp [freshReader]⟩
            (Nat.le_refl _) hl
          cases this with
          | doc hd => cases hd
      | ok u =>
        simp only at h
        by_cases hc : r1.cursor > r1.buf.length
        · rw [if_pos hc] at h
          cases h
          exact .inl (.mismatch _)
        · rw [if_neg hc] at h
          have hsh := readLoop_shaped cfg _ _ r1 _ (by simp [freshReader]) (by simp [freshReader])
            (by simp [freshReader]) hl
          cases hd : dmap2dict cfg r1.dmapRecords with
          | ok ds => rw [hd] at h; cases h
          | error e' =>
            rw [hd] at h
            cases h
            have := dmap2dict_err hsh hd
            simp [this.1, this.2]

/-- **C08** `struct.error` needs a negative `slist` dimension. -/
theorem C08_no_struct_error_partial (cfg : NpCfg) {bs : Bytes} (hneg : ¬ NegSlist bs) :
    readFile cfg bs ≠ .error .structError := by
  intro h
  by_cases hb : bs = []
  · subst hb; cases h
  · unfold readFile at h
    rw [reader_new hb] at h
    simp only at h
    unfold Reader.readRecords at h
    cases hl : (freshReader bs).readLoop cfg ((freshReader bs).buf.length - (freshReader bs).cursor).toNat with
    | mk x r1 =>
      rw [hl] at h
      cases x with
      | error e' =>
        cases h
        have := readLoop_err_in cfg _ _ r1 _ hneg ⟨by simp [freshReader], by simp [freshReader]⟩
          (Nat.le_refl _) hl
        cases this with
        | doc hd => cases hd
      | ok u =>
        simp only at h
        by_cases hc : r1.cursor > r1.buf.length
        · rw [if_pos hc] at h; cases h
        · rw [if_neg hc] at h
          have hsh := readLoop_shaped cfg _ _ r1 _ (by simp [freshReader]) (by simp [freshReader])
            (by simp [freshReader]) hl
          cases hd : dmap2dict cfg r1.dmapRecords with
          | ok ds => rw [hd] at h; cases h
          | error e' =>
            rw [hd] at h
            cases h
            have := dmap2dict_err hsh hd
            cases this.1

example : ¬ NegSlist (Sample.bytes2.take 30) := Sample.not_negSlist (by decide)

/-- **C08** Violation: an unterminated name raises `IndexError`. -/
theorem C08_violation_index : ∃ bs, readFile numpy2 bs = .error .indexError :=
  ⟨[0, 0, 0, 0, 17, 0, 0, 0, 1, 0, 0, 0, 1, 0, 0, 0, 97], by decide +kernel⟩

/-- **C08** Violation: a name that is not UTF-8 raises `UnicodeDecodeError`. -/
theorem C08_violation_unicode : ∃ bs, readFile numpy2 bs = .error .unicodeDecodeError :=
  ⟨[0, 0, 0, 0, 18, 0, 0, 0, 1, 0, 0, 0, 1, 0, 0, 0, 255, 0], by decide +kernel⟩

/-- **C08** Violation: an array running over the end raises `ValueError`. -/
theorem C08_violation_value : ∃ bs, readFile numpy2 bs = .error .valueError :=
  ⟨[0, 0, 0, 0, 32, 0, 0, 0, 1, 0, 0, 0, 1, 0, 0, 0, 97, 0, 16, 7,
    98, 0, 2, 1, 0, 0, 0, 9, 0, 0, 0, 0], by decide +kernel⟩

/-- **C08** Violation: a negative `slist` dimension can raise `struct.error`. -/
theorem C08_violation_struct : ∃ bs, readFile numpy2 bs = .error .structError :=
  ⟨[1, 0, 1, 0, 35, 0, 0, 0, 1, 0, 0, 0, 2, 0, 0, 0, 97, 0, 16, 7,
    115, 108, 105, 115, 116, 0, 16, 1, 0, 0, 0, 219, 255, 255, 255], by decide +kernel⟩

/-- **C08** Violation: a char above 127 raises `OverflowError` with NumPy 2. -/
theorem C08_violation_overflow : ∃ bs, readFile numpy2 bs = .error .overflowError :=
  ⟨[0, 0, 0, 0, 32, 0, 0, 0, 1, 0, 0, 0, 1, 0, 0, 0, 97, 0, 1, 200,
    98, 0, 16, 1, 0, 0, 0, 1, 0, 0, 0, 5], by decide +kernel⟩

/-- **C08** Violation: negative `slist` dimensions whose product does not fit 64 bits raise
`OverflowError` with every version of NumPy. -/
theorem C08_violation_overflow_slist : ∃ bs, NegSlist bs ∧ ∀ cfg, readFile cfg bs = .error .overflowError :=
  ⟨[0, 0, 0, 0, 43, 0, 0, 0, 1, 0, 0, 0, 1, 0, 0, 0, 97, 0, 1, 5,
    115, 108, 105, 115, 116, 0, 1, 3, 0, 0, 0, 0, 0, 0, 128, 0, 0, 0, 128, 0, 0, 0, 128],
   ⟨[0, 0, 0, 0, 43, 0, 0, 0, 1, 0, 0, 0, 1, 0, 0, 0, 97, 0, 1, 5], [], 1, [-2 ^ 31, -2 ^ 31, -2 ^ 31],
    by decide +kernel, -2 ^ 31, by simp, by decide, by decide⟩,
   fun ⟨_, _⟩ => by rfl⟩

/-- A record whose `slist` has dimensions 64, …, 64 (`k` times) and zero. -/
def emptySlist (k : UInt8) : Bytes :=
  [0, 0, 0, 0, 35 + 4 * k, 0, 0, 0, 1, 0, 0, 0, 1, 0, 0, 0, 97, 0, 1, 5,
    115, 108, 105, 115, 116, 0, 1, 1 + k, 0, 0, 0] ++
    ((List.replicate k.toNat [64, 0, 0, 0]).flatten ++ [0, 0, 0, 0])

/-- **C08** Violation: an empty `slist` of a shape that is too big for NumPy raises `ValueError`,
though no byte of data is missing. -/
theorem C08_violation_big_slist :
    readFile numpy2 (emptySlist 11) = .error .valueError ∧ ∃ r, readFile numpy2 (emptySlist 10) = .ok r :=
  ⟨by decide +kernel, _, by rfl⟩

/-! ## C09 -/

/-- A record header with arbitrary signed fields. -/
def header (ident : Bytes) (n ns na : Int) : Bytes :=
  ident ++ (intLE 4 n ++ intLE 4 ns ++ intLE 4 na)

/-- A signed 32-bit integer. -/
def Int32 (v : Int) : Prop := -2 ^ 31 ≤ v ∧ v < 2 ^ 31

/-- **C09** Malformed headers, for the record after any whole records, whatever follows:
the declared size exceeds the remaining bytes, is zero or negative, the scalar count is zero or negative,
the array count is zero or negative, or the counts together exceed the size.  The error names the
number of the record. -/
theorem C09_header (cfg : NpCfg) {bl : List Block} {pre : Bytes} (hpre : FileEnc cfg.maxDims bl pre)
    {ident rest : Bytes} (hid : ident.length = 4) {n ns na : Int} (h1 : Int32 n) (h2 : Int32 ns)
    (h3 : Int32 na) :
    (n > 16 + rest.length →
      readFile cfg (pre ++ header ident n ns na ++ rest) = .error (.mismatchByte bl.length)) ∧
    (n = 0 → readFile cfg (pre ++ header ident n ns na ++ rest) = .error (.zeroByte bl.length)) ∧
    (n < 0 → readFile cfg (pre ++ header ident n ns na ++ rest) = .error (.negativeByte bl.length)) ∧
    (0 < n → n ≤ 16 + rest.length →
      (ns = 0 → readFile cfg (pre ++ header ident n ns na ++ rest) = .error (.zeroByte bl.length)) ∧
      (ns < 0 → readFile cfg (pre ++ header ident n ns na ++ rest) = .error (.negativeByte bl.length)) ∧
      (0 < ns →
        (na = 0 → readFile cfg (pre ++ header ident n ns na ++ rest) = .error (.zeroByte bl.length)) ∧
        (na < 0 → readFile cfg (pre ++ header ident n ns na ++ rest) = .error (.negativeByte bl.length)) ∧
        (0 < na → n < ns + na →
          readFile cfg (pre ++ header ident n ns na ++ rest) = .error (.mismatchByte bl.length)))) := by
  have s1 : signedOk 4 n := signedOk_four.2 h1
  have s2 : signedOk 4 ns := signedOk_four.2 h2
  have s3 : signedOk 4 na := signedOk_four.2 h3
  have hat : At (pre ++ header ident n ns na ++ rest) ((pre.length : Int) + 4)
      (intLE 4 n ++ intLE 4 ns ++ intLE 4 na) :=
    ⟨pre ++ ident, rest, by simp only [header, List.append_assoc], by simp [hid]⟩
  have hrec := readRecord_header cfg _ bl.length pre.length n ns na s1 s2 s3 hat
  have hlen : ((pre ++ header ident n ns na ++ rest).length : Int) - pre.length = 16 + rest.length := by
    simp only [header, List.length_append, length_intLE, hid]; omega
  rw [hlen] at hrec
  have stop : ∀ e c, readRecord cfg (pre ++ header ident n ns na ++ rest) bl.length pre.length =
      (.error e, c) → readFile cfg (pre ++ header ident n ns na ++ rest) = .error e := by
    intro e c he
    refine readFile_stops hpre ⟨[], header ident n ns na ++ rest, by simp, rfl⟩ ?_ he
    simp only [header, List.length_append, length_intLE, hid]; omega
  refine ⟨fun c1 => ?_, fun c1 => ?_, fun c1 => ?_, fun c1 c2 => ⟨fun c3 => ?_, fun c3 => ?_, fun c3 =>
    ⟨fun c4 => ?_, fun c4 => ?_, fun c4 c5 => ?_⟩⟩⟩
  · exact stop _ _ (by rw [hrec, if_pos c1])
  · exact stop _ _ (by rw [hrec, if_neg (by omega), if_pos c1])
  · exact stop _ _ (by rw [hrec, if_neg (by omega), if_neg (by omega), if_pos c1])
  · exact stop _ _ (by rw [hrec, if_neg (by omega), if_neg (by omega), if_neg (by omega), if_pos c3])
  · exact stop _ _ (by rw [hrec, if_neg (by omega), if_neg (by omega), if_neg (by omega), if_neg (by omega),
      if_pos c3])
  · exact stop _ _ (by rw [hrec, if_neg (by omega), if_neg (by omega), if_neg (by omega), if_neg (by omega),
      if_neg (by omega), if_pos c4])
  · exact stop _ _ (by rw [hrec, if_neg (by omega), if_neg (by omega), if_neg (by omega), if_neg (by omega),
      if_neg (by omega), if_neg (by omega), if_pos c4])
  · exact stop _ _ (by rw [hrec, if_neg (by omega), if_neg (by omega), if_neg (by omega), if_neg (by omega),
      if_neg (by omega), if_neg (by omega), if_neg (by omega), if_pos (by omega)])

example : readFile numpy1 ([] ++ header [9, 9, 9, 9] 24 3 (-1) ++ [1, 2, 3, 4, 5, 6, 7, 8]) =
    .error (.negativeByte 0) :=
  (((C09_header numpy1 (bl := []) .nil (ident := [9, 9, 9, 9]) (rest := [1, 2, 3, 4, 5, 6, 7, 8]) rfl
    (n := 24) (ns := 3) (na := -1) ⟨by decide, by decide⟩ ⟨by decide, by decide⟩
    ⟨by decide, by decide⟩).2.2.2 (by decide) (by decide)).2.2 (by decide)).2.1 (by decide)

/-- A type code that the format does not define. -/
def UnknownCode (n : Nat) : Prop := n < 256 ∧ n ∉ [0, 1, 2, 3, 4, 8, 9, 10, 16, 17, 18, 19]

/-- **C09** An unknown type code in a scalar, after any whole records and any good scalars of the
record, raises `DmapDataTypeError` with the field name, the code and the record number. -/
theorem C09_scalar_code (cfg : NpCfg) {bl : List Block} {pre : Bytes} (hpre : FileEnc cfg.maxDims bl pre)
    {ident rest : Bytes} (hid : ident.length = 4) {n ns na : Nat} {ss : List DmapScalar} {sb : Bytes}
    (hs : SeqEnc ScalarEnc ss sb) (hns : ss.length < ns) (hna : 0 < na) (hsum : ns + na ≤ n)
    {name : PyStr} (hname : NulFree name) {t : Nat} (ht : UnknownCode t) (hn : n < 2 ^ 31)
    (hfit : n ≤ 16 + (sb ++ (encStr name ++ [UInt8.ofNat t]) ++ rest).length) :
    readFile cfg (pre ++ header ident n ns na ++ (sb ++ (encStr name ++ [UInt8.ofNat t]) ++ rest)) =
      .error (.dmapDataType name t bl.length) := by
  have s1 : signedOk 4 n := signedOk_four.2 ⟨by omega, by omega⟩
  have s2 : signedOk 4 ns := signedOk_four.2 ⟨by omega, by omega⟩
  have s3 : signedOk 4 na := signedOk_four.2 ⟨by omega, by omega⟩
  generalize hbuf : pre ++ header ident n ns na ++ (sb ++ (encStr name ++ [UInt8.ofNat t]) ++ rest) = buf
  have hat : At buf ((pre.length : Int) + 4) (intLE 4 n ++ intLE 4 ns ++ intLE 4 na) :=
    ⟨pre ++ ident, sb ++ (encStr name ++ [UInt8.ofNat t]) ++ rest,
      by rw [← hbuf]; simp only [header, List.append_assoc], by simp [hid]⟩
  have hrec := readRecord_header cfg buf bl.length pre.length n ns na s1 s2 s3 hat
  have hlen : (buf.length : Int) - pre.length =
      16 + (sb ++ (encStr name ++ [UInt8.ofNat t]) ++ rest).length := by
    rw [← hbuf]
    simp only [header, List.length_append, length_intLE, hid]; omega
  rw [hlen, if_neg (by omega), if_neg (by omega), if_neg (by omega), if_neg (by omega), if_neg (by omega),
    if_neg (by omega), if_neg (by omega), if_neg (by omega)] at hrec
  have hcode : ∀ fm, code fm ≠ t := by
    intro fm hf
    apply ht.2
    rw [← hf]
    cases fm <;> decide
  have hat1 : At buf ((pre.length : Int) + 16) (sb ++ (encStr name ++ [UInt8.ofNat t])) :=
    ⟨pre ++ header ident n ns na, rest, by rw [← hbuf]; simp only [List.append_assoc],
      by simp only [header, List.length_append, length_intLE, hid]; omega⟩
  obtain ⟨a1, a2⟩ := at_append.1 hat1
  obtain ⟨c', hc⟩ := readScalar_unknown bl.length hname ht.1 hcode a2
  have hstop := readScalars_stop bl.length hs a1 hc (ns - ss.length - 1) []
  rw [show ss.length + (ns - ss.length - 1 + 1) = ns by omega] at hstop
  refine readFile_stops (c := c') hpre ⟨[], _, by rw [← hbuf, List.nil_append, List.append_assoc], rfl⟩ ?_
    (hrec.trans ?_)
  · omega
  · unfold readBody
    simp only [Int.toNat_natCast]
    rw [rd_bind_stop hstop]

example : readFile numpy2 ([] ++ header [1, 0, 1, 0] 30 2 1 ++
      ([97, 0, 16, 7] ++ (encStr (py! "b") ++ [UInt8.ofNat 5]) ++ [0, 0, 0, 0, 0, 0, 0])) =
    .error (.dmapDataType (py! "b") 5 0) :=
  C09_scalar_code numpy2 (bl := []) .nil rfl (n := 30) (ns := 2) (na := 1)
    (ss := [⟨py! "a", .int 7, 16, .B⟩])
    (.cons (bs := []) (b := [97, 0, 16, 7]) ⟨by decide, rfl, _, .u8 (n := 7) (by decide), by decide⟩ .nil)
    (by decide) (by decide) (by decide) (by decide) ⟨by decide, by decide⟩ (by decide) (by decide)

/-- **C09** The same for an array, after any good scalars and arrays of the record. -/
theorem C09_array_code (cfg : NpCfg) {bl : List Block} {pre : Bytes} (hpre : FileEnc cfg.maxDims bl pre)
    {ident rest : Bytes} (hid : ident.length = 4) {n na : Nat} {ss : List DmapScalar} {sb : Bytes}
    (hs : SeqEnc ScalarEnc ss sb) (hns : ss ≠ []) {as : List DmapArray} {ab : Bytes}
    (ha : SeqEnc (ArrayEnc cfg.maxDims n presented) as ab) (hna : as.length < na) (hsum : ss.length + na ≤ n)
    (hab : ab.length ≤ n)
    {name : PyStr} (hname : NulFree name) {t : Nat} (ht : UnknownCode t) (hn : n < 2 ^ 31)
    (hfit : n ≤ 16 + (sb ++ ab ++ (encStr name ++ [UInt8.ofNat t]) ++ rest).length) :
    readFile cfg (pre ++ header ident n ss.length na ++
        (sb ++ ab ++ (encStr name ++ [UInt8.ofNat t]) ++ rest)) =
      .error (.dmapDataType name t bl.length) := by
  have hss : 0 < ss.length := List.length_pos_iff.2 hns
  have s1 : signedOk 4 n := signedOk_four.2 ⟨by omega, by omega⟩
  have s2 : signedOk 4 (ss.length : Nat) := signedOk_four.2 ⟨by omega, by omega⟩
  have s3 : signedOk 4 na := signedOk_four.2 ⟨by omega, by omega⟩
  generalize hbuf : pre ++ header ident n ss.length na ++
    (sb ++ ab ++ (encStr name ++ [UInt8.ofNat t]) ++ rest) = buf
  have hat : At buf ((pre.length : Int) + 4) (intLE 4 n ++ intLE 4 (ss.length : Nat) ++ intLE 4 na) :=
    ⟨pre ++ ident, sb ++ ab ++ (encStr name ++ [UInt8.ofNat t]) ++ rest,
      by rw [← hbuf]; simp only [header, List.append_assoc], by simp [hid]⟩
  have hrec := readRecord_header cfg buf bl.length pre.length n ss.length na s1 s2 s3 hat
  have hlen : (buf.length : Int) - pre.length =
      16 + (sb ++ ab ++ (encStr name ++ [UInt8.ofNat t]) ++ rest).length := by
    rw [← hbuf]
    simp only [header, List.length_append, length_intLE, hid]; omega
  rw [hlen, if_neg (by omega), if_neg (by omega), if_neg (by omega), if_neg (by omega), if_neg (by omega),
    if_neg (by omega), if_neg (by omega), if_neg (by omega)] at hrec
  have hcode : ∀ fm, code fm ≠ t := by
    intro fm hf
    apply ht.2
    rw [← hf]
    cases fm <;> decide
  have hat1 : At buf ((pre.length : Int) + 16) (sb ++ (ab ++ (encStr name ++ [UInt8.ofNat t]))) :=
    ⟨pre ++ header ident n ss.length na, rest, by rw [← hbuf]; simp only [List.append_assoc],
      by simp only [header, List.length_append, length_intLE, hid]; omega⟩
  obtain ⟨a1, a2⟩ := at_append.1 hat1
  obtain ⟨a2, a3⟩ := at_append.1 a2
  obtain ⟨c', hc⟩ := readArray_unknown (cfg := cfg) bl.length n hname ht.1 hcode a3
  have hrun := readScalars_run bl.length hs a1 []
  have hstop := readArrays_stop bl.length hn ha hab a2 hc (na - as.length - 1) (addScalars [] ss)
  rw [show as.length + (na - as.length - 1 + 1) = na by omega] at hstop
  refine readFile_stops (c := c') hpre ⟨[], _, by rw [← hbuf, List.nil_append, List.append_assoc], rfl⟩ ?_
    (hrec.trans ?_)
  · omega
  · unfold readBody
    simp only [Int.toNat_natCast]
    rw [rd_bind_run hrun, rd_bind_stop hstop]

example : readFile numpy2 ([] ++ header [1, 0, 1, 0] 40 (1 : Nat) 2 ++
      ([97, 0, 16, 7] ++ [98, 0, 16, 1, 0, 0, 0, 1, 0, 0, 0, 9] ++ (encStr (py! "") ++ [UInt8.ofNat 255]) ++
        [0, 0, 0, 0, 0, 0, 0, 0])) =
    .error (.dmapDataType (py! "") 255 0) :=
  C09_array_code numpy2 (bl := []) .nil rfl (n := 40) (na := 2)
    (ss := [⟨py! "a", .int 7, 16, .B⟩])
    (.cons (bs := []) (b := [97, 0, 16, 7]) ⟨by decide, rfl, _, .u8 (n := 7) (by decide), by decide⟩ .nil)
    (by decide)
    (as := [⟨py! "b", ⟨.uint8, [1], [[9]]⟩, 16, .B, 1, [1]⟩])
    (.cons (bs := []) (b := [98, 0, 16, 1, 0, 0, 0, 1, 0, 0, 0, 9])
      ⟨by decide, rfl, rfl, rfl, rfl, by decide, by decide, rfl, .inl (by decide), by decide, rfl, by decide,
        by decide⟩ .nil)
    (by decide) (by decide) (by decide) (by decide) ⟨by decide, by decide⟩ (by decide) (by decide)

/-! ## C22 -/

/-- **C22** (partial: no negative `slist` dimension.)  An accepted record is decoded from its own block:
wherever the same bytes stand in another buffer, with anything around them, they are read as the same
record and the cursor moves by the same amount. -/
theorem C22_own_bytes_partial (cfg : NpCfg) {pre block post : Bytes} {rn : Nat} {r : Rec}
    (hneg : ¬ NegSlist (pre ++ block ++ post))
    (h : readRecord cfg (pre ++ block ++ post) rn pre.length = (.ok r, ((pre.length + block.length : Nat) : Int)))
    (pre' post' : Bytes) (rn' : Nat) :
    readRecord cfg (pre' ++ block ++ post') rn' pre'.length =
      (.ok r, ((pre'.length + block.length : Nat) : Int)) := by
  obtain ⟨b, bs, h1, h2, h3, rfl⟩ := readRecord_sound hneg (by omega)
    (by simp only [List.length_append]; omega) h
  have hlen : bs.length = block.length := by omega
  have : bs = block := at_unique h2 ⟨pre, post, rfl, rfl⟩ hlen
  subst this
  rw [readRecord_complete rn' h1 ⟨pre', post', rfl, rfl⟩]
  simp

example : ∃ r, readRecord numpy1 ([1, 2, 3] ++ Sample.bytes2 ++ [5]) 7 3 = (.ok r, 45) := ⟨_, rfl⟩

/-- A record with an `slist` of dimension −26; a forged array header inside the data of `p` makes
the record end where it declares. -/
def swallowing : Bytes :=
  [1, 0, 1, 0, 57, 0, 0, 0, 1, 0, 0, 0, 3, 0, 0, 0, 97, 0, 16, 7,
   112, 0, 16, 1, 0, 0, 0, 11, 0, 0, 0, 113, 0, 16, 1, 0, 0, 0, 15, 0, 0, 0,
   115, 108, 105, 115, 116, 0, 16, 1, 0, 0, 0, 230, 255, 255, 255]

/-- **C22** fails in general: the `slist` of this record swallows whatever follows the record, so
what is returned depends on bytes outside the record. -/
theorem C22_own_bytes_violation : ∃ r1 r2,
    readRecord numpy1 (swallowing ++ [1]) 0 0 = (.ok r1, 57) ∧
    readRecord numpy1 (swallowing ++ [2]) 0 0 = (.ok r2, 57) ∧ r1 ≠ r2 :=
  ⟨_, _, rfl, rfl, by decide +kernel⟩

end Verif
