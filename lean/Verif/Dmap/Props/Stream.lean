import Verif.Dmap.Props.Write
import Verif.Dmap.Props.RoundTrip
import Verif.Dmap.Lemmas.Char
/-!
# C63, C64: the argument of `write_dmap_stream`, streams record by record
-/
namespace Verif
open Spec

/-! ## C63 -/

/-- **C63** (partial: a writer without records.)  `DmapWrite().write_dmap_stream(records)` is
`DmapWrite(records).write_dmap_stream()`, for any argument: same bytes or same exception.  Missing: a writer
that holds records, see `C63_ignored` and `C63_violation`. -/
theorem C63_new_writer_partial (inp : WInput) (fn : PyStr) :
    ((writerOf [] fn).writeStream inp).1 =
      (match Writer.new inp fn with
       | .error e => .error e
       | .ok w => (w.writeStream noRecords).1) := by
  unfold Writer.writeStream Writer.new
  simp only [writerOf, Writer.isEmptyList, Bool.and_self, List.isEmpty_nil, if_true]
  cases hc : checkDmapDict inp with
  | error e => rfl
  | ok x =>
    obtain ⟨isList, recs⟩ := x
    simp only [bind, Except.bind, pure, Except.pure]
    by_cases he : (isList && recs.isEmpty) = true
    · have : recs = [] := by
        cases recs with
        | nil => rfl
        | cons => simp at he
      subst this
      have : isList = true := by simpa using he
      subst this
      rfl
    · have he : (isList && recs.isEmpty) = false := by simpa using he
      simp only [he, Bool.false_eq_true, if_false]

/-- **C63** (partial, as above.)  For DMAP records. -/
theorem C63_records_partial (recs : List Rec) (fn : PyStr) :
    ((writerOf [] fn).writeStream (dmapInput recs)).1 = writeBytes recs := by
  rw [C63_new_writer_partial, writerNew_dmapInput]
  unfold writeBytes
  rw [writerNew_dmapInput]
  simp only
  cases recs with
  | nil => rfl
  | cons r rs => rw [writeStream_eq (by simp), writeStream_eq (by simp)]

/-- **C63** A writer that holds records does not look at the argument. -/
theorem C63_ignored {w : Writer} (hne : w.recs ≠ []) (inp inp' : WInput) : w.writeStream inp = w.writeStream inp' := by
  rw [writeStream_eq hne, writeStream_eq hne]

/-- **C63** violated: after `write_dmap_stream(recs1)` the same writer gives for `write_dmap_stream(recs2)`, whatever
`recs2`, the first stream and the records `recs1` once more; for records without multi-dimensional arrays: the first
stream twice. -/
theorem C63_violation {recs1 : List Rec} {fn : PyStr} {b1 : Bytes} {w1 : Writer}
    (h : (writerOf [] fn).writeStream (dmapInput recs1) = (.ok b1, w1)) (inp : WInput) :
    w1.writeStream inp = w1.writeStream noRecords ∧ (w1.writeStream inp).1 ≠ .ok b1 ∧
    ((∀ r ∈ recs1, FlatRec r) → (w1.writeStream inp).1 = .ok (b1 ++ b1)) := by
  have h1 := C63_records_partial recs1 fn
  rw [h] at h1
  obtain ⟨hne, hl⟩ := writeBytes_inv h1.symm
  have h2 : (writerOf [] fn).writeStream (dmapInput recs1) = (writerOf recs1 fn).writeStream noRecords := by
    cases recs1 with
    | nil => exact absurd rfl hne
    | cons r rs =>
      rw [writeStream_eq (w := writerOf (r :: rs) fn) (by simp [writerOf])]
      unfold Writer.writeStream
      simp only [writerOf, Writer.isEmptyList, Bool.and_self, List.isEmpty_nil, if_true, checkDmapDict_dmapInput,
        Writer.emptyRecordCheck, List.isEmpty_cons, Bool.and_false, Bool.false_eq_true, if_false, Writer.recordsToBytes]
      generalize recordsToBytes 0 0 [] (r :: rs) = z
      obtain ⟨x, b, rn, rs⟩ := z
      cases x <;> rfl
  rw [h2] at h
  obtain ⟨rn, g⟩ := writeStream_written (w := writerOf recs1 fn) hne noRecords hl
  rw [g] at h
  obtain rfl := congrArg Prod.snd h
  have hne1 : recs1.map leftRec ≠ [] := by simpa using hne
  refine ⟨C63_ignored hne1 _ _, ?_, fun hf => ?_⟩
  · intro hb
    obtain ⟨w2, h3⟩ : ∃ w2, Writer.writeStream { writerOf recs1 fn with buf := (writerOf recs1 fn).buf ++ b1, recNum := rn, recs := (writerOf recs1 fn).recs.map leftRec } inp = (.ok b1, w2) := ⟨_, Prod.ext hb rfl⟩
    have := (C17_violation hne g h3).1
    exact this rfl
  · have hleft : recs1.map leftRec = recs1 :=
      (List.map_congr_left (g := id) fun r hr => leftRec_flat (hf r hr)).trans (List.map_id _)
    obtain ⟨rn', h3⟩ := writeStream_written
      (w := { writerOf recs1 fn with buf := (writerOf recs1 fn).buf ++ b1, recNum := rn, recs := (writerOf recs1 fn).recs.map leftRec }) hne1 inp
      (by simp only [writerOf]; rw [hleft]; exact hl)
    rw [h3]
    rfl

/-- Two different records given to one writer, one after the other: the second is lost, the first is there twice. -/
example : ∃ b w, (writerOf [] []).writeStream (dmapInput [Sample.record2]) = (.ok b, w) ∧
    (w.writeStream (dmapInput [Sample.record])).1 = .ok (b ++ b) := by
  refine ⟨Sample.bytes2, _, Prod.ext (by decide +kernel) rfl, ?_⟩
  refine (C63_violation (recs1 := [Sample.record2]) (fn := []) (b1 := Sample.bytes2) (Prod.ext (by decide +kernel) rfl) _).2.2 ?_
  intro r hr k a ha
  rw [List.mem_singleton.1 hr] at ha
  simp [Sample.record2, fieldsOf] at ha
  obtain ⟨_, rfl⟩ := ha
  decide

example := C63_records_partial [Sample.record, [(py! "x", .other)]] []

/-! ## C64 -/

theorem scalarValueBytes_number {rn : Nat} {s : DmapScalar} {b : Bytes} (h : scalarValueBytes rn s = .ok b) (rn' : Nat) :
    scalarValueBytes rn' s = .ok b := by
  unfold scalarValueBytes at h ⊢
  generalize s.fmt = fm at h ⊢
  generalize s.value = v at h ⊢
  cases fm <;> cases v <;> first | exact h | exact absurd h (by simp)

theorem scalarToBytes_number {rn : Nat} {s : DmapScalar} {b : Bytes} (h : scalarToBytes rn s = .ok b) (rn' : Nat) :
    scalarToBytes rn' s = .ok b := by
  unfold scalarToBytes at h ⊢
  cases h1 : typeByte s.dataType with
  | error e => rw [h1] at h; cases h
  | ok tb =>
    cases h2 : scalarValueBytes rn s with
    | error e => rw [h1, h2] at h; cases h
    | ok vb =>
      rw [h1, h2] at h
      rw [scalarValueBytes_number h2 rn']
      exact h

theorem arrayTypeCheck_number {rn : Nat} {a : DmapArray} (h : arrayTypeCheck rn a = .ok ()) (rn' : Nat) :
    arrayTypeCheck rn' a = .ok () := by
  unfold arrayTypeCheck at h ⊢
  generalize a.fmt = fm at h ⊢
  generalize a.value.shape = sh at h ⊢
  generalize a.value.dtype = dt at h ⊢
  cases fm <;> first | exact h | skip
  rcases sh with _ | ⟨_ | n, _ | ⟨m, sh⟩⟩ <;> first | exact h | skip
  simp only at h ⊢
  split at h
  · cases h
  · rfl

theorem arrayToBytes_number {rn : Nat} {a a' : DmapArray} {b : Bytes} (h : arrayToBytes rn a = (.ok b, a')) (rn' : Nat) :
    arrayToBytes rn' a = (.ok b, a') := by
  unfold arrayToBytes at h ⊢
  cases h1 : arrayTypeCheck rn a with
  | error e => rw [h1] at h; cases h
  | ok u => rw [h1] at h; rw [arrayTypeCheck_number h1 rn']; exact h

theorem Written.number {rn : Nat} {r : Rec} {b : Bytes} (h : Written rn r b) (rn' : Nat) : Written rn' r b := by
  induction h with
  | nil => exact .nil
  | scalar h _ ih => exact .scalar (scalarToBytes_number h rn') ih
  | array h _ ih => exact .array (arrayToBytes_number h rn') ih

theorem writtenList_number {k : Nat} {rs : List Rec} {b : Bytes} (h : WrittenList k rs b) (k' : Nat) : WrittenList k' rs b := by
  induction h generalizing k' with
  | nil => exact .nil
  | cons h1 h2 h3 h4 _ ih => exact .cons (h1.number k') h2 h3 h4 (ih _)

theorem writtenList_append {k : Nat} {r1 r2 : List Rec} {b1 b2 : Bytes} (h1 : WrittenList k r1 b1) (h2 : WrittenList k r2 b2) :
    WrittenList k (r1 ++ r2) (b1 ++ b2) := by
  induction h1 generalizing b2 with
  | nil => exact h2
  | cons g1 g2 g3 g4 _ ih =>
    rw [List.append_assoc]
    exact .cons g1 g2 g3 g4 (ih (writtenList_number h2 _))

theorem writeBytes_iff {recs : List Rec} {out : Bytes} : writeBytes recs = .ok out ↔ recs ≠ [] ∧ WrittenList 0 recs out := by
  refine ⟨writeBytes_inv, fun ⟨hne, h⟩ => ?_⟩
  unfold writeBytes
  rw [writerNew_dmapInput]
  obtain ⟨rn, g⟩ := writeStream_written (w := { filename := [], isList := true, recs := recs, buf := [], recNum := 0 }) hne noRecords h
  simp only
  rw [g]
  rfl

/-- **C64** Writing two lists of records together gives the concatenation of their streams, and is possible exactly if
both can be written. -/
theorem C64_concat {recs1 recs2 : List Rec} (n1 : recs1 ≠ []) (n2 : recs2 ≠ []) (out : Bytes) :
    writeBytes (recs1 ++ recs2) = .ok out ↔
      ∃ b1 b2, writeBytes recs1 = .ok b1 ∧ writeBytes recs2 = .ok b2 ∧ out = b1 ++ b2 := by
  constructor
  · intro h
    obtain ⟨-, h⟩ := writeBytes_iff.1 h
    obtain ⟨b1, b2, rfl, h1, h2⟩ := writtenList_append_inv h
    exact ⟨b1, b2, writeBytes_iff.2 ⟨n1, h1⟩, writeBytes_iff.2 ⟨n2, writtenList_number h2 0⟩, rfl⟩
  · rintro ⟨b1, b2, h1, h2, rfl⟩
    exact writeBytes_iff.2 ⟨by simp [n1], writtenList_append (writeBytes_iff.1 h1).2 (writeBytes_iff.1 h2).2⟩

/-- **C64** The stream is made of the streams of the single records: the bytes of a record do not depend on its position
nor on the other records. -/
theorem C64_each {recs : List Rec} (hne : recs ≠ []) (out : Bytes) :
    writeBytes recs = .ok out ↔ ∃ bs : List Bytes, recs.map (fun r => writeBytes [r]) = bs.map .ok ∧ out = bs.flatten := by
  induction recs generalizing out with
  | nil => exact absurd rfl hne
  | cons r rs ih =>
    cases rs with
    | nil =>
      constructor
      · intro h
        exact ⟨[out], by rw [List.map_singleton, h]; rfl, by simp⟩
      · rintro ⟨bs, h, rfl⟩
        rcases bs with _ | ⟨b, _ | ⟨b', bs⟩⟩
        · simp at h
        · simpa using h
        · simp at h
    | cons r' rs =>
      have := C64_concat (recs1 := [r]) (recs2 := r' :: rs) (by simp) (by simp) out
      rw [List.singleton_append] at this
      rw [this]
      constructor
      · rintro ⟨b1, b2, h1, h2, rfl⟩
        obtain ⟨bs, h3, rfl⟩ := (ih (by simp) b2).1 h2
        exact ⟨b1 :: bs, List.cons_eq_cons.2 ⟨h1, h3⟩, by simp⟩
      · rintro ⟨bs, h, rfl⟩
        cases bs with
        | nil => simp at h
        | cons b bs =>
          have h := List.cons_eq_cons.1 h
          exact ⟨b, bs.flatten, h.1, (ih (by simp) _).2 ⟨bs, h.2, rfl⟩, by simp⟩

/-- **C64** Different records have different streams, up to the NumPy class of 64-bit integers. -/
theorem C64_injective {mr : Nat} {recs recs' : List Rec} (h : ∀ r ∈ recs, Encodable mr r)
    (h' : ∀ r ∈ recs', Encodable mr r) {bs : Bytes} (hw : writeBytes recs = .ok bs) (hw' : writeBytes recs' = .ok bs) :
    recs.map presentRec = recs'.map presentRec := by
  let cfg : NpCfg := { numpy1 with maxDims := mr }
  have h1 := C01_roundtrip cfg (writeBytes_inv hw).1 h
  have h2 := C01_roundtrip cfg (writeBytes_inv hw').1 h'
  unfold writeThenRead at h1 h2
  rw [hw] at h1
  rw [hw'] at h2
  have := h1.symm.trans h2
  injection this with this
  exact congrArg Prod.fst this

example : ∃ b1 b2, writeBytes [Sample.record2] = .ok b1 ∧ writeBytes [Sample.record2, Sample.record2] = .ok b2 ∧
    writeBytes [Sample.record2, Sample.record2, Sample.record2] = .ok (b1 ++ b2) := by
  have h1 : writeBytes [Sample.record2] = .ok Sample.bytes2 := by decide +kernel
  have h2 : writeBytes [Sample.record2, Sample.record2] = .ok (Sample.bytes2 ++ Sample.bytes2) := by decide +kernel
  exact ⟨_, _, h1, h2, (C64_concat (recs1 := [Sample.record2]) (by decide) (by decide) _).2 ⟨_, _, h1, h2, rfl⟩⟩

/-- Records that cannot be written are covered as well. -/
example : ∀ out, writeBytes ([Sample.record2] ++ [[(py! "x", .other)]]) ≠ .ok out := by
  intro out h
  obtain ⟨b1, b2, -, h2, -⟩ := (C64_concat (by decide) (by decide) out).1 h
  exact absurd h2 (by rw [show writeBytes [[(py! "x", .other)]] = .error (.dmapTypeError 0) by decide +kernel]; nofun)

example : ∃ bs, writeBytes [Sample.record, Sample.record2] = .ok bs ∧
    ∀ recs', (∀ r ∈ recs', Encodable 32 r) → writeBytes recs' = .ok bs →
      [Sample.record, Sample.record2].map presentRec = recs'.map presentRec := by
  have he : ∀ r ∈ [Sample.record, Sample.record2], Encodable 32 r := by
    intro r hr
    simp only [List.mem_cons, List.not_mem_nil, or_false] at hr
    rcases hr with rfl | rfl
    · exact Sample.record_encodable (by decide)
    · exact Sample.record2_encodable (by decide)
  obtain ⟨bs, h1, -⟩ := writeBytes_ok (by decide) he
  exact ⟨bs, h1, fun recs' h h' => C64_injective he h h1 h'⟩

end Verif
