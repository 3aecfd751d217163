import Verif.Dmap.Programs
import Verif.Dmap.Lemmas.Local
/-!
# The user-level programs
-/
namespace Verif
open Spec

theorem reader_new {bs : Bytes} (h : bs ≠ []) : Reader.new bs = .ok (freshReader bs) := by
  unfold Reader.new
  rw [if_neg (by simpa using h)]
  rfl

theorem reader_new_nil : Reader.new [] = .error .emptyFile := rfl

theorem readRecords_ok {cfg : NpCfg} {rd rd' : Reader} {ds : List PlainRec} :
    rd.readRecords cfg = (.ok ds, rd') ↔
      ∃ r1, rd.readLoop cfg (rd.buf.length - rd.cursor).toNat = (.ok (), r1) ∧
        r1.cursor ≤ r1.buf.length ∧ dmap2dict cfg r1.dmapRecords = .ok ds ∧ rd' = { r1 with records := ds } := by
  unfold Reader.readRecords
  cases h : rd.readLoop cfg (rd.buf.length - rd.cursor).toNat with
  | mk x r1 =>
    cases x with
    | error e => simp
    | ok u =>
      simp only [Prod.mk.injEq, true_and]
      split
      · rename_i hc
        constructor
        · intro h; cases h
        · rintro ⟨r2, rfl, h2, _⟩; omega
      · rename_i hc
        cases hd : dmap2dict cfg r1.dmapRecords with
        | error e =>
          constructor
          · intro h; cases h
          · rintro ⟨r2, rfl, _, h3, _⟩; rw [hd] at h3; cases h3
        | ok ds' =>
          constructor
          · intro h; cases h; exact ⟨r1, rfl, by omega, hd, rfl⟩
          · rintro ⟨r2, rfl, _, h3, rfl⟩; rw [hd] at h3; cases h3; rfl

theorem readFile_ok {cfg : NpCfg} {bs : Bytes} {rs : List Rec} {ds : List PlainRec} :
    readFile cfg bs = .ok (rs, ds) ↔
      bs ≠ [] ∧ ∃ rd', (freshReader bs).readRecords cfg = (.ok ds, rd') ∧ rd'.dmapRecords = rs := by
  by_cases hb : bs = []
  · subst hb
    simp [readFile, reader_new_nil]
  · unfold readFile
    rw [reader_new hb]
    simp only
    cases h : (freshReader bs).readRecords cfg with
    | mk x rd' =>
      cases x with
      | error e => simp
      | ok d =>
        simp only [Except.ok.injEq, Prod.mk.injEq, ne_eq, hb, not_false_eq_true, true_and]
        constructor
        · rintro ⟨rfl, rfl⟩; exact ⟨rd', ⟨rfl, rfl⟩, rfl⟩
        · rintro ⟨rd2, ⟨rfl, rfl⟩, rfl⟩; exact ⟨rfl, rfl⟩

/-- A file of whole blocks is read as the blocks' records, if these are convertible. -/
theorem readFile_fileEnc {cfg : NpCfg} {bl : List Block} {bs : Bytes} (h : FileEnc cfg.maxDims bl bs)
    (hne : bl ≠ []) :
    readFile cfg bs =
      match dmap2dict cfg (bl.map Block.record) with
      | .error e => .error e
      | .ok ds => .ok (bl.map Block.record, ds) := by
  have hpos := length_pos_of_fileEnc h hne
  have hb : bs ≠ [] := by rintro rfl; simp at hpos
  have hl := readLoop_file cfg (freshReader bs) h (at_self bs) (by simp [freshReader])
  unfold readFile
  rw [reader_new hb]
  unfold Reader.readRecords
  simp only [hl]
  have h1 : ((freshReader bs).after bl bs.length).dmapRecords = bl.map Block.record := by
    simp [Reader.after, freshReader]
  rw [if_neg (by simp [Reader.after, freshReader])]
  rw [h1]
  cases dmap2dict cfg (bl.map Block.record) <;> rfl

/-- An exception in the record after some whole blocks is the outcome of reading the file. -/
theorem readFile_stops {cfg : NpCfg} {bl : List Block} {pre buf : Bytes} (h : FileEnc cfg.maxDims bl pre)
    (hat : At buf 0 pre) (hlt : pre.length < buf.length) {e : Err} {c : Int}
    (he : readRecord cfg buf bl.length pre.length = (.error e, c)) : readFile cfg buf = .error e := by
  have hb : buf ≠ [] := by rintro rfl; simp at hlt
  unfold readFile
  rw [reader_new hb]
  unfold Reader.readRecords
  have hs := readLoop_seq cfg h (freshReader buf) hat (buf.length - bl.length)
  have hlen := fileEnc_length h
  have hfu : ((freshReader buf).buf.length - (freshReader buf).cursor).toNat = buf.length - bl.length + bl.length := by
    simp only [freshReader]; omega
  simp only
  rw [hfu, hs]
  obtain ⟨f, hf⟩ : ∃ f, buf.length - bl.length = f + 1 := ⟨buf.length - bl.length - 1, by omega⟩
  rw [hf, readLoop_step _ _ _ (by simp only [Reader.after, freshReader]; omega)]
  have e1 : ((freshReader buf).after bl pre.length).buf = buf := rfl
  have e2 : ((freshReader buf).after bl pre.length).recNum = bl.length := by
    simp [Reader.after, freshReader]
  have e3 : ((freshReader buf).after bl pre.length).cursor = pre.length := by
    simp [Reader.after, freshReader]
  rw [e1, e2, e3, he]

theorem writeBytes_ok {mr : Nat} {recs : List Rec} (hne : recs ≠ []) (h : ∀ r ∈ recs, Encodable mr r) :
    ∃ bs, writeBytes recs = .ok bs ∧ FileEnc mr (recs.map blockOf) bs := by
  unfold writeBytes
  rw [writerNew_dmapInput]
  obtain ⟨bs, rn', h1, h2⟩ := writeStream_ok
    { filename := [], isList := true, recs := recs, buf := [], recNum := 0 } noRecords hne h
  exact ⟨bs, by simp only [h1, List.nil_append], h2⟩

theorem recordsToBytes_split {k rn rn1 : Nat} {buf b1 : Bytes} {l1 o1 : List Rec} (l2 : List Rec)
    (h : recordsToBytes k rn buf l1 = (.ok (), b1, rn1, o1)) :
    (recordsToBytes k rn buf (l1 ++ l2)).1 = (recordsToBytes (k + l1.length) rn1 b1 l2).1 ∧
    (recordsToBytes k rn buf (l1 ++ l2)).2.1 = (recordsToBytes (k + l1.length) rn1 b1 l2).2.1 := by
  induction l1 generalizing k rn buf o1 with
  | nil => cases h; exact ⟨rfl, rfl⟩
  | cons r l1 ih =>
    simp only [recordsToBytes, List.cons_append] at h ⊢
    generalize recordToBytes k buf r = x at h ⊢
    obtain ⟨x, b, r'⟩ := x
    cases x with
    | error e => cases h
    | ok u =>
      simp only at h ⊢
      generalize hg : recordsToBytes (k + 1) k b l1 = y at h
      obtain ⟨y1, y2, y3, y4⟩ := y
      cases h
      have := ih hg
      rw [List.length_cons, show k + (l1.length + 1) = k + 1 + l1.length by omega]
      exact this

/-- The bytes of the first records are the beginning of the bytes of all. -/
theorem writeBytes_take {mr : Nat} {recs : List Rec} (h : ∀ r ∈ recs, Encodable mr r) {bs : Bytes}
    (hw : writeBytes recs = .ok bs) (j : Nat) (hj : recs.take j ≠ []) :
    ∃ b y, writeBytes (recs.take j) = .ok b ∧ FileEnc mr ((recs.take j).map blockOf) b ∧ bs = b ++ y := by
  have hne : recs ≠ [] := by rintro rfl; simp at hj
  obtain ⟨b, rn1, e1, e2⟩ := recordsToBytes_ok (recs := recs.take j) (fun r hr => h r (List.mem_of_mem_take hr)) 0 0 []
  obtain ⟨y, rn2, e3, -⟩ := recordsToBytes_ok (recs := recs.drop j) (fun r hr => h r (List.mem_of_mem_drop hr))
    (0 + (recs.take j).length) rn1 ([] ++ b)
  obtain ⟨e4, e5⟩ := recordsToBytes_split (recs.drop j) e1
  rw [List.take_append_drop, e3] at e4 e5
  have key : ∀ {l : List Rec} {x : Except Err Unit} {z : Bytes}, l ≠ [] → (recordsToBytes 0 0 [] l).1 = .ok () →
      (recordsToBytes 0 0 [] l).2.1 = z → writeBytes l = .ok z := by
    intro l x z hl h1 h2
    unfold writeBytes
    rw [writerNew_dmapInput]
    have he : Writer.isEmptyList { filename := [], isList := true, recs := l, buf := [], recNum := 0 } = false := by
      cases l with
      | nil => exact absurd rfl hl
      | cons => rfl
    simp only [Writer.writeStream, he, Bool.false_eq_true, if_false, Writer.emptyRecordCheck, Writer.recordsToBytes]
    generalize recordsToBytes 0 0 [] l = q at h1 h2
    obtain ⟨q1, q2, q3, q4⟩ := q
    cases h1
    cases h2
    rfl
  have k1 := key (x := .ok ()) hj (by rw [e1]) (by rw [e1])
  have k2 := key (x := .ok ()) hne e4 e5
  rw [hw] at k2
  cases k2
  exact ⟨b, y, k1, e2, rfl⟩

theorem readFile_written {cfg : NpCfg} {recs : List Rec} (hne : recs ≠ [])
    (h : ∀ r ∈ recs, Encodable cfg.maxDims r) {bs : Bytes} (hf : FileEnc cfg.maxDims (recs.map blockOf) bs) :
    readFile cfg bs = .ok (recs.map presentRec, recs.map plainRec) := by
  rw [readFile_fileEnc hf (by simpa using hne), map_record_blockOf h, dmap2dict_encodable h]

/-- An accepted file without negative `slist` dimensions consists of whole blocks. -/
theorem readFile_sound {cfg : NpCfg} {bs : Bytes} (hneg : ¬ NegSlist bs) {rs : List Rec}
    {ds : List PlainRec} (h : readFile cfg bs = .ok (rs, ds)) :
    ∃ bl, FileEnc cfg.maxDims bl bs ∧ rs = bl.map Block.record ∧ bl ≠ [] ∧ dmap2dict cfg rs = .ok ds := by
  obtain ⟨hb, rd', h1, rfl⟩ := readFile_ok.1 h
  obtain ⟨r1, h2, h3, h4, rfl⟩ := readRecords_ok.1 h1
  obtain ⟨bl, bs', h5, h6, h7, rfl⟩ := readLoop_sound cfg _ (freshReader bs) r1 hneg (by simp [freshReader])
    (by simp [freshReader]) h2
  have : bs' = bs := at_zero_full h6 (by simp only [freshReader] at h7; omega)
  subst this
  refine ⟨bl, h5, by simp [Reader.after, freshReader], ?_, h4⟩
  rintro rfl
  cases h5
  exact hb rfl

end Verif
