import Verif.Dmap.WriteSpec
import Verif.Dmap.Lemmas.File
/-!
# The writer produces the encoding
-/
namespace Verif
open Spec

theorem utf8EncodeChar_ascii {ch : Char} (h : ch.toNat < 128) :
    utf8EncodeChar ch = [UInt8.ofNat ch.toNat] := by
  unfold utf8EncodeChar; simp [h]

theorem length_utf8Encode_ascii {s : PyStr} (h : Ascii s) : (utf8Encode s).length = s.length := by
  induction s with
  | nil => rfl
  | cons ch s ih =>
    have h1 := h ch (by simp)
    have h2 := ih (fun c hc => h c (List.mem_cons_of_mem _ hc))
    simp only [utf8Encode, List.flatMap_cons, List.length_append, List.length_cons] at *
    rw [utf8EncodeChar_ascii h1, h2]
    simp; omega

theorem utf8Encode_append (s t : PyStr) : utf8Encode (s ++ t) = utf8Encode s ++ utf8Encode t := by
  simp [utf8Encode]

theorem utf8Encode_nul : utf8Encode [Char.ofNat 0] = [0] := by decide

theorem packStr_ascii {s : PyStr} (h : Ascii s) : packStr s = encStr s := by
  have hl := length_utf8Encode_ascii h
  unfold packStr packS encStr
  simp only [utf8Encode_append, utf8Encode_nul, List.length_append, List.length_singleton, hl]
  rw [List.take_of_length_le (by simp [hl])]
  simp

theorem length_encStr {s : PyStr} (h : Ascii s) : (encStr s).length = s.length + 1 := by
  simp [encStr, length_utf8Encode_ascii h]

theorem chrEncode_small {n : Nat} (h : n < 128) : chrEncode n = .ok [UInt8.ofNat n] := by
  unfold chrEncode
  rw [if_neg (by omega), if_neg (by omega)]
  have : (Char.ofNat n).toNat = n := toNat_charOfNat (by omega)
  rw [Int.toNat_natCast, utf8EncodeChar_ascii (by omega), this]

theorem code_small (fm : Fmt) : code fm < 128 := by cases fm <;> decide

theorem typeByte_code (fm : Fmt) : typeByte (code fm : Nat) = .ok [UInt8.ofNat (code fm)] := by
  unfold typeByte
  rw [chrEncode_small (code_small fm)]
  rfl

/-- Bytes of a value that survives writing. -/
theorem scalarValueBytes_ok (rn : Nat) {s : DmapScalar} (h : ValueOK s.fmt s.value) :
    ∃ vb, scalarValueBytes rn s = .ok vb ∧ ValEnc s.fmt s.value vb ∧
      vb.length = valueSize s.fmt s.value := by
  obtain ⟨nm, v, dt, fm⟩ := s
  simp only at h
  cases h with
  | @str t ht =>
    exact ⟨_, by simp only [scalarValueBytes, packStr_ascii ht.1], .str ht.2, length_encStr ht.1⟩
  | @f32 b hb =>
    have h := ValEnc.f32 (b := b)
    rw [quiet32_of_not hb] at h
    exact ⟨_, by simp only [scalarValueBytes, quiet32_of_not hb], h, by simp [valueSize, cellSize]⟩
  | f64 => exact ⟨_, rfl, .f64, by simp [valueSize, cellSize]⟩
  | @char n hn =>
    exact ⟨_, by simp only [scalarValueBytes, chrEncode_small hn], .char (by omega), by simp [valueSize, cellSize]⟩
  | i16 h1 h2 =>
    refine ⟨_, by simp only [scalarValueBytes, packSigned]; rw [if_pos (by unfold signedOk; omega)],
      .i16 h1 h2, by simp [valueSize, cellSize]⟩
  | i32 h1 h2 =>
    refine ⟨_, by simp only [scalarValueBytes, packSigned]; rw [if_pos (by unfold signedOk; omega)],
      .i32 h1 h2, by simp [valueSize, cellSize]⟩
  | i64 h1 h2 =>
    refine ⟨_, by simp only [scalarValueBytes, packSigned]; rw [if_pos (by unfold signedOk; omega)],
      .i64 h1 h2, by simp [valueSize, cellSize]⟩
  | u8 h1 =>
    refine ⟨_, by simp only [scalarValueBytes, packUnsigned]; rw [if_pos (by omega), Int.toNat_natCast],
      .u8 h1, by simp [valueSize, cellSize]⟩
  | u16 h1 =>
    refine ⟨_, by simp only [scalarValueBytes, packUnsigned]; rw [if_pos (by omega), Int.toNat_natCast],
      .u16 h1, by simp [valueSize, cellSize]⟩
  | u32 h1 =>
    refine ⟨_, by simp only [scalarValueBytes, packUnsigned]; rw [if_pos (by omega), Int.toNat_natCast],
      .u32 h1, by simp [valueSize, cellSize]⟩
  | u64 h1 =>
    refine ⟨_, by simp only [scalarValueBytes, packUnsigned]; rw [if_pos (by omega), Int.toNat_natCast],
      .u64 h1, by simp [valueSize, cellSize]⟩

theorem scalarToBytes_ok (rn : Nat) {s : DmapScalar} (h : ScalarOK s) :
    ∃ bs, scalarToBytes rn s = .ok bs ∧ ScalarEnc s bs ∧ bs.length = scalarSize s := by
  obtain ⟨vb, h1, h2, h3⟩ := scalarValueBytes_ok rn h.value
  refine ⟨encStr s.name ++ [UInt8.ofNat (code s.fmt)] ++ vb, ?_, ⟨h.name.2, h.code, vb, h2, rfl⟩, ?_⟩
  · unfold scalarToBytes
    rw [h.code, typeByte_code, h1, packStr_ascii h.name.1]
    rfl
  · simp only [List.length_append, length_encStr h.name.1, List.length_singleton, h3, scalarSize]

theorem packShape_ok (l : List Nat) (h : ∀ n ∈ l, n < 2 ^ 31) :
    packShape (l.map Int.ofNat) = .ok (l.flatMap fun n => natLE 4 n) := by
  induction l with
  | nil => rfl
  | cons n l ih =>
    simp only [List.map_cons, packShape, List.flatMap_cons]
    have hn := h n (by simp)
    rw [ih fun m hm => h m (List.mem_cons_of_mem _ hm)]
    have : packSigned 4 (Int.ofNat n) = .ok (natLE 4 n) := by
      unfold packSigned
      rw [if_pos (by unfold signedOk; simp only [Int.ofNat_eq_natCast]; omega)]
      rw [Int.ofNat_eq_natCast, intLE_natCast (by omega)]
    rw [this]
    rfl

/-- The array as the writer leaves it. -/
def leftArray (a : DmapArray) : DmapArray :=
  if a.dimension > 1 then { a with shape := a.shape.reverse } else a

theorem arrayToBytes_left (rn : Nat) (a : DmapArray) :
    (arrayToBytes rn a).2 = a ∨ (arrayToBytes rn a).2 = leftArray a := by
  unfold arrayToBytes
  split
  · exact .inl rfl
  · split
    · exact .inl rfl
    · split
      · exact .inl rfl
      · right
        simp only []
        split <;> rfl

theorem arrayToBytes_left_ok {rn : Nat} {a a' : DmapArray} {bs : Bytes}
    (h : arrayToBytes rn a = (.ok bs, a')) : a' = leftArray a := by
  unfold arrayToBytes at h
  split at h
  · cases h
  · split at h
    · cases h
    · split at h
      · cases h
      · simp only [] at h
        split at h
        · cases h
        · cases h; rfl

theorem prod_pos {l : List Nat} (h : ∀ n ∈ l, 1 ≤ n) : 1 ≤ prod l := by
  induction l with
  | nil => simp [prod]
  | cons n l ih =>
    simp only [prod]
    exact Nat.mul_pos (h n (by simp)) (ih fun m hm => h m (List.mem_cons_of_mem _ hm))

theorem le_prod {l : List Nat} (h : ∀ n ∈ l, 1 ≤ n) {n : Nat} (hn : n ∈ l) : n ≤ prod l := by
  induction l with
  | nil => cases hn
  | cons m l ih =>
    have h' : ∀ n ∈ l, 1 ≤ n := fun m hm => h m (List.mem_cons_of_mem _ hm)
    simp only [prod]
    rcases List.mem_cons.1 hn with rfl | hn
    · exact Nat.le_mul_of_pos_right _ (prod_pos h')
    · exact Nat.le_trans (ih h' hn) (Nat.le_mul_of_pos_left _ (h m (by simp)))

theorem cellSize_pos {fm : Fmt} (h : isNumeric fm = true) : 1 ≤ cellSize fm := by
  cases fm <;> simp_all [isNumeric, cellSize]

theorem arrayTypeCheck_ok (rn : Nat) {mr size : Nat} {a : DmapArray} (h : ArrayOK mr size a) :
    arrayTypeCheck rn a = .ok () := by
  unfold arrayTypeCheck
  have hnum := h.numeric
  have hpos := h.rankPos
  have hdt := h.charType
  have hdims := h.charFirst
  cases hf : a.fmt <;> simp only []
  case s => rw [hf] at hnum; cases hnum
  case c =>
    cases hs : a.value.shape with
    | nil => rw [hs] at hpos; simp at hpos
    | cons m l =>
      have hm : m ≠ 0 := by
        rintro rfl
        exact hdims hf (by rw [hs]; rfl)
      cases m with
      | zero => exact absurd rfl hm
      | succ m =>
        cases l with
        | nil =>
          have hdt := hdt hf (by rw [hs]; rfl)
          cases hd : a.value.dtype with
          | other n b =>
            cases b with
            | true => exact absurd hd (hdt n)
            | false => rfl
          | _ => rfl
        | cons _ _ => rfl

theorem length_flatMap_natLE (l : List Nat) : (l.flatMap fun n => natLE 4 n).length = 4 * l.length := by
  induction l with
  | nil => rfl
  | cons n l ih => simp [List.flatMap_cons, ih]; omega

theorem arrayToBytes_ok (rn : Nat) {mr size : Nat} {a : DmapArray} (h : ArrayOK mr size a)
    (hs : arraySize a ≤ size) (hsz : size < 2 ^ 31) :
    ∃ bs, arrayToBytes rn a = (.ok bs, leftArray a) ∧ ArrayEnc mr size presented (present a) bs ∧
      bs.length = arraySize a := by
  have hlt := h.dimsSmall
  have hcells : a.value.cells.flatten.length = prod a.value.shape * cellSize a.fmt := by
    rw [length_flatten_of h.cells, h.count]
  have hrank : a.value.shape.length < 2 ^ 31 := by
    have : a.value.shape.length ≤ arraySize a := by unfold arraySize; omega
    omega
  refine ⟨encStr a.name ++ [UInt8.ofNat (code a.fmt)] ++ natLE 4 a.value.shape.length ++
    (a.value.shape.reverse.flatMap fun n => natLE 4 n) ++ a.value.cells.flatten, ?_, ?_, ?_⟩
  · unfold arrayToBytes
    rw [arrayTypeCheck_ok rn h]
    simp only []
    have ht : typeByte a.dataType = .ok [UInt8.ofNat (code a.fmt)] := by rw [h.code, typeByte_code]
    rw [ht]
    simp only []
    have hd : packSigned 4 a.dimension = .ok (natLE 4 a.value.shape.length) := by
      unfold packSigned
      rw [h.rank, if_pos (by unfold signedOk; omega), intLE_natCast (by omega)]
    rw [hd]
    simp only []
    have hsh : (if a.dimension > 1 then { a with shape := a.shape.reverse } else a).shape =
        (a.value.shape.reverse.map Int.ofNat) := by
      split
      · simp [h.shape]
      · rename_i hdim
        rw [h.rank] at hdim
        have h1 := h.rankPos
        match hv : a.value.shape, hdim, h1 with
        | [n], _, _ => simp [h.shape, hv]
        | [], _, h1 => simp at h1
        | _ :: _ :: _, hdim, _ => simp at hdim; omega
    have hsh' : (leftArray a).shape = a.value.shape.reverse.map Int.ofNat := hsh
    change (match packShape (leftArray a).shape with
      | .error e => ((.error e : Except Err Bytes), leftArray a)
      | .ok sb => (.ok _, leftArray a)) = _
    rw [hsh', packShape_ok _ (by intro n hn; have := hlt n (List.mem_reverse.1 hn); omega)]
    simp only [packStr_ascii h.name.1]
  · exact
      { name := h.name.2
        numeric := h.numeric
        code := h.code
        dtype := rfl
        rank := h.rank
        rankPos := h.rankPos
        rankMax := h.rankMax
        shape := h.shape
        dims := h.dims
        dimsSmall := hlt
        count := h.count
        cells := h.cells
        bytes := rfl }
  · simp only [List.length_append, length_encStr h.name.1, List.length_singleton, length_natLE,
      length_flatMap_natLE, List.length_reverse, hcells, arraySize]

theorem encodeFields_arrays (rn : Nat) {mr : Nat} {as : List DmapArray} {size : Nat}
    (h : ∀ a ∈ as, ArrayOK mr size a) (hs : (as.map arraySize).sum ≤ size) (hsz : size < 2 ^ 31) :
    ∃ ab, encodeFields rn (fieldsOf [] as) =
        (.ok ⟨ab, 0, as.length⟩, fieldsOf [] (as.map leftArray)) ∧
      SeqEnc (ArrayEnc mr size presented) (as.map present) ab ∧ ab.length = (as.map arraySize).sum := by
  induction as with
  | nil => exact ⟨[], rfl, .nil, rfl⟩
  | cons a as ih =>
    simp only [List.map_cons, List.sum_cons] at hs
    obtain ⟨bs, h1, h2, h3⟩ := arrayToBytes_ok rn (h a (by simp)) (size := size) (by omega) hsz
    obtain ⟨ab, h4, h5, h6⟩ := ih (fun x hx => h x (List.mem_cons_of_mem _ hx)) (by omega)
    refine ⟨bs ++ ab, ?_, .cons h2 h5, by simp [h3, h6]⟩
    simp only [fieldsOf, List.map_nil, List.nil_append, List.map_cons, encodeFields] at h4 ⊢
    have : (leftArray a).name = a.name := by unfold leftArray; split <;> rfl
    rw [h1, h4, this]
    simp

theorem encodeFields_ok (rn : Nat) {mr : Nat} {ss : List DmapScalar} {as : List DmapArray}
    {size : Nat} (hss : ∀ s ∈ ss, ScalarOK s) (h : ∀ a ∈ as, ArrayOK mr size a)
    (hs : (as.map arraySize).sum ≤ size) (hsz : size < 2 ^ 31) :
    ∃ sb ab, encodeFields rn (fieldsOf ss as) =
        (.ok ⟨sb ++ ab, ss.length, as.length⟩, fieldsOf ss (as.map leftArray)) ∧
      SeqEnc ScalarEnc ss sb ∧ sb.length = (ss.map scalarSize).sum ∧
      SeqEnc (ArrayEnc mr size presented) (as.map present) ab ∧ ab.length = (as.map arraySize).sum := by
  induction ss with
  | nil =>
    obtain ⟨ab, h1, h2, h3⟩ := encodeFields_arrays rn h hs hsz
    exact ⟨[], ab, h1, .nil, rfl, h2, h3⟩
  | cons s ss ih =>
    obtain ⟨bs, h1, h2, h3⟩ := scalarToBytes_ok rn (hss s (by simp))
    obtain ⟨sb, ab, h4, h5, h6, h7, h8⟩ := ih (fun x hx => hss x (List.mem_cons_of_mem _ hx))
    refine ⟨bs ++ sb, ab, ?_, .cons h2 h5, by simp [h3, h6], h7, h8⟩
    simp only [fieldsOf, List.map_cons, List.cons_append, encodeFields] at h4 ⊢
    rw [h1, h4]
    simp

/-- The block that the writer produces. -/
def writtenBlock (ss : List DmapScalar) (as : List DmapArray) : Block :=
  ⟨natLE 4 65537, ss, as.map present⟩

theorem packSigned_nat {n : Nat} (h : n < 2 ^ 31) : packSigned 4 (n : Int) = .ok (natLE 4 n) := by
  unfold packSigned
  rw [if_pos (by unfold signedOk; omega)]
  rw [intLE_natCast (by omega)]

theorem appendInt_eq (buf b : Bytes) (v : Int) (h : packSigned 4 v = .ok b) :
    appendInt buf v = (.ok (), buf ++ b) := by
  unfold appendInt
  rw [h]

theorem appendInt_nat (buf : Bytes) {n : Nat} (h : n < 2 ^ 31) :
    appendInt buf n = (.ok (), buf ++ natLE 4 n) := appendInt_eq _ _ _ (packSigned_nat h)

theorem appendInts_cons {buf b b' : Bytes} {v : Int} {vs : List Int}
    (h : appendInt buf v = (.ok (), b)) (h' : appendInts b vs = (.ok (), b')) :
    appendInts buf (v :: vs) = (.ok (), b') := by
  simp only [appendInts, h, h']

theorem appendInts_nats (buf : Bytes) {l : List Nat} (h : ∀ n ∈ l, n < 2 ^ 31) :
    appendInts buf (l.map fun n : Nat => (n : Int)) = (.ok (), buf ++ l.flatMap fun n => natLE 4 n) := by
  induction l generalizing buf with
  | nil => simp [appendInts]
  | cons n l ih =>
    rw [List.map_cons, List.flatMap_cons]
    exact appendInts_cons (appendInt_nat _ (h n (by simp)))
      (by rw [ih _ fun m hm => h m (List.mem_cons_of_mem _ hm), List.append_assoc])

theorem recordToBytes_eq {rn : Nat} {buf buf' : Bytes} {r r' : Rec} {enc : Encoded} {l : List Int}
    (h1 : encodeFields rn r = (.ok enc, r'))
    (hl : [encodingIdentifier, (enc.data.length : Int) + 16, (enc.numScalars : Int), (enc.numArrays : Int)] = l)
    (h2 : appendInts buf l = (.ok (), buf')) :
    recordToBytes rn buf r = (.ok (), buf' ++ enc.data, r') := by
  unfold recordToBytes
  rw [h1]
  simp only [hl, h2]

theorem recordToBytes_ok (rn : Nat) (buf : Bytes) {mr : Nat} {ss : List DmapScalar}
    {as : List DmapArray} (hs0 : ss ≠ []) (ha0 : as ≠ [])
    (hss : ∀ s ∈ ss, ScalarOK s) (has : ∀ a ∈ as, ArrayOK mr (blockSize ss as) a)
    (hsz : blockSize ss as < 2 ^ 31) :
    ∃ bs, recordToBytes rn buf (fieldsOf ss as) = (.ok (), buf ++ bs, fieldsOf ss (as.map leftArray)) ∧
      BlockEnc mr (writtenBlock ss as) bs ∧ bs.length = blockSize ss as := by
  obtain ⟨sb, ab, h1, h2, h3, h4, h5⟩ := encodeFields_ok rn hss has (size := blockSize ss as)
    (by unfold blockSize; omega) hsz
  have hlen : (sb ++ ab).length + 16 = blockSize ss as := by
    simp only [List.length_append, h3, h5, blockSize]; omega
  have hsl := seqEnc_length (fun _ _ h => scalarEnc_pos h) h2
  have hal := seqEnc_length (fun _ _ h => arrayEnc_pos h) h4
  simp only [List.length_append, List.length_map] at hlen hal
  refine ⟨natLE 4 65537 ++ natLE 4 (blockSize ss as) ++ natLE 4 ss.length ++ natLE 4 as.length ++ sb ++ ab,
    ?_, ?_, ?_⟩
  · have := recordToBytes_eq (buf := buf) (l := [65537, blockSize ss as, ss.length, as.length].map
      fun n : Nat => (n : Int)) h1 ?_ (appendInts_nats buf ?_)
    · rw [this]
      simp only [List.flatMap_cons, List.flatMap_nil, List.append_assoc, List.append_nil]
    · simp only [List.length_append, List.map_cons, List.map_nil]
      rw [show (((sb.length + ab.length : Nat) : Int) + 16) = ((blockSize ss as : Nat) : Int) by omega]
      rfl
    · intro n hn
      simp only [List.mem_cons, List.not_mem_nil, or_false] at hn
      omega
  · have hl : (natLE 4 65537 ++ natLE 4 (blockSize ss as) ++ natLE 4 ss.length ++ natLE 4 as.length ++ sb
        ++ ab).length = blockSize ss as := by
      simp only [List.length_append, length_natLE]; omega
    refine ⟨by simp [writtenBlock], hs0, by simpa [writtenBlock] using ha0, by omega, sb, ab, h2, ?_, ?_⟩
    · rw [hl]; exact h4
    · rw [hl]; simp [writtenBlock]
  · simp only [List.length_append, length_natLE]; omega

/-- The record as the writer leaves it. -/
def leftField : Field → Field
  | .array a => .array (leftArray a)
  | f => f

/-- The record as the writer leaves it. -/
def leftRec (r : Rec) : Rec := r.map fun p => (p.1, leftField p.2)

theorem leftArray_name (a : DmapArray) : (leftArray a).name = a.name := by
  unfold leftArray; split <;> rfl

theorem leftRec_fieldsOf (ss : List DmapScalar) (as : List DmapArray) :
    leftRec (fieldsOf ss as) = fieldsOf ss (as.map leftArray) := by
  simp [leftRec, fieldsOf, leftField, Function.comp_def, leftArray_name]

theorem presentRec_fieldsOf (ss : List DmapScalar) (as : List DmapArray) :
    presentRec (fieldsOf ss as) = (writtenBlock ss as).fields := by
  simp [presentRec, fieldsOf, presentField, Function.comp_def, Block.fields, writtenBlock, present]

theorem keys_presentRec (r : Rec) : (presentRec r).map Prod.fst = r.map Prod.fst := by
  simp [presentRec, Function.comp_def]

theorem record_writtenBlock {ss : List DmapScalar} {as : List DmapArray}
    (h : ((fieldsOf ss as).map Prod.fst).Nodup) :
    (writtenBlock ss as).record = presentRec (fieldsOf ss as) := by
  unfold Block.record
  rw [← presentRec_fieldsOf]
  apply Dict.ofList_of_nodup
  unfold Dict.keys
  rw [keys_presentRec]
  exact h

/-- The block written for a record. -/
def blockOf (r : Rec) : Block :=
  ⟨natLE 4 65537,
    r.filterMap fun p => match p.2 with | .scalar s => some s | _ => none,
    r.filterMap fun p => match p.2 with | .array a => some (present a) | _ => none⟩

theorem blockOf_fieldsOf (ss : List DmapScalar) (as : List DmapArray) :
    blockOf (fieldsOf ss as) = writtenBlock ss as := by
  simp [blockOf, fieldsOf, writtenBlock, List.filterMap_append, List.filterMap_map, Function.comp_def]

theorem record_blockOf {mr : Nat} {r : Rec} (h : Encodable mr r) : (blockOf r).record = presentRec r := by
  obtain ⟨ss, as, rfl, _, _, h3, _⟩ := h
  rw [blockOf_fieldsOf, record_writtenBlock h3]

/-- Writing encodable records appends whole blocks that show exactly these records. -/
theorem recordsToBytes_ok {mr : Nat} {recs : List Rec} (h : ∀ r ∈ recs, Encodable mr r)
    (k rn : Nat) (buf : Bytes) :
    ∃ bs rn', recordsToBytes k rn buf recs = (.ok (), buf ++ bs, rn', recs.map leftRec) ∧
      FileEnc mr (recs.map blockOf) bs := by
  induction recs generalizing k rn buf with
  | nil => exact ⟨[], rn, by simp [recordsToBytes], .nil⟩
  | cons r recs ih =>
    obtain ⟨ss, as, rfl, h1, h2, h3, h4, h5, h6⟩ := h r (by simp)
    obtain ⟨b0, e1, e2, _⟩ := recordToBytes_ok k buf h1 h2 h4 h5 h6
    obtain ⟨bs, rn', e3, e4⟩ := ih (fun x hx => h x (List.mem_cons_of_mem _ hx)) (k + 1) k (buf ++ b0)
    refine ⟨b0 ++ bs, rn', ?_, ?_⟩
    · simp only [recordsToBytes, e1, e3, List.map_cons, leftRec_fieldsOf, List.append_assoc]
    · rw [List.map_cons, blockOf_fieldsOf]
      exact .cons e2 e4

theorem map_record_blockOf {mr : Nat} {recs : List Rec} (h : ∀ r ∈ recs, Encodable mr r) :
    (recs.map blockOf).map Block.record = recs.map presentRec := by
  rw [List.map_map]
  exact List.map_congr_left fun r hr => record_blockOf (h r hr)

theorem length_pos_of_fileEnc {mr : Nat} {bl : List Block} {bs : Bytes} (h : FileEnc mr bl bs)
    (hne : bl ≠ []) : 0 < bs.length := by
  have := fileEnc_length h
  have : 0 < bl.length := List.length_pos_iff.2 hne
  omega

theorem asDmapRecs_dmapInput (recs : List Rec) : asDmapRecs (dmapInput recs).recs = recs := by
  simp [asDmapRecs, dmapInput, InVal.toField, Function.comp_def]

theorem checkDmapDict_dmapInput (recs : List Rec) : checkDmapDict (dmapInput recs) = .ok (true, recs) := by
  unfold checkDmapDict
  have h := asDmapRecs_dmapInput recs
  cases recs with
  | nil => rfl
  | cons r recs =>
    cases r with
    | nil => simp only [dmapInput, List.map_cons, List.map_nil] at h ⊢; rw [h]
    | cons p r => obtain ⟨k, f⟩ := p; simp only [dmapInput, List.map_cons] at h ⊢; rw [h]

theorem writerNew_dmapInput (recs : List Rec) (fn : PyStr) :
    Writer.new (dmapInput recs) fn =
      .ok { filename := fn, isList := true, recs := recs, buf := [], recNum := 0 } := by
  unfold Writer.new
  rw [checkDmapDict_dmapInput]
  rfl

theorem writeStream_ok {mr : Nat} (w : Writer) (inp : WInput) (hne : w.recs ≠ [])
    (h : ∀ r ∈ w.recs, Encodable mr r) :
    ∃ bs rn', w.writeStream inp =
        (.ok (w.buf ++ bs), { w with buf := w.buf ++ bs, recNum := rn', recs := w.recs.map leftRec }) ∧
      FileEnc mr (w.recs.map blockOf) bs := by
  obtain ⟨bs, rn', h1, h2⟩ := recordsToBytes_ok h 0 w.recNum w.buf
  refine ⟨bs, rn', ?_, h2⟩
  have he : w.isEmptyList = false := by
    unfold Writer.isEmptyList
    cases hr : w.recs
    · exact absurd hr hne
    · simp
  unfold Writer.writeStream
  simp only [he, Bool.false_eq_true, if_false, Writer.emptyRecordCheck, Writer.recordsToBytes, h1]

theorem fieldToPlain_ok (cfg : NpCfg) {s : DmapScalar} (h : ValueOK s.fmt s.value) :
    fieldToPlain cfg (.scalar s) = .ok (plainField (.scalar s)) := by
  obtain ⟨nm, v, dt, fm⟩ := s
  simp only at h
  cases h <;> simp only [fieldToPlain, castVal, plainField, shownTy]
  case f32 hb => rw [quiet32_of_not hb]
  all_goals
    unfold npIntCast
    rw [if_pos]
    · rfl
    · constructor <;> simp <;> omega

theorem recToPlain_append (cfg : NpCfg) (r1 r2 : Rec) {p1 p2 : PlainRec}
    (h1 : recToPlain cfg r1 = .ok p1) (h2 : recToPlain cfg r2 = .ok p2) :
    recToPlain cfg (r1 ++ r2) = .ok (p1 ++ p2) := by
  induction r1 generalizing p1 with
  | nil => cases h1; exact h2
  | cons p r1 ih =>
    obtain ⟨k, f⟩ := p
    simp only [recToPlain, List.cons_append] at h1 ⊢
    cases hf : fieldToPlain cfg f with
    | error e => rw [hf] at h1; cases h1
    | ok v =>
      cases hr : recToPlain cfg r1 with
      | error e => rw [hf, hr] at h1; cases h1
      | ok d =>
        rw [hf, hr] at h1
        cases h1
        rw [ih hr]
        rfl

theorem recToPlain_of {cfg : NpCfg} {r : Rec} {g : Field → PlainVal}
    (h : ∀ p ∈ r, fieldToPlain cfg p.2 = .ok (g p.2)) :
    recToPlain cfg r = .ok (r.map fun p => (p.1, g p.2)) := by
  induction r with
  | nil => rfl
  | cons p r ih =>
    obtain ⟨k, f⟩ := p
    simp only [recToPlain]
    rw [h (k, f) (by simp), ih fun q hq => h q (List.mem_cons_of_mem _ hq)]
    rfl

theorem plainRec_presentRec (r : Rec) : plainRec (presentRec r) = plainRec r := by
  simp only [plainRec, presentRec, List.map_map, Function.comp_def]
  congr 1
  funext p
  obtain ⟨k, f⟩ := p
  cases f <;> rfl

theorem recToPlain_encodable {cfg : NpCfg} {mr : Nat} {r : Rec} (h : Encodable mr r) :
    recToPlain cfg (presentRec r) = .ok (plainRec r) := by
  obtain ⟨ss, as, rfl, _, _, _, h4, _, _⟩ := h
  rw [recToPlain_of (g := plainField), ← plainRec_presentRec]
  · rfl
  · intro p hp
    rw [presentRec_fieldsOf] at hp
    simp only [Block.fields, writtenBlock, List.mem_append, List.mem_map] at hp
    rcases hp with ⟨s, hs, rfl⟩ | ⟨_, ⟨a, _, rfl⟩, rfl⟩
    · exact fieldToPlain_ok cfg (h4 s hs).value
    · rfl

theorem dmap2dict_encodable {cfg : NpCfg} {mr : Nat} {recs : List Rec} (h : ∀ r ∈ recs, Encodable mr r) :
    dmap2dict cfg (recs.map presentRec) = .ok (recs.map plainRec) := by
  induction recs with
  | nil => rfl
  | cons r recs ih =>
    simp only [List.map_cons, dmap2dict]
    rw [recToPlain_encodable (h r (by simp)), ih fun x hx => h x (List.mem_cons_of_mem _ hx)]
    rfl

end Verif
