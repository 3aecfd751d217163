import Verif.Dmap.Lemmas.Survive
/-!
# `'c'` scalars above 127
-/
namespace Verif
open Spec

theorem Written.append_inv {rn : Nat} {r1 r2 : Rec} {b : Bytes} (h : Written rn (r1 ++ r2) b) :
    ∃ b1 b2, b = b1 ++ b2 ∧ Written rn r1 b1 ∧ Written rn r2 b2 := by
  induction r1 generalizing b with
  | nil => exact ⟨[], b, rfl, .nil, h⟩
  | cons p r1 ih =>
    rw [List.cons_append] at h
    cases h with
    | scalar h1 h2 =>
      obtain ⟨b1, b2, rfl, g1, g2⟩ := ih h2
      exact ⟨_, b2, by rw [List.append_assoc], .scalar h1 g1, g2⟩
    | array h1 h2 =>
      obtain ⟨b1, b2, rfl, g1, g2⟩ := ih h2
      exact ⟨_, b2, by rw [List.append_assoc], .array h1 g1, g2⟩

theorem Written.le_length {rn : Nat} {r : Rec} {b : Bytes} (h : Written rn r b) : r.length ≤ b.length := by
  induction h with
  | nil => simp
  | scalar h1 _ ih =>
    obtain ⟨tb, vb, _, _, rfl⟩ := scalarToBytes_inv h1
    simp only [List.length_append, List.length_cons, length_packStr]; omega
  | array h1 _ ih =>
    obtain ⟨tb, db, sb, _, _, _, _, rfl, _⟩ := arrayToBytes_inv h1
    simp only [List.length_append, List.length_cons, length_packStr]; omega

theorem Written.scalars_enc {rn : Nat} {ss : List DmapScalar} {b : Bytes}
    (h : Written rn (ss.map fun s => (s.name, Field.scalar s)) b) (hs : ∀ s ∈ ss, ScalarOK s) :
    SeqEnc ScalarEnc ss b := by
  induction ss generalizing b with
  | nil => cases h; exact .nil
  | cons s ss ih =>
    rw [List.map_cons] at h
    cases h with
    | scalar h1 h2 =>
      obtain ⟨bs, e1, e2, _⟩ := scalarToBytes_ok rn (hs s (by simp))
      rw [e1] at h1
      cases h1
      exact .cons e2 (ih h2 fun x hx => hs x (by simp [hx]))

theorem utf8Decode_cont {b : UInt8} (hb : isCont b = true) (t : Bytes) : utf8Decode (b :: t) = none := by
  have := isCont_iff.1 hb
  rw [utf8Decode.eq_def]
  simp only
  rw [if_neg (by omega)]
  cases t with
  | nil => rfl
  | cons b1 r1 =>
    simp only
    split
    · rfl
    rw [if_neg (by omega)]
    cases r1 with
    | nil => rfl
    | cons b2 r2 =>
      simp only
      split
      · rfl
      rw [if_neg (by omega)]
      cases r2 with
      | nil => rfl
      | cons b3 r3 =>
        simp only
        split
        · rfl
        rw [if_neg (by omega)]

theorem readDataS_undecodable {buf : Bytes} (rn : Nat) {c : Int} {t : Bytes} (hz : (0 : UInt8) ∉ t)
    (hd : utf8Decode t = none) (hat : At buf c (t ++ [0])) :
    readDataS buf rn c = (.error .unicodeDecodeError, c + t.length + 1) := by
  have hb := hat.bounds
  simp only [List.length_append, List.length_singleton] at hb
  unfold readDataS
  rw [rd_bind_run (a := ()) (c1 := c) (by unfold readPre; rw [if_neg (by omega), if_neg (by omega)]),
    rd_bind_run (cursor_run c)]
  have hs : scanNul buf c ((buf.length - c).toNat + 1) 0 = some t.length := by
    rw [scanNul_iff hb.1]
    exact ⟨t, by simp, by omega, hz, by simpa using hat⟩
  rw [hs]
  simp only
  rw [rd_bind_run (a := ()) (by rw [bytesCheck_run, if_neg (by omega)])]
  have hun : unpackFrom buf t.length c = some t := by
    have := at_iff.1 (at_append.1 hat).1
    unfold unpackFrom
    rw [if_neg (by omega), if_neg (by omega), this.2.2]
  rw [hun]
  simp only
  rw [rd_bind_run (setCursor_run c _), hd]
  rfl

theorem chrEncode_high {n : Nat} (h1 : 128 ≤ n) (h2 : n < 256) :
    ∃ b1 b2, chrEncode n = .ok [b1, b2] ∧ isCont b2 = true := by
  refine ⟨UInt8.ofNat (0xC0 + n / 64), UInt8.ofNat (0x80 + n % 64), ?_, ?_⟩
  · unfold chrEncode
    rw [if_neg (by omega), if_neg (by omega)]
    have : (Char.ofNat n).toNat = n := toNat_charOfNat (by omega)
    rw [Int.toNat_natCast]
    unfold utf8EncodeChar
    rw [this]
    simp only
    rw [if_neg (by omega), if_pos (by omega)]
  · rw [isCont_iff, toNat_ofNat_lt (by omega)]; omega

/-- Names of the fields of a record. -/
theorem written_starts {rn : Nat} {r : Rec} {b : Bytes} (h : Written rn r b) (hne : r ≠ [])
    (hn : ∀ p ∈ r, PlainText (match p.2 with | .scalar s => s.name | .array a => a.name | .other => [])) :
    ∃ nm t, PlainText nm ∧ b = encStr nm ++ t := by
  cases h with
  | nil => exact absurd rfl hne
  | @scalar k s r b bs h1 h2 =>
    obtain ⟨tb, vb, _, _, rfl⟩ := scalarToBytes_inv h1
    have := hn (k, .scalar s) (by simp)
    exact ⟨s.name, tb ++ vb ++ bs, this, by rw [packStr_ascii this.1]; simp⟩
  | @array k a r b bs h1 h2 =>
    obtain ⟨tb, db, sb, _, _, _, _, rfl, _⟩ := arrayToBytes_inv h1
    have := hn (k, .array a) (by simp)
    exact ⟨a.name, tb ++ db ++ sb ++ a.value.cells.flatten ++ bs, this, by rw [packStr_ascii this.1]; simp⟩

theorem readScalar_undecodable {buf : Bytes} (rn : Nat) {c c' : Int}
    (h : readDataS buf rn c = (.error .unicodeDecodeError, c')) :
    readScalar buf rn c = (.error .unicodeDecodeError, c') := by
  unfold readScalar
  rw [rd_bind_stop h]

theorem readArray_undecodable {cfg : NpCfg} {buf : Bytes} (rn : Nat) (n : Int) {c c' : Int}
    (h : readDataS buf rn c = (.error .unicodeDecodeError, c')) :
    readArray cfg buf rn n c = (.error .unicodeDecodeError, c') := by
  unfold readArray
  rw [rd_bind_stop h]

theorem signedOk_nat {n : Nat} (h : n < 2 ^ 31) : signedOk 4 n := by
  unfold signedOk; omega

/-- The header of a written block leads to its fields. -/
theorem readRecord_blockBytes (cfg : NpCfg) {buf : Bytes} (rn : Nat) {k rn' : Nat} {r : Rec} {data : Bytes}
    (hw : Written rn' r data) (hat : At buf k (blockBytes r data)) (hl : data.length + 16 < 2 ^ 31)
    (hs : scalarsOf r ≠ []) (ha : arraysOf r ≠ []) :
    readRecord cfg buf rn k =
      readBody cfg buf rn k (data.length + 16 : Nat) (scalarsOf r).length (arraysOf r).length (k + 16) := by
  have hlen := hw.length
  have hle := hw.le_length
  have hs' := List.length_pos_iff.2 hs
  have ha' := List.length_pos_iff.2 ha
  have hb := hat.bounds
  have hbl : (blockBytes r data).length = data.length + 16 := by
    simp only [blockBytes, List.length_append, length_natLE]; omega
  have hat2 : At buf ((k : Int) + 4) (intLE 4 ((data.length + 16 : Nat) : Int) ++
      intLE 4 ((scalarsOf r).length : Int) ++ intLE 4 ((arraysOf r).length : Int)) := by
    rw [intLE_natCast (by omega), intLE_natCast (by omega), intLE_natCast (by omega)]
    obtain ⟨pre, suf, h1, h2⟩ := hat
    refine ⟨pre ++ natLE 4 65537, data ++ suf, ?_, by simp; omega⟩
    rw [h1]
    simp only [blockBytes, List.append_assoc]
  rw [readRecord_header cfg buf rn k _ _ _ (signedOk_nat hl) (signedOk_nat (by omega)) (signedOk_nat (by omega)) hat2]
  rw [if_neg (by omega), if_neg (by omega), if_neg (by omega), if_neg (by omega), if_neg (by omega),
    if_neg (by omega), if_neg (by omega), if_neg (by omega)]

theorem at_data {buf : Bytes} {k : Nat} {r : Rec} {data : Bytes} (hat : At buf k (blockBytes r data)) :
    At buf (k + 16) data := by
  obtain ⟨pre, suf, h1, h2⟩ := hat
  refine ⟨pre ++ natLE 4 65537 ++ natLE 4 (data.length + 16) ++ natLE 4 (scalarsOf r).length ++
      natLE 4 (arraysOf r).length, suf, ?_, by simp; omega⟩
  rw [h1]
  simp only [blockBytes, List.append_assoc]

/-- Reading a record with a char scalar above 127. -/
theorem readRecord_highChar (cfg : NpCfg) {buf : Bytes} (rn : Nat) {k rn' : Nat} {data : Bytes}
    {ss1 ss2 : List DmapScalar} {as : List DmapArray} {nm : PyStr} {n : Nat} (h1 : 128 ≤ n) (h2 : n < 256)
    (hw : Written rn' (fieldsOf (ss1 ++ ⟨nm, .int n, 1, .c⟩ :: ss2) as) data)
    (hat : At buf k (blockBytes (fieldsOf (ss1 ++ ⟨nm, .int n, 1, .c⟩ :: ss2) as) data))
    (hl : data.length + 16 < 2 ^ 31) (hss1 : ∀ s ∈ ss1, ScalarOK s) (hnm : PlainText nm)
    (hss2 : ∀ s ∈ ss2, PlainText s.name) (has : ∀ a ∈ as, PlainText a.name) (hne : as ≠ []) :
    ∃ c', readRecord cfg buf rn k = (.error .unicodeDecodeError, c') := by
  rw [readRecord_blockBytes cfg rn hw hat hl (by rw [scalarsOf_fieldsOf]; simp)
    (by rw [arraysOf_fieldsOf]; exact hne), scalarsOf_fieldsOf, arraysOf_fieldsOf]
  have hd := at_data hat
  have e : fieldsOf (ss1 ++ ⟨nm, .int n, 1, .c⟩ :: ss2) as =
      (ss1.map fun s => (s.name, Field.scalar s)) ++
        ((nm, Field.scalar ⟨nm, .int n, 1, .c⟩) :: fieldsOf ss2 as) := by
    simp [fieldsOf]
  rw [e] at hw
  obtain ⟨d1, d2, rfl, w1, w2⟩ := hw.append_inv
  have hd1 := w1.scalars_enc hss1
  obtain ⟨b1, b2, hch, hcont⟩ := chrEncode_high h1 h2
  generalize hdd : d2 = d2' at *
  cases w2 with
  | @scalar _ _ _ cb d3 g1 g2 =>
    obtain ⟨tb, vb, i1, i2, rfl⟩ := scalarToBytes_inv g1
    have it : typeByte (1 : Int) = .ok [1] := typeByte_code .c
    rw [it] at i1
    cases i1
    simp only [scalarValueBytes, hch, Except.ok.injEq] at i2
    subst i2
    rw [packStr_ascii hnm.1] at hd
    obtain ⟨nm2, t, p1, p2⟩ := written_starts g2
      (by simp only [fieldsOf]; cases as with | nil => exact absurd rfl hne | cons => simp)
      (by
        intro p hp
        rcases List.mem_append.1 hp with hp | hp
        · obtain ⟨s, hs, rfl⟩ := List.mem_map.1 hp; exact hss2 s hs
        · obtain ⟨s, hs, rfl⟩ := List.mem_map.1 hp; exact has s hs)
    rw [p2] at hd
    -- the char scalar as the reader sees it
    have henc : ScalarEnc ⟨nm, .int (b1.toNat : Nat), 1, .c⟩ (encStr nm ++ [1] ++ [b1]) := by
      refine ⟨hnm.2, rfl, [b1], ?_, rfl⟩
      have := ValEnc.char (n := b1.toNat) (by exact UInt8.toNat_lt b1)
      simpa using this
    have hd' : At buf ((k : Int) + 16) ((d1 ++ (encStr nm ++ [1] ++ [b1])) ++ (b2 :: utf8Encode nm2 ++ [0]) ++ t) := by
      simpa [encStr] using hd
    obtain ⟨hd', _⟩ := at_append.1 hd'
    obtain ⟨q1, q2⟩ := at_append.1 hd'
    have hseq : SeqEnc ScalarEnc (ss1 ++ [⟨nm, .int (b1.toNat : Nat), 1, .c⟩]) (d1 ++ (encStr nm ++ [1] ++ [b1])) := by
      have := SeqEnc.cons henc (SeqEnc.nil (R := ScalarEnc))
      rw [List.append_nil] at this
      exact seqEnc_append hd1 this
    have hz : (0 : UInt8) ∉ b2 :: utf8Encode nm2 := by
      intro h0
      rcases List.mem_cons.1 h0 with h0 | h0
      · rw [← h0] at hcont; exact absurd hcont (by decide)
      · exact zero_mem_utf8Encode.1 h0 p1.2
    have hstop := readDataS_undecodable rn hz (utf8Decode_cont hcont _) q2
    unfold readBody
    simp only [Int.toNat_natCast]
    cases ss2 with
    | cons s2 ss2 =>
      have hn : (ss1 ++ (⟨nm, .int n, 1, .c⟩ : DmapScalar) :: s2 :: ss2).length =
          (ss1 ++ [(⟨nm, .int (b1.toNat : Nat), 1, .c⟩ : DmapScalar)]).length + (ss2.length + 1) := by
        simp; omega
      rw [hn]
      rw [rd_bind_stop (readScalars_stop rn hseq q1 (readScalar_undecodable rn hstop) ss2.length [])]
      exact ⟨_, rfl⟩
    | nil =>
      have hn : (ss1 ++ [(⟨nm, .int n, 1, .c⟩ : DmapScalar)]).length =
          (ss1 ++ [(⟨nm, .int (b1.toNat : Nat), 1, .c⟩ : DmapScalar)]).length := by
        simp
      rw [hn, rd_bind_run (readScalars_run rn hseq q1 [])]
      cases as with
      | nil => exact absurd rfl hne
      | cons a as =>
        simp only [List.length_cons, readArrays]
        rw [rd_bind_stop (rd_bind_stop (readArray_undecodable rn _ hstop))]
        exact ⟨_, rfl⟩

theorem writtenList_append_inv {k : Nat} {r1 r2 : List Rec} {b : Bytes} (h : WrittenList k (r1 ++ r2) b) :
    ∃ b1 b2, b = b1 ++ b2 ∧ WrittenList k r1 b1 ∧ WrittenList (k + r1.length) r2 b2 := by
  induction r1 generalizing k b with
  | nil => exact ⟨[], b, rfl, .nil, h⟩
  | cons r r1 ih =>
    rw [List.cons_append] at h
    cases h with
    | cons h1 h2 h3 h4 h5 =>
      obtain ⟨b1, b2, rfl, g1, g2⟩ := ih h5
      refine ⟨_, b2, by rw [List.append_assoc], .cons h1 h2 h3 h4 g1, ?_⟩
      simp only [List.length_cons]
      rw [show k + (r1.length + 1) = k + 1 + r1.length by omega]
      exact g2

theorem writtenList_encodable {mr k : Nat} {recs : List Rec} {b : Bytes} (h : WrittenList k recs b)
    (he : ∀ r ∈ recs, Encodable mr r) : FileEnc mr (recs.map blockOf) b := by
  induction h with
  | nil => exact .nil
  | @cons k r rs data bs h1 h2 h3 h4 h5 ih =>
    obtain ⟨ss, as, rfl, e1, e2, e3, e4, e5, e6⟩ := he r (by simp)
    obtain ⟨b0, g1, g2, _⟩ := recordToBytes_ok k [] e1 e2 e4 e5 e6
    have hl := h1.length
    have hle := h1.le_length
    rw [recordToBytes_written [] h1 h2 (by omega)] at g1
    simp only [List.nil_append, Prod.mk.injEq, true_and] at g1
    rw [List.map_cons, blockOf_fieldsOf, g1.1]
    exact .cons g2 (ih fun x hx => he x (by simp [hx]))

end Verif
