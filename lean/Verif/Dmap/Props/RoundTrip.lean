import Verif.Dmap.Lemmas.Programs
import Verif.Dmap.Sample
/-!
# C01, C02, C04, C05, C06: encoding and decoding whole files
-/
namespace Verif
open Spec

/-! ## C01 -/

/-- **C01** Writing encodable records with `write_dmap_stream` and reading the bytes back
gives the same records: same order, names, types, values, dimensions, shapes and cells
(`presentRec`), and the corresponding plain dictionaries. -/
theorem C01_roundtrip (cfg : NpCfg) {recs : List Rec} (hne : recs ≠ [])
    (h : ∀ r ∈ recs, Encodable cfg.maxDims r) :
    writeThenRead cfg recs = .ok (recs.map presentRec, recs.map plainRec) := by
  obtain ⟨bs, h1, h2⟩ := writeBytes_ok hne h
  unfold writeThenRead
  rw [h1]
  exact readFile_written hne h h2

example : writeThenRead numpy2 [Sample.record, Sample.record2] =
    .ok ([Sample.record, Sample.record2].map presentRec, [Sample.record, Sample.record2].map plainRec) :=
  C01_roundtrip numpy2 (by decide) (Sample.both_encodable (by decide))

/-- A field whose array (if it is one) already has the dtype a reader shows. -/
def StandardDtype : Field → Prop
  | .array a => a.value.dtype = presented a.fmt
  | _ => True

/-- **C01** With the standard dtypes the records come back identical. -/
theorem C01_identical (cfg : NpCfg) {recs : List Rec} (hne : recs ≠ [])
    (h : ∀ r ∈ recs, Encodable cfg.maxDims r) (hd : ∀ r ∈ recs, ∀ p ∈ r, StandardDtype p.2) :
    writeThenRead cfg recs = .ok (recs, recs.map plainRec) := by
  refine (C01_roundtrip cfg hne h).trans ?_
  have : recs.map presentRec = recs := by
    refine (List.map_congr_left (g := id) fun r hr => ?_).trans (List.map_id _)
    unfold presentRec
    refine (List.map_congr_left (g := id) fun p hp => ?_).trans (List.map_id _)
    obtain ⟨k, f⟩ := p
    have := hd r hr _ hp
    cases f with
    | array a =>
      simp only [StandardDtype] at this
      simp only [presentField, present, ← this, id]
    | scalar s => rfl
    | other => rfl
  rw [this]

example : writeThenRead numpy1 [Sample.record2] = .ok ([Sample.record2], [Sample.record2].map plainRec) :=
  C01_identical numpy1 (by decide)
    (by intro r hr; rw [List.mem_singleton.1 hr]; exact Sample.record2_encodable (by decide))
    (by intro r hr p hp
        rw [List.mem_singleton.1 hr] at hp
        simp only [Sample.record2, fieldsOf, List.map_cons, List.map_nil, List.cons_append, List.nil_append,
          List.mem_cons, List.not_mem_nil, or_false] at hp
        rcases hp with rfl | rfl
        · trivial
        · rfl)

/-- **C01** Same for a file written with `write_dmap`: exactly the named file gets the bytes, and
reading its content gives the records. -/
theorem C01_roundtrip_file (cfg : NpCfg) {recs : List Rec} (hne : recs ≠ [])
    (h : ∀ r ∈ recs, Encodable cfg.maxDims r) (fs : FileSys) {fn : PyStr} (hfn : fn ≠ []) :
    ∃ w w' fs' bs, Writer.new (dmapInput recs) [] = .ok w ∧ w.writeDmap fs fn = (.ok (), w', fs') ∧
      fs' fn = some bs ∧ (∀ n, n ≠ fn → fs' n = fs n) ∧
      readFile cfg bs = .ok (recs.map presentRec, recs.map plainRec) := by
  obtain ⟨bs, rn', h2, h3⟩ := writeStream_ok
    { filename := fn, isList := true, recs := recs, buf := [], recNum := 0 } noRecords hne h
  refine ⟨_, { filename := fn, isList := true, recs := recs.map leftRec, buf := bs, recNum := rn' },
    fs.write fn bs, bs, writerNew_dmapInput recs [], ?_, by simp [FileSys.write],
    fun n hn => by simp [FileSys.write, hn], ?_⟩
  · unfold Writer.writeDmap Writer.filenameCheck
    simp [hfn, h2]
  · exact readFile_written hne h h3

example : ∃ w w' fs' bs, Writer.new (dmapInput [Sample.record]) [] = .ok w ∧
    w.writeDmap (fun _ => none) (py! "f.dmap") = (.ok (), w', fs') ∧
    fs' (py! "f.dmap") = some bs ∧ (∀ n, n ≠ py! "f.dmap" → fs' n = none) ∧
    readFile numpy1 bs = .ok ([Sample.record].map presentRec, [Sample.record].map plainRec) :=
  C01_roundtrip_file numpy1 (by decide)
    (by intro r hr; rw [List.mem_singleton.1 hr]; exact Sample.record_encodable (by decide)) _ (by decide)

/-! ## C06 -/

/-- **C06** Reading the concatenation of two streams of whole blocks gives the records of
the first followed by those of the second. -/
theorem C06_concat (cfg : NpCfg) {bl1 bl2 : List Block} {b1 b2 : Bytes}
    (h1 : FileEnc cfg.maxDims bl1 b1) (h2 : FileEnc cfg.maxDims bl2 b2)
    {r1 r2 : List Rec} {d1 d2 : List PlainRec}
    (e1 : readFile cfg b1 = .ok (r1, d1)) (e2 : readFile cfg b2 = .ok (r2, d2)) :
    readFile cfg (b1 ++ b2) = .ok (r1 ++ r2, d1 ++ d2) := by
  have n1 : bl1 ≠ [] := by rintro rfl; cases h1; cases e1
  have n2 : bl2 ≠ [] := by rintro rfl; cases h2; cases e2
  have happ : ∀ (l1 l2 : List Rec) (p1 p2 : List PlainRec), dmap2dict cfg l1 = .ok p1 →
      dmap2dict cfg l2 = .ok p2 → dmap2dict cfg (l1 ++ l2) = .ok (p1 ++ p2) := by
    intro l1
    induction l1 with
    | nil => intro l2 p1 p2 h h'; cases h; exact h'
    | cons r l1 ih =>
      intro l2 p1 p2 h h'
      simp only [dmap2dict, List.cons_append] at h ⊢
      cases hr : recToPlain cfg r with
      | error e => rw [hr] at h; cases h
      | ok d =>
        cases hl : dmap2dict cfg l1 with
        | error e => rw [hr, hl] at h; cases h
        | ok ds => rw [hr, hl] at h; cases h; rw [ih l2 ds p2 hl h']; rfl
  have hf : FileEnc cfg.maxDims (bl1 ++ bl2) (b1 ++ b2) := seqEnc_append h1 h2
  rw [readFile_fileEnc h1 n1] at e1
  rw [readFile_fileEnc h2 n2] at e2
  rw [readFile_fileEnc hf (by simp [n1]), List.map_append]
  cases g1 : dmap2dict cfg (bl1.map Block.record) with
  | error e => rw [g1] at e1; cases e1
  | ok p1 =>
    cases g2 : dmap2dict cfg (bl2.map Block.record) with
    | error e => rw [g2] at e2; cases e2
    | ok p2 =>
      rw [g1] at e1; rw [g2] at e2
      cases e1; cases e2
      rw [happ _ _ _ _ g1 g2]

/-- `bytes2` is accepted and is one whole block. -/
theorem bytes2_read : readFile numpy1 Sample.bytes2 = .ok ([Sample.record2], [plainRec Sample.record2]) := by
  decide +kernel

theorem bytes2_enc : ∃ bl, FileEnc numpy1.maxDims bl Sample.bytes2 ∧ bl ≠ [] := by
  obtain ⟨bl, h, h', _⟩ := readFile_sound Sample.bytes2_plain bytes2_read
  exact ⟨bl, h, by rintro rfl; cases h'⟩

example : readFile numpy1 (Sample.bytes2 ++ Sample.bytes2) =
    .ok ([Sample.record2, Sample.record2], [plainRec Sample.record2, plainRec Sample.record2]) := by
  obtain ⟨bl, h, _⟩ := bytes2_enc
  exact C06_concat numpy1 h h bytes2_read bytes2_read

/-- **C06** For any two accepted byte strings (without negative `slist` dimensions). -/
theorem C06_concat_accepted (cfg : NpCfg) {b1 b2 : Bytes} (n1 : ¬ NegSlist b1) (n2 : ¬ NegSlist b2)
    {r1 r2 : List Rec} {d1 d2 : List PlainRec}
    (e1 : readFile cfg b1 = .ok (r1, d1)) (e2 : readFile cfg b2 = .ok (r2, d2)) :
    readFile cfg (b1 ++ b2) = .ok (r1 ++ r2, d1 ++ d2) := by
  obtain ⟨bl1, h1, _⟩ := readFile_sound n1 e1
  obtain ⟨bl2, h2, _⟩ := readFile_sound n2 e2
  exact C06_concat cfg h1 h2 e1 e2

example := C06_concat_accepted numpy1 Sample.bytes2_plain Sample.bytes2_plain bytes2_read bytes2_read

/-- **C06** Written streams may be concatenated. -/
theorem C06_concat_written (cfg : NpCfg) {recs1 recs2 : List Rec} (n1 : recs1 ≠ []) (n2 : recs2 ≠ [])
    (h1 : ∀ r ∈ recs1, Encodable cfg.maxDims r) (h2 : ∀ r ∈ recs2, Encodable cfg.maxDims r) :
    ∃ b1 b2, writeBytes recs1 = .ok b1 ∧ writeBytes recs2 = .ok b2 ∧
      readFile cfg (b1 ++ b2) =
        .ok (recs1.map presentRec ++ recs2.map presentRec, recs1.map plainRec ++ recs2.map plainRec) := by
  obtain ⟨b1, e1, f1⟩ := writeBytes_ok n1 h1
  obtain ⟨b2, e2, f2⟩ := writeBytes_ok n2 h2
  exact ⟨b1, b2, e1, e2, C06_concat cfg f1 f2 (readFile_written n1 h1 f1) (readFile_written n2 h2 f2)⟩

example := C06_concat_written numpy1 (recs1 := [Sample.record]) (recs2 := [Sample.record2, Sample.record])
  (by decide) (by decide)
  (by intro r hr; rw [List.mem_singleton.1 hr]; exact Sample.record_encodable (by decide))
  (by intro r hr
      simp only [List.mem_cons, List.not_mem_nil, or_false] at hr
      rcases hr with rfl | rfl
      · exact Sample.record2_encodable (by decide)
      · exact Sample.record_encodable (by decide))

/-! ## C04 -/

/-- **C04** An accepted byte string (without negative `slist` dimensions) is exactly the DMAP
encoding of some blocks whose fields are what the reader returned: nothing is skipped. -/
theorem C04_lossless (cfg : NpCfg) {bs : Bytes} (hneg : ¬ NegSlist bs) {rs : List Rec}
    {ds : List PlainRec} (h : readFile cfg bs = .ok (rs, ds)) :
    ∃ bl, FileEnc cfg.maxDims bl bs ∧ rs = bl.map Block.record := by
  obtain ⟨bl, h1, h2, _⟩ := readFile_sound hneg h
  exact ⟨bl, h1, h2⟩

example := C04_lossless numpy1 Sample.bytes2_plain bytes2_read

/-- **C04** Files with the same identifiers and field lists are byte-identical.  Not if a single-precision scalar is
a NaN, see `C04_nan_violation`. -/
theorem C04_injective_partial (mr : Nat) {bl : List Block} (hn : ∀ b ∈ bl, b.NoNaN) {b1 b2 : Bytes} (h1 : FileEnc mr bl b1)
    (h2 : FileEnc mr bl b2) : b1 = b2 := fileEnc_fun hn h1 h2

theorem bytes2_blocks : FileEnc numpy1.maxDims ([Sample.record2].map blockOf) Sample.bytes2 := by
  have hne : [Sample.record2] ≠ [] := by simp
  have he : ∀ r ∈ [Sample.record2], Encodable numpy1.maxDims r := by
    intro r hr; rw [List.mem_singleton.1 hr]; exact Sample.record2_encodable (by decide)
  obtain ⟨bs, h1, h2⟩ := writeBytes_ok hne he
  have h3 : writeBytes [Sample.record2] = .ok Sample.bytes2 := by decide +kernel
  rw [h1] at h3
  cases h3
  exact h2

example {b : Bytes} (h : FileEnc numpy1.maxDims ([Sample.record2].map blockOf) b) : b = Sample.bytes2 :=
  C04_injective_partial _ (by decide) h bytes2_blocks

/-- **C04** Two files of whole blocks in which no name occurs twice in a block, with the same
identifiers, for which the reader returns the same records, are byte-identical.  Not if a single-precision
scalar is a NaN, see `C04_nan_violation`. -/
theorem C04_accepted_injective_partial (cfg : NpCfg) {bl1 bl2 : List Block} {b1 b2 : Bytes}
    (h1 : FileEnc cfg.maxDims bl1 b1) (h2 : FileEnc cfg.maxDims bl2 b2)
    (hi : bl1.map Block.ident = bl2.map Block.ident)
    (hn : ∀ b ∈ bl1, b.NoNaN) (hn1 : ∀ x ∈ bl1, (x.fields.map Prod.fst).Nodup) (hn2 : ∀ x ∈ bl2, (x.fields.map Prod.fst).Nodup)
    {rs : List Rec} {d1 d2 : List PlainRec} (e1 : readFile cfg b1 = .ok (rs, d1))
    (e2 : readFile cfg b2 = .ok (rs, d2)) : b1 = b2 := by
  have hrs : ∀ {bl : List Block} {b : Bytes} {d : List PlainRec}, FileEnc cfg.maxDims bl b →
      readFile cfg b = .ok (rs, d) → rs = bl.map Block.record := by
    intro bl b d h e
    have hne : bl ≠ [] := by rintro rfl; cases h; cases e
    rw [readFile_fileEnc h hne] at e
    cases hd : dmap2dict cfg (bl.map Block.record) with
    | error e' => rw [hd] at e; cases e
    | ok p => rw [hd] at e; cases e; rfl
  have g1 := hrs h1 e1
  have g2 := hrs h2 e2
  clear hrs e1 e2
  have key : ∀ (l1 l2 : List Block), l1.map Block.ident = l2.map Block.ident →
      l1.map Block.record = l2.map Block.record → (∀ x ∈ l1, (x.fields.map Prod.fst).Nodup) →
      (∀ x ∈ l2, (x.fields.map Prod.fst).Nodup) → l1 = l2 := by
    intro l1
    induction l1 with
    | nil => intro l2 h _ _ _; cases l2 with
      | nil => rfl
      | cons => cases h
    | cons x l1 ih =>
      intro l2 h h' k1 k2
      cases l2 with
      | nil => cases h
      | cons y l2 =>
        simp only [List.map_cons, List.cons.injEq] at h h'
        rw [ih l2 h.2 h'.2 (fun z hz => k1 z (List.mem_cons_of_mem _ hz))
          (fun z hz => k2 z (List.mem_cons_of_mem _ hz))]
        have e1 : x.record = x.fields := Dict.ofList_of_nodup (k1 x (by simp))
        have e2 : y.record = y.fields := Dict.ofList_of_nodup (k2 y (by simp))
        have e := h'.1
        rw [e1, e2] at e
        have es := congrArg (List.filterMap fun p : PyStr × Field => match p.2 with | .scalar s => some s | _ => none) e
        have ea := congrArg (List.filterMap fun p : PyStr × Field => match p.2 with | .array a => some a | _ => none) e
        have hnone : ∀ {α β : Type} (l : List α), l.filterMap (fun _ => (none : Option β)) = [] := by
          intro α β l; induction l <;> simp_all
        simp only [Block.fields, List.filterMap_append, List.filterMap_map, Function.comp_def,
          List.filterMap_some, hnone, List.append_nil, List.nil_append] at es ea
        obtain ⟨i1, s1, a1⟩ := x
        obtain ⟨i2, s2, a2⟩ := y
        simp only at es ea h
        rw [es, ea, h.1]
  rw [key bl1 bl2 hi (g1.symm.trans g2) hn1 hn2] at h1 hn
  exact fileEnc_fun hn h1 h2

example : Sample.bytes2 = Sample.bytes2 :=
  C04_accepted_injective_partial numpy1 bytes2_blocks bytes2_blocks rfl (by decide) (by decide) (by decide) bytes2_read bytes2_read

/-- A block with a scalar of type float, given by its bytes, and an array. -/
def floatBlock (x : Bytes) : Bytes :=
  [1, 0, 1, 0, 42, 0, 0, 0, 1, 0, 0, 0, 1, 0, 0, 0, 97, 0, 4] ++ x ++ [98, 0, 8, 1, 0, 0, 0, 1, 0, 0, 0, 0, 0, 0, 0, 0, 0, 240, 63]

/-- **C04** violated: the bits of a signalling NaN are not kept, so different files are read as the same records. -/
theorem C04_nan_violation : ∃ r, readFile numpy1 (floatBlock [1, 0, 128, 127]) = .ok r ∧
    readFile numpy1 (floatBlock [1, 0, 192, 127]) = .ok r ∧ floatBlock [1, 0, 128, 127] ≠ floatBlock [1, 0, 192, 127] :=
  ⟨_, rfl, rfl, by decide⟩

/-! ## C05 -/

/-- **C05** A file of whole blocks cut at any position: the result is the records of the
first `j` blocks if the cut is at the end of block `j`, otherwise the reader raises
`CursorError` or `MismatchByteError` (for an empty file, `EmptyFileError`). -/
theorem C05_truncation (cfg : NpCfg) {bl : List Block} {bs : Bytes} (h : FileEnc cfg.maxDims bl bs)
    (k : Nat) (hk : k ≤ bs.length) :
    (∃ j, j ≤ bl.length ∧ FileEnc cfg.maxDims (bl.take j) (bs.take k) ∧
      readFile cfg (bs.take k) =
        if k = 0 then .error .emptyFile else
        match dmap2dict cfg ((bl.take j).map Block.record) with
        | .error e => .error e
        | .ok ds => .ok ((bl.take j).map Block.record, ds)) ∨
    ((¬ ∃ j, FileEnc cfg.maxDims (bl.take j) (bs.take k)) ∧
      ∃ e, readFile cfg (bs.take k) = .error e ∧ (e = .cursorError ∨ ∃ rn, e = .mismatchByte rn)) := by
  obtain ⟨j, b1, pre, h1, h2, h3, h4⟩ := fileEnc_cut h k hk
  rcases h4 with rfl | ⟨b, bb, rest, hj, hbe, hbb, hpre, hrest⟩
  · left
    rw [List.append_nil] at h3
    rw [h3]
    refine ⟨j, h1, h2, ?_⟩
    by_cases hk0 : k = 0
    · subst hk0
      simp at h3
      rw [if_pos rfl, h3]
      rfl
    · rw [if_neg hk0]
      apply readFile_fileEnc h2
      intro hnil
      rw [hnil] at h2
      cases h2
      have := congrArg List.length h3
      simp only [List.length_take, List.length_nil] at this
      omega
  · right
    have hat : At (b1 ++ pre) 0 b1 := ⟨[], pre, by simp, rfl⟩
    have hlt : b1.length < (b1 ++ pre).length := by
      simp only [List.length_append]
      have := List.length_pos_iff.2 hpre
      omega
    obtain ⟨e, c, he, hcases⟩ := readRecord_cut (cfg := cfg) hbe (bl.take j).length hbb hrest
      (buf := b1 ++ pre) (c := b1.length) ⟨b1, [], by simp, rfl⟩ (by simp)
    have hr := readFile_stops h2 hat hlt he
    rw [h3]
    refine ⟨?_, e, hr, hcases.imp id fun h => ⟨_, h⟩⟩
    rintro ⟨j', hj'⟩
    have hne : bl.take j' ≠ [] := by
      intro hnil; rw [hnil] at hj'
      generalize hg : b1 ++ pre = g at hj' hlt
      cases hj'
      simp at hlt
    rw [readFile_fileEnc hj' hne] at hr
    cases hd : dmap2dict cfg ((bl.take j').map Block.record) with
    | ok ds => rw [hd] at hr; cases hr
    | error e' =>
      rw [hd] at hr
      cases hr
      have hsh : ∀ r ∈ (bl.take j').map Block.record, ShapedRec r := by
        intro r hr
        obtain ⟨b', hb', rfl⟩ := List.mem_map.1 hr
        obtain ⟨bb', hbb'⟩ := seqEnc_mem hj' hb'
        exact readRecord_shaped (cfg := cfg) (buf := bb') (c := 0) (Int.le_refl 0) (by simp)
          (readRecord_complete 0 hbb' (at_self bb'))
      have := (dmap2dict_err hsh hd).1
      subst this
      rcases hcases with h | h <;> cases h

example : ∃ e, readFile numpy1 (Sample.bytes2.take 41) = .error e := by
  obtain ⟨bl, h, hne⟩ := bytes2_enc
  rcases C05_truncation numpy1 h 41 (by decide) with ⟨j, _, _, h2⟩ | ⟨_, e, h2, _⟩
  · rw [h2]
    have : readFile numpy1 (Sample.bytes2.take 41) = .error (.mismatchByte 0) := by decide +kernel
    exact ⟨_, h2.symm.trans this⟩
  · exact ⟨e, h2⟩

/-- **C05** For streams written by the writer: cut at a record boundary the records before the cut are
returned, cut anywhere else the reader raises. -/
theorem C05_truncation_written (cfg : NpCfg) {recs : List Rec} (hne : recs ≠ [])
    (h : ∀ r ∈ recs, Encodable cfg.maxDims r) {bs : Bytes} (hw : writeBytes recs = .ok bs)
    (k : Nat) (hk0 : 0 < k) (hk : k ≤ bs.length) :
    (∃ j, 1 ≤ j ∧ j ≤ recs.length ∧ writeBytes (recs.take j) = .ok (bs.take k) ∧
      readFile cfg (bs.take k) = .ok ((recs.take j).map presentRec, (recs.take j).map plainRec)) ∨
    ((¬ ∃ j, writeBytes (recs.take j) = .ok (bs.take k)) ∧
      ∃ e, readFile cfg (bs.take k) = .error e ∧ (e = .cursorError ∨ ∃ rn, e = .mismatchByte rn)) := by
  have htake : ∀ j, ∀ r ∈ recs.take j, Encodable cfg.maxDims r := fun j r hr => h r (List.mem_of_mem_take hr)
  have hwj : ∀ j, recs.take j ≠ [] → ∃ b, writeBytes (recs.take j) = .ok b ∧
      FileEnc cfg.maxDims ((recs.map blockOf).take j) b := by
    intro j hj
    obtain ⟨b, h1, h2⟩ := writeBytes_ok hj (htake j)
    exact ⟨b, h1, by rw [← List.map_take]; exact h2⟩
  obtain ⟨bs', h1, h2⟩ := writeBytes_ok hne h
  rw [hw] at h1
  cases h1
  rcases C05_truncation cfg h2 k hk with ⟨j, hj, hf, hr⟩ | ⟨hno, hr⟩
  · left
    have hj0 : j ≠ 0 := by
      rintro rfl
      simp only [List.take_zero] at hf
      generalize hg : bs.take k = g at hf
      cases hf
      have := congrArg List.length hg
      simp only [List.length_take, List.length_nil] at this
      omega
    have hnj : recs.take j ≠ [] := by
      simp only [ne_eq, List.take_eq_nil_iff, not_or]
      exact ⟨hj0, hne⟩
    obtain ⟨b, e1, e2⟩ := hwj j hnj
    refine ⟨j, by omega, by simpa using hj, ?_, ?_⟩
    · obtain ⟨b', y, f1, f2, f3⟩ := writeBytes_take h hw j hnj
      rw [List.map_take] at f2
      have hl := fileEnc_len_eq f2 hf
      subst f3
      rw [f1]
      rw [List.length_take] at hl
      rw [List.length_append] at hk hl
      rw [List.take_append_of_le_length (by omega), List.take_of_length_le (by omega)]
    · rw [← List.map_take] at hf
      exact readFile_written hnj (htake j) hf
  · right
    refine ⟨?_, hr⟩
    rintro ⟨j, hj⟩
    by_cases hnj : recs.take j = []
    · rw [hnj] at hj
      cases hj
    · obtain ⟨b, e1, e2⟩ := hwj j hnj
      rw [e1] at hj
      cases hj
      exact hno ⟨j, e2⟩

example := fun k h0 (hk : k ≤ Sample.bytes2.length) => C05_truncation_written numpy1 (recs := [Sample.record2]) (by decide)
  (by intro r hr; rw [List.mem_singleton.1 hr]; exact Sample.record2_encodable (by decide))
  (show writeBytes [Sample.record2] = .ok Sample.bytes2 by decide +kernel) k h0 hk

end Verif
