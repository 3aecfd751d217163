import Verif.Dmap.Lemmas.Programs
/-!
# Record headers, one defect at a time
-/
namespace Verif
open Spec

theorem readInt_at {buf : Bytes} {k : Int} {v : Int} (hv : signedOk 4 v) (h : At buf k (intLE 4 v)) :
    readInt buf k = (.ok v, k + 4) := (readInt_ok h.bounds.1).2 ⟨hv, h, rfl⟩

theorem zeroNegativeCheck_run (rn : Nat) (x c : Int) : zeroNegativeCheck rn x c =
    if x = 0 then (.error (.zeroByte rn), c) else if x < 0 then (.error (.negativeByte rn), c)
    else (.ok (), c) := by
  unfold zeroNegativeCheck
  split
  · rfl
  · split <;> rfl

theorem bytesCheck_run (rn : Nat) (x b c : Int) : bytesCheck rn x b c =
    if x > b then (.error (.mismatchByte rn), c) else (.ok (), c) := by
  unfold bytesCheck
  split <;> rfl

/-- The rest of `read_record` after its header. -/
def readBody (cfg : NpCfg) (buf : Bytes) (rn : Nat) (start n ns na : Int) : Rd Rec :=
  readScalars buf rn ns.toNat [] >>= fun r => readArrays cfg buf rn n na.toNat r >>= fun r =>
    Rd.cursor >>= fun c' => if c' - start ≠ n then Rd.raise .cursorError else Pure.pure r

/-- `read_record` on a complete header. -/
theorem readRecord_header (cfg : NpCfg) (buf : Bytes) (rn : Nat) (k : Int) (n ns na : Int)
    (h1 : signedOk 4 n) (h2 : signedOk 4 ns) (h3 : signedOk 4 na)
    (hat : At buf (k + 4) (intLE 4 n ++ intLE 4 ns ++ intLE 4 na)) :
    readRecord cfg buf rn k =
      if n > buf.length - k then (.error (.mismatchByte rn), k + 8)
      else if n = 0 then (.error (.zeroByte rn), k + 8)
      else if n < 0 then (.error (.negativeByte rn), k + 8)
      else if ns = 0 then (.error (.zeroByte rn), k + 16)
      else if ns < 0 then (.error (.negativeByte rn), k + 16)
      else if na = 0 then (.error (.zeroByte rn), k + 16)
      else if na < 0 then (.error (.negativeByte rn), k + 16)
      else if ns + na > n then (.error (.mismatchByte rn), k + 16)
      else readBody cfg buf rn k n ns na (k + 16) := by
  obtain ⟨hat, hat3⟩ := at_append.1 hat
  obtain ⟨hat1, hat2⟩ := at_append.1 hat
  simp only [List.length_append, length_intLE] at hat2 hat3
  unfold readRecord
  rw [rd_bind_run (cursor_run k), rd_bind_run (setCursor_run k (k + 4)), rd_bind_run (readInt_at h1 hat1),
    rd_bind_run (cursor_run _)]
  have e : (buf.length : Int) - (k + 4 + 4) + 8 = buf.length - k := by omega
  rw [e]
  have e8 : k + 4 + 4 = k + 8 := by omega
  rw [e8]
  by_cases c1 : n > buf.length - k
  · rw [if_pos c1, rd_bind_stop (by rw [bytesCheck_run, if_pos c1])]
  rw [if_neg c1, rd_bind_run (a := ()) (by rw [bytesCheck_run, if_neg c1])]
  by_cases c2 : n = 0
  · rw [if_pos c2, rd_bind_stop (by rw [zeroNegativeCheck_run, if_pos c2])]
  rw [if_neg c2]
  by_cases c3 : n < 0
  · rw [if_pos c3, rd_bind_stop (by rw [zeroNegativeCheck_run, if_neg c2, if_pos c3])]
  rw [if_neg c3, rd_bind_run (a := ()) (by rw [zeroNegativeCheck_run, if_neg c2, if_neg c3])]
  rw [rd_bind_run (readInt_at h2 (by rw [← e8]; simpa using hat2)),
    rd_bind_run (readInt_at h3 (by have : k + 8 + 4 = k + 4 + ((4 + 4 : Nat) : Int) := by omega
                                   rw [this]; exact hat3))]
  have e16 : k + 8 + 4 + 4 = k + 16 := by omega
  rw [e16]
  by_cases c4 : ns = 0
  · rw [if_pos c4, rd_bind_stop (by rw [zeroNegativeCheck_run, if_pos c4])]
  rw [if_neg c4]
  by_cases c5 : ns < 0
  · rw [if_pos c5, rd_bind_stop (by rw [zeroNegativeCheck_run, if_neg c4, if_pos c5])]
  rw [if_neg c5, rd_bind_run (a := ()) (by rw [zeroNegativeCheck_run, if_neg c4, if_neg c5])]
  by_cases c6 : na = 0
  · rw [if_pos c6, rd_bind_stop (by rw [zeroNegativeCheck_run, if_pos c6])]
  rw [if_neg c6]
  by_cases c7 : na < 0
  · rw [if_pos c7, rd_bind_stop (by rw [zeroNegativeCheck_run, if_neg c6, if_pos c7])]
  rw [if_neg c7, rd_bind_run (a := ()) (by rw [zeroNegativeCheck_run, if_neg c6, if_neg c7])]
  by_cases c8 : ns + na > n
  · rw [if_pos c8, rd_bind_stop (by rw [bytesCheck_run, if_pos c8])]
  rw [if_neg c8, rd_bind_run (a := ()) (by rw [bytesCheck_run, if_neg c8])]
  rfl

/-- With fewer than eight bytes left there is no block size: `CursorError`. -/
theorem readRecord_short8 (cfg : NpCfg) (buf : Bytes) (rn : Nat) (k : Int)
    (hl : (buf.length : Int) < k + 8) :
    readRecord cfg buf rn k = (.error .cursorError, k + 4) := by
  unfold readRecord
  rw [rd_bind_run (cursor_run k), rd_bind_run (setCursor_run k (k + 4))]
  have : readInt buf (k + 4) = (.error .cursorError, k + 4) := by
    unfold readInt
    rw [rd_bind_stop]
    unfold readDataN
    rw [rd_bind_stop]
    unfold readPre
    split
    · rfl
    · rw [if_pos (by omega)]
  rw [rd_bind_stop this]

/-- Fields of the record read so far and the one that raises. -/
theorem readScalars_stop {buf : Bytes} (rn : Nat) {ss : List DmapScalar} {sb : Bytes}
    (h : SeqEnc ScalarEnc ss sb) {c : Int} (hat : At buf c sb) {e : Err} {c' : Int}
    (he : readScalar buf rn (c + sb.length) = (.error e, c')) (n : Nat) (r : Rec) :
    readScalars buf rn (ss.length + (n + 1)) r c = (.error e, c') := by
  induction h generalizing c r with
  | nil =>
    simp only [List.length_nil, readScalars]
    rw [rd_bind_stop]
    simpa using he
  | @cons s ss b bs hs _ ih =>
    obtain ⟨hat1, hat2⟩ := at_append.1 hat
    have hb := hat1.bounds
    have := ((readScalar_exact (buf := buf) rn) c s _ hb.1 (by omega)).2 ⟨b, hs, hat1, rfl⟩
    have hn : (s :: ss).length + (n + 1) = (ss.length + (n + 1)) + 1 := by simp only [List.length_cons]; omega
    rw [hn]
    simp only [readScalars]
    rw [rd_bind_run this]
    apply ih hat2
    rw [← he]
    congr 1
    simp only [List.length_append]; omega

/-- All scalars of a record. -/
theorem readScalars_run {buf : Bytes} (rn : Nat) {ss : List DmapScalar} {sb : Bytes}
    (h : SeqEnc ScalarEnc ss sb) {c : Int} (hat : At buf c sb) (r : Rec) :
    readScalars buf rn ss.length r c = (.ok (addScalars r ss), c + sb.length) := by
  have hb := hat.bounds
  have := ((readScalarsL_exact (buf := buf) rn ss.length) c ss _ hb.1 (by omega)).2 ⟨sb, ⟨rfl, h⟩, hat, rfl⟩
  rw [readScalars_eq, rd_bind_run this]
  rfl

theorem readArrays_stop {cfg : NpCfg} {buf : Bytes} (rn : Nat) {bsz : Nat} (hbs : bsz < 2 ^ 31)
    {as : List DmapArray} {ab : Bytes}
    (h : SeqEnc (ArrayEnc cfg.maxDims bsz presented) as ab) (hl : ab.length ≤ bsz) {c : Int}
    (hat : At buf c ab) {e : Err} {c' : Int}
    (he : readArray cfg buf rn bsz (c + ab.length) = (.error e, c')) (n : Nat) (r : Rec) :
    readArrays cfg buf rn bsz (as.length + (n + 1)) r c = (.error e, c') := by
  induction h generalizing c r with
  | nil =>
    simp only [List.length_nil, readArrays]
    rw [rd_bind_stop]
    simpa using he
  | @cons s ss b bs hs _ ih =>
    obtain ⟨hat1, hat2⟩ := at_append.1 hat
    have hb := hat1.bounds
    simp only [List.length_append] at hl
    have := ((readArray_exact (cfg := cfg) (buf := buf) rn bsz hbs) c s (c + b.length) hb.1 (by omega)
      (by intro x hx; rw [hs.shape] at hx; obtain ⟨y, _, rfl⟩ := List.mem_map.1 hx; exact Int.natCast_nonneg y)).2
      ⟨b, ⟨hs, arrayEnc_fits hs (by omega)⟩, hat1, rfl⟩
    have hn : (s :: ss).length + (n + 1) = (ss.length + (n + 1)) + 1 := by simp only [List.length_cons]; omega
    rw [hn]
    simp only [readArrays]
    rw [rd_bind_run this]
    apply ih (by omega) hat2
    rw [← he]
    congr 1
    simp only [List.length_append]; omega

theorem readDataS_run {buf : Bytes} (rn : Nat) {s : PyStr} (hs : NulFree s) {c : Int}
    (hat : At buf c (encStr s)) : readDataS buf rn c = (.ok s, c + (encStr s).length) := by
  have hb := hat.bounds
  exact ((readDataS_exact (buf := buf) rn) c s _ hb.1 (by omega)).2 ⟨_, ⟨hs, rfl⟩, hat, rfl⟩

theorem readDataC_run {buf : Bytes} {n : Nat} (hn : n < 256) {c : Int}
    (hat : At buf c [UInt8.ofNat n]) : readDataC buf c = (.ok n, c + 1) := by
  have hb := hat.bounds
  exact ((readDataC_exact (buf := buf)) c n _ hb.1 (by omega)).2 ⟨_, ⟨hn, rfl⟩, hat, rfl⟩

theorem checkDataType_unknown (rn n : Nat) (name : PyStr) (h : ∀ fm, code fm ≠ n) (c : Int) :
    checkDataType rn n name c = (.error (.dmapDataType name n rn), c) := by
  unfold checkDataType
  cases hl : dmapDataTypes.lookup n with
  | none => rfl
  | some p => exact absurd (lookup_iff.1 hl).1.symm (h p.1)

theorem readScalar_unknown {buf : Bytes} (rn : Nat) {name : PyStr} (hs : NulFree name) {n : Nat} (hn : n < 256)
    (h : ∀ fm, code fm ≠ n) {c : Int} (hat : At buf c (encStr name ++ [UInt8.ofNat n])) :
    ∃ c', readScalar buf rn c = (.error (.dmapDataType name n rn), c') := by
  obtain ⟨h1, h2⟩ := at_append.1 hat
  refine ⟨c + (encStr name).length + 1, ?_⟩
  unfold readScalar
  rw [rd_bind_run (readDataS_run rn hs h1), rd_bind_run (readDataC_run hn h2),
    rd_bind_stop (checkDataType_unknown rn n name h _)]

theorem readArray_unknown {cfg : NpCfg} {buf : Bytes} (rn : Nat) (bsz : Int) {name : PyStr} (hs : NulFree name)
    {n : Nat} (hn : n < 256) (h : ∀ fm, code fm ≠ n) {c : Int}
    (hat : At buf c (encStr name ++ [UInt8.ofNat n])) :
    ∃ c', readArray cfg buf rn bsz c = (.error (.dmapDataType name n rn), c') := by
  obtain ⟨h1, h2⟩ := at_append.1 hat
  refine ⟨c + (encStr name).length + 1, ?_⟩
  unfold readArray
  rw [rd_bind_run (readDataS_run rn hs h1), rd_bind_run (readDataC_run hn h2),
    rd_bind_stop (checkDataType_unknown rn n name h _)]

/-- Every record of a successful loop, with its position. -/
theorem readLoop_each (cfg : NpCfg) (fuel : Nat) (r r' : Reader) (k : Nat) (hk : r.cursor = k)
    (h1 : k ≤ r.buf.length) (h : r.readLoop cfg fuel = (.ok (), r')) :
    ∃ (sizes : List Nat) (recs : List Rec), Tiles r.buf k sizes ∧ r'.dmapRecords = r.dmapRecords ++ recs ∧
      recs.length = sizes.length ∧ r'.recNum = r.recNum + recs.length ∧
      ∀ j rec, recs[j]? = some rec →
        readRecord cfg r.buf (r.recNum + j) (k + (sizes.take j).sum : Nat) =
          (.ok rec, ((k + (sizes.take (j + 1)).sum : Nat) : Int)) := by
  induction fuel generalizing r k with
  | zero =>
    rw [Reader.readLoop.eq_def] at h
    simp only at h
    split at h
    · cases h
    · cases h
      refine ⟨[], [], by simp only [Tiles]; omega, by simp, rfl, by simp, by simp⟩
  | succ fuel ih =>
    by_cases hc : r.cursor < r.buf.length
    · rw [readLoop_step _ _ _ hc] at h
      cases hr : readRecord cfg r.buf r.recNum r.cursor with
      | mk x c =>
        rw [hr] at h
        cases x with
        | error e => cases h
        | ok rec =>
          simp only at h
          rw [hk] at hr
          obtain ⟨n, hn0, hn1, hcn, hcl, _, hat⟩ := readRecord_advance (by omega) (by omega) hr
          have hcn' : c = ((k + n : Nat) : Int) := by omega
          obtain ⟨sizes, recs, t1, t2, t3, t4, t5⟩ := ih _ (k + n) hcn' (by
            have : c ≤ r.buf.length := hcl
            show k + n ≤ r.buf.length
            omega) h
          refine ⟨n :: sizes, rec :: recs, ?_, ?_, by simp [t3], ?_, ?_⟩
          · obtain ⟨g1, g2⟩ := at_natLE.1 hat
            exact ⟨hn0, hn1, g1, g2, t1⟩
          · rw [t2]; simp
          · rw [t4]; simp only [List.length_cons]; omega
          · intro j rec' hj
            cases j with
            | zero =>
              simp only [List.getElem?_cons_zero, Option.some.injEq] at hj
              subst hj
              simp only [Nat.add_zero, List.take_zero, List.sum_nil, List.take_succ_cons, List.sum_cons,
                Nat.zero_add]
              rw [hr, hcn']
            | succ j =>
              simp only [List.getElem?_cons_succ] at hj
              have := t5 j rec' hj
              simp only [List.take_succ_cons, List.sum_cons]
              simp only [Nat.add_assoc, Nat.add_comm 1 j] at this ⊢
              exact this
    · rw [readLoop_stop _ _ _ hc] at h
      cases h
      refine ⟨[], [], by simp only [Tiles]; omega, by simp, rfl, by simp, by simp⟩

theorem dmap2dict_length {cfg : NpCfg} {rs : List Rec} {ds : List PlainRec} (h : dmap2dict cfg rs = .ok ds) :
    ds.length = rs.length := by
  induction rs generalizing ds with
  | nil => cases h; rfl
  | cons r rs ih =>
    simp only [dmap2dict] at h
    cases h1 : recToPlain cfg r with
    | error e => rw [h1] at h; cases h
    | ok d =>
      cases h2 : dmap2dict cfg rs with
      | error e => rw [h1, h2] at h; cases h
      | ok ds' => rw [h1, h2] at h; cases h; simp [ih h2]

/-- The cursor of a loop started inside the file stays there, also when it raises. -/
theorem readLoop_ok_cursor (cfg : NpCfg) (fuel : Nat) (r r' : Reader) (k : Nat) (hk : r.cursor = k)
    (h1 : k ≤ r.buf.length) (h : r.readLoop cfg fuel = (.ok (), r')) :
    r'.cursor = r.buf.length ∧ r'.buf = r.buf := by
  obtain ⟨_, _, h2, h3, _⟩ := readLoop_tiles cfg fuel r r' k hk h1 h
  exact ⟨h2, h3⟩

theorem npIntCast_not_diverged (cfg : NpCfg) (s : Bool) (k : Nat) (v : Int) :
    npIntCast cfg s k v ≠ .error .diverged := by
  unfold npIntCast
  simp only
  by_cases h1 : (if s = true then -((256 ^ k : Nat) : Int) / 2 else 0) ≤ v ∧
      v < (if s = true then ((256 ^ k : Nat) : Int) / 2 else ((256 ^ k : Nat) : Int))
  · rw [if_pos h1]; intro h; cases h
  · rw [if_neg h1]
    by_cases h2 : cfg.intWraps = true
    · rw [if_pos h2]; intro h; cases h
    · rw [if_neg h2]; intro h; cases h

theorem fieldToPlain_not_diverged {cfg : NpCfg} (f : Field) : fieldToPlain cfg f ≠ .error .diverged := by
  cases f with
  | array a => intro h; cases h
  | other => intro h; cases h
  | scalar s =>
    obtain ⟨name, value, dt, fm⟩ := s
    intro h
    simp only [fieldToPlain] at h
    cases fm <;> cases value <;> simp only [castVal] at h <;> first
      | cases h
      | (simp only [bind, Except.bind] at h
         split at h
         · rename_i e he
           cases h
           exact npIntCast_not_diverged _ _ _ _ he
         · cases h)

theorem recToPlain_not_diverged {cfg : NpCfg} (r : Rec) : recToPlain cfg r ≠ .error .diverged := by
  induction r with
  | nil => intro h; cases h
  | cons p r ih =>
    obtain ⟨k, f⟩ := p
    intro h
    simp only [recToPlain] at h
    cases h1 : fieldToPlain cfg f with
    | error e => rw [h1] at h; cases h; exact fieldToPlain_not_diverged f h1
    | ok d =>
      cases h2 : recToPlain cfg r with
      | error e => rw [h1, h2] at h; cases h; exact ih h2
      | ok ds' => rw [h1, h2] at h; cases h

theorem dmap2dict_not_diverged (cfg : NpCfg) (rs : List Rec) : dmap2dict cfg rs ≠ .error .diverged := by
  induction rs with
  | nil => intro h; cases h
  | cons r rs ih =>
    intro h
    simp only [dmap2dict] at h
    cases h1 : recToPlain cfg r with
    | error e => rw [h1] at h; cases h; exact recToPlain_not_diverged r h1
    | ok d =>
      cases h2 : dmap2dict cfg rs with
      | error e => rw [h1, h2] at h; cases h; exact ih h2
      | ok ds' => rw [h1, h2] at h; cases h

theorem header_only (cfg : NpCfg) : readRecord cfg [0, 0, 0, 0, 8, 0, 0, 0] 0 0 = (.error .cursorError, 8) := by
  cases cfg; rfl

theorem readLoop_end (cfg : NpCfg) (fuel : Nat) (r r' : Reader) (h : r.readLoop cfg fuel = (.ok (), r')) :
    ¬ r'.cursor < r'.buf.length := by
  induction fuel generalizing r with
  | zero =>
    rw [Reader.readLoop.eq_def] at h
    simp only at h
    split at h
    · cases h
    · rename_i hc; cases h; exact hc
  | succ fuel ih =>
    by_cases hc : r.cursor < r.buf.length
    · rw [readLoop_step _ _ _ hc] at h
      cases hr : readRecord cfg r.buf r.recNum r.cursor with
      | mk x c =>
        rw [hr] at h
        cases x with
        | error e => cases h
        | ok rec => exact ih _ h
    · rw [readLoop_stop _ _ _ hc] at h
      cases h
      exact hc

theorem signedOk_four {v : Int} : signedOk 4 v ↔ -2 ^ 31 ≤ v ∧ v < 2 ^ 31 := by
  unfold signedOk; omega

/-- Exceptions of the loop without negative `slist` dimensions. -/
theorem readLoop_err_in (cfg : NpCfg) (fuel : Nat) (r r' : Reader) (e : Err) (hneg : ¬ NegSlist r.buf)
    (hin : Inside r.buf r.cursor) (hf : (r.buf.length - r.cursor).toNat ≤ fuel)
    (h : r.readLoop cfg fuel = (.error e, r')) : PlainReadErr e := by
  induction fuel generalizing r with
  | zero =>
    rw [readLoop_stop _ _ _ (by omega)] at h
    cases h
  | succ fuel ih =>
    by_cases hc : r.cursor < r.buf.length
    · rw [readLoop_step _ _ _ hc] at h
      cases hr : readRecord cfg r.buf r.recNum r.cursor with
      | mk x c =>
        rw [hr] at h
        cases x with
        | error e' =>
          cases h
          exact (readRecord_in hneg cfg r.recNum r.cursor hin).1 _ _ hr
        | ok rec =>
          simp only at h
          obtain ⟨n, hn0, _, hcn, hcl, _⟩ := readRecord_advance hin.1 hin.2 hr
          have := hin.1
          refine ih { r with cursor := c, dmapRecords := r.dmapRecords ++ [rec], recNum := r.recNum + 1 }
            hneg ⟨?_, hcl⟩ ?_ h
          · show 0 ≤ c
            omega
          · show (r.buf.length - c).toNat ≤ fuel
            omega
    · rw [readLoop_stop _ _ _ hc] at h
      cases h

end Verif
