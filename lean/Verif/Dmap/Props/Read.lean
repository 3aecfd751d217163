import Verif.Dmap.Lemmas.Header
import Verif.Dmap.Sample
/-!
# C02, C03, C07–C12, C22: reading arbitrary bytes
-/
namespace Verif
open Spec

/-! ## C03 -/

/-- **C03** `read_records` terminates on any reader state: the loop bound of the model is never reached,
and giving the loop any larger bound changes nothing. -/
theorem C03_terminates (cfg : NpCfg) (rd : Reader) :
    (rd.readRecords cfg).1 ≠ .error .diverged ∧
      ∀ fuel, (rd.buf.length - rd.cursor).toNat ≤ fuel →
        rd.readLoop cfg fuel = rd.readLoop cfg (rd.buf.length - rd.cursor).toNat := by
  refine ⟨?_, fun fuel hf => readLoop_fuel cfg _ _ rd hf (Nat.le_refl _)⟩
  unfold Reader.readRecords
  cases h : rd.readLoop cfg (rd.buf.length - rd.cursor).toNat with
  | mk x r1 =>
    cases x with
    | error e =>
      intro he
      cases he
      have := readLoop_err cfg _ rd r1 _ (Nat.le_refl _) h
      cases this with
      | doc hd => cases hd
    | ok u =>
      simp only
      split
      · intro h; cases h
      · cases hd : dmap2dict cfg r1.dmapRecords with
        | ok ds => intro h; cases h
        | error e =>
          intro he
          simp only [Except.error.injEq] at he
          subst he
          exact dmap2dict_not_diverged _ _ hd

/-- **C03** When reading a file returns, the cursor is exactly at the end, the records tile the file
with the sizes declared in their headers, and record `j` was decoded from tile `j`. -/
theorem C03_exact (cfg : NpCfg) {bs : Bytes} {ds : List PlainRec} {rd' : Reader}
    (h : (freshReader bs).readRecords cfg = (.ok ds, rd')) :
    rd'.cursor = bs.length ∧ rd'.buf = bs ∧ ∃ sizes : List Nat,
      Tiles bs 0 sizes ∧ sizes.sum = bs.length ∧ rd'.dmapRecords.length = sizes.length ∧
      ds.length = sizes.length ∧ rd'.recNum = sizes.length ∧
      ∀ j rec, rd'.dmapRecords[j]? = some rec →
        readRecord cfg bs j ((sizes.take j).sum : Nat) = (.ok rec, (((sizes.take (j + 1)).sum : Nat) : Int)) := by
  obtain ⟨r1, h1, _, h3, rfl⟩ := readRecords_ok.1 h
  obtain ⟨hc, hb⟩ := readLoop_ok_cursor cfg _ (freshReader bs) r1 0 rfl (by simp) h1
  obtain ⟨sizes, recs, t1, t2, t3, t4, t5⟩ := readLoop_each cfg _ (freshReader bs) r1 0 rfl (by simp) h1
  have ts := tiles_sum t1
  have t2' : r1.dmapRecords = recs := by rw [t2]; rfl
  refine ⟨hc, hb, sizes, t1, by simpa [freshReader] using ts, by simp [t2', t3], ?_, ?_, ?_⟩
  · rw [dmap2dict_length h3, t2', t3]
  · show r1.recNum = _
    rw [t4, t3]; simp [freshReader]
  · intro j rec hj
    have := t5 j rec (by rw [← t2']; exact hj)
    simpa [freshReader] using this

example : ∃ ds rd', (freshReader (Sample.bytes2 ++ Sample.bytes2)).readRecords numpy1 = (.ok ds, rd') ∧
    rd'.dmapRecords.length = 2 := by
  refine ⟨_, _, rfl, by decide +kernel⟩

/-! ## C10 -/

/-- **C10** The integrity test succeeds exactly on block tilings. -/
theorem C10_integrity (bs : Bytes) : integrityOf bs = .ok () ↔ bs ≠ [] ∧ ∃ sizes, Tiles bs 0 sizes := by
  unfold integrityOf
  by_cases hb : bs = []
  · subst hb
    rw [reader_new_nil]
    simp
  · rw [reader_new hb]
    simp only [Reader.testIntegrity, freshReader, ne_eq, not_true_eq_false, if_false, hb, not_false_eq_true,
      true_and]
    have hi := integrityLoop_iff bs 0 bs.length 0 (Nat.zero_le _) (Nat.le_refl _)
    constructor
    · intro h
      cases hl : integrityLoop bs 0 bs.length 0 0 with
      | mk x c =>
        cases x with
        | error e => rw [hl] at h; cases h
        | ok t => exact ((hi t c).1 hl).1
    · rintro ⟨sizes, hs⟩
      have := (hi bs.length bs.length).2 ⟨⟨sizes, hs⟩, rfl, rfl⟩
      rw [show ((0 : Nat) : Int) = 0 from rfl] at this
      rw [this]
      simp

example : integrityOf Sample.bytes2 = .ok () ∧ integrityOf (Sample.bytes2 ++ [0]) ≠ .ok () := by
  decide +kernel

/-- **C10** On success the reader is rewound and unchanged, and the failure branch on the
total block size (which would raise `AttributeError`) is never reached; nor does the loop diverge. -/
theorem C10_rewound (rd : Reader) :
    (∀ rd', rd.testIntegrity = (.ok (), rd') → rd' = rd) ∧
    (rd.testIntegrity).1 ≠ .error .attributeError ∧
    (rd.testIntegrity).1 ≠ .error .diverged := by
  have key : ∀ (buf : Bytes) (rn : Nat) (fuel k : Nat), k ≤ buf.length → buf.length - k ≤ fuel → ∀ e c,
      integrityLoop buf rn fuel k k = (.error e, c) → e ≠ .attributeError ∧ e ≠ .diverged := by
    intro buf rn fuel
    induction fuel with
    | zero =>
      intro k hk hf e c h
      rw [integrityLoop_stop _ _ _ _ _ (by omega)] at h
      cases h
    | succ fuel ih =>
      intro k hk hf e c h
      by_cases hc : (k : Int) < buf.length
      · rw [integrityLoop_step _ _ _ _ _ hc] at h
        cases hr : (readInt buf >>= fun n => zeroNegativeCheck rn n >>= fun _ =>
          bytesCheck rn (k + n) buf.length >>= fun _ => (Pure.pure n : Rd Int)) ((k : Int) + 4) with
        | mk x c' =>
          rw [hr] at h
          cases x with
          | error e' =>
            cases h
            have hs : Safe (fun _ => True) (fun _ => True) AnyReadErr
                (readInt buf >>= fun n => zeroNegativeCheck rn n >>= fun _ =>
                  bytesCheck rn (k + n) buf.length >>= fun _ => (Pure.pure n : Rd Int)) :=
              (readInt_any buf).bind fun n => (zeroNegativeCheck_safe (fun _ => .doc) rn n).bind fun _ =>
                (bytesCheck_safe (fun _ => .doc) rn _ _).bind fun _ => Safe.pure n
            have := (hs ((k : Int) + 4) trivial).1 e c hr
            cases this with
            | doc hd => cases hd <;> exact ⟨(by intro h; cases h), (by intro h; cases h)⟩
            | _ => exact ⟨(by intro h; cases h), (by intro h; cases h)⟩
          | ok n =>
            simp only at h
            obtain ⟨n', c1, g1, g2⟩ := rd_bind_ok.1 hr
            obtain ⟨u, c2, g3, g4⟩ := rd_bind_ok.1 g2
            obtain ⟨u', c3, g5, g6⟩ := rd_bind_ok.1 g4
            obtain ⟨rfl, rfl⟩ := rd_pure_ok.1 g6
            obtain ⟨_, _, rfl⟩ := (readInt_ok (by omega)).1 g1
            obtain ⟨hn, rfl⟩ := zeroNegativeCheck_ok.1 g3
            obtain ⟨hn2, rfl⟩ := bytesCheck_ok.1 g5
            have e1 : (k : Int) + 4 + 4 + n - 8 = ((k + n.toNat : Nat) : Int) := by omega
            have e2 : (k : Int) + n = ((k + n.toNat : Nat) : Int) := by omega
            rw [e1, e2] at h
            exact ih (k + n.toNat) (by omega) (by omega) e c h
      · rw [integrityLoop_stop _ _ _ _ _ hc] at h
        cases h
  unfold Reader.testIntegrity
  by_cases h0 : rd.cursor = 0
  · rw [if_neg (by simpa using h0)]
    rw [h0]
    have hi := integrityLoop_iff rd.buf rd.recNum rd.buf.length 0 (Nat.zero_le _) (Nat.le_refl _)
    have hk := key rd.buf rd.recNum rd.buf.length 0 (Nat.zero_le _) (Nat.le_refl _)
    rw [show ((0 : Nat) : Int) = 0 from rfl] at hi hk
    cases hl : integrityLoop rd.buf rd.recNum rd.buf.length 0 0 with
    | mk x c =>
      cases x with
      | error e =>
        have := hk e c hl
        refine ⟨?_, ?_, ?_⟩
        · intro rd' h; cases h
        · intro h; cases h; exact this.1 rfl
        · intro h; cases h; exact this.2 rfl
      | ok t =>
        obtain ⟨_, ht, _⟩ := (hi t c).1 hl
        simp only [ht, ne_eq, not_true_eq_false, if_false]
        refine ⟨?_, ?_, ?_⟩
        · intro rd' h
          cases h
          rw [← h0]
        · intro h; cases h
        · intro h; cases h
  · rw [if_pos h0]
    exact ⟨fun _ h => (by cases h), fun h => (by cases h), fun h => (by cases h)⟩

/-! ## C11 -/

/-- **C11** Whatever can be read passes the integrity test. -/
theorem C11_accepted_passes (cfg : NpCfg) {bs : Bytes} {x : List Rec × List PlainRec}
    (h : readFile cfg bs = .ok x) : integrityOf bs = .ok () := by
  obtain ⟨hb, rd', h1, _⟩ := readFile_ok.1 (show readFile cfg bs = .ok (x.1, x.2) from h)
  obtain ⟨_, _, sizes, ht, _⟩ := C03_exact cfg h1
  exact (C10_integrity bs).2 ⟨hb, sizes, ht⟩

example : (readFile numpy2 Sample.bytes2).isOk = true := by decide +kernel

/-- **C11** The converse fails: a header that declares itself a whole block of eight bytes. -/
theorem C11_converse_fails : ∃ bs, integrityOf bs = .ok () ∧
    ∀ cfg, ∃ e, readFile cfg bs = .error e :=
  ⟨[0, 0, 0, 0, 8, 0, 0, 0], by decide +kernel, fun cfg => ⟨.cursorError, by
    exact readFile_stops (bl := []) (pre := []) .nil ⟨[], _, rfl, rfl⟩ (by decide) (header_only cfg)⟩⟩

/-! ## C02 -/

/-- **C02** Written streams pass the integrity test, and the sizes in the record headers add up to
the stream length. -/
theorem C02_written_passes {mr : Nat} {recs : List Rec} (hne : recs ≠ []) (h : ∀ r ∈ recs, Encodable mr r) :
    ∃ bs, writeBytes recs = .ok bs ∧ integrityOf bs = .ok () ∧
      ∃ sizes, Tiles bs 0 sizes ∧ sizes.length = recs.length ∧ sizes.sum = bs.length := by
  obtain ⟨bs, h1, h2⟩ := writeBytes_ok hne h
  have h3 := readFile_written (cfg := ⟨mr, true⟩) hne h h2
  refine ⟨bs, h1, C11_accepted_passes _ h3, ?_⟩
  obtain ⟨hb, rd', h4, h5⟩ := readFile_ok.1 h3
  obtain ⟨_, _, sizes, t1, t2, t3, _⟩ := C03_exact _ h4
  exact ⟨sizes, t1, by rw [← t3, h5]; simp, t2⟩

example : ∃ bs, writeBytes [Sample.record, Sample.record2] = .ok bs ∧ integrityOf bs = .ok () ∧
      ∃ sizes, Tiles bs 0 sizes ∧ sizes.length = 2 ∧ sizes.sum = bs.length :=
  C02_written_passes (mr := 2) (by decide) (Sample.both_encodable (by decide))

/-! ## C12 -/

/-- **C12** After a successful `read_records`, calling it again any number of times returns the
same list and leaves the object as it is. -/
theorem C12_read_again (cfg : NpCfg) {rd rd' : Reader} {ds : List PlainRec}
    (h : rd.readRecords cfg = (.ok ds, rd')) (n : Nat) :
    readManyTimes cfg n rd' = (List.replicate n (.ok ds), rd') := by
  obtain ⟨r1, h1, h2, h3, rfl⟩ := readRecords_ok.1 h
  have hend : ¬ r1.cursor < r1.buf.length := readLoop_end _ _ _ _ h1
  have hone : ({ r1 with records := ds } : Reader).readRecords cfg = (.ok ds, { r1 with records := ds }) := by
    apply readRecords_ok.2
    refine ⟨{ r1 with records := ds }, readLoop_stop _ _ _ hend, h2, h3, rfl⟩
  induction n with
  | zero => rfl
  | succ n ih => simp only [readManyTimes, hone, ih, List.replicate_succ]

/-- **C12** Seen from the file: the first call and any number of further calls return the same records. -/
theorem C12_read_file_again (cfg : NpCfg) {bs : Bytes} {rs : List Rec} {ds : List PlainRec}
    (h : readFile cfg bs = .ok (rs, ds)) (n : Nat) :
    (readManyTimes cfg (n + 1) (freshReader bs)).1 = List.replicate (n + 1) (.ok ds) ∧
      (readManyTimes cfg (n + 1) (freshReader bs)).2.dmapRecords = rs := by
  obtain ⟨_, rd', h1, rfl⟩ := readFile_ok.1 h
  have := C12_read_again cfg h1 n
  simp only [readManyTimes, h1, this, List.replicate_succ]
  trivial

example : ∃ rs ds, readFile numpy1 Sample.bytes2 = .ok (rs, ds) := ⟨_, _, rfl⟩

end Verif
