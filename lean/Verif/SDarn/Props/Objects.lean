import Verif.SDarn.Sample
import Verif.SDarn.Programs
import Verif.SDarn.Lemmas.Objects
import Verif.Dmap.Props.Write
/-!
# Properties of `SDarnRead` and `SDarnWrite` (C12, C18, C24, C27 - C30, C49)
-/
namespace Verif.SD
open Verif Spec

theorem darn_new {bs : Bytes} (h : bs ≠ []) : DarnReader.new bs = .ok (freshDarn bs) := by
  unfold DarnReader.new
  rw [reader_new h]
  rfl

theorem darn_new_nil : DarnReader.new [] = .error .emptyFile := rfl

/-! ## C29: returned records conform -/

/-- **C29** On a fresh reader `read_X` succeeds iff `read_records` does and every record conforms
to the format of X; both then return the same records. -/
theorem C29_fresh (cfg : NpCfg) (ft : FileType) (bs : Bytes) (ds : List PlainRec) :
    readDarn cfg ft bs = .ok ds ↔
      ∃ rs, readFile cfg bs = .ok (rs, ds) ∧ ∀ r ∈ rs, Conforms ft r := by
  by_cases hb : bs = []
  · subst hb
    simp [readDarn, darn_new_nil, readFile, reader_new_nil]
  · simp only [readFile_ok]
    have hn : ({ (freshDarn bs).base with recNum := 0 } : Reader) = freshReader bs := rfl
    constructor
    · intro h
      unfold readDarn at h
      rw [darn_new hb] at h
      simp only at h
      rcases hr : (freshDarn bs).read cfg ft with ⟨x, rd'⟩
      rw [hr] at h
      simp only at h
      subst h
      obtain ⟨b, new, h1, h2, h3, h4, rfl⟩ := read_ok.1 hr
      rw [hn] at h1
      have hd := h1.dmapRecords
      have hin := h1.inside (by simp [freshReader]) (by simp [freshReader])
      refine ⟨b.dmapRecords, ⟨hb, { b with records := ds }, ?_, rfl⟩, ?_⟩
      · apply readRecords_ok.2
        exact ⟨b, readLoop_ok_steps.2 ⟨new, h1, h2⟩, by omega, h4, rfl⟩
      · rw [hd]
        simpa [freshReader] using h3
    · rintro ⟨rs, ⟨_, rd', h1, rfl⟩, h2⟩
      obtain ⟨r1, h3, h4, h5, rfl⟩ := readRecords_ok.1 h1
      obtain ⟨new, h6, h7⟩ := readLoop_ok_steps.1 h3
      have hd := h6.dmapRecords
      unfold readDarn
      rw [darn_new hb]
      simp only
      rw [read_ok.2 ⟨r1, new, h6, h7, ?_, h5, rfl⟩]
      intro d hdm
      apply h2
      simp only
      rw [hd]
      simp [hdm]

/-- **C29** Records added by a successful `read_X` conform, whatever happened before. -/
theorem C29_new_records (cfg : NpCfg) (ft : FileType) {rd rd' : DarnReader} {ds : List PlainRec}
    (h : rd.read cfg ft = (.ok ds, rd')) :
    ∃ new, rd'.base.dmapRecords = rd.base.dmapRecords ++ new ∧ (∀ r ∈ new, Conforms ft r) ∧
      dmap2dict cfg rd'.base.dmapRecords = .ok ds := by
  obtain ⟨b, new, h1, h2, h3, h4, rfl⟩ := read_ok.1 h
  exact ⟨new, h1.dmapRecords, h3, h4⟩

/-- Every call of `read_X` keeps conforming records only, also when it raises. -/
theorem read_keeps {cfg : NpCfg} {ft : FileType} {rd rd' : DarnReader} {x : Except Err (List PlainRec)}
    (h : rd.read cfg ft = (x, rd')) :
    ∃ new, rd'.base.dmapRecords = rd.base.dmapRecords ++ new ∧ ∀ r ∈ new, Conforms ft r := by
  cases x with
  | ok ds => obtain ⟨new, h1, h2, _⟩ := C29_new_records cfg ft h; exact ⟨new, h1, h2⟩
  | error e =>
    rcases read_error h with ⟨b, new, h1, h2, _, c, _, rfl⟩ | ⟨b, new, h1, h2, _, r, c, _, _, rfl⟩ |
      ⟨b, new, h1, h2, _, _, rfl⟩ <;> exact ⟨new, h1.dmapRecords, h2⟩

theorem runCalls_snoc (cfg : NpCfg) (rd : DarnReader) (cs : List Call) (c : Call) :
    (runCalls cfg rd (cs ++ [c])).1 =
      (runCalls cfg rd cs).1 ++ [(runCall cfg (runCalls cfg rd cs).2 c).1] := by
  induction cs generalizing rd with
  | nil => rfl
  | cons d cs ih =>
    simp only [List.cons_append, runCalls]
    rw [ih]

/-- **C29** (partial: histories of one method).  If only `read_X` is ever called on an object, with
or without exceptions, the records it returns conform to the format of X. -/
theorem C29_one_method_partial (cfg : NpCfg) (ft : FileType) (bs : Bytes) (n : Nat) {ds : List PlainRec}
    {rd : DarnReader} (h : (runCalls cfg (freshDarn bs) (List.replicate n (.darn ft))).2.read cfg ft = (.ok ds, rd)) :
    (∀ r ∈ rd.base.dmapRecords, Conforms ft r) ∧ dmap2dict cfg rd.base.dmapRecords = .ok ds := by
  have key : ∀ n (r0 : DarnReader), (∀ r ∈ r0.base.dmapRecords, Conforms ft r) →
      ∀ r ∈ (runCalls cfg r0 (List.replicate n (.darn ft))).2.base.dmapRecords, Conforms ft r := by
    intro n
    induction n with
    | zero => intro r0 h0; exact h0
    | succ n ih =>
      intro r0 h0
      simp only [List.replicate_succ, runCalls, runCall]
      rcases hr : r0.read cfg ft with ⟨x, r1⟩
      apply ih
      obtain ⟨new, h1, h2⟩ := read_keeps hr
      rw [h1]
      intro r hm
      rcases List.mem_append.1 hm with hm | hm
      · exact h0 r hm
      · exact h2 r hm
  obtain ⟨new, h1, h2, h3⟩ := C29_new_records cfg ft h
  refine ⟨?_, h3⟩
  rw [h1]
  intro r hm
  rcases List.mem_append.1 hm with hm | hm
  · exact key n (freshDarn bs) (by simp [freshDarn, freshReader]) r hm
  · exact h2 r hm

/-- **C29** is violated by every successful `read_records`: any `read_X` afterwards returns those
records unchecked. -/
theorem C29_violation (cfg : NpCfg) {rd rd' : DarnReader} {ds : List PlainRec}
    (h : rd.readRecords cfg = (.ok ds, rd')) (ft : FileType) :
    ∃ rd'', rd'.read cfg ft = (.ok ds, rd'') ∧ rd''.base.dmapRecords = rd'.base.dmapRecords := by
  unfold DarnReader.readRecords at h
  rcases hr : rd.base.readRecords cfg with ⟨x, b⟩
  rw [hr] at h
  cases h
  obtain ⟨r1, h1, h2, h3, rfl⟩ := readRecords_ok.1 hr
  have hend := readLoop_end _ _ _ _ h1
  exact ⟨_, read_ok.2 ⟨_, [], .nil _, hend, by simp, h3, rfl⟩, rfl⟩

/-- The same for another `read_Y` before. -/
theorem C29_violation_other (cfg : NpCfg) {ft ft' : FileType} {rd rd' : DarnReader} {ds : List PlainRec}
    (h : rd.read cfg ft' = (.ok ds, rd')) :
    ∃ rd'', rd'.read cfg ft = (.ok ds, rd'') ∧ rd''.base.dmapRecords = rd'.base.dmapRecords := by
  obtain ⟨b, new, h1, h2, h3, h4, rfl⟩ := read_ok.1 h
  exact ⟨_, read_ok.2 ⟨_, [], .nil _, h2, by simp, h4, rfl⟩, rfl⟩

/-- A file whose record has nothing to do with SuperDARN is returned by all six methods. -/
example (ft : FileType) : ∃ ds rd, (runCall numpy2 (runCalls numpy2 (freshDarn Sample.bytes2) [.records]).2 (.darn ft))
      = (.ok ds, rd) ∧ ds ≠ [] ∧ ¬ ∀ r ∈ rd.base.dmapRecords, Conforms ft r := by
  have h : ∃ ds rd', (freshDarn Sample.bytes2).readRecords numpy2 = (.ok ds, rd') ∧ ds ≠ [] ∧
      rd'.base.dmapRecords = [Sample.record2] := by
    rcases hr : (freshDarn Sample.bytes2).readRecords numpy2 with ⟨x, rd'⟩
    have h1 : (((freshDarn Sample.bytes2).readRecords numpy2).1.isOk &&
        ((freshDarn Sample.bytes2).readRecords numpy2).1 != .ok []) = true := by decide +kernel
    have h2 : ((freshDarn Sample.bytes2).readRecords numpy2).2.base.dmapRecords = [Sample.record2] := by
      decide +kernel
    rw [hr] at h1 h2
    cases x with
    | error e => cases h1
    | ok ds => exact ⟨ds, rd', rfl, by rintro rfl; simp at h1, h2⟩
  obtain ⟨ds, rd', h1, h2, h3⟩ := h
  obtain ⟨rd'', h4, h5⟩ := C29_violation numpy2 h1 ft
  refine ⟨ds, rd'', ?_, h2, ?_⟩
  · simp only [runCalls, runCall, h1]
    exact h4
  · intro hall
    have := hall Sample.record2 (by rw [h5, h3]; simp)
    have hc := describes_readCheck_ok (rn := 0).2 this
    revert hc
    cases ft <;> decide +kernel

/-! ## C12: reading again -/

/-- **C12** After a successful read of any kind (with the cursor inside the file before it), every
further sequence of reads of any kind returns the same list every time. -/
theorem C12_darn_again (cfg : NpCfg) {rd rd' : DarnReader} {c : Call} {ds : List PlainRec}
    (h0 : Inside rd.base.buf rd.base.cursor) (h : runCall cfg rd c = (.ok ds, rd')) (cs : List Call) :
    (runCalls cfg rd' cs).1 = List.replicate cs.length (.ok ds) := by
  have key : ∀ (cs : List Call) (r : DarnReader), ¬ r.base.cursor < r.base.buf.length →
      r.base.cursor ≤ r.base.buf.length → dmap2dict cfg r.base.dmapRecords = .ok ds →
      (runCalls cfg r cs).1 = List.replicate cs.length (.ok ds) := by
    intro cs
    induction cs with
    | nil => intros; rfl
    | cons c cs ih =>
      intro r h1 h1' h2
      simp only [runCalls, List.length_cons, List.replicate_succ]
      cases c with
      | records =>
        have : r.readRecords cfg = (.ok ds, { r with base := { r.base with records := ds } }) := by
          unfold DarnReader.readRecords
          rw [readRecords_ok.2 ⟨r.base, readLoop_stop _ _ _ h1, h1', h2, rfl⟩]
        simp only [runCall, this]
        rw [ih]
        · exact h1
        · exact h1'
        · exact h2
      | darn ft =>
        have : r.read cfg ft = (.ok ds, ⟨{ r.base with recNum := 0 }, some ds⟩) :=
          read_ok.2 ⟨_, [], .nil _, h1, by simp, h2, rfl⟩
        simp only [runCall, this]
        rw [ih]
        · exact h1
        · exact h1'
        · exact h2
  cases c with
  | records =>
    simp only [runCall, DarnReader.readRecords] at h
    rcases hr : rd.base.readRecords cfg with ⟨x, b⟩
    rw [hr] at h
    cases h
    obtain ⟨r1, h1, h2, h3, rfl⟩ := readRecords_ok.1 hr
    have hend := readLoop_end _ _ _ _ h1
    exact key cs _ hend h2 h3
  | darn ft =>
    obtain ⟨b, new, h1, h2, h3, h4, rfl⟩ := read_ok.1 h
    exact key cs _ h2 (h1.inside h0.1 h0.2).2.1 h4

/-- **C12** for a fresh reader. -/
theorem C12_darn_fresh (cfg : NpCfg) (bs : Bytes) (c : Call) {ds : List PlainRec}
    (h : (runCall cfg (freshDarn bs) c).1 = .ok ds) (cs : List Call) :
    (runCalls cfg (freshDarn bs) (c :: cs)).1 = List.replicate (cs.length + 1) (.ok ds) := by
  rcases hr : runCall cfg (freshDarn bs) c with ⟨x, rd'⟩
  rw [hr] at h
  simp only at h
  subst h
  have := C12_darn_again cfg (by simp [Inside, freshDarn, freshReader]) hr cs
  simp only [runCalls, hr, this, List.replicate_succ]

example : ∃ ds, (runCall numpy1 (freshDarn Sample.bytes2) .records).1 = .ok ds ∧ ds ≠ [] := by
  have h1 : (((freshDarn Sample.bytes2).readRecords numpy1).1.isOk &&
        ((freshDarn Sample.bytes2).readRecords numpy1).1 != .ok []) = true := by decide +kernel
  rcases hr : ((freshDarn Sample.bytes2).readRecords numpy1).1 with e | ds
  · rw [hr] at h1; cases h1
  · rw [hr] at h1; exact ⟨ds, hr, by rintro rfl; simp at h1⟩

/-! ## C24: errors at file level -/

theorem outcome_names {ft : FileType} {rn : Nat} {r : Rec} {b : Bool} {e : Err}
    (h : Outcome (required ft) (optional ft) rn r b (.error e)) :
    Names ft rn r e ∨ (e = .attributeError ∧ ∃ p ∈ r, p.2 = .other) := by
  cases h with
  | missing fs h1 h2 h3 => exact .inl ⟨rfl, h1, h2⟩
  | extra fs h1 h2 h3 => exact .inl ⟨rfl, h1, h2⟩
  | types l h1 h2 h3 h4 h5 => exact .inl ⟨rfl, h1, h2⟩
  | other h1 h2 h3 => exact .inr ⟨rfl, h3⟩

theorem shaped_not_other {r : Rec} (h : ShapedRec r) : ¬ ∃ p ∈ r, p.2 = .other := by
  rintro ⟨p, hp, hf⟩
  have := h p hp
  rw [hf] at this
  exact this

theorem anyReadErr_not_sd {e : Err} (h : AnyReadErr e) : ¬ SdErr e ∧ e ≠ .keyError ∧ e ≠ .attributeError := by
  cases h with
  | doc h => cases h <;> exact ⟨fun h => h, by simp, by simp⟩
  | _ => exact ⟨fun h => h, by simp, by simp⟩

theorem names_sd {ft : FileType} {rn : Nat} {r : Rec} {e : Err} (h : Names ft rn r e) :
    SdErr e ∧ e ≠ .keyError ∧ e ≠ .attributeError := by
  cases e <;> first | exact h.elim | exact ⟨trivial, by simp, by simp⟩

/-- **C24** (reading).  On a fresh reader, `read_X` applied to a file that starts with conforming
records followed by a non-conforming one raises, naming exactly the offending fields of that record
and its position. -/
theorem C24_file_rejects (cfg : NpCfg) (ft : FileType) {bs pre x : Bytes} {bl : List Block} {b : Block}
    (hbl : FileEnc cfg.maxDims bl pre) (hb : BlockEnc cfg.maxDims b x) (hat : At bs 0 (pre ++ x))
    (hgood : ∀ b ∈ bl, Conforms ft b.record) (hbad : ¬ Conforms ft b.record) :
    ∃ e, readDarn cfg ft bs = .error e ∧ Names ft bl.length b.record e := by
  have hx := blockEnc_pos hb
  have hbd := hat.bounds
  have hne : bs ≠ [] := by rintro rfl; simp at hbd; omega
  rw [at_append] at hat
  have hs := steps_fileEnc cfg hbl (freshReader bs) hat.1
  have hr := readRecord_complete (freshReader bs |>.after bl pre.length).recNum hb (buf := bs)
    (c := ((freshReader bs).after bl pre.length).cursor) (by exact hat.2)
  have hin := hs.inside (by simp [freshReader]) (by simp [freshReader])
  have hsh := readRecord_shaped hin.1 hin.2.1 hr
  have ho := readCheck_outcome (describes_read ft) bl.length b.record
  cases hk : readCheck (readGroups ft) (readOptional ft) bl.length b.record with
  | ok u => exact absurd (describes_readCheck_ok.1 hk) hbad
  | error e =>
    rw [hk] at ho
    refine ⟨e, ?_, ?_⟩
    · unfold readDarn
      rw [darn_new hne]
      simp only
      have hc : ((freshReader bs).after bl pre.length).cursor < ((freshReader bs).after bl pre.length).buf.length := by
        simp only [List.length_append] at hbd
        simp only [Reader.after, freshReader]; omega
      have hn : ((freshReader bs).after bl pre.length).recNum = bl.length := by simp [Reader.after, freshReader]
      rw [read_rejects (rd := freshDarn bs) hs ?_ hc hr (by rw [hn]; exact hk)]
      intro d hd
      obtain ⟨b, hb, rfl⟩ := List.mem_map.1 hd
      exact hgood b hb
    · rcases outcome_names ho with h | ⟨_, h⟩
      · exact h
      · exact absurd h (shaped_not_other hsh)

/-- **C24** (reading, converse).  If `read_X` on a fresh reader raises a SuperDARN exception, the file
starts with conforming records followed by one whose offending fields and position it names. -/
theorem C24_file_reports (cfg : NpCfg) (ft : FileType) {bs : Bytes} (hneg : ¬ NegSlist bs) {e : Err}
    (h : readDarn cfg ft bs = .error e) (hsd : SdErr e) :
    ∃ bl b pre x, FileEnc cfg.maxDims bl pre ∧ BlockEnc cfg.maxDims b x ∧ At bs 0 (pre ++ x) ∧
      (∀ b ∈ bl, Conforms ft b.record) ∧ Names ft bl.length b.record e := by
  by_cases hb : bs = []
  · subst hb
    cases h
    exact hsd.elim
  · unfold readDarn at h
    rw [darn_new hb] at h
    simp only at h
    rcases hr : (freshDarn bs).read cfg ft with ⟨y, rd'⟩
    rw [hr] at h
    simp only at h
    subst h
    rcases read_error hr with ⟨b, new, h1, h2, h3, c, h4, _⟩ | ⟨b, new, h1, h2, h3, r, c, h4, h5, _⟩ |
      ⟨b, new, h1, h2, h3, h4, _⟩
    · exact absurd hsd (anyReadErr_not_sd ((readRecord_any cfg b.buf b.recNum b.cursor trivial).1 _ _ h4)).1
    · obtain ⟨bl, pre, g1, g2, rfl, rfl⟩ := steps_sound h1 (by exact hneg) (by simp [freshDarn, freshReader])
        (by simp [freshDarn, freshReader])
      have hin := h1.inside (by simp [freshDarn, freshReader]) (by simp [freshDarn, freshReader])
      obtain ⟨b, x, e1, e2, _, rfl⟩ := readRecord_sound (by exact hneg) hin.1 hin.2.1 h4
      have hsh := readRecord_shaped hin.1 hin.2.1 h4
      refine ⟨bl, b, pre, x, g1, e1, at_append.2 ⟨g2, ?_⟩, ?_, ?_⟩
      · simpa [Reader.after, freshDarn, freshReader] using e2
      · intro b hb; exact h2 _ (List.mem_map.2 ⟨b, hb, rfl⟩)
      · have ho := readCheck_outcome (describes_read ft)
          (({ (freshDarn bs).base with recNum := 0 } : Reader).after bl pre.length).recNum b.record
        rw [h5] at ho
        rcases outcome_names ho with h | ⟨_, h⟩
        · simpa [Reader.after] using h
        · exact absurd h (shaped_not_other hsh)
    · have hin := h1.inside (by simp [freshDarn, freshReader]) (by simp [freshDarn, freshReader])
      have hd := h1.dmapRecords
      have := (dmap2dict_err (by rw [hd]; simpa [freshDarn, freshReader] using hin.2.2) h4).1
      subst this
      exact hsd.elim

/-- **C28** (files).  `read_X` on a fresh reader raises a DMAP reading error, a SuperDARN error or (char
above 127 with NumPy 2) `OverflowError`; never `KeyError` and never `AttributeError`. -/
theorem C28_file_errors (cfg : NpCfg) (ft : FileType) (bs : Bytes) {e : Err}
    (h : readDarn cfg ft bs = .error e) :
    (AnyReadErr e ∨ SdErr e ∨ (e = .overflowError ∧ cfg.intWraps = false) ∨ e = .emptyFile) ∧
      e ≠ .keyError ∧ e ≠ .attributeError := by
  by_cases hb : bs = []
  · subst hb
    cases h
    exact ⟨.inr (.inr (.inr rfl)), by simp, by simp⟩
  · unfold readDarn at h
    rw [darn_new hb] at h
    simp only at h
    rcases hr : (freshDarn bs).read cfg ft with ⟨y, rd'⟩
    rw [hr] at h
    simp only at h
    subst h
    rcases read_error hr with ⟨b, new, h1, h2, h3, c, h4, _⟩ | ⟨b, new, h1, h2, h3, r, c, h4, h5, _⟩ |
      ⟨b, new, h1, h2, h3, h4, _⟩
    · have := (readRecord_any cfg b.buf b.recNum b.cursor trivial).1 _ _ h4
      exact ⟨.inl this, (anyReadErr_not_sd this).2⟩
    · have hin := h1.inside (by simp [freshDarn, freshReader]) (by simp [freshDarn, freshReader])
      have hsh := readRecord_shaped hin.1 hin.2.1 h4
      have ho := readCheck_outcome (describes_read ft) b.recNum r
      rw [h5] at ho
      rcases outcome_names ho with h | ⟨_, h⟩
      · exact ⟨.inr (.inl (names_sd h).1), (names_sd h).2⟩
      · exact absurd h (shaped_not_other hsh)
    · have hin := h1.inside (by simp [freshDarn, freshReader]) (by simp [freshDarn, freshReader])
      have hd := h1.dmapRecords
      have := dmap2dict_err (by rw [hd]; simpa [freshDarn, freshReader] using hin.2.2) h4
      exact ⟨.inr (.inr (.inl this)), by rw [this.1]; simp, by rw [this.1]; simp⟩

/-- A file with a record that is no rawacf record: the error on a concrete file. -/
example : readDarn numpy2 .rawacf Sample.bytes2 = .error (.sdExtraField 0 [py! "a", py! "b"]) ∧
    SdErr (.sdExtraField 0 [py! "a", py! "b"]) := ⟨by decide +kernel, trivial⟩

/-! ## C30: rejected records -/

/-- **C30** is violated by every file with one non-conforming record: the first `read_X` raises,
the second one returns the other records as if the bad one did not exist. -/
theorem C30_violation (cfg : NpCfg) (ft : FileType) {bs pre x post : Bytes} {bl bl' : List Block} {b : Block}
    (hbl : FileEnc cfg.maxDims bl pre) (hb : BlockEnc cfg.maxDims b x) (hbl' : FileEnc cfg.maxDims bl' post)
    (hbs : bs = pre ++ x ++ post) (hgood : ∀ b ∈ bl ++ bl', Conforms ft b.record) (hbad : ¬ Conforms ft b.record)
    {ds : List PlainRec} (hds : dmap2dict cfg ((bl ++ bl').map Block.record) = .ok ds) :
    ∃ e, Names ft bl.length b.record e ∧
      (runCalls cfg (freshDarn bs) [.darn ft, .darn ft]).1 = [.error e, .ok ds] := by
  have hx := blockEnc_pos hb
  have hat : At bs 0 (pre ++ x ++ post) := by rw [hbs]; exact at_self _
  have hl := congrArg List.length hbs
  simp only [List.length_append] at hl
  rw [at_append, at_append] at hat
  have hs := steps_fileEnc cfg hbl (freshReader bs) hat.1.1
  have hr := readRecord_complete (freshReader bs |>.after bl pre.length).recNum hb (buf := bs)
    (c := ((freshReader bs).after bl pre.length).cursor) (by exact hat.1.2)
  have hin := hs.inside (by simp [freshReader]) (by simp [freshReader])
  have hsh := readRecord_shaped hin.1 hin.2.1 hr
  have ho := readCheck_outcome (describes_read ft) bl.length b.record
  cases hk : readCheck (readGroups ft) (readOptional ft) bl.length b.record with
  | ok u => exact absurd (describes_readCheck_ok.1 hk) hbad
  | error e =>
    rw [hk] at ho
    refine ⟨e, ?_, ?_⟩
    · rcases outcome_names ho with h | ⟨_, h⟩
      · exact h
      · exact absurd h (shaped_not_other hsh)
    · have hc : ((freshReader bs).after bl pre.length).cursor < ((freshReader bs).after bl pre.length).buf.length := by
        simp only [Reader.after, freshReader]; omega
      have hn : ((freshReader bs).after bl pre.length).recNum = bl.length := by simp [Reader.after, freshReader]
      have h1 := read_rejects (rd := freshDarn bs) (ft := ft) hs (by
        intro d hd
        obtain ⟨b, hb, rfl⟩ := List.mem_map.1 hd
        exact hgood b (List.mem_append_left _ hb)) hc hr (by rw [hn]; exact hk)
      simp only [runCalls, runCall, h1]
      have hs2 := steps_fileEnc cfg hbl' { (freshReader bs).after bl pre.length with
        cursor := ((freshReader bs).after bl pre.length).cursor + x.length, recNum := 0 } (by
          have := hat.2
          simp only [List.length_append, Int.natCast_add, ← Int.add_assoc] at this
          exact this)
      have h2 := (read_ok (cfg := cfg) (ft := ft) (rd := { freshDarn bs with base :=
        { (freshReader bs).after bl pre.length with
          cursor := ((freshReader bs).after bl pre.length).cursor + x.length } }) (ds := ds)).2
        ⟨_, _, hs2, by simp only [Reader.after, freshReader]; omega, by
          intro d hd
          obtain ⟨b, hb, rfl⟩ := List.mem_map.1 hd
          exact hgood b (List.mem_append_right _ hb), by
          simpa [Reader.after, freshReader] using hds, rfl⟩
      rw [h2]


/-- A rawacf block and one that is none. -/
theorem Sample.blocks {mr : Nat} (h : 2 ≤ mr) : ∃ pre x b,
    FileEnc mr [blockOf Sample.rawacf] pre ∧ BlockEnc mr b x ∧ FileEnc mr [b] x ∧
    Conforms .rawacf (blockOf Sample.rawacf).record ∧ ¬ Conforms .rawacf b.record := by
  have he := Sample.rawacf_encodable h
  have he2 := Verif.Sample.record_encodable h
  obtain ⟨pre, _, _, h2⟩ := recordsToBytes_ok (recs := [Sample.rawacf]) (by simpa using he) 0 0 []
  obtain ⟨x, _, _, h3⟩ := recordsToBytes_ok (recs := [Verif.Sample.record]) (by simpa using he2) 0 0 []
  have h5 := h3
  cases h3 with
  | cons h3 h4 =>
    cases h4
    refine ⟨pre, _, _, h2, h3, by simpa using h5, ?_, ?_⟩
    · rw [record_blockOf he, conforms_presentRec]
      exact (describes_readCheck_ok (rn := 0)).1 (by decide +kernel)
    · rw [record_blockOf he2, conforms_presentRec]
      intro hc
      exact absurd ((describes_readCheck_ok (rn := 0)).2 hc) (by decide +kernel)

/-- A file of three rawacf blocks of which the middle one is broken satisfies the hypotheses. -/
example (cfg : NpCfg) (h : 2 ≤ cfg.maxDims) : ∃ bs pre x post b,
    FileEnc cfg.maxDims [blockOf Sample.rawacf] pre ∧ BlockEnc cfg.maxDims b x ∧
    FileEnc cfg.maxDims [blockOf Sample.rawacf] post ∧ bs = pre ++ x ++ post ∧
    (∀ b ∈ [blockOf Sample.rawacf] ++ [blockOf Sample.rawacf], Conforms .rawacf b.record) ∧
    ¬ Conforms .rawacf b.record ∧
    dmap2dict cfg (([blockOf Sample.rawacf] ++ [blockOf Sample.rawacf]).map Block.record) =
      .ok [plainRec Sample.rawacf, plainRec Sample.rawacf] := by
  have he := Sample.rawacf_encodable h
  obtain ⟨pre, x, b, h1, h2, -, h4, h5⟩ := Sample.blocks h
  refine ⟨_, pre, x, pre, b, h1, h2, h1, rfl, by simpa using h4, h5, ?_⟩
  exact (congrArg (dmap2dict cfg) (map_record_blockOf (recs := [Sample.rawacf, Sample.rawacf])
    (by simpa using he))).trans (dmap2dict_encodable (by simpa using he))

/-- The number of records skipped by calling `read_X` until it succeeds. -/
inductive Skips (ft : FileType) : List Rec → List Rec → Nat → Prop
  | done {l : List Rec} : (∀ r ∈ l, Conforms ft r) → Skips ft l l 0
  | bad {l m kept : List Rec} {r : Rec} {n : Nat} : (∀ r ∈ l, Conforms ft r) → ¬ Conforms ft r →
      Skips ft m kept n → Skips ft (l ++ r :: m) (l ++ kept) (n + 1)

/-- `n` results that are SuperDARN errors. -/
def AllSd (l : List (Except Err (List PlainRec))) : Prop := ∀ x ∈ l, ∃ e, x = .error e ∧ SdErr e

theorem fileEnc_append_inv {mr : Nat} {bl bl' : List Block} {bs : Bytes} (h : FileEnc mr (bl ++ bl') bs) :
    ∃ x y, bs = x ++ y ∧ FileEnc mr bl x ∧ FileEnc mr bl' y := by
  unfold FileEnc at *
  induction bl generalizing bs with
  | nil => exact ⟨[], bs, rfl, .nil, h⟩
  | cons b bl ih =>
    cases h with
    | cons h1 h2 =>
      obtain ⟨x, y, rfl, h3, h4⟩ := ih h2
      exact ⟨_, y, (List.append_assoc _ _ _).symm, .cons h1 h3, h4⟩

/-- **C30** (general form).  With `n` non-conforming records in the file, `read_X` raises `n` times and
then returns exactly the conforming ones. -/
theorem C30_violation_all (cfg : NpCfg) (ft : FileType) {bs : Bytes} {bl : List Block}
    (hbl : FileEnc cfg.maxDims bl bs) {kept : List Rec} {n : Nat} (hk : Skips ft (bl.map Block.record) kept n)
    {ds : List PlainRec} (hds : dmap2dict cfg kept = .ok ds) :
    ∃ errs, errs.length = n ∧ AllSd errs ∧
      (runCalls cfg (freshDarn bs) (List.replicate (n + 1) (.darn ft))).1 = errs ++ [.ok ds] := by
  have key : ∀ (l kept : List Rec) (n : Nat), Skips ft l kept n → ∀ (bl : List Block) (post : Bytes) (rd : DarnReader),
      l = bl.map Block.record → FileEnc cfg.maxDims bl post → At rd.base.buf rd.base.cursor post →
      rd.base.cursor + post.length = rd.base.buf.length → 
      dmap2dict cfg (rd.base.dmapRecords ++ kept) = .ok ds →
      ∃ errs, errs.length = n ∧ AllSd errs ∧
        (runCalls cfg rd (List.replicate (n + 1) (.darn ft))).1 = errs ++ [.ok ds] := by
    intro l kept n hsk
    induction hsk with
    | @done l hall =>
      intro bl post rd hl hf hat hend hds
      subst hl
      have hs := steps_fileEnc cfg hf { rd.base with recNum := 0 } hat
      have h := (read_ok (cfg := cfg) (ft := ft) (rd := rd) (ds := ds)).2
        ⟨_, _, hs, by simp only [Reader.after]; omega, hall, by simpa [Reader.after] using hds, rfl⟩
      exact ⟨[], rfl, by simp [AllSd], by simp [runCalls, runCall, h]⟩
    | @bad l m kept r n hall hbad _ ih =>
      intro bl post rd hl hf hat hend hds
      obtain ⟨bl1, bl2', rfl, rfl, hl2⟩ := List.map_eq_append_iff.1 hl.symm
      obtain ⟨b, bl2, rfl, rfl, rfl⟩ := List.map_eq_cons_iff.1 hl2
      obtain ⟨pre, y, rfl, hf1, hf2⟩ := fileEnc_append_inv hf
      unfold FileEnc at hf2
      cases hf2 with
      | @cons _ _ x post hb hf2 =>
        have hx := blockEnc_pos hb
        rw [at_append, at_append] at hat
        simp only [List.length_append] at hend
        have hs := steps_fileEnc cfg hf1 { rd.base with recNum := 0 } hat.1
        have hbd := hat.1.bounds
        have hr := readRecord_complete (({ rd.base with recNum := 0 } : Reader).after bl1 pre.length).recNum hb
          (buf := rd.base.buf) (c := (({ rd.base with recNum := 0 } : Reader).after bl1 pre.length).cursor)
          (by exact hat.2.1)
        have hin := hs.inside (by exact hbd.1) (by simp only; omega)
        have hsh := readRecord_shaped hin.1 hin.2.1 hr
        have ho := readCheck_outcome (describes_read ft)
          (({ rd.base with recNum := 0 } : Reader).after bl1 pre.length).recNum b.record
        cases hk : readCheck (readGroups ft) (readOptional ft)
            (({ rd.base with recNum := 0 } : Reader).after bl1 pre.length).recNum b.record with
        | ok u => exact absurd (describes_readCheck_ok.1 hk) hbad
        | error e =>
          rw [hk] at ho
          have hsd : SdErr e := by
            rcases outcome_names ho with h | ⟨_, h⟩
            · exact (names_sd h).1
            · exact absurd h (shaped_not_other hsh)
          have h1 := read_rejects (rd := rd) (ft := ft) hs hall (by simp only [Reader.after]; omega) hr hk
          obtain ⟨errs, e1, e2, e3⟩ := ih bl2 post { rd with base :=
            { (({ rd.base with recNum := 0 } : Reader).after bl1 pre.length) with
              cursor := (({ rd.base with recNum := 0 } : Reader).after bl1 pre.length).cursor + x.length } } rfl hf2
            (by exact hat.2.2) (by simp only [Reader.after]; omega) (by
              simpa [Reader.after] using hds)
          refine ⟨.error e :: errs, by simp [e1], ?_, ?_⟩
          · intro y hy
            rcases List.mem_cons.1 hy with rfl | hy
            · exact ⟨e, rfl, hsd⟩
            · exact e2 y hy
          · rw [List.replicate_succ]
            simp only [runCalls, runCall, h1, List.cons_append, List.cons.injEq, true_and]
            exact e3
  exact key _ _ _ hk bl bs (freshDarn bs) rfl hbl (at_self bs) (by simp [freshDarn, freshReader]) (by
    simpa [freshDarn, freshReader] using hds)

/-- Two records that are no rawacf around one that is. -/
example (cfg : NpCfg) (h : 2 ≤ cfg.maxDims) : ∃ bs errs, errs.length = 2 ∧ AllSd errs ∧
    (runCalls cfg (freshDarn bs) (List.replicate 3 (.darn .rawacf))).1 = errs ++ [.ok [plainRec Sample.rawacf]] := by
  have he := Sample.rawacf_encodable h
  obtain ⟨pre, x, b, h1, h2, -, h4, h5⟩ := Sample.blocks h
  have hf : FileEnc cfg.maxDims [b, blockOf Sample.rawacf, b] (x ++ (pre ++ x)) := by
    unfold FileEnc at *
    cases h1 with
    | cons b1 b2 =>
      cases b2
      simpa using SeqEnc.cons h2 (.cons b1 (.cons h2 .nil))
  have hk : Skips .rawacf ([b, blockOf Sample.rawacf, b].map Block.record) [(blockOf Sample.rawacf).record] 2 :=
    .bad (l := []) (by simp) h5 (.bad (l := [(blockOf Sample.rawacf).record]) (by simpa using h4) h5 (.done (by simp)))
  obtain ⟨errs, e1, e2, e3⟩ := C30_violation_all cfg .rawacf hf hk
    ((congrArg (dmap2dict cfg) (map_record_blockOf (recs := [Sample.rawacf]) (by simpa using he))).trans
      (dmap2dict_encodable (by simpa using he)))
  exact ⟨_, errs, e1, e2, e3⟩

/-- `C29_fresh`: a file of one rawacf record. -/
example (cfg : NpCfg) (h : 2 ≤ cfg.maxDims) : ∃ bs rs, readDarn cfg .rawacf bs = .ok [plainRec Sample.rawacf] ∧
    readFile cfg bs = .ok (rs, [plainRec Sample.rawacf]) ∧ ∀ r ∈ rs, Conforms .rawacf r := by
  have he := Sample.rawacf_encodable h
  obtain ⟨pre, x, b, h1, h2, -, h4, h5⟩ := Sample.blocks h
  obtain ⟨errs, e1, -, e3⟩ := C30_violation_all cfg .rawacf h1 (.done (by simpa using h4))
    ((congrArg (dmap2dict cfg) (map_record_blockOf (recs := [Sample.rawacf]) (by simpa using he))).trans
      (dmap2dict_encodable (by simpa using he)))
  rw [List.length_eq_zero_iff] at e1
  subst e1
  have hne : pre ≠ [] := by
    rintro rfl
    unfold FileEnc at h1
    generalize hz : ([] : Bytes) = z at h1
    cases h1 with
    | cons b1 _ =>
      have := congrArg List.length hz
      have := blockEnc_pos b1
      simp only [List.length_nil, List.length_append] at *
      omega
  have hr : readDarn cfg .rawacf pre = .ok [plainRec Sample.rawacf] := by
    unfold readDarn
    rw [darn_new hne]
    simpa [runCalls, runCall] using e3
  obtain ⟨rs, r1, r2⟩ := (C29_fresh cfg .rawacf pre _).1 hr
  exact ⟨pre, rs, hr, r1, r2⟩

/-- `C29_one_method_partial`: the second call on a file of a rawacf record and one that is none. -/
example (cfg : NpCfg) (h : 2 ≤ cfg.maxDims) : ∃ bs rd,
    (runCalls cfg (freshDarn bs) (List.replicate 1 (.darn .rawacf))).2.read cfg .rawacf =
      (.ok [plainRec Sample.rawacf], rd) := by
  have he := Sample.rawacf_encodable h
  obtain ⟨pre, x, b, h1, h2, -, h4, h5⟩ := Sample.blocks h
  have hf : FileEnc cfg.maxDims [blockOf Sample.rawacf, b] (pre ++ x) := by
    unfold FileEnc at *
    cases h1 with
    | cons b1 b2 =>
      cases b2
      simpa using SeqEnc.cons b1 (.cons h2 .nil)
  obtain ⟨errs, e1, -, e3⟩ := C30_violation_all cfg .rawacf hf
    (.bad (l := [(blockOf Sample.rawacf).record]) (by simpa using h4) h5 (.done (by simp)))
    ((congrArg (dmap2dict cfg) (map_record_blockOf (recs := [Sample.rawacf]) (by simpa using he))).trans
      (dmap2dict_encodable (by simpa using he)))
  rw [show List.replicate (1 + 0 + 1) (Call.darn .rawacf) = List.replicate 1 (.darn .rawacf) ++ [.darn .rawacf] from rfl,
    runCalls_snoc] at e3
  have e4 := (List.append_inj' e3 rfl).2
  simp only [List.cons.injEq, and_true] at e4
  exact ⟨pre ++ x, _, Prod.ext e4 rfl⟩

/-- **C30** What holds: a call that meets a non-conforming record raises. -/
theorem C30_raises_partial (cfg : NpCfg) (ft : FileType) {bs pre x : Bytes} {bl : List Block} {b : Block}
    (hbl : FileEnc cfg.maxDims bl pre) (hb : BlockEnc cfg.maxDims b x) (hat : At bs 0 (pre ++ x))
    (hbad : ¬ Conforms ft b.record) : ∃ e, readDarn cfg ft bs = .error e := by
  cases h : readDarn cfg ft bs with
  | error e => exact ⟨e, rfl⟩
  | ok ds =>
    exfalso
    obtain ⟨rs, h1, h2⟩ := (C29_fresh cfg ft bs ds).1 h
    obtain ⟨hne, rd', h3, rfl⟩ := readFile_ok.1 h1
    obtain ⟨r1, h4, _, _, rfl⟩ := readRecords_ok.1 h3
    obtain ⟨new, h5, h6⟩ := readLoop_ok_steps.1 h4
    rw [at_append] at hat
    have hs := steps_fileEnc cfg hbl (freshReader bs) hat.1
    have hr := readRecord_complete (freshReader bs |>.after bl pre.length).recNum hb (buf := bs)
      (c := ((freshReader bs).after bl pre.length).cursor) (by exact hat.2)
    have hx := blockEnc_pos hb
    have hbd := hat.2.bounds
    have hs2 : Steps cfg (freshReader bs) (bl.map Block.record ++ [b.record])
        (keep ((freshReader bs).after bl pre.length) b.record
          (((freshReader bs).after bl pre.length).cursor + x.length)) := by
      have app : ∀ {r r' r'' : Reader} {l m : List Rec}, Steps cfg r l r' → Steps cfg r' m r'' →
          Steps cfg r (l ++ m) r'' := by
        intro r r' r'' l m hl hm
        induction hl with
        | nil => exact hm
        | cons a1 a2 _ ih => exact .cons a1 a2 (ih hm)
      exact app hs (.cons (by simp only [Reader.after, freshReader]; omega) hr (.nil _))
    have pre : ∀ {r r' r'' : Reader} {l m : List Rec}, Steps cfg r l r' → Steps cfg r m r'' →
        ¬ r''.cursor < r''.buf.length → ∃ t, m = l ++ t := by
      intro r r' r'' l m hl
      induction hl generalizing m with
      | nil => intro _ _; exact ⟨m, rfl⟩
      | cons a1 a2 _ ih =>
        intro hm he
        cases hm with
        | nil => exact absurd a1 he
        | cons b1 b2 b3 =>
          rw [a2] at b2
          cases b2
          obtain ⟨t, ht⟩ := ih b3 he
          exact ⟨t, by rw [ht]; rfl⟩
    obtain ⟨t, ht⟩ := pre hs2 h5 h6
    apply hbad
    apply h2
    simp only
    rw [h5.dmapRecords, ht]
    simp

/-- **C24** does not extend to later calls: a second `read_X` counts records from where the first one
stopped, so the number it reports is not the position in the file. -/
theorem C24_second_call_number (cfg : NpCfg) (ft : FileType) {bs pre x mid y : Bytes} {bl bl' : List Block}
    {b b' : Block} (hbl : FileEnc cfg.maxDims bl pre) (hb : BlockEnc cfg.maxDims b x)
    (hbl' : FileEnc cfg.maxDims bl' mid) (hb' : BlockEnc cfg.maxDims b' y)
    (hbs : bs = pre ++ x ++ mid ++ y) (hgood : ∀ b ∈ bl ++ bl', Conforms ft b.record)
    (hbad : ¬ Conforms ft b.record) (hbad' : ¬ Conforms ft b'.record) :
    ∃ e e', (runCalls cfg (freshDarn bs) [.darn ft, .darn ft]).1 = [.error e, .error e'] ∧
      Names ft bl.length b.record e ∧ Names ft bl'.length b'.record e' ∧
      ¬ Names ft (bl.length + 1 + bl'.length) b'.record e' := by
  have hx := blockEnc_pos hb
  have hy := blockEnc_pos hb'
  have hat : At bs 0 (pre ++ x ++ mid ++ y) := by rw [hbs]; exact at_self _
  have hl := congrArg List.length hbs
  simp only [List.length_append] at hl
  rw [at_append, at_append, at_append] at hat
  have hs := steps_fileEnc cfg hbl (freshReader bs) hat.1.1.1
  have hr := readRecord_complete (freshReader bs |>.after bl pre.length).recNum hb (buf := bs)
    (c := ((freshReader bs).after bl pre.length).cursor) (by exact hat.1.1.2)
  have hin := hs.inside (by simp [freshReader]) (by simp [freshReader])
  have hsh := readRecord_shaped hin.1 hin.2.1 hr
  have ho := readCheck_outcome (describes_read ft) bl.length b.record
  cases hk : readCheck (readGroups ft) (readOptional ft) bl.length b.record with
  | ok u => exact absurd (describes_readCheck_ok.1 hk) hbad
  | error e =>
    rw [hk] at ho
    have hn : ((freshReader bs).after bl pre.length).recNum = bl.length := by simp [Reader.after, freshReader]
    have h1 := read_rejects (rd := freshDarn bs) (ft := ft) hs (by
      intro d hd
      obtain ⟨b, hb, rfl⟩ := List.mem_map.1 hd
      exact hgood b (List.mem_append_left _ hb)) (by simp only [Reader.after, freshReader]; omega) hr
      (by rw [hn]; exact hk)
    have hs2 := steps_fileEnc cfg hbl' { (freshReader bs).after bl pre.length with
      cursor := ((freshReader bs).after bl pre.length).cursor + x.length, recNum := 0 } (by
        have := hat.1.2
        simp only [List.length_append, Int.natCast_add, ← Int.add_assoc] at this
        exact this)
    generalize hrd : ({ (freshReader bs).after bl pre.length with
      cursor := ((freshReader bs).after bl pre.length).cursor + x.length, recNum := 0 } : Reader) = rd0 at hs2
    have hcur : (rd0.after bl' mid.length).cursor = ((pre ++ x ++ mid).length : Nat) := by
      rw [← hrd]; simp [Reader.after, freshReader]; omega
    have hbuf : (rd0.after bl' mid.length).buf = bs := by rw [← hrd]; rfl
    have hnum : (rd0.after bl' mid.length).recNum = bl'.length := by rw [← hrd]; simp [Reader.after]
    have hr2 := readRecord_complete (rd0.after bl' mid.length).recNum hb' (buf := (rd0.after bl' mid.length).buf)
      (c := (rd0.after bl' mid.length).cursor) (by rw [hcur, hbuf]; simpa using hat.2)
    have hin2 := hs2.inside (by rw [← hrd]; simp only [Reader.after, freshReader]; omega)
      (by rw [← hrd]; simp only [Reader.after, freshReader]; omega)
    have hsh2 := readRecord_shaped hin2.1 hin2.2.1 hr2
    have ho2 := readCheck_outcome (describes_read ft) bl'.length b'.record
    cases hk2 : readCheck (readGroups ft) (readOptional ft) bl'.length b'.record with
    | ok u => exact absurd (describes_readCheck_ok.1 hk2) hbad'
    | error e' =>
      rw [hk2] at ho2
      have h2 := read_rejects (rd := { freshDarn bs with base :=
        { (freshReader bs).after bl pre.length with
          cursor := ((freshReader bs).after bl pre.length).cursor + x.length } }) (ft := ft)
        (by simp only; rw [hrd]; exact hs2) (by
          intro d hd
          obtain ⟨b, hb, rfl⟩ := List.mem_map.1 hd
          exact hgood b (List.mem_append_right _ hb))
        (by rw [hcur, hbuf]; simp only [List.length_append]; omega) hr2 (by rw [hnum]; exact hk2)
      have hn2 : Names ft bl'.length b'.record e' := by
        rcases outcome_names ho2 with h | ⟨_, h⟩
        · exact h
        · exact absurd h (shaped_not_other hsh2)
      refine ⟨e, e', ?_, ?_, hn2, ?_⟩
      · simp only [runCalls, runCall, h1, h2]
      · rcases outcome_names ho with h | ⟨_, h⟩
        · exact h
        · exact absurd h (shaped_not_other hsh)
      · intro hc
        cases e' <;> first | exact hc | (have a := hc.1; have b := hn2.1; omega)

/-- Of a file of a rawacf record and two that are none the second call says that record 0 is wrong, not record 2. -/
example (cfg : NpCfg) (h : 2 ≤ cfg.maxDims) : ∃ bs b e e',
    (runCalls cfg (freshDarn bs) [.darn .rawacf, .darn .rawacf]).1 = [.error e, .error e'] ∧
      Names .rawacf 1 b e ∧ Names .rawacf 0 b e' ∧ ¬ Names .rawacf 2 b e' := by
  obtain ⟨pre, x, b, h1, h2, -, h4, h5⟩ := Sample.blocks h
  obtain ⟨e, e', h6⟩ := C24_second_call_number cfg .rawacf (bl' := []) (mid := []) h1 h2 .nil h2 rfl (by simpa using h4)
    h5 h5
  exact ⟨_, _, e, e', h6⟩

end Verif.SD
