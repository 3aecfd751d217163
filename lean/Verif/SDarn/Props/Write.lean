import Verif.SDarn.Props.Objects
import Verif.Dmap.Lemmas.WriteErrors
/-!
# Properties of `SDarnWrite` (C18, C24, C27) and of `get_records` (C49)
-/
namespace Verif.SD
open Verif Spec

/-! ## C18 -/

/-- **C18** If `write_X` raises, no file has changed. -/
theorem C18_darn_failure {ft : FileType} {w w' : Writer} {fs fs' : FileSys} {fn : PyStr} {e : Err}
    (h : darnWrite ft w fs fn = (.error e, w', fs')) : fs' = fs := by
  unfold darnWrite at h
  split at h
  · cases h; rfl
  · split at h
    · cases h; rfl
    · split at h
      · cases h; rfl
      · cases h

theorem filenameCheck_ok {w w' : Writer} {fn : PyStr} (h : w.filenameCheck fn = (.ok (), w')) :
    w' = { w with filename := target w fn } ∧ target w fn ≠ [] := by
  unfold Writer.filenameCheck at h
  unfold target
  split at h
  · cases h
  · rename_i h1
    split at h
    · rename_i h2
      cases h
      rw [if_neg h2]
      exact ⟨rfl, h2⟩
    · rename_i h2
      cases h
      have h2 : fn = [] := Classical.byContradiction h2
      rw [if_pos h2]
      exact ⟨rfl, fun h => h1 ⟨h, h2⟩⟩

/-- **C18** If `write_X` returns, every record conforms and the target file holds the writer's
bytes; no other file has changed. -/
theorem C18_darn_success {ft : FileType} {w w' : Writer} {fs fs' : FileSys} {fn : PyStr}
    (h : darnWrite ft w fs fn = (.ok (), w', fs')) :
    (∀ r ∈ w.recs, Conforms ft r) ∧ target w fn ≠ [] ∧ w'.filename = target w fn ∧
      fs' (target w fn) = some w'.buf ∧ ∀ n, n ≠ target w fn → fs' n = fs n := by
  unfold darnWrite at h
  rcases h1 : w.filenameCheck fn with ⟨x, w1⟩
  rw [h1] at h
  cases x with
  | error e => cases h
  | ok u =>
    obtain ⟨rfl, hne⟩ := filenameCheck_ok h1
    simp only at h
    split at h
    · cases h
    · unfold darnStructureToBytes at h
      rcases h2 : darnToBytes (writeGroups ft) (writeOptional ft) 0 0 w.buf w.recs with ⟨x, b, rn, rs⟩
      simp only [h2] at h
      cases x with
      | error e => cases h
      | ok u =>
        cases h
        refine ⟨darnToBytes_stop h2, hne, rfl, by simp [FileSys.write], fun n hn => by simp [FileSys.write, hn]⟩

/-- **C18** One non-conforming record anywhere makes `write_X` raise, and no file changes. -/
theorem C18_darn_bad_record {ft : FileType} {w : Writer} {r : Rec} (hr : r ∈ w.recs) (hbad : ¬ Conforms ft r)
    (fs : FileSys) (fn : PyStr) : ∃ e w', darnWrite ft w fs fn = (.error e, w', fs) := by
  rcases h : darnWrite ft w fs fn with ⟨x, w', fs'⟩
  cases x with
  | error e => exact ⟨e, w', by rw [C18_darn_failure h]⟩
  | ok u => exact absurd ((C18_darn_success h).1 r hr) hbad

/-- A list with a broken record in second place. -/
example : Sample.broken ∈ (writerOf [Sample.rawacf, Sample.broken] (py! "f")).recs ∧
    ¬ Conforms .rawacf Sample.broken :=
  ⟨by simp [writerOf], fun h => absurd ((describes_readCheck_ok (rn := 0)).2 h) (by decide +kernel)⟩

/-! ## C24 (writing) -/

/-- After conforming, encodable records a non-conforming one stops the writer. -/
theorem darnToBytes_bad {ft : FileType} {mr : Nat} {good rest : List Rec} {bad : Rec} {buf : Bytes} (rn k : Nat)
    (hc : ∀ r ∈ good, Conforms ft r) (hg : ∀ r ∈ good, Encodable mr r) (hb : ¬ Conforms ft bad) :
    ∃ e buf' rn' recs', writeCheck (writeGroups ft) (writeOptional ft) (k + good.length) bad = .error e ∧
      darnToBytes (writeGroups ft) (writeOptional ft) k rn buf (good ++ bad :: rest) =
        (.error e, buf', rn', recs') := by
  induction good generalizing rn k buf with
  | nil =>
    cases h : writeCheck (writeGroups ft) (writeOptional ft) k bad with
    | ok u => exact absurd (writeCheck_ok.1 h) hb
    | error e => exact ⟨e, buf, k, bad :: rest, rfl, by simp only [List.nil_append, darnToBytes, h]⟩
  | cons r good ih =>
    obtain ⟨ss, as, rfl, h1, h2, h3, h4, h5, h6⟩ := hg r (by simp)
    obtain ⟨b0, e1, e2, _⟩ := recordToBytes_ok k buf h1 h2 h4 h5 h6
    obtain ⟨e, buf', rn', recs', e3, e4⟩ := ih (buf := buf ++ b0) k (k + 1)
      (fun x hx => hc x (List.mem_cons_of_mem _ hx)) (fun x hx => hg x (List.mem_cons_of_mem _ hx))
    rw [Nat.add_assoc, Nat.add_comm 1] at e3
    refine ⟨e, buf', rn', fieldsOf ss (as.map leftArray) :: recs', e3, ?_⟩
    simp only [List.cons_append, darnToBytes, writeCheck_ok.2 (hc _ List.mem_cons_self), e1, e4]

/-- The file name check succeeds iff a name is known. -/
theorem filenameCheck_of {w : Writer} {fn : PyStr} (h : target w fn ≠ []) :
    w.filenameCheck fn = (.ok (), { w with filename := target w fn }) := by
  unfold Writer.filenameCheck
  unfold target at h ⊢
  by_cases h2 : fn = []
  · subst h2
    simp only [if_true] at h
    simp [h]
  · simp [h2]

/-- **C24** (writing).  With conforming, encodable records before it, a non-conforming record makes
`write_X` raise, naming exactly the offending fields of that record and its position. -/
theorem C24_write_rejects {ft : FileType} {mr : Nat} {w : Writer} {good rest : List Rec} {bad : Rec}
    (hw : w.recs = good ++ bad :: rest) (hc : ∀ r ∈ good, Conforms ft r) (hg : ∀ r ∈ good, Encodable mr r)
    (hb : ¬ Conforms ft bad) (ho : ∀ p ∈ bad, p.2 ≠ .other) (fs : FileSys) {fn : PyStr} (hfn : target w fn ≠ []) :
    ∃ e w', darnWrite ft w fs fn = (.error e, w', fs) ∧ Names ft good.length bad e := by
  obtain ⟨e, buf', rn', recs', h1, h2⟩ := darnToBytes_bad (buf := w.buf) (rest := rest) 0 0 hc hg hb
  rw [Nat.zero_add] at h1
  refine ⟨e, { w with filename := target w fn, buf := buf', recNum := rn', recs := recs' }, ?_, ?_⟩
  · unfold darnWrite
    rw [filenameCheck_of hfn]
    have hne : ({ w with filename := target w fn } : Writer).emptyRecordCheck = .ok () := by
      unfold Writer.emptyRecordCheck
      unfold Writer.isEmptyList
      simp [hw]
    simp only [hne, darnStructureToBytes]
    rw [hw, h2]
  · have := writeCheck_outcome (describes_write ft) good.length bad
    rw [h1] at this
    rcases outcome_names this with h | ⟨_, p, hp, ho'⟩
    · exact h
    · exact absurd ho' (ho p hp)

/-- A broken record in second place, after a full rawacf record. -/
example : ∃ e w', darnWrite .rawacf (writerOf [Sample.rawacf, Sample.broken] (py! "f")) (fun _ => none) [] =
    (.error e, w', fun _ => none) ∧ Names .rawacf 1 Sample.broken e :=
  C24_write_rejects (mr := 2) (good := [Sample.rawacf]) (rest := []) rfl
    (by intro r hr; rw [List.mem_singleton.1 hr]; exact (describes_readCheck_ok (rn := 0)).1 (by decide +kernel))
    (by intro r hr; rw [List.mem_singleton.1 hr]; exact Sample.rawacf_encodable (by decide))
    (fun h => absurd ((describes_readCheck_ok (rn := 0)).2 h) (by decide +kernel))
    (by decide +kernel) _ (by decide)

theorem writeErr_not_sd {rn : Nat} {e : Err} (h : WriteErr rn e) : ¬ SdErr e := by
  cases h <;> exact fun h => h

theorem darnToBytes_sd {ft : FileType} {recs : List Rec} {buf buf' : Bytes} {rn rn' k : Nat} {recs' : List Rec}
    {e : Err} (h : darnToBytes (writeGroups ft) (writeOptional ft) k rn buf recs = (.error e, buf', rn', recs'))
    (hsd : SdErr e) :
    ∃ good bad rest, recs = good ++ bad :: rest ∧ (∀ r ∈ good, Conforms ft r) ∧
      Names ft (k + good.length) bad e := by
  induction recs generalizing k rn buf buf' rn' recs' with
  | nil => cases h
  | cons r recs ih =>
    simp only [darnToBytes] at h
    cases hk : writeCheck (writeGroups ft) (writeOptional ft) k r with
    | error e' =>
      rw [hk] at h
      cases h
      refine ⟨[], r, recs, rfl, by simp, ?_⟩
      have := writeCheck_outcome (describes_write ft) rn' r
      rw [hk] at this
      rcases outcome_names this with h | ⟨rfl, _⟩
      · exact h
      · exact hsd.elim
    | ok u =>
      rw [hk] at h
      simp only at h
      rcases hr : recordToBytes k buf r with ⟨x, buf1, r1⟩
      rw [hr] at h
      cases x with
      | error e' =>
        cases h
        exact absurd hsd (writeErr_not_sd (recordToBytes_err hr))
      | ok u =>
        simp only at h
        rcases hl : darnToBytes (writeGroups ft) (writeOptional ft) (k + 1) k buf1 recs with ⟨x, buf2, rn2, recs2⟩
        rw [hl] at h
        cases h
        obtain ⟨good, bad, rest, h1, h2, h3⟩ := ih hl
        refine ⟨r :: good, bad, rest, by rw [h1]; rfl, ?_, ?_⟩
        · intro x hx
          rcases List.mem_cons.1 hx with rfl | hx
          · exact writeCheck_ok.1 hk
          · exact h2 x hx
        · rw [List.length_cons, Nat.add_comm good.length, ← Nat.add_assoc]
          exact h3

/-- **C24** (writing).  A SuperDARN exception of `write_X` names exactly the offending fields and the
position of the first record that does not conform. -/
theorem C24_write_reports {ft : FileType} {w w' : Writer} {fs fs' : FileSys} {fn : PyStr} {e : Err}
    (h : darnWrite ft w fs fn = (.error e, w', fs')) (hsd : SdErr e) :
    ∃ good bad rest, w.recs = good ++ bad :: rest ∧ (∀ r ∈ good, Conforms ft r) ∧ Names ft good.length bad e := by
  unfold darnWrite at h
  rcases h1 : w.filenameCheck fn with ⟨x, w1⟩
  rw [h1] at h
  cases x with
  | error e' =>
    cases h
    unfold Writer.filenameCheck at h1
    split at h1
    · cases h1; exact hsd.elim
    · split at h1 <;> cases h1
  | ok u =>
    obtain ⟨rfl, hne⟩ := filenameCheck_ok h1
    simp only at h
    split at h
    · rename_i e' h2
      cases h
      unfold Writer.emptyRecordCheck at h2
      split at h2
      · cases h2; exact hsd.elim
      · cases h2
    · unfold darnStructureToBytes at h
      rcases h2 : darnToBytes (writeGroups ft) (writeOptional ft) 0 0 w.buf w.recs with ⟨x, b, rn, rs⟩
      simp only [h2] at h
      cases x with
      | ok u => cases h
      | error e' =>
        cases h
        obtain ⟨good, bad, rest, h3, h4, h5⟩ := darnToBytes_sd h2 hsd
        rw [Nat.zero_add] at h5
        exact ⟨good, bad, rest, h3, h4, h5⟩

/-- The writer of the previous example does raise a SuperDARN exception. -/
example : ∃ e w', darnWrite .rawacf (writerOf [Sample.rawacf, Sample.broken] (py! "f")) (fun _ => none) [] =
    (.error e, w', fun _ => none) ∧ SdErr e := by
  obtain ⟨e, w', h1, h2⟩ := C24_write_rejects (ft := .rawacf) (mr := 2) (good := [Sample.rawacf]) (rest := [])
    (w := writerOf [Sample.rawacf, Sample.broken] (py! "f")) (bad := Sample.broken) (fn := []) rfl
    (by intro r hr; rw [List.mem_singleton.1 hr]; exact (describes_readCheck_ok (rn := 0)).1 (by decide +kernel))
    (by intro r hr; rw [List.mem_singleton.1 hr]; exact Sample.rawacf_encodable (by decide))
    (fun h => absurd ((describes_readCheck_ok (rn := 0)).2 h) (by decide +kernel))
    (by decide +kernel) (fun _ => none) (by decide)
  exact ⟨e, w', h1, (names_sd h2).1⟩

/-! ## C27 -/

/-- **C27** Conforming, encodable records written with `write_X` into a file and read from it with
`read_X` come back unchanged. -/
theorem C27_roundtrip (cfg : NpCfg) (ft : FileType) {recs : List Rec} (hne : recs ≠ [])
    (he : ∀ r ∈ recs, Encodable cfg.maxDims r) (hc : ∀ r ∈ recs, Conforms ft r)
    (fs : FileSys) {fn0 fn fn1 : PyStr} (h1 : fn1 = if fn = [] then fn0 else fn) (h2 : fn1 ≠ []) :
    ∃ w w' fs' bs, darnWriter (dmapInput recs) fn0 = .ok w ∧ darnWrite ft w fs fn = (.ok (), w', fs') ∧
      fs' fn1 = some bs ∧ (∀ n, n ≠ fn1 → fs' n = fs n) ∧ readDarn cfg ft bs = .ok (recs.map plainRec) := by
  have hw : ∀ f, ({ filename := f, isList := true, recs := recs, buf := [], recNum := 0 } : Writer).emptyRecordCheck =
      .ok () := by
    intro f
    unfold Writer.emptyRecordCheck Writer.isEmptyList
    cases recs
    · exact absurd rfl hne
    · simp
  obtain ⟨bs, rn', h3, h4⟩ := recordsToBytes_ok he 0 0 []
  refine ⟨{ filename := fn0, isList := true, recs := recs, buf := [], recNum := 0 },
    { filename := fn1, isList := true, recs := recs.map leftRec, buf := bs, recNum := rn' },
    fs.write fn1 bs, bs, ?_, ?_, by simp [FileSys.write], fun n hn => by simp [FileSys.write, hn], ?_⟩
  · unfold darnWriter
    rw [writerNew_dmapInput]
    simp only [Bind.bind, Except.bind, hw]
    rfl
  · unfold darnWrite
    rw [filenameCheck_of (by unfold target; rw [← h1]; exact h2)]
    have : target { filename := fn0, isList := true, recs := recs, buf := [], recNum := 0 } fn = fn1 := h1.symm
    simp only [this, hw, darnStructureToBytes, darnToBytes_conform hc, h3, List.nil_append]
  · rw [C29_fresh]
    refine ⟨_, readFile_written hne he h4, ?_⟩
    intro r hr
    obtain ⟨r0, hr0, rfl⟩ := List.mem_map.1 hr
    exact conforms_presentRec.2 (hc r0 hr0)

theorem Sample.rawacf_conforms : Conforms .rawacf Sample.rawacf :=
  (describes_readCheck_ok (rn := 0)).1 (by decide +kernel)

/-- A full rawacf record. -/
example : ∃ w w' fs' bs, darnWriter (dmapInput [Sample.rawacf]) [] = .ok w ∧
    darnWrite .rawacf w (fun _ => none) (py! "f") = (.ok (), w', fs') ∧ fs' (py! "f") = some bs ∧
    (∀ n, n ≠ py! "f" → fs' n = none) ∧ readDarn numpy2 .rawacf bs = .ok ([Sample.rawacf].map plainRec) :=
  C27_roundtrip numpy2 .rawacf (by decide)
    (by intro r hr; rw [List.mem_singleton.1 hr]; exact Sample.rawacf_encodable (by decide))
    (by intro r hr; rw [List.mem_singleton.1 hr]; exact Sample.rawacf_conforms) _ rfl (by decide)

/-- **C27** Whatever encodable records `write_X` accepts, `read_X` returns. -/
theorem C27_accepted (cfg : NpCfg) (ft : FileType) {recs : List Rec} {w w' : Writer} {fs fs' : FileSys}
    {fn0 fn : PyStr} (he : ∀ r ∈ recs, Encodable cfg.maxDims r) (h0 : darnWriter (dmapInput recs) fn0 = .ok w)
    (h : darnWrite ft w fs fn = (.ok (), w', fs')) :
    ∃ bs, fs' (target w fn) = some bs ∧ readDarn cfg ft bs = .ok (recs.map plainRec) := by
  have hne : recs ≠ [] := by
    rintro rfl
    cases h0
  have hwe : w.recs = recs ∧ w.filename = fn0 := by
    unfold darnWriter at h0
    rw [writerNew_dmapInput] at h0
    simp only [Bind.bind, Except.bind] at h0
    split at h0
    · cases h0
    · cases h0; exact ⟨rfl, rfl⟩
  obtain ⟨hc, ht, _⟩ := C18_darn_success h
  rw [hwe.1] at hc
  have hf : target w fn = if fn = [] then fn0 else fn := by unfold target; rw [hwe.2]
  obtain ⟨w1, w2, fs2, bs, h1, h2, h3, _, h5⟩ := C27_roundtrip cfg ft hne he hc fs hf ht
  rw [h0] at h1
  cases h1
  rw [h] at h2
  cases h2
  exact ⟨bs, h3, h5⟩

/-! ## C49 -/

/-- **C49** After a successful `read_X`, `get_records` gives what the method returned. -/
theorem C49_after_read (cfg : NpCfg) (ft : FileType) {rd rd' : DarnReader} {ds : List PlainRec}
    (h : rd.read cfg ft = (.ok ds, rd')) : rd'.getRecords = .ok ds := by
  obtain ⟨b, new, _, _, _, _, rfl⟩ := read_ok.1 h
  rfl

/-- A file written with one full rawacf record is read. -/
example : ∃ bs rd', (freshDarn bs).read numpy2 .rawacf = (.ok ([Sample.rawacf].map plainRec), rd') ∧
    rd'.getRecords = .ok ([Sample.rawacf].map plainRec) := by
  obtain ⟨_, _, _, bs, _, _, _, _, h⟩ := C27_roundtrip numpy2 .rawacf (recs := [Sample.rawacf]) (by decide)
    (by intro r hr; rw [List.mem_singleton.1 hr]; exact Sample.rawacf_encodable (by decide))
    (by intro r hr; rw [List.mem_singleton.1 hr]; exact Sample.rawacf_conforms) (fun _ => none) (fn0 := [])
    (fn := py! "f") rfl (by decide)
  unfold readDarn at h
  by_cases hb : bs = []
  · subst hb; cases h
  · rw [darn_new hb] at h
    rcases hr : (freshDarn bs).read numpy2 .rawacf with ⟨x, rd'⟩
    simp only [hr] at h
    subst h
    exact ⟨bs, rd', hr, C49_after_read _ _ hr⟩

/-- **C49** For a `DmapRead`, `get_records` gives what `read_records` returned. -/
theorem C49_parent (cfg : NpCfg) {rd rd' : Reader} {ds : List PlainRec}
    (h : rd.readRecords cfg = (.ok ds, rd')) : rd'.records = ds := by
  obtain ⟨r1, _, _, _, rfl⟩ := readRecords_ok.1 h
  rfl

/-- **C49** is violated after `read_records` of an `SDarnRead`: the property of the subclass reads
an attribute that method does not assign, so it raises `AttributeError`. -/
theorem C49_violation (cfg : NpCfg) (bs : Bytes) {rd : DarnReader} {ds : List PlainRec}
    (h : (freshDarn bs).readRecords cfg = (.ok ds, rd)) : rd.getRecords = .error .attributeError := by
  unfold DarnReader.readRecords at h
  rcases hr : (freshDarn bs).base.readRecords cfg with ⟨x, b⟩
  rw [hr] at h
  cases h
  rfl

example : ∃ rd, (freshDarn Sample.bytes2).readRecords numpy1 = (.ok [plainRec Verif.Sample.record2], rd) :=
  ⟨((freshDarn Sample.bytes2).readRecords numpy1).2, by decide +kernel⟩

end Verif.SD
