import Verif.Dmap.Lemmas.WriterObj
import Verif.Dmap.Lemmas.Programs
import Verif.Dmap.Sample
/-!
# C16 - C21: the writer object
-/
namespace Verif
open Spec

/-- A writer holding `recs` (`DmapWrite(recs, fn)`). -/
def writerOf (recs : List Rec) (fn : PyStr) : Writer :=
  { filename := fn, isList := true, recs := recs, buf := [], recNum := 0 }

theorem writerOf_new (recs : List Rec) (fn : PyStr) : Writer.new (dmapInput recs) fn = .ok (writerOf recs fn) :=
  writerNew_dmapInput recs fn

/-! ## C16 -/

/-- **C16** Whatever the outcome of `write_dmap_stream`, the only thing it can have done to the records
is to reverse the shape list of multi-dimensional arrays. -/
theorem C16_only_shapes {w : Writer} (hne : w.recs ≠ []) (inp : WInput) :
    Pairs TouchedRec w.recs (w.writeStream inp).2.recs := writeStream_touched hne inp

/-- **C16** The same for records handed to `write_dmap_stream` itself. -/
theorem C16_only_shapes_argument {recs : List Rec} (fn : PyStr) :
    Pairs TouchedRec recs ((writerOf [] fn).writeStream (dmapInput recs)).2.recs := by
  unfold Writer.writeStream
  simp only [writerOf, Writer.isEmptyList, Bool.and_self, List.isEmpty_nil, if_true, checkDmapDict_dmapInput]
  split
  · exact Pairs.refl touchedRec_refl _
  · have := recordsToBytes_touched 0 0 [] recs
    unfold Writer.recordsToBytes
    simp only
    generalize recordsToBytes 0 0 [] recs = z at this
    obtain ⟨x, b, rn, rs⟩ := z
    cases x <;> exact this

/-- **C16** (partial: no multi-dimensional array.)  Whatever the outcome, the records are unchanged. -/
theorem C16_unchanged_partial {w : Writer} (hne : w.recs ≠ []) (hf : ∀ r ∈ w.recs, FlatRec r) (inp : WInput) :
    (w.writeStream inp).2.recs = w.recs := pairs_flatList (writeStream_touched hne inp) hf

/-- **C16** After a successful write the shape list of *every* multi-dimensional array is reversed. -/
theorem C16_reversed {w w' : Writer} (hne : w.recs ≠ []) {inp : WInput} {out : Bytes}
    (h : w.writeStream inp = (.ok out, w')) :
    w'.recs = w.recs.map fun r => r.map fun p => (p.1, afterWrite p.2) := by
  obtain ⟨_, _, _, _, h1, _⟩ := writeStream_inv hne h
  rw [h1]
  exact List.map_congr_left fun r _ => leftRec_afterWrite r

/-- **C16** is violated by every successful write with a multi-dimensional array whose shape is not a
palindrome. -/
theorem C16_violation {w w' : Writer} {inp : WInput} {out : Bytes}
    (h : w.writeStream inp = (.ok out, w')) {r : Rec} (hr : r ∈ w.recs) {k : PyStr} {a : DmapArray}
    (ha : (k, Field.array a) ∈ r) (hd : 1 < a.dimension) (hp : a.shape.reverse ≠ a.shape) :
    w'.recs ≠ w.recs := by
  have hne : w.recs ≠ [] := List.ne_nil_of_mem hr
  rw [C16_reversed hne h]
  intro he
  have h1 := (List.map_inj_left (f := fun r => r.map fun p => (p.1, afterWrite p.2)) (g := id)).1
    (he.trans (List.map_id _).symm) r hr
  simp only [id] at h1
  have h2 := (List.map_inj_left (f := fun p : PyStr × Field => (p.1, afterWrite p.2)) (g := id)).1
    (h1.trans (List.map_id _).symm) _ ha
  simp only [afterWrite, if_pos hd, id, Prod.mk.injEq, Field.array.injEq, true_and] at h2
  exact hp (congrArg DmapArray.shape h2)

/-- The sample contains a 2×3 array; the sample's write succeeds and reverses it. -/
example : ((writerOf [Sample.record] []).writeStream noRecords).2.recs ≠ [Sample.record] := by
  obtain ⟨bs, rn, h, _⟩ := writeStream_ok (mr := 32) (writerOf [Sample.record] []) noRecords (by decide)
    (by intro r hr; rw [List.mem_singleton.1 hr]; exact Sample.record_encodable (by decide))
  rw [h]
  exact C16_violation h (r := Sample.record) (List.mem_singleton.2 rfl) (k := py! "ptab")
    (a := ⟨py! "ptab", ⟨.int16, [2, 3], [[1, 0], [2, 0], [3, 0], [4, 0], [5, 0], [6, 1]]⟩, 2, .h, 2, [2, 3]⟩)
    (by decide) (by decide) (by decide)

example : ((writerOf [Sample.record2] []).writeStream noRecords).2.recs = [Sample.record2] :=
  C16_unchanged_partial (w := writerOf [Sample.record2] []) (by decide)
    (by intro r hr k a ha
        rw [List.mem_singleton.1 hr] at ha
        simp [Sample.record2, fieldsOf] at ha
        obtain ⟨_, rfl⟩ := ha
        decide) _

example := C16_only_shapes (w := writerOf [Sample.record, [(py! "x", .other)]] []) (by decide) noRecords

example := C16_only_shapes_argument (recs := [Sample.record, [(py! "x", .other)]]) []

/-! ## C17 -/

/-- `n` successive calls of `write_dmap_stream()`: the results and the final object. -/
def streamTimes : Nat → Writer → List (Except Err Bytes) × Writer
  | 0, w => ([], w)
  | n + 1, w =>
    match w.writeStream noRecords with
    | (res, w') =>
      match streamTimes n w' with
      | (l, w'') => (res :: l, w'')

/-- `n` copies of a list after one another. -/
def copies {α : Type} (n : Nat) (l : List α) : List α := (List.replicate n l).flatten

/-- **C17** is violated by every pair of successful calls: the second stream is the first one followed by
at least one more block. -/
theorem C17_violation {w w1 w2 : Writer} (hne : w.recs ≠ []) {inp1 inp2 : WInput} {out1 out2 : Bytes}
    (h1 : w.writeStream inp1 = (.ok out1, w1)) (h2 : w1.writeStream inp2 = (.ok out2, w2)) :
    out2 ≠ out1 ∧ ∃ more, more ≠ [] ∧ out2 = out1 ++ more := by
  obtain ⟨bs1, _, _, e1, e2, _⟩ := writeStream_inv hne h1
  have hne1 : w1.recs ≠ [] := by rw [e2]; simpa using hne
  obtain ⟨bs2, g1, g2, _⟩ := writeStream_inv hne1 h2
  have hb := writtenList_ne g1 hne1
  rw [e1] at g2
  refine ⟨?_, bs2, hb, g2⟩
  rw [g2]
  intro h
  exact hb (List.append_right_eq_self.1 h)

/-- **C17** (partial: the first call only; what later calls give.)  For writable records without
multi-dimensional arrays call number `j + 1` returns `j + 1` copies of the first stream. -/
theorem C17_copies_partial {recs : List Rec} (hne : recs ≠ []) (hf : ∀ r ∈ recs, FlatRec r)
    {bs : Bytes} (hw : writeBytes recs = .ok bs) (fn : PyStr) (n : Nat) :
    (streamTimes n (writerOf recs fn)).1 = (List.range n).map fun j => .ok (copies (j + 1) bs) := by
  have hl := (writeBytes_inv hw).2
  have hleft : recs.map leftRec = recs :=
    (List.map_congr_left (g := id) fun r hr => leftRec_flat (hf r hr)).trans (List.map_id _)
  have key : ∀ (n m : Nat) (w : Writer), w.recs = recs → w.buf = copies m bs →
      (streamTimes n w).1 = (List.range n).map fun j => .ok (copies (m + j + 1) bs) := by
    intro n
    induction n with
    | zero => intros; rfl
    | succ n ih =>
      intro m w h1 h2
      obtain ⟨rn, h3⟩ := writeStream_written (w := w) (by rw [h1]; exact hne) noRecords (by rw [h1]; exact hl)
      have hc : copies m bs ++ bs = copies (m + 1) bs := by
        simp [copies, List.replicate_succ', List.flatten_append]
      have h4 := ih (m + 1) { w with buf := w.buf ++ bs, recNum := rn, recs := w.recs.map leftRec }
        (by rw [h1, hleft]) (by rw [h2]; exact hc)
      simp only [streamTimes, h3]
      rw [h4, List.range_succ_eq_map, List.map_cons, List.map_map, h2, hc]
      congr 1
      apply List.map_congr_left
      intro j _
      simp only [Function.comp_apply]
      congr 2
      omega
  have := key n 0 (writerOf recs fn) rfl rfl
  simpa using this

/-- **C17** So call number `j + 1` gives a file in which every record appears `j + 1` times. -/
theorem C17_copies_read (cfg : NpCfg) {recs : List Rec} (hne : recs ≠ [])
    (h : ∀ r ∈ recs, Encodable cfg.maxDims r) (hf : ∀ r ∈ recs, FlatRec r) (fn : PyStr) (n j : Nat) (hj : j < n) :
    ∃ out, (streamTimes n (writerOf recs fn)).1[j]? = some (.ok out) ∧
      readFile cfg out = .ok (copies (j + 1) (recs.map presentRec), copies (j + 1) (recs.map plainRec)) := by
  obtain ⟨bs, h1, h2⟩ := writeBytes_ok hne h
  refine ⟨copies (j + 1) bs, ?_, ?_⟩
  · rw [C17_copies_partial hne hf h1, List.getElem?_map, List.getElem?_range hj]
    rfl
  · have hc : ∀ m, FileEnc cfg.maxDims ((copies m recs).map blockOf) (copies m bs) := by
      intro m
      induction m with
      | zero => exact .nil
      | succ m ih =>
        simp only [copies, List.replicate_succ, List.flatten_cons, List.map_append]
        exact seqEnc_append h2 ih
    have hm : ∀ m, ∀ r ∈ copies m recs, Encodable cfg.maxDims r := by
      intro m r hr
      simp only [copies, List.mem_flatten, List.mem_replicate] at hr
      obtain ⟨l, ⟨_, rfl⟩, hr⟩ := hr
      exact h r hr
    have hmap : ∀ {β : Type} (g : Rec → β), (copies (j + 1) recs).map g = copies (j + 1) (recs.map g) := by
      intro β g
      simp [copies, List.map_flatten]
    have hne' : copies (j + 1) recs ≠ [] := by
      simp [copies, List.replicate_succ, hne]
    rw [readFile_written hne' (hm _) (hc _), hmap, hmap]

example := C17_copies_read numpy1 (recs := [Sample.record2]) (by decide)
  (by intro r hr; rw [List.mem_singleton.1 hr]; exact Sample.record2_encodable (by decide))
  (by intro r hr k a ha
      rw [List.mem_singleton.1 hr] at ha
      simp [Sample.record2, fieldsOf] at ha
      obtain ⟨_, rfl⟩ := ha
      decide) [] 7 6 (by decide)

example : (streamTimes 2 (writerOf [Sample.record2] [])).1 = [.ok Sample.bytes2, .ok (Sample.bytes2 ++ Sample.bytes2)] := by
  decide +kernel

/-! ## C18 -/

/-- **C18** A failing `write_dmap` leaves the file system unchanged. -/
theorem C18_failure_no_file {w w' : Writer} {fs fs' : FileSys} {fn : PyStr} {e : Err}
    (h : w.writeDmap fs fn = (.error e, w', fs')) : fs' = fs := by
  unfold Writer.writeDmap at h
  cases h1 : w.filenameCheck fn with
  | mk x w1 =>
    rw [h1] at h
    cases x with
    | error e => cases h; rfl
    | ok u =>
      simp only at h
      cases h2 : w1.writeStream noRecords with
      | mk y w2 =>
        rw [h2] at h
        cases y with
        | error e => cases h; rfl
        | ok b => cases h

/-- **C18** In particular a list with one record that cannot be encoded, wherever it stands, is not
written. -/
theorem C18_bad_record {recs : List Rec} {r : Rec} (hr : r ∈ recs) (hbad : ∀ rn bs, ¬ Written rn r bs)
    (fs : FileSys) (fn0 fn : PyStr) :
    ∃ e w', (writerOf recs fn0).writeDmap fs fn = (.error e, w', fs) := by
  cases h : (writerOf recs fn0).writeDmap fs fn with
  | mk x y =>
    obtain ⟨w', fs'⟩ := y
    cases x with
    | error e => exact ⟨e, w', by rw [C18_failure_no_file h]⟩
    | ok u =>
      exfalso
      unfold Writer.writeDmap at h
      cases h1 : (writerOf recs fn0).filenameCheck fn with
      | mk x w1 =>
        rw [h1] at h
        cases x with
        | error e => cases h
        | ok u =>
          simp only at h
          have hw1 : w1.recs = recs := by
            unfold Writer.filenameCheck at h1
            split at h1
            · cases h1
            · split at h1 <;> cases h1 <;> rfl
          cases h2 : w1.writeStream noRecords with
          | mk y w2 =>
            rw [h2] at h
            cases y with
            | error e => cases h
            | ok b =>
              have hl : ∃ bs, WrittenList 0 recs bs := by
                obtain ⟨bs, hl, _⟩ := writeStream_inv (by rw [hw1]; exact List.ne_nil_of_mem hr) h2
                rw [hw1] at hl
                exact ⟨bs, hl⟩
              obtain ⟨bs, hl⟩ := hl
              generalize 0 = k at hl
              clear h h1 h2 hw1
              induction hl with
              | nil => cases hr
              | cons g1 _ _ _ _ ih =>
                rcases List.mem_cons.1 hr with rfl | hr
                · exact hbad _ _ g1
                · exact ih hr

example : ∃ e w', (writerOf [Sample.record, [(py! "x", .other)], Sample.record2] (py! "out")).writeDmap (fun _ => none) [] =
    (.error e, w', fun _ => none) :=
  C18_bad_record (r := [(py! "x", .other)]) (by simp) (by intro rn bs h; cases h) _ _ _

/-- **C18** A successful one changes exactly the named file, to the returned stream. -/
theorem C18_success {w w' : Writer} {fs fs' : FileSys} {fn : PyStr}
    (h : w.writeDmap fs fn = (.ok (), w', fs')) :
    w'.filename ≠ [] ∧ fs' w'.filename = some w'.buf ∧ ∀ n, n ≠ w'.filename → fs' n = fs n := by
  unfold Writer.writeDmap at h
  cases h1 : w.filenameCheck fn with
  | mk x w1 =>
    rw [h1] at h
    cases x with
    | error e => cases h
    | ok u =>
      simp only at h
      have hf := writeStream_filename w1 noRecords
      cases h2 : w1.writeStream noRecords with
      | mk y w2 =>
        rw [h2] at h hf
        cases y with
        | error e => cases h
        | ok b =>
          cases h
          refine ⟨?_, by simp [FileSys.write], fun n hn => by simp [FileSys.write, hn]⟩
          simp only at hf
          rw [hf]
          unfold Writer.filenameCheck at h1
          split at h1
          · cases h1
          · split at h1
            · cases h1; assumption
            · cases h1; simp_all

/-! ## C19 -/

/-- **C19** What a failed write leaves behind: when the record after the prefix `good` cannot be encoded,
the bytes of `good` stay in the buffer, and the next successful write (after the records have
been replaced by `fixed`) emits them before its own. -/
theorem C19_leftover {w : Writer} {good rest fixed : List Rec} {bad bad' : Rec} {g own : Bytes} {e : Err}
    (hw : w.recs = good ++ bad :: rest) (hg : WrittenList 0 good g)
    (hbad : encodeFields good.length bad = (.error e, bad'))
    (hfix : writeBytes fixed = .ok own) (inp inp' : WInput) :
    ∃ w', w.writeStream inp = (.error e, w') ∧ w'.buf = w.buf ++ g ∧
      ({ w' with recs := fixed }.writeStream inp').1 = .ok (w.buf ++ g ++ own) := by
  have hne : w.recs ≠ [] := by rw [hw]; simp
  obtain ⟨rn', h1⟩ := recordsToBytes_append (rn := w.recNum) w.buf (bad :: rest) hg
  have h2 : recordsToBytes (0 + good.length) rn' (w.buf ++ g) (bad :: rest) =
      (.error e, w.buf ++ g, good.length, bad' :: rest) := by
    simp only [recordsToBytes, Nat.zero_add, recordToBytes, hbad]
  rw [h2, ← hw] at h1
  refine ⟨{ w with buf := w.buf ++ g, recNum := good.length, recs := good.map leftRec ++ bad' :: rest }, ?_, rfl, ?_⟩
  · rw [writeStream_eq hne, h1]; rfl
  · obtain ⟨hf1, hf2⟩ := writeBytes_inv hfix
    obtain ⟨rn2, h3⟩ := writeStream_written
      (w := { w with buf := w.buf ++ g, recNum := good.length, recs := fixed }) hf1 inp' hf2
    rw [h3]

/-- **C19** is violated whenever a writable record stands before the failing one: the next write does not
output its own stream. -/
theorem C19_violation {w : Writer} {good rest fixed : List Rec} {bad bad' : Rec} {g own : Bytes} {e : Err}
    (hw : w.recs = good ++ bad :: rest) (hgood : good ≠ []) (hg : WrittenList 0 good g)
    (hbad : encodeFields good.length bad = (.error e, bad'))
    (hfix : writeBytes fixed = .ok own) (inp inp' : WInput) :
    ({ (w.writeStream inp).2 with recs := fixed }.writeStream inp').1 ≠ .ok own := by
  obtain ⟨w', h1, _, h2⟩ := C19_leftover hw hg hbad hfix inp inp'
  rw [h1]
  simp only
  rw [h2]
  intro h
  injection h with h
  have := congrArg List.length h
  have hp := List.length_pos_iff.2 (writtenList_ne hg hgood)
  simp only [List.length_append] at this
  omega

/-- **C19** (partial: the first record is the failing one, and it fails in the encoding of a field.)  The
next write outputs only its own records. -/
theorem C19_clean_partial {w : Writer} {rest fixed : List Rec} {bad bad' : Rec} {own : Bytes} {e : Err}
    (hw : w.recs = bad :: rest) (hbuf : w.buf = []) (hbad : encodeFields 0 bad = (.error e, bad'))
    (hfix : writeBytes fixed = .ok own) (inp inp' : WInput) :
    ({ (w.writeStream inp).2 with recs := fixed }.writeStream inp').1 = .ok own := by
  obtain ⟨w', h1, _, h2⟩ := C19_leftover (good := []) (g := []) hw .nil hbad hfix inp inp'
  rw [h1]
  simp only
  rw [h2, hbuf]
  rfl

example : ({ ((writerOf [Sample.record2, [(py! "x", .other)]] []).writeStream noRecords).2 with
    recs := [Sample.record2] }.writeStream noRecords).1 = .ok (Sample.bytes2 ++ Sample.bytes2) := by
  decide +kernel

example : ({ ((writerOf [[(py! "x", .other)], Sample.record] []).writeStream noRecords).2 with
    recs := [Sample.record2] }.writeStream noRecords).1 = .ok Sample.bytes2 :=
  C19_clean_partial (w := writerOf [[(py! "x", .other)], Sample.record] []) (bad := [(py! "x", .other)])
    (bad' := [(py! "x", .other)]) (e := .dmapTypeError 0) rfl rfl rfl (by decide +kernel) _ _

/-! ## C20 -/

/-- One step of a history: perhaps replace the records, then `write_dmap(filename)`. -/
structure WriteCall where
  newRecs : Option (List Rec)
  filename : PyStr

/-- Run a history of `write_dmap` calls. -/
def runWrites (w : Writer) (fs : FileSys) : List WriteCall → Writer × FileSys
  | [] => (w, fs)
  | c :: cs =>
    let w := match c.newRecs with
      | none => w
      | some rs => { w with recs := rs }
    match w.writeDmap fs c.filename with
    | (_, w', fs') => runWrites w' fs' cs

/-- The last non-empty name, `first` if there is none. -/
def lastName (first : PyStr) (names : List PyStr) : PyStr :=
  (names.reverse.find? fun n => n ≠ []).getD first

theorem lastName_cons (first n : PyStr) (names : List PyStr) :
    lastName first (n :: names) = lastName (if n = [] then first else n) names := by
  unfold lastName
  rw [List.reverse_cons, List.find?_append]
  cases h : names.reverse.find? fun n => n ≠ [] with
  | some m => simp
  | none => by_cases hn : n = [] <;> simp [hn]

theorem writeDmap_filename (w : Writer) (fs : FileSys) (fn : PyStr) :
    (w.writeDmap fs fn).2.1.filename = if fn = [] then w.filename else fn := by
  unfold Writer.writeDmap
  have h : (w.filenameCheck fn).2.filename = if fn = [] then w.filename else fn := by
    unfold Writer.filenameCheck
    split
    · rename_i h; simp [h.2]
    · split
      · rename_i h; simp
      · rename_i h; simp_all
  cases h1 : w.filenameCheck fn with
  | mk x w1 =>
    rw [h1] at h
    cases x with
    | error e => exact h
    | ok u =>
      simp only at h ⊢
      have hf := writeStream_filename w1 noRecords
      cases h2 : w1.writeStream noRecords with
      | mk y w2 =>
        rw [h2] at hf
        simp only at hf
        cases y <;> (simp only; rw [hf, h])

/-- **C20** After any history of calls (successful or not, with any records) the writer's file name is the
last non-empty one given, the constructor's if there was none. -/
theorem C20_name_persists (w : Writer) (fs : FileSys) (h : List WriteCall) :
    (runWrites w fs h).1.filename = lastName w.filename (h.map WriteCall.filename) := by
  induction h generalizing w fs with
  | nil => rfl
  | cons c cs ih =>
    simp only [runWrites, List.map_cons, lastName_cons]
    rw [ih, writeDmap_filename]
    cases c.newRecs <;> rfl

/-- **C20** A call after any history fails with `FilenameRequiredError` and writes nothing exactly when no
non-empty name was ever given; otherwise the only file it can change is the last non-empty name. -/
theorem C20_effective_name (w : Writer) (fs : FileSys) (h : List WriteCall) (fn : PyStr) :
    let name := lastName w.filename (h.map WriteCall.filename ++ [fn])
    let before := runWrites w fs h
    (name = [] → before.1.writeDmap before.2 fn = (.error .filenameRequired, before.1, before.2)) ∧
    (name ≠ [] → (before.1.writeDmap before.2 fn).1 ≠ .error .filenameRequired ∧
      (∀ n, n ≠ name → (before.1.writeDmap before.2 fn).2.2 n = before.2 n) ∧
      ((before.1.writeDmap before.2 fn).1 = .ok () →
        (before.1.writeDmap before.2 fn).2.2 name = some (before.1.writeDmap before.2 fn).2.1.buf)) := by
  intro name before
  have hname : name = if fn = [] then before.1.filename else fn := by
    have h1 := C20_name_persists w fs h
    show lastName _ _ = _
    rw [show before.1.filename = lastName w.filename (h.map WriteCall.filename) from h1]
    unfold lastName
    rw [List.reverse_append, List.reverse_singleton, List.singleton_append, List.find?_cons]
    by_cases hf : fn = [] <;> simp [hf]
  generalize before.1 = w1 at hname ⊢
  generalize before.2 = fs1
  constructor
  · intro hn
    rw [hn] at hname
    have h1 : fn = [] := by
      by_cases hf : fn = []
      · exact hf
      · rw [if_neg hf] at hname; exact absurd hname.symm hf
    rw [if_pos h1] at hname
    unfold Writer.writeDmap Writer.filenameCheck
    simp [h1, ← hname]
  · intro hn
    have hfn := writeDmap_filename w1 fs1 fn
    rw [← hname] at hfn
    refine ⟨?_, ?_⟩
    · unfold Writer.writeDmap
      have hck : (w1.filenameCheck fn).1 = .ok () := by
        unfold Writer.filenameCheck
        split
        · rename_i h; simp_all
        · split <;> rfl
      cases h1 : w1.filenameCheck fn with
      | mk x w2 =>
        rw [h1] at hck
        simp only at hck
        subst hck
        simp only
        cases h2 : w2.writeStream noRecords with
        | mk y w3 =>
          cases y with
          | ok b => nofun
          | error e =>
            simp only [ne_eq, Except.error.injEq]
            intro he
            subst he
            exact writeStream_not_filename h2
    · cases hw : w1.writeDmap fs1 fn with
      | mk x y =>
        obtain ⟨w2, fs2⟩ := y
        rw [hw] at hfn
        simp only at hfn ⊢
        cases x with
        | error e => rw [C18_failure_no_file hw]; exact ⟨fun _ _ => rfl, nofun⟩
        | ok u =>
          obtain ⟨_, h2, h3⟩ := C18_success hw
          rw [hfn] at h2 h3
          exact ⟨h3, fun _ => h2⟩

example := C20_effective_name (writerOf [Sample.record2] []) (fun _ => none)
  [⟨none, []⟩, ⟨none, py! "a"⟩, ⟨some [[(py! "x", .other)]], py! "b"⟩, ⟨none, []⟩] []

example : lastName [] [[], py! "a", py! "b", []] = py! "b" := by decide

/-! ## C21 -/

/-- **C21** Every element of an array of any rank is read back at its index. -/
theorem C21_elements (cfg : NpCfg) {recs : List Rec} (h : ∀ r ∈ recs, Encodable cfg.maxDims r)
    {j : Nat} {r : Rec} (hj : recs[j]? = some r) {nm : PyStr} {a : DmapArray} (ha : (nm, Field.array a) ∈ r) :
    ∃ rs ds r' d a', writeThenRead cfg recs = .ok (rs, ds) ∧ rs[j]? = some r' ∧ ds[j]? = some d ∧
      Dict.get? r' nm = some (.array a') ∧ Dict.get? d nm = some (.arr a'.value) ∧
      a'.value.shape = a.value.shape ∧ a'.dimension = a.value.shape.length ∧
      ∀ idx, elementAt a'.value idx = elementAt a.value idx ∧
        ((rowMajor a.value.shape idx).isSome → (elementAt a.value idx).isSome) := by
  have hne : recs ≠ [] := by rintro rfl; simp at hj
  obtain ⟨bs, h1, h2⟩ := writeBytes_ok hne h
  obtain ⟨ss, as, he, _, _, hnd, _, h5, _⟩ := h r (List.mem_of_getElem? hj)
  have haOK : a ∈ as := by
    rw [he] at ha
    rcases List.mem_append.1 ha with hm | hm
    · obtain ⟨x, _, hx⟩ := List.mem_map.1 hm; cases hx
    · obtain ⟨x, hx, hx'⟩ := List.mem_map.1 hm; cases hx'; exact hx
  have hok := h5 a haOK
  refine ⟨recs.map presentRec, recs.map plainRec, presentRec r, plainRec r, present a, ?_, by simp [hj],
    by simp [hj], ?_, ?_, rfl, hok.rank, ?_⟩
  · unfold writeThenRead; rw [h1]; exact readFile_written hne h h2
  · refine Dict.get?_of_mem ?_ (List.mem_map.2 ⟨_, ha, rfl⟩)
    unfold Dict.NodupKeys Dict.keys
    simpa [presentRec, Function.comp_def] using hnd
  · refine Dict.get?_of_mem ?_ (List.mem_map.2 ⟨_, ha, rfl⟩)
    unfold Dict.NodupKeys Dict.keys
    simpa [plainRec, Function.comp_def] using hnd
  · intro idx
    refine ⟨rfl, fun hs => ?_⟩
    obtain ⟨k, hk⟩ := Option.isSome_iff_exists.1 hs
    have := rowMajor_lt hk
    unfold elementAt
    rw [hk]
    simp only [Option.bind_some, isSome_getElem?, hok.count, this]

example := C21_elements numpy1 (recs := [Sample.record2, Sample.record]) (j := 1) (r := Sample.record)
  (nm := py! "ptab")
  (a := ⟨py! "ptab", ⟨.int16, [2, 3], [[1, 0], [2, 0], [3, 0], [4, 0], [5, 0], [6, 1]]⟩, 2, .h, 2, [2, 3]⟩)
  (by intro r hr
      simp only [List.mem_cons, List.not_mem_nil, or_false] at hr
      rcases hr with rfl | rfl
      · exact Sample.record2_encodable (by decide)
      · exact Sample.record_encodable (by decide)) rfl (by decide)

example : elementAt ⟨.int16, [2, 3], [[1, 0], [2, 0], [3, 0], [4, 0], [5, 0], [6, 1]]⟩ [1, 2] = some [6, 1] := by
  decide

/-- **C21** On disk the dimensions are stored reversed and the element with index `idx` stands where
a reader that lets the first stored dimension vary fastest looks for the reversed index. -/
theorem C21_on_disk {mr size : Nat} {dt : Fmt → DType} {a : DmapArray} {bs : Bytes}
    (h : ArrayEnc mr size dt a bs) :
    ∃ head body, bs = head ++ (a.value.shape.reverse.flatMap fun n => natLE 4 n) ++ body ∧
      body.length = prod a.value.shape * cellSize a.fmt ∧
      ∀ idx k x, firstFastest a.value.shape.reverse idx.reverse = some k → elementAt a.value idx = some x →
        (body.drop (k * cellSize a.fmt)).take (cellSize a.fmt) = x := by
  refine ⟨_, a.value.cells.flatten, h.bytes, ?_, ?_⟩
  · rw [← h.count]
    have := h.cells
    generalize a.value.cells = cs at this
    induction cs with
    | nil => simp
    | cons c cs ih =>
      rw [List.flatten_cons, List.length_append, ih fun x hx => this x (List.mem_cons_of_mem _ hx),
        this c (by simp), List.length_cons, Nat.succ_mul, Nat.add_comm]
  · intro idx k x hk hx
    rw [firstFastest_reverse] at hk
    unfold elementAt at hx
    rw [hk] at hx
    exact flatten_cell h.cells hx

example := C21_on_disk (mr := 32) (size := 1000) (dt := presented)
  (a := ⟨py! "ptab", ⟨.int16, [2, 3], [[1, 0], [2, 0], [3, 0], [4, 0], [5, 0], [6, 1]]⟩, 2, .h, 2, [2, 3]⟩)
  ⟨by decide, rfl, rfl, rfl, rfl, by decide, by decide, rfl, .inl (by decide), by decide, by decide, by decide, rfl⟩

example : firstFastest [3, 2] [2, 1] = some 5 := by decide

end Verif
