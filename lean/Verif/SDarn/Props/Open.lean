import Verif.Dmap.Model.Open
import Verif.Dmap.Props.RoundTrip
import Verif.Dmap.Props.Stream
import Verif.SDarn.Props.Write
/-!
# C81: a file and a stream of the same bytes are read in the same way
-/
namespace Verif
open Spec

theorem openBytes_of {bs : Bytes} (h : bs ≠ []) (file : PyStr) : openBytes bs file = .ok ⟨freshReader bs, file⟩ := by
  unfold openBytes
  rw [reader_new h]

theorem openPath_of {fs : FileSys} {name : PyStr} (hn : '\x00' ∉ name) {bs : Bytes} (hb : bs ≠ []) (h : fs name = some bs) :
    openPath fs name = .ok ⟨freshReader bs, name⟩ := by
  unfold openPath
  rw [if_neg hn, h]
  simp only [List.length_eq_zero_iff, hb, if_false]
  exact openBytes_of hb name

theorem openPath_empty {fs : FileSys} {name : PyStr} (hn : '\x00' ∉ name) (h : fs name = some []) :
    openPath fs name = .error (.empty (emptyFileText name)) := by
  unfold openPath
  rw [if_neg hn, h]
  rfl

theorem openPath_missing {fs : FileSys} {name : PyStr} (hn : '\x00' ∉ name) (h : fs name = none) :
    openPath fs name = .error .notFound := by
  unfold openPath
  rw [if_neg hn, h]

/-- The words about an empty file. -/
def emptyWords (what : PyStr) : List PyStr := [py! "Error: ", what, py! " is empty or please check this is the correct file"]

/-- **C81** Opening a file by its name: `FileNotFoundError` exactly if there is none, `EmptyFileError` with the name exactly if
it has no bytes, and otherwise a reader of exactly its bytes, at the first one, without records. -/
theorem C81_file (fsdecode : Bytes → PyStr) (fs : FileSys) (name : PyStr) (hn : '\x00' ∉ name) :
    (dmapRead fsdecode fs (.path name) true = .error .notFound ↔ fs name = none) ∧
    (∀ text, dmapRead fsdecode fs (.path name) true = .error (.empty text) ↔
      fs name = some [] ∧ text = (emptyWords name).flatten) ∧
    (∀ o, dmapRead fsdecode fs (.path name) true = .ok o ↔ ∃ bs, fs name = some bs ∧ bs ≠ [] ∧
      o = ⟨{ buf := bs, cursor := 0, recNum := 0, dmapRecords := [], records := [] }, name⟩) := by
  have he : (emptyWords name).flatten = emptyFileText name := by simp [emptyWords, emptyFileText]
  have hd : dmapRead fsdecode fs (.path name) true = openPath fs name := rfl
  rw [hd, he]
  cases h : fs name with
  | none =>
    rw [openPath_missing hn h]
    simp
  | some bs =>
    by_cases hb : bs = []
    · subst hb
      rw [openPath_empty hn h]
      simp [eq_comm]
    · rw [openPath_of hn hb h]
      refine ⟨by simp, by simp [hb], fun o => ?_⟩
      constructor
      · intro ho
        cases ho
        exact ⟨bs, rfl, hb, rfl⟩
      · rintro ⟨bs', h1, -, rfl⟩
        cases h1
        rfl

example : dmapRead (fun _ => []) (fun _ => none) (.path (py! "a")) true = .error .notFound ∧
    dmapRead (fun _ => []) (fun _ => some []) (.path (py! "a")) true =
      .error (.empty (py! "Error: a is empty or please check this is the correct file")) := by decide

/-- **C81** A stream: the same without names; the text of `EmptyFileError` says "data stream". -/
theorem C81_stream (fsdecode : Bytes → PyStr) (fs : FileSys) (bs : Bytes) :
    (∀ e, dmapRead fsdecode fs (.data bs) false = .error e ↔
      bs = [] ∧ e = .empty (emptyWords (py! "data stream")).flatten) ∧
    (∀ o, dmapRead fsdecode fs (.data bs) false = .ok o ↔ bs ≠ [] ∧
      o = ⟨{ buf := bs, cursor := 0, recNum := 0, dmapRecords := [], records := [] }, py! "stream"⟩) := by
  have hd : dmapRead fsdecode fs (.data bs) false = openStream (.data bs) := rfl
  have he : (emptyWords (py! "data stream")).flatten = emptyFileText (py! "data stream") := rfl
  rw [hd, he]
  by_cases hb : bs = []
  · subst hb
    refine ⟨fun e => ?_, fun o => ?_⟩
    · show Except.error _ = _ ↔ _
      simp [eq_comm]
    · show Except.error _ = _ ↔ _
      simp
  · have : openStream (.data bs) = .ok ⟨freshReader bs, py! "stream"⟩ := by
      show (if bs.length = 0 then _ else _) = _
      rw [if_neg (by simpa using hb)]
      exact openBytes_of hb _
    rw [this]
    refine ⟨by simp [hb], fun o => ⟨fun ho => ⟨hb, by cases ho; rfl⟩, ?_⟩⟩
    rintro ⟨-, rfl⟩
    rfl

/-- **C81** So a file and a stream of the same bytes give the same object, but for the name in texts; what it does later cannot
differ. -/
theorem C81_same (fsdecode : Bytes → PyStr) (fs fs' : FileSys) (name : PyStr) (bs : Bytes) (hn : '\x00' ∉ name)
    (hf : fs name = some bs) (r : Reader) :
    (∃ n, dmapRead fsdecode fs (.path name) true = .ok ⟨r, n⟩) ↔ ∃ n, dmapRead fsdecode fs' (.data bs) false = .ok ⟨r, n⟩ := by
  constructor
  · rintro ⟨n, h⟩
    obtain ⟨bs', h1, h2, h3⟩ := ((C81_file fsdecode fs name hn).2.2 _).1 h
    cases h1.symm.trans hf
    cases h3
    exact ⟨_, ((C81_stream fsdecode fs' bs).2 _).2 ⟨h2, rfl⟩⟩
  · rintro ⟨n, h⟩
    obtain ⟨h2, h3⟩ := ((C81_stream fsdecode fs' bs).2 _).1 h
    cases h3
    exact ⟨_, ((C81_file fsdecode fs name hn).2.2 _).2 ⟨bs, hf, h2, rfl⟩⟩

/-- The files of one file. -/
def oneFileOf (name : PyStr) (bs : Bytes) : FileSys := fun n => if n = name then some bs else none

example : ∃ r n, dmapRead (fun _ => []) (oneFileOf (py! "f") [1, 2, 3]) (.path (py! "f")) true = .ok ⟨r, n⟩ ∧
    r.buf = [1, 2, 3] := ⟨_, _, rfl, rfl⟩

theorem writtenList_zero {k : Nat} {rs : List Rec} {bs : Bytes} (hne : rs ≠ []) (h : WrittenList k rs bs) : (0 : UInt8) ∈ bs := by
  cases h with
  | nil => exact absurd rfl hne
  | cons h1 h2 h3 h4 h5 =>
    refine List.mem_append_left _ ?_
    unfold blockBytes
    have : (0 : UInt8) ∈ natLE 4 65537 := by decide
    simp [this]

/-- **C81** Data and flag that do not fit are refused: what was written as a stream is never taken for the name of a file, and a
name never for a stream. -/
theorem C81_refused (fsdecode : Bytes → PyStr) (fs : FileSys) :
    (∀ recs bs, writeBytes recs = .ok bs → dmapRead fsdecode fs (.data bs) true = .error .valueError) ∧
    (∀ name, name ≠ [] → dmapRead fsdecode fs (.path name) false = .error .typeError) ∧
    (∀ name, '\x00' ∈ name → dmapRead fsdecode fs (.path name) true = .error .valueError) := by
  refine ⟨fun recs bs h => ?_, fun name h => ?_, fun name h => ?_⟩
  · obtain ⟨h1, h2⟩ := writeBytes_inv h
    show (if (0 : UInt8) ∈ bs then _ else _) = _
    rw [if_pos (writtenList_zero h1 h2)]
  · show (if name.length = 0 then _ else _) = _
    rw [if_neg (by simpa using h)]
  · show openPath fs name = _
    unfold openPath
    rw [if_pos h]

example : ∃ bs, writeBytes [Sample.record] = .ok bs := by
  obtain ⟨bs, h, -⟩ := writeBytes_ok (recs := [Sample.record]) (by simp) (mr := 2)
    (fun r hr => Sample.both_encodable (by decide) r (by simp_all))
  exact ⟨bs, h⟩

/-- **C81** The text of an empty file tells its name. -/
theorem C81_telling (a b : PyStr) (h : (emptyWords a).flatten = (emptyWords b).flatten) : a = b := by
  simp only [emptyWords, List.flatten_cons, List.flatten_nil, List.append_nil] at h
  exact List.append_cancel_right (List.append_cancel_left h)

/-- **C81** Records that were written to a file are what a reader opened with its name returns. -/
theorem C81_written (cfg : NpCfg) (fsdecode : Bytes → PyStr) {recs : List Rec} (hne : recs ≠ [])
    (h : ∀ r ∈ recs, Encodable cfg.maxDims r) (fs : FileSys) {fn : PyStr} (hfn : fn ≠ []) (hn : '\x00' ∉ fn) :
    ∃ w w' fs' o rd, Writer.new (dmapInput recs) [] = .ok w ∧ w.writeDmap fs fn = (.ok (), w', fs') ∧
      dmapRead fsdecode fs' (.path fn) true = .ok o ∧ o.reader.readRecords cfg = (.ok (recs.map plainRec), rd) ∧
      rd.dmapRecords = recs.map presentRec := by
  obtain ⟨w, w', fs', bs, h1, h2, h3, -, h4⟩ := C01_roundtrip_file cfg hne h fs hfn
  unfold readFile at h4
  cases h5 : Reader.new bs with
  | error e => rw [h5] at h4; cases h4
  | ok r =>
    rw [h5] at h4
    dsimp only at h4
    have hb : bs ≠ [] := by rintro rfl; cases h5
    rw [reader_new hb] at h5
    cases h5
    cases h6 : (freshReader bs).readRecords cfg with
    | mk x rd =>
      rw [h6] at h4
      cases x with
      | error e => cases h4
      | ok ds =>
        simp only [Except.ok.injEq, Prod.mk.injEq] at h4
        exact ⟨w, w', fs', _, rd, h1, h2, openPath_of hn hb h3, by rw [h6, h4.2], h4.1⟩

example : ∃ w w' fs' o rd, Writer.new (dmapInput [Sample.record, Sample.record2]) [] = .ok w ∧
    w.writeDmap (fun _ => none) (py! "f") = (.ok (), w', fs') ∧
    dmapRead (fun _ => []) fs' (.path (py! "f")) true = .ok o ∧
    o.reader.readRecords numpy2 = (.ok ([Sample.record, Sample.record2].map plainRec), rd) ∧
    rd.dmapRecords = [Sample.record, Sample.record2].map presentRec :=
  C81_written numpy2 _ (by decide) (Sample.both_encodable (by decide)) _ (by decide) (by decide)

namespace SD

/-- **C81** The same of `SDarnRead`: it is opened when a `DmapRead` is, with the same exceptions, and has read nothing. -/
theorem C81_darn (fsdecode : Bytes → PyStr) (fs : FileSys) (src : Source) (isFalse : Bool) :
    (∀ e, sdarnRead fsdecode fs src isFalse = .error e ↔ dmapRead fsdecode fs src isFalse = .error e) ∧
    ∀ r n, sdarnRead fsdecode fs src isFalse = .ok (r, n) ↔
      r.records = none ∧ dmapRead fsdecode fs src isFalse = .ok ⟨r.base, n⟩ := by
  unfold sdarnRead
  cases dmapRead fsdecode fs src isFalse with
  | error e => simp
  | ok o =>
    refine ⟨by simp, fun r n => ?_⟩
    obtain ⟨r0, n0⟩ := o
    obtain ⟨b, rs⟩ := r
    simp
    constructor
    · rintro ⟨⟨rfl, rfl⟩, rfl⟩
      exact ⟨rfl, rfl, rfl⟩
    · rintro ⟨rfl, rfl, rfl⟩
      exact ⟨⟨rfl, rfl⟩, rfl⟩

/-- **C81** Records that `write_X` wrote to a file are what `read_X` returns when the file is opened with its name. -/
theorem C81_darn_written (cfg : NpCfg) (fsdecode : Bytes → PyStr) (ft : FileType) {recs : List Rec} (hne : recs ≠ [])
    (he : ∀ r ∈ recs, Encodable cfg.maxDims r) (hc : ∀ r ∈ recs, Conforms ft r)
    (fs : FileSys) {fn : PyStr} (hfn : fn ≠ []) (hn : '\x00' ∉ fn) :
    ∃ w w' fs' r n, darnWriter (dmapInput recs) [] = .ok w ∧ darnWrite ft w fs fn = (.ok (), w', fs') ∧
      sdarnRead fsdecode fs' (.path fn) true = .ok (r, n) ∧ (r.read cfg ft).1 = .ok (recs.map plainRec) := by
  obtain ⟨w, w', fs', bs, h1, h2, h3, -, h4⟩ := C27_roundtrip cfg ft hne he hc fs (fn0 := []) (fn := fn) (fn1 := fn)
    (by rw [if_neg hfn]) hfn
  have hb : bs ≠ [] := by rintro rfl; cases h4
  refine ⟨w, w', fs', ⟨freshReader bs, none⟩, fn, h1, h2, ?_, ?_⟩
  · show (match openPath fs' fn with | .error e => _ | .ok o => _) = _
    rw [openPath_of hn hb h3]
  · unfold readDarn at h4
    rw [darn_new hb] at h4
    exact h4

example : ∃ w w' fs' r n, darnWriter (dmapInput [Sample.rawacf]) [] = .ok w ∧
    darnWrite .rawacf w (fun _ => none) (py! "f") = (.ok (), w', fs') ∧
    sdarnRead (fun _ => []) fs' (.path (py! "f")) true = .ok (r, n) ∧
    (r.read numpy1 .rawacf).1 = .ok ([Sample.rawacf].map plainRec) :=
  C81_darn_written numpy1 _ .rawacf (by simp)
    (by intro r hr; rw [List.mem_singleton.1 hr]; exact Sample.rawacf_encodable (by decide))
    (by intro r hr; rw [List.mem_singleton.1 hr]; exact Sample.rawacf_conforms) _ (by decide) (by decide)

end SD

end Verif
