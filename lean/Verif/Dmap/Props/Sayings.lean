import Verif.Dmap.Lemmas.Sayings
import Verif.Dmap.Props.Messages
/-!
# C70: the numbers in texts of exceptions when reading
-/
namespace Verif
open Spec

/-- **C70** If reading raises an exception of pyDARNio, for any content: the numbers in its text are as it says.  A size called
negative is negative, a number called larger than another is larger, a type called unknown has no format, a shape said to contain
a dimension that is not positive does, and so on. -/
theorem C70_true (cfg : NpCfg) (fn : PyStr) {bs : Bytes} {e : Exc} {rd' : Reader}
    (h : (freshReader bs).readRecordsM cfg fn = (.error e, rd')) {cls : PyStr} (hc : className e.err = some cls) :
    ∃ t, e.text = some t ∧ SaysTrue fn bs.length rd'.dmapRecords.length cls t := by
  have hn : rd'.recNum = rd'.dmapRecords.length := by
    have h1 := (readRecords_withText cfg fn (freshReader bs)).1
    rw [h] at h1
    exact (C68_number cfg h1.symm).1
  have h0 := h
  have key : TrueExc fn bs.length rd'.recNum e := by
    unfold Reader.readRecordsM at h
    have h1 := readLoop_true cfg fn ((freshReader bs).buf.length - (freshReader bs).cursor).toNat (freshReader bs)
    have h2 := readLoopM_buf cfg fn ((freshReader bs).buf.length - (freshReader bs).cursor).toNat (freshReader bs)
    generalize (freshReader bs).readLoopM cfg fn ((freshReader bs).buf.length - (freshReader bs).cursor).toNat = z at h h1 h2
    rcases z with ⟨y, r⟩
    cases y with
    | error e1 => cases h; exact (h1 _ _ rfl).2
    | ok u =>
      dsimp only at h
      split at h
      · rename_i hgt
        cases h
        have := SaysTrue.larger (fn := fn) (len := bs.length) (rn := rd'.recNum) (py! "cursor") (py! "total bytes in the file") hgt
        rw [← decText_natCast, ← decText_shown, ← decText_shown] at this
        refine ⟨_, rfl, ?_⟩
        simpa [mismatchText] using this
      · cases hd : dmap2dict cfg r.dmapRecords with
        | ok ds => rw [hd] at h; cases h
        | error e1 =>
          rw [hd] at h
          cases h
          rw [(C70_texts cfg fn h0).1 rfl] at hc
          cases hc
  unfold TrueExc at key
  rw [hc] at key
  rw [← hn]
  exact key

/-- A block that is shorter than its size says: the exception is one of pyDARNio, and its text is true. -/
example : ∃ t, SaysTrue (py! "a.rawacf") shortBlock.length 0 (py! "CursorError") t ∧
    t = py! "Error: Cursor is at 42 andit needs to be 41. Failed at record 0" := by
  obtain ⟨t, rd', h, -⟩ := C70_file_violation
  obtain ⟨t', h1, h2⟩ := C70_true numpy1 (py! "a.rawacf") h rfl
  refine ⟨_, ?_, rfl⟩
  have h3 : ((freshReader shortBlock).readRecordsM numpy1 (py! "a.rawacf")).1 =
    .error ⟨.cursorError, some (py! "Error: Cursor is at 42 andit needs to be 41. Failed at record 0")⟩ := by rfl
  have h4 : ((freshReader shortBlock).readRecordsM numpy1 (py! "a.rawacf")).2.dmapRecords.length = 0 := by rfl
  rw [h] at h3 h4
  cases h3
  cases h1
  rw [h4] at h2
  exact h2

/-- **C70** So are those of the test of integrity, which tells record 0 always. -/
theorem C70_integrity_true (fn : PyStr) {bs : Bytes} {e : Exc} {rd' : Reader}
    (h : (freshReader bs).testIntegrityM fn = (.error e, rd')) {cls : PyStr} (hc : className e.err = some cls) :
    ∃ t, e.text = some t ∧ SaysTrue fn bs.length 0 cls t := by
  unfold Reader.testIntegrityM at h
  rw [if_neg (by simp [freshReader])] at h
  have hl := integrityLoop_true fn bs 0 bs.length 0 0
  generalize hz : integrityLoopM fn (freshReader bs).buf (freshReader bs).recNum (freshReader bs).buf.length 0 (freshReader bs).cursor = z at h
  rcases z with ⟨x, c⟩
  cases x with
  | error e1 =>
    cases h
    have := hl _ _ hz
    unfold TrueExc at this
    rwa [hc] at this
  | ok total =>
    dsimp only at h
    split at h
    · cases h; cases hc
    · cases h

/-- A size of -1. -/
example : ((freshReader [0, 0, 0, 0, 255, 255, 255, 255]).testIntegrityM (py! "a.rawacf")).1 =
    .error ⟨.negativeByte 0, some (py! "Error: a.rawacf contains an block size -1 < 0 at record 0.")⟩ := by rfl

/-- **C70** An array with a dimension that is not smaller than the block, all being positive: the text tells the first such
dimension, its index in the order of NumPy and the size of the block. -/
theorem C70_dimension (cfg : NpCfg) (fn : PyStr) {buf pre suf : Bytes} (rn : Nat) {size : Int} {name : PyStr} {fmt : Fmt} {dims : List Int}
    (hb : buf = pre ++ (encStr name ++ [UInt8.ofNat (code fmt)] ++ natLE 4 dims.length ++ dims.flatMap (intLE 4)) ++ suf)
    (hn : NulFree name) (hd : dims ≠ []) (hs : dims.length ≤ size) (hl : dims.length < 2 ^ 31)
    (hi : ∀ x ∈ dims, 0 < x ∧ x < 2 ^ 31) {i : Nat} {x : Int} (hx : dims.reverse[i]? = some x) (hlarge : size ≤ x)
    (hfirst : ∀ j, j < i → ∀ y, dims.reverse[j]? = some y → y < size) :
    ∃ c', readArrayM cfg fn buf rn size pre.length = (.error ⟨.dmapDataError, some (py! " The following error for " ++ fn ++
      py! " was raised: Error: Array " ++ digits i ++ py! "-dimension size " ++ shown x ++ py! " exceeds record size: " ++ shown size ++
      py! ". Failed at record " ++ digits rn)⟩, c') := by
  obtain ⟨c', h⟩ := readArrayM_head cfg fn rn (c := pre.length) ⟨pre, suf, hb, rfl⟩ hn hd hs hl
    (fun x hx => by have := hi x hx; unfold signedOk; omega)
  refine ⟨c', ?_⟩
  rw [h]
  unfold readTailM
  dsimp only
  rw [shape_ite rfl, if_neg]
  · cases ht : tooLargeDim size 0 dims.reverse with
    | none =>
      have h1 := (tooLargeDim_none size 0 dims.reverse).1 ht
      rw [List.any_eq_false] at h1
      exact absurd (by simpa using hlarge) (h1 x (List.mem_of_getElem? hx))
    | some q =>
      obtain ⟨-, h1, h2, h3⟩ := tooLargeDim_some (k := 0) (i := q.1) (x := q.2) ht
      simp only [Nat.sub_zero] at h1 h3
      have hqi : q.1 = i := by
        rcases Nat.lt_trichotomy q.1 i with hlt | heq | hgt
        · have := hfirst _ hlt _ h1; omega
        · exact heq
        · have := h3 _ hgt _ hx; omega
      rw [hqi, hx] at h1
      cases h1
      show RdM.raise _ _ c' = _
      unfold RdM.raise
      rw [hqi, decText_natCast, decText_natCast, decText_shown, decText_shown]
      simp [dataText]
  · rintro ⟨h1, -⟩
    rw [List.any_eq_true] at h1
    obtain ⟨y, h2, h3⟩ := h1
    have := hi y (List.mem_reverse.1 h2)
    simp only [decide_eq_true_eq] at h3
    omega

/-- **C70** An array with a dimension that is not positive: the text tells the whole shape, in the order of NumPy. -/
theorem C70_shape (cfg : NpCfg) (fn : PyStr) {buf pre suf : Bytes} (rn : Nat) {size : Int} {name : PyStr} {fmt : Fmt} {dims : List Int}
    (hb : buf = pre ++ (encStr name ++ [UInt8.ofNat (code fmt)] ++ natLE 4 dims.length ++ dims.flatMap (intLE 4)) ++ suf)
    (hn : NulFree name) (hs : dims.length ≤ size) (hl : dims.length < 2 ^ 31)
    (hi : ∀ x ∈ dims, -2 ^ 31 ≤ x ∧ x < 2 ^ 31) (hneg : ∃ x ∈ dims, x ≤ 0) (hslist : ¬ mayBeEmpty name) :
    ∃ c', readArrayM cfg fn buf rn size pre.length = (.error ⟨.dmapDataError, some (py! " The following error for " ++ fn ++
      py! " was raised: Error: Array shape " ++ shownList dims.reverse ++ py! " contains dimension size <= 0. Failed at record " ++
      digits rn)⟩, c') := by
  obtain ⟨x, hx, hx0⟩ := hneg
  obtain ⟨c', h⟩ := readArrayM_head cfg fn rn (c := pre.length) ⟨pre, suf, hb, rfl⟩ hn (List.ne_nil_of_mem hx) hs hl
    (fun x hx => by have := hi x hx; unfold signedOk; omega)
  refine ⟨c', ?_⟩
  rw [h]
  unfold readTailM
  dsimp only
  rw [shape_ite rfl, if_pos ⟨List.any_eq_true.2 ⟨x, List.mem_reverse.2 hx, by simpa using hx0⟩, hslist⟩]
  unfold RdM.raise
  rw [intsText_intercalate, decText_natCast]
  simp [dataText]

/-- Of the dimensions 2 and 50 in the file, 50 comes first for NumPy and is too large for a block of 40 bytes. -/
example : (readArrayM numpy1 (py! "a.rawacf") (encStr (py! "acfd") ++ [4] ++ natLE 4 2 ++ [2, 50].flatMap (intLE 4)) 3 40 0).1 =
    .error ⟨.dmapDataError, some (py! " The following error for a.rawacf was raised: Error: Array 0-dimension size 50 exceeds record size: 40. Failed at record 3")⟩ := by
  obtain ⟨c', h⟩ := C70_dimension numpy1 (py! "a.rawacf") (buf := encStr (py! "acfd") ++ [4] ++ natLE 4 2 ++ [2, 50].flatMap (intLE 4))
    (pre := []) (suf := []) 3 (size := 40) (name := py! "acfd") (fmt := .f) (dims := [2, 50]) (by decide) (by decide) (by decide)
    (by decide) (by decide) (by decide) (i := 0) (x := 50) rfl (by decide) (by decide)
  rw [List.length_nil] at h
  rw [show ((0 : Nat) : Int) = 0 from rfl] at h
  rw [h]
  rfl

end Verif
