import Verif.Dmap.SpecMessages
import Verif.Dmap.Model.Messages
import Verif.Dmap.Lemmas.Errors
/-!
# The reader with texts agrees with the reader without
-/
namespace Verif
open Spec

theorem decText_natCast (n : Nat) : decText n = digits n := by
  show Nat.toDigits 10 n = (Nat.repr n).toList
  rw [Nat.toList_repr]

/-- An exception has a text that tells record and file, or it is one of Python. -/
def Told (fn : PyStr) (rn : Nat) (e : Exc) : Prop :=
  match e.text with
  | none => className e.err = none
  | some t => ∃ cls, className e.err = some cls ∧ TellsRecord fn cls rn t ∧ (cls = py! "CursorError" ∨ TellsFile fn t)

/-- The method with texts does what the one without does, and its exceptions are told. -/
def Same {α : Type} (fn : PyStr) (rn : Nat) (x : Rd α) (y : RdM α) : Prop :=
  ∀ c, match y c with
    | (.ok a, c') => x c = (.ok a, c')
    | (.error e, c') => x c = (.error e.err, c') ∧ Told fn rn e

/-- Only exceptions of Python. -/
def OnlyPython {α : Type} (x : Rd α) : Prop := ∀ c e c', x c = (.error e, c') → className e = none

section
variable {fn : PyStr} {rn : Nat} {α β : Type}

theorem Same.pure (a : α) : Same fn rn (Rd.pure a) (RdM.pure a) := fun _ => rfl

theorem Same.ret (a : α) : Same fn rn (Pure.pure a : Rd α) (Pure.pure a : RdM α) := fun _ => rfl

theorem Same.bind {x : Rd α} {y : RdM α} {f : α → Rd β} {g : α → RdM β} (h : Same fn rn x y) (hf : ∀ a, Same fn rn (f a) (g a)) :
    Same fn rn (x >>= f) (y >>= g) := by
  intro c
  show match RdM.bind y g c with
    | (.ok a, c') => Rd.bind x f c = (.ok a, c')
    | (.error e, c') => Rd.bind x f c = (.error e.err, c') ∧ Told fn rn e
  have hc := h c
  unfold RdM.bind Rd.bind
  rcases hy : y c with ⟨r, c'⟩
  rw [hy] at hc
  cases r with
  | ok a =>
    simp only at hc ⊢
    rw [hc]
    exact hf a c'
  | error e =>
    simp only at hc ⊢
    rw [hc.1]
    exact ⟨rfl, hc.2⟩

theorem Same.raise {e : Err} {t : PyStr} (h : Told fn rn ⟨e, some t⟩) : Same fn rn (Rd.raise e : Rd α) (RdM.raise e t) :=
  fun _ => ⟨rfl, h⟩

theorem Same.ofRd {x : Rd α} (h : OnlyPython x) : Same fn rn x (RdM.ofRd x) := by
  intro c
  unfold RdM.ofRd
  rcases hx : x c with ⟨r, c'⟩
  cases r with
  | ok a => rfl
  | error e => exact ⟨rfl, h c e c' hx⟩

theorem Same.ite {p : Prop} [Decidable p] {x x' : Rd α} {y y' : RdM α} (h1 : p → Same fn rn x y) (h2 : ¬p → Same fn rn x' y') :
    Same fn rn (if p then x else x') (if p then y else y') := by
  split
  · exact h1 ‹_›
  · exact h2 ‹_›

theorem OnlyPython.pure (a : α) : OnlyPython (Rd.pure a) := nofun

theorem OnlyPython.ret (a : α) : OnlyPython (Pure.pure a : Rd α) := nofun

theorem OnlyPython.cursor : OnlyPython Rd.cursor := nofun

theorem OnlyPython.setCursor (x : Int) : OnlyPython (Rd.setCursor x) := nofun

theorem OnlyPython.raise {e : Err} (h : className e = none) : OnlyPython (Rd.raise e : Rd α) := by
  intro c e' c' he
  cases he
  exact h

theorem OnlyPython.lift {x : Except Err α} (h : ∀ e, x = .error e → className e = none) : OnlyPython (Rd.lift x) := by
  intro c e' c' he
  exact h e' (congrArg Prod.fst he)

theorem OnlyPython.bind {x : Rd α} {f : α → Rd β} (h : OnlyPython x) (hf : ∀ a, OnlyPython (f a)) : OnlyPython (x >>= f) := by
  intro c e c' he
  have he : Rd.bind x f c = (.error e, c') := he
  unfold Rd.bind at he
  rcases hx : x c with ⟨r, c2⟩
  rw [hx] at he
  cases r with
  | ok a => exact hf a c2 e c' he
  | error e2 => cases he; exact h c _ _ hx

end

/-! ## Texts -/

theorem suffix_of {s a b : PyStr} (h : a = b ++ s) : s <:+ a := ⟨b, h.symm⟩

/-- A text of the form `... record 5` or `... record 5.` -/
theorem told_number {fn : PyStr} {rn : Nat} {e : Err} {cls before tail t : PyStr} (h : className e = some cls)
    (hb : py! " record" <:+ before ∨ py! " record =" <:+ before) (ht : tail = afterNumber fn cls)
    (hf : cls = py! "CursorError" ∨ fn <:+: t) (he : t = before ++ (' ' :: decText rn) ++ tail) :
    Told fn rn ⟨e, some t⟩ :=
  ⟨cls, h, ⟨before, by rw [he, decText_natCast, ht], hb⟩, hf⟩

theorem infix_mid {fn t : PyStr} (a b : PyStr) (h : t = a ++ fn ++ b) : fn <:+: t := ⟨a, b, h.symm⟩

theorem zero_told (fn : PyStr) (rn : Nat) (info : PyStr) : Told fn rn ⟨.zeroByte rn, some (zeroText fn info rn)⟩ :=
  told_number (cls := py! "ZeroByteError") (before := py! "Error: " ++ fn ++ py! " contains an " ++ info ++ py! " == 0 at record")
    (tail := py! ".") rfl (.inl (suffix_of (b := py! "Error: " ++ fn ++ py! " contains an " ++ info ++ py! " == 0 at") (by simp)))
    rfl (.inr (infix_mid (py! "Error: ") (py! " contains an " ++ info ++ py! " == 0 at record " ++ decText rn ++ py! ".")
      (by simp [zeroText]))) (by simp [zeroText])

theorem negative_told (fn : PyStr) (rn : Nat) (info : PyStr) : Told fn rn ⟨.negativeByte rn, some (negativeText fn info rn)⟩ :=
  told_number (cls := py! "NegativeByteError") (before := py! "Error: " ++ fn ++ py! " contains an " ++ info ++ py! " < 0 at record")
    (tail := py! ".") rfl (.inl (suffix_of (b := py! "Error: " ++ fn ++ py! " contains an " ++ info ++ py! " < 0 at") (by simp)))
    rfl (.inr (infix_mid (py! "Error: ") (py! " contains an " ++ info ++ py! " < 0 at record " ++ decText rn ++ py! ".")
      (by simp [negativeText]))) (by simp [negativeText])

theorem mismatch_told (fn : PyStr) (rn : Nat) (info : PyStr) : Told fn rn ⟨.mismatchByte rn, some (mismatchText fn info rn)⟩ :=
  told_number (cls := py! "MismatchByteError") (before := py! "Error: " ++ fn ++ py! " contains an " ++ info ++ py! " at record =")
    (tail := py! ".") rfl (.inr (suffix_of (b := py! "Error: " ++ fn ++ py! " contains an " ++ info ++ py! " at") (by simp)))
    rfl (.inr (infix_mid (py! "Error: ") (py! " contains an " ++ info ++ py! " at record = " ++ decText rn ++ py! ".")
      (by simp [mismatchText]))) (by simp [mismatchText])

theorem dataType_told (fn : PyStr) (rn : Nat) (name : PyStr) (code : Nat) :
    Told fn rn ⟨.dmapDataType name code rn, some (dataTypeText fn name code rn)⟩ :=
  told_number (cls := py! "DmapDataTypeError") (before := py! "Error: Dmap data type " ++ decText code ++ py! " for " ++ name ++ py! " at record")
    (tail := py! " does not exist in dmap data types. Filename: " ++ fn) rfl
    (.inl (suffix_of (b := py! "Error: Dmap data type " ++ decText code ++ py! " for " ++ name ++ py! " at") (by simp)))
    rfl (.inr (infix_mid (py! "Error: Dmap data type " ++ decText code ++ py! " for " ++ name ++ py! " at record " ++ decText rn ++
      py! " does not exist in dmap data types. Filename: ") [] (by simp [dataTypeText]))) (by simp [dataTypeText])

theorem cursor_told (fn : PyStr) (rn : Nat) {t : PyStr} (m : PyStr) (h : t = m ++ py! " record" ++ (' ' :: decText rn)) :
    Told fn rn ⟨.cursorError, some t⟩ :=
  told_number (cls := py! "CursorError") (before := m ++ py! " record") (tail := []) rfl (.inl (suffix_of rfl)) rfl (.inl rfl)
    (by rw [h, List.append_nil])

theorem data_told (fn : PyStr) (rn : Nat) {t : PyStr} (m : PyStr) (h : t = m ++ py! " record" ++ (' ' :: decText rn)) :
    Told fn rn ⟨.dmapDataError, some (dataText fn t)⟩ :=
  told_number (cls := py! "DmapDataError") (before := dataText fn (m ++ py! " record")) (tail := []) rfl
    (.inl (suffix_of (b := dataText fn m) (by simp [dataText]))) rfl
    (.inr (infix_mid (py! " The following error for ") (py! " was raised: " ++ t) (by simp [dataText]))) (by rw [h]; simp [dataText])

/-! ## Methods -/

section
variable {fn : PyStr} {rn : Nat}

theorem zeroNegativeCheck_withText (x : Int) (name : PyStr) : Same fn rn (zeroNegativeCheck rn x) (zeroNegativeCheckM fn rn x name) :=
  .ite (fun _ => .raise (zero_told _ _ _)) fun _ => .ite (fun _ => .raise (negative_told _ _ _)) fun _ => .pure _

theorem bytesCheck_withText (x : Int) (name : PyStr) (b : Int) (bname : PyStr) :
    Same fn rn (bytesCheck rn x b) (bytesCheckM fn rn x name b bname) :=
  .ite (fun _ => .raise (mismatch_told _ _ _)) fun _ => .pure _

theorem checkDataType_withText (code : Nat) (name : PyStr) : Same fn rn (checkDataType rn code name) (checkDataTypeM fn rn code name) := by
  unfold checkDataType checkDataTypeM
  cases dmapDataTypes.lookup code with
  | some p => exact .pure _
  | none => exact .raise (dataType_told _ _ _ _)

theorem readPre_withText (buf : Bytes) (n : Nat) : Same fn rn (readPre buf n) (readPreM buf rn n) := by
  intro c
  unfold readPre readPreM
  by_cases h1 : c ≥ buf.length
  · rw [if_pos h1, if_pos h1]
    exact ⟨rfl, cursor_told _ _ (py! "Error: Cursor " ++ decText c ++ py! " extends out of buffer " ++ decText buf.length ++ py! ". Fails at") (by simp)⟩
  rw [if_neg h1, if_neg h1]
  by_cases h2 : (buf.length : Int) - c < n
  · rw [if_pos h2, if_pos h2]
    exact ⟨rfl, cursor_told _ _ (py! "Error: Byte offsets " ++ decText (buf.length - c) ++ py! " into buffer " ++ decText n ++
      py! " are not aligned. Failed at") (by simp)⟩
  · rw [if_neg h2, if_neg h2]

theorem readDataC_withText (buf : Bytes) : Same fn rn (readDataC buf) (readDataCM buf rn) := by
  refine .bind (readPre_withText _ _) fun _ => .ofRd (.bind .cursor fun c => ?_)
  split
  · exact .raise rfl
  · exact .bind (.setCursor _) fun _ => .ret _

theorem readDataS_withText (buf : Bytes) : Same fn rn (readDataS buf rn) (readDataSM fn buf rn) := by
  refine .bind (readPre_withText _ _) fun _ => .bind (.ofRd .cursor) fun c => ?_
  cases scanNul buf c ((buf.length - c).toNat + 1) 0 with
  | none => exact .ofRd (.raise rfl)
  | some n =>
    refine .bind (bytesCheck_withText _ _ _ _) fun _ => .ofRd ?_
    split
    · exact .raise rfl
    · refine .bind (.setCursor _) fun _ => ?_
      split
      · exact .raise rfl
      · exact .ret _

theorem readDataN_withText (buf : Bytes) (n : Nat) : Same fn rn (readDataN buf n) (readDataNM buf rn n) := by
  refine .bind (readPre_withText _ _) fun _ => .ofRd (.bind .cursor fun c => ?_)
  split
  · exact .raise (by unfold unpackErr; split <;> rfl)
  · exact .bind (.setCursor _) fun _ => .ret _

theorem readInt_withText (buf : Bytes) : Same fn rn (readInt buf) (readIntM buf rn) := .bind (readDataN_withText _ _) fun _ => .ret _

theorem readData_withText (buf : Bytes) (fmt : Fmt) (size : Nat) : Same fn rn (readData buf rn fmt size) (readDataM fn buf rn fmt size) := by
  cases fmt <;> first
    | exact .bind (readDataC_withText _) fun _ => .ret _
    | exact .bind (readDataS_withText _) fun _ => .ret _
    | exact .bind (readDataN_withText _ _) fun _ => .ret _

theorem readScalar_withText (buf : Bytes) : Same fn rn (readScalar buf rn) (readScalarM fn buf rn) := by
  refine .bind (readDataS_withText _) fun name => .bind (readDataC_withText _) fun code => .bind (checkDataType_withText _ _) fun p => ?_
  refine .ite (fun _ => .bind (readData_withText _ _ _) fun _ => .ret _) fun _ => .raise ?_
  exact data_told _ _ (py! "Error: Trying to read DMap data type for a scalar. Failed at") (by simp)

theorem readInts_withText (buf : Bytes) (n : Nat) : Same fn rn (readInts buf n) (readIntsM buf rn n) := by
  induction n with
  | zero => exact .pure _
  | succ n ih => exact .bind (readInt_withText _) fun _ => .bind ih fun _ => .ret _

theorem tooLargeDim_none (size : Int) (i : Nat) (l : List Int) :
    tooLargeDim size i l = none ↔ (l.any fun x => decide (x ≥ size)) = false := by
  induction l generalizing i with
  | nil => simp [tooLargeDim]
  | cons x l ih =>
    unfold tooLargeDim
    split
    · rename_i h; simp [h]
    · rename_i h; rw [ih]; simp [h]

theorem npFrombuffer_python (buf : Bytes) (sz : Nat) (count off : Int) (e : Err) (h : npFrombuffer buf sz count off = .error e) :
    className e = none := by
  unfold npFrombuffer at h
  simp only at h
  repeat' (first | split at h | cases h | rfl)

theorem npReshape_python (cfg : NpCfg) (sz n : Nat) (shape : List Int) (e : Err) (h : npReshape cfg sz n shape = .error e) :
    className e = none := by
  unfold npReshape npShape at h
  simp only at h
  repeat' (first | split at h | cases h | rfl)

theorem readNumericalArray_python (cfg : NpCfg) (buf : Bytes) (shape : List Int) (fmt : Fmt) (total : Int) (size : Nat) :
    OnlyPython (readNumericalArray cfg buf shape fmt total size) :=
  .bind .cursor fun _ => .bind (.lift (npFrombuffer_python _ _ _ _)) fun _ => .bind (.setCursor _) fun _ =>
    .bind (.lift (npReshape_python _ _ _ _)) fun _ => .ret _

theorem readArray_withText (cfg : NpCfg) (buf : Bytes) (size : Int) :
    Same fn rn (readArray cfg buf rn size) (readArrayM cfg fn buf rn size) := by
  refine .bind (readDataS_withText _) fun name => .bind (readDataC_withText _) fun code => .bind (checkDataType_withText _ _) fun p =>
    .bind (readInt_withText _) fun dim => .bind (bytesCheck_withText _ _ _ _) fun _ => .bind (zeroNegativeCheck_withText _ _) fun _ =>
    .bind (readInts_withText _ _) fun dims => ?_
  refine .ite (fun _ => .raise ?_) fun _ => ?_
  · exact data_told _ _ (py! "Error: Array shape " ++ ('[' :: intsText (if dim > 1 then dims.reverse else dims)) ++
      py! " contains dimension size <= 0. Failed at") (by simp)
  generalize (if dim > 1 then dims.reverse else dims) = shape
  cases hb : tooLargeDim size 0 shape with
  | some q =>
    rw [if_pos (by rw [← Bool.not_eq_false, ← tooLargeDim_none size 0, hb]; simp)]
    exact .raise (data_told _ _ (py! "Error: Array " ++ decText q.1 ++ py! "-dimension size " ++ decText q.2 ++
        py! " exceeds record size: " ++ decText size ++ py! ". Failed at") (by simp))
  | none =>
    rw [if_neg (by rw [(tooLargeDim_none size 0 shape).1 hb]; simp)]
    refine .bind (bytesCheck_withText _ _ _ _) fun _ => .bind (bytesCheck_withText _ _ _ _) fun _ => .ite (fun _ => .raise ?_) fun _ =>
      .ite (fun _ => .raise ?_) fun _ => .bind (.ofRd (readNumericalArray_python _ _ _ _ _ _)) fun _ => .ret _
    · exact data_told _ _ (py! "Error: Trying to read array of strings. Currently not implemented. Failed at") (by simp)
    · exact data_told _ _ (py! "Trying to read DMap array data type. Failed at") (by simp)

theorem readScalars_withText (buf : Bytes) (n : Nat) (r : Rec) : Same fn rn (readScalars buf rn n r) (readScalarsM fn buf rn n r) := by
  induction n generalizing r with
  | zero => exact .pure _
  | succ n ih => exact .bind (readScalar_withText _) fun _ => ih _

theorem readArrays_withText (cfg : NpCfg) (buf : Bytes) (size : Int) (n : Nat) (r : Rec) :
    Same fn rn (readArrays cfg buf rn size n r) (readArraysM cfg fn buf rn size n r) := by
  induction n generalizing r with
  | zero => exact .pure _
  | succ n ih => exact .bind (readArray_withText _ _ _) fun _ => ih _

theorem readRecord_withText (cfg : NpCfg) (buf : Bytes) : Same fn rn (readRecord cfg buf rn) (readRecordM cfg fn buf rn) := by
  refine .bind (.ofRd .cursor) fun start => .bind (.ofRd (.setCursor _)) fun _ => .bind (readInt_withText _) fun size =>
    .bind (.ofRd .cursor) fun c => .bind (bytesCheck_withText _ _ _ _) fun _ => .bind (zeroNegativeCheck_withText _ _) fun _ =>
    .bind (readInt_withText _) fun ns => .bind (readInt_withText _) fun na => .bind (zeroNegativeCheck_withText _ _) fun _ =>
    .bind (zeroNegativeCheck_withText _ _) fun _ => .bind (bytesCheck_withText _ _ _ _) fun _ => .bind (readScalars_withText _ _ _) fun r =>
    .bind (readArrays_withText _ _ _ _ _) fun r => .bind (.ofRd .cursor) fun c' => .ite (fun _ => .raise ?_) fun _ => .ret _
  exact cursor_told _ _ (py! "Error: Cursor is at " ++ decText c' ++ py! " andit needs to be " ++ decText size ++ py! ". Failed at")
    (by simp [cursorText])

end

/-- An exception without its text. -/
def untold {α β : Type} : Except Exc α × β → Except Err α × β
  | (.ok a, c) => (.ok a, c)
  | (.error e, c) => (.error e.err, c)

theorem Same.untold {α : Type} {fn : PyStr} {rn : Nat} {x : Rd α} {y : RdM α} (h : Same fn rn x y) (c : Int) : Verif.untold (y c) = x c := by
  have := h c
  rcases hy : y c with ⟨r, c'⟩
  rw [hy] at this
  cases r with
  | ok a => exact this.symm
  | error e => exact this.1.symm

theorem Same.told {α : Type} {fn : PyStr} {rn : Nat} {x : Rd α} {y : RdM α} (h : Same fn rn x y) {c c' : Int} {e : Exc}
    (he : y c = (.error e, c')) : Told fn rn e := by
  have := h c
  rw [he] at this
  exact this.2

theorem integrityLoop_withText (fn : PyStr) (buf : Bytes) (rn : Nat) (fuel : Nat) (total c : Int) :
    untold (integrityLoopM fn buf rn fuel total c) = integrityLoop buf rn fuel total c ∧
      ∀ e c', integrityLoopM fn buf rn fuel total c = (.error e, c') → Told fn rn e := by
  induction fuel generalizing total c with
  | zero =>
    rw [integrityLoopM, integrityLoop]
    split
    · exact ⟨rfl, fun e c' h => by cases h; rfl⟩
    · exact ⟨rfl, nofun⟩
  | succ fuel ih =>
    rw [integrityLoopM, integrityLoop]
    split
    · have hs : Same fn rn (do
            let blockSize ← readInt buf
            zeroNegativeCheck rn blockSize
            bytesCheck rn (total + blockSize) buf.length
            return blockSize : Rd Int) (do
            let blockSize ← readIntM buf rn
            zeroNegativeCheckM fn rn blockSize (py! "block size")
            bytesCheckM fn rn (total + blockSize) (py! "total block size") buf.length (py! "total bytes in file")
            return blockSize : RdM Int) :=
        .bind (readInt_withText _) fun _ => .bind (zeroNegativeCheck_withText _ _) fun _ => .bind (bytesCheck_withText _ _ _ _) fun _ => .ret _
      simp only [← hs.untold (c + 4)]
      have ht := @Same.told _ _ _ _ _ hs (c + 4)
      generalize (do
            let blockSize ← readIntM buf rn
            zeroNegativeCheckM fn rn blockSize (py! "block size")
            bytesCheckM fn rn (total + blockSize) (py! "total block size") buf.length (py! "total bytes in file")
            return blockSize : RdM Int) (c + 4) = z at ht ⊢
      rcases z with ⟨r, c'⟩
      cases r with
      | ok a => exact ih _ _
      | error e => exact ⟨rfl, fun e' c2 h => by cases h; exact ht rfl⟩
    · exact ⟨rfl, nofun⟩

theorem readLoop_withText (cfg : NpCfg) (fn : PyStr) (fuel : Nat) (r : Reader) :
    untold (r.readLoopM cfg fn fuel) = r.readLoop cfg fuel ∧
      ∀ e r', r.readLoopM cfg fn fuel = (.error e, r') → Told fn r'.recNum e := by
  induction fuel generalizing r with
  | zero =>
    rw [Reader.readLoopM, Reader.readLoop]
    split
    · exact ⟨rfl, fun e c' h => by cases h; rfl⟩
    · exact ⟨rfl, nofun⟩
  | succ fuel ih =>
    rw [Reader.readLoopM, Reader.readLoop]
    split
    · have hs := readRecord_withText (fn := fn) (rn := r.recNum) cfg r.buf
      rw [← hs.untold r.cursor]
      have ht := @Same.told _ _ _ _ _ hs r.cursor
      generalize readRecordM cfg fn r.buf r.recNum r.cursor = z at ht ⊢
      rcases z with ⟨y, c'⟩
      cases y with
      | ok a => exact ih _
      | error e => exact ⟨rfl, fun e' c2 h => by cases h; exact ht rfl⟩
    · exact ⟨rfl, nofun⟩

end Verif
