import Verif.Dmap.SpecSayings
import Verif.Dmap.Lemmas.Messages
import Verif.Dmap.Lemmas.Array
/-!
# The numbers in texts of exceptions
-/
namespace Verif
open Spec

theorem decText_shown (x : Int) : decText x = shown x := by
  unfold shown
  rw [Int.toString_eq_repr]
  cases x with
  | ofNat n => rw [show (Int.ofNat n).repr = Nat.repr n from rfl, Nat.toList_repr]; rfl
  | negSucc n =>
    rw [show (Int.negSucc n).repr = "-" ++ Nat.repr (n + 1) from rfl, String.toList_append, Nat.toList_repr]
    rfl

theorem intsText_intercalate (l : List Int) : '[' :: intsText l = shownList l := by
  unfold shownList
  simp only [List.cons_append, List.cons.injEq, true_and]
  induction l with
  | nil => rfl
  | cons x l ih =>
    cases l with
    | nil => simp [intsText, decText_shown, List.intercalate]
    | cons y l =>
      rw [intsText, ih, decText_shown]
      simp [List.intercalate]

/-- An exception of which the text is true, or one of Python. -/
def TrueExc (fn : PyStr) (len rn : Nat) (e : Exc) : Prop :=
  match className e.err with
  | none => True
  | some cls => ∃ t, e.text = some t ∧ SaysTrue fn len rn cls t

/-- All exceptions of a method have true texts. -/
def AllTrue {α : Type} (fn : PyStr) (len rn : Nat) (y : RdM α) : Prop := ∀ c e c', y c = (.error e, c') → TrueExc fn len rn e

section
variable {fn : PyStr} {len rn : Nat} {α β : Type}

theorem AllTrue.pure (a : α) : AllTrue fn len rn (RdM.pure a) := nofun

theorem AllTrue.ret (a : α) : AllTrue fn len rn (Pure.pure a : RdM α) := nofun

theorem AllTrue.bind {y : RdM α} {g : α → RdM β} (h : AllTrue fn len rn y) (hg : ∀ a, AllTrue fn len rn (g a)) :
    AllTrue fn len rn (y >>= g) := by
  intro c e c' he
  change RdM.bind y g c = _ at he
  unfold RdM.bind at he
  rcases hy : y c with ⟨r, c1⟩
  rw [hy] at he
  cases r with
  | ok a => exact hg a c1 e c' he
  | error e1 => cases he; exact h _ _ _ hy

/-- After a check the condition is known. -/
theorem AllTrue.bindOk {y : RdM α} {g : α → RdM β} {P : Prop} (h : AllTrue fn len rn y) (hp : ∀ c a c', y c = (.ok a, c') → P)
    (hg : P → ∀ a, AllTrue fn len rn (g a)) : AllTrue fn len rn (y >>= g) := by
  intro c e c' he
  change RdM.bind y g c = _ at he
  unfold RdM.bind at he
  rcases hy : y c with ⟨r, c1⟩
  rw [hy] at he
  cases r with
  | ok a => exact hg (hp _ _ _ hy) a c1 e c' he
  | error e1 => cases he; exact h _ _ _ hy

theorem AllTrue.raise {e : Err} {t : PyStr} {cls : PyStr} (hc : className e = some cls) (h : SaysTrue fn len rn cls t) :
    AllTrue fn len rn (RdM.raise e t : RdM α) := by
  intro c e' c' he
  cases he
  unfold TrueExc
  rw [hc]
  exact ⟨t, rfl, h⟩

theorem AllTrue.ofRd {x : Rd α} (h : OnlyPython x) : AllTrue fn len rn (RdM.ofRd x) := by
  intro c e c' he
  unfold RdM.ofRd at he
  rcases hx : x c with ⟨r, c1⟩
  rw [hx] at he
  cases r with
  | ok a => cases he
  | error e1 =>
    cases he
    unfold TrueExc
    rw [h _ _ _ hx]
    trivial

theorem AllTrue.ite {p : Prop} [Decidable p] {y y' : RdM α} (h1 : p → AllTrue fn len rn y) (h2 : ¬p → AllTrue fn len rn y') :
    AllTrue fn len rn (if p then y else y') := by
  split
  · exact h1 ‹_›
  · exact h2 ‹_›

theorem zeroNegativeCheck_true (x : Int) (name : PyStr) : AllTrue fn len rn (zeroNegativeCheckM fn rn x name) := by
  refine .ite (fun h => .raise rfl ?_) fun _ => .ite (fun h => .raise rfl ?_) fun _ => .pure _
  · have := SaysTrue.zero (fn := fn) (len := len) (rn := rn) name
    rw [← decText_natCast] at this
    subst h
    have h0 : decText 0 = ['0'] := rfl
    simpa [zeroText, h0] using this
  · have := SaysTrue.negative (fn := fn) (len := len) (rn := rn) name h
    rw [← decText_natCast, ← decText_shown] at this
    simpa [negativeText] using this

theorem bytesCheck_true (x : Int) (name : PyStr) (b : Int) (bname : PyStr) : AllTrue fn len rn (bytesCheckM fn rn x name b bname) := by
  refine .ite (fun h => .raise rfl ?_) fun _ => .pure _
  have := SaysTrue.larger (fn := fn) (len := len) (rn := rn) name bname h
  rw [← decText_natCast, ← decText_shown, ← decText_shown] at this
  simpa [mismatchText] using this

theorem zeroNegativeCheck_pos {x : Int} {name : PyStr} (c : Int) (a : Unit) (c' : Int)
    (h : zeroNegativeCheckM fn rn x name c = (.ok a, c')) : 0 < x := by
  unfold zeroNegativeCheckM at h
  split at h
  · cases h
  · split at h
    · cases h
    · omega

theorem checkDataType_true (n : Nat) (name : PyStr) : AllTrue fn len rn (checkDataTypeM fn rn n name) := by
  unfold checkDataTypeM
  split
  · exact .pure _
  · rename_i h
    refine .raise rfl ?_
    have := SaysTrue.unknown (fn := fn) (len := len) (rn := rn) name (n := n) (by
      intro g hg
      subst hg
      cases g <;> exact absurd h (by decide))
    rw [← decText_natCast, ← decText_natCast] at this
    simpa [dataTypeText] using this

theorem readPre_true (buf : Bytes) (n : Nat) : AllTrue fn buf.length rn (readPreM buf rn n) := by
  intro c e c' he
  unfold readPreM at he
  split at he
  · rename_i h
    cases he
    have := SaysTrue.outside (fn := fn) (len := buf.length) (rn := rn) h
    rw [← decText_natCast, ← decText_natCast, ← decText_shown] at this
    exact ⟨_, rfl, this⟩
  · split at he
    · rename_i h0 h
      cases he
      have := SaysTrue.unaligned (fn := fn) (len := buf.length) (rn := rn) h (by omega)
      rw [← decText_natCast, ← decText_natCast, ← decText_shown] at this
      exact ⟨_, rfl, this⟩
    · cases he

theorem readDataC_true (buf : Bytes) : AllTrue fn buf.length rn (readDataCM buf rn) := by
  refine .bind (readPre_true _ _) fun _ => .ofRd (.bind .cursor fun c => ?_)
  cases pyIndex buf c with
  | none => exact .raise rfl
  | some b => exact .bind (.setCursor _) fun _ => .ret _

theorem readDataS_true (buf : Bytes) : AllTrue fn buf.length rn (readDataSM fn buf rn) := by
  refine .bind (readPre_true _ _) fun _ => .bind (.ofRd .cursor) fun c => ?_
  cases scanNul buf c ((buf.length - c).toNat + 1) 0 with
  | none => exact .ofRd (.raise rfl)
  | some n =>
    refine .bind (bytesCheck_true _ _ _ _) fun _ => .ofRd ?_
    cases unpackFrom buf n c with
    | none => exact .raise rfl
    | some bs =>
      refine .bind (.setCursor _) fun _ => ?_
      cases utf8Decode bs with
      | none => exact .raise rfl
      | some s => exact .ret _

theorem readDataN_true (buf : Bytes) (n : Nat) : AllTrue fn buf.length rn (readDataNM buf rn n) := by
  refine .bind (readPre_true _ _) fun _ => .ofRd (.bind .cursor fun c => ?_)
  cases unpackFrom buf n c with
  | none => exact .raise (by unfold unpackErr; split <;> rfl)
  | some b => exact .bind (.setCursor _) fun _ => .ret _

theorem readInt_true (buf : Bytes) : AllTrue fn buf.length rn (readIntM buf rn) := .bind (readDataN_true _ _) fun _ => .ret _

theorem readData_true (buf : Bytes) (fmt : Fmt) (size : Nat) : AllTrue fn buf.length rn (readDataM fn buf rn fmt size) := by
  unfold readDataM
  split
  · exact .bind (readDataC_true _) fun _ => .ret _
  · exact .bind (readDataS_true _) fun _ => .ret _
  · exact .bind (readDataN_true _ _) fun _ => .ret _

theorem readScalar_true (buf : Bytes) : AllTrue fn buf.length rn (readScalarM fn buf rn) := by
  refine .bind (readDataS_true _) fun name => .bind (readDataC_true _) fun code => .bind (checkDataType_true _ _) fun p => ?_
  refine .ite (fun _ => .bind (readData_true _ _ _) fun _ => .ret _) fun _ => .raise rfl ?_
  have := SaysTrue.nested (fn := fn) (len := buf.length) (rn := rn)
  rw [← decText_natCast] at this
  simpa [dataText] using this

theorem readInts_true (buf : Bytes) (n : Nat) : AllTrue fn buf.length rn (readIntsM buf rn n) := by
  induction n with
  | zero => exact .pure _
  | succ n ih => exact .bind (readInt_true _) fun _ => .bind ih fun _ => .ret _

/-- The first dimension that is too large. -/
theorem tooLargeDim_some {size : Int} {k i : Nat} {x : Int} {l : List Int} (h : tooLargeDim size k l = some (i, x)) :
    k ≤ i ∧ l[i - k]? = some x ∧ size ≤ x ∧ ∀ j, j < i - k → ∀ y, l[j]? = some y → y < size := by
  induction l generalizing k with
  | nil => cases h
  | cons a l ih =>
    unfold tooLargeDim at h
    split at h
    · rename_i ha
      cases h
      simp only [Nat.sub_self, List.getElem?_cons_zero, true_and, Nat.le_refl]
      exact ⟨ha, fun j hj => by omega⟩
    · rename_i ha
      obtain ⟨h1, h2, h3, h4⟩ := ih h
      refine ⟨by omega, ?_, h3, ?_⟩
      · rw [show i - k = (i - (k + 1)) + 1 by omega, List.getElem?_cons_succ]; exact h2
      · intro j hj y hy
        cases j with
        | zero => simp only [List.getElem?_cons_zero, Option.some.injEq] at hy; omega
        | succ j => exact h4 j (by omega) y (by simpa using hy)

theorem readArray_true (cfg : NpCfg) (buf : Bytes) (size : Int) : AllTrue fn buf.length rn (readArrayM cfg fn buf rn size) := by
  refine .bind (readDataS_true _) fun name => .bind (readDataC_true _) fun code => .bind (checkDataType_true _ _) fun p =>
    .bind (readInt_true _) fun dim => .bind (bytesCheck_true _ _ _ _) fun _ => .bind (zeroNegativeCheck_true _ _) fun _ =>
    .bind (readInts_true _ _) fun dims => ?_
  refine .ite (fun hz => .raise rfl ?_) fun _ => ?_
  · have := SaysTrue.shape (fn := fn) (len := buf.length) (rn := rn) (l := if dim > 1 then dims.reverse else dims) (by
      simpa using hz.1)
    rw [← decText_natCast, ← intsText_intercalate] at this
    simpa [dataText] using this
  generalize (if dim > 1 then dims.reverse else dims) = shape
  cases hb : tooLargeDim size 0 shape with
  | some q =>
    refine .raise rfl ?_
    have := SaysTrue.dimension (fn := fn) (len := buf.length) (rn := rn) (i := q.1) (tooLargeDim_some hb).2.2.1
    rw [← decText_natCast, ← decText_natCast, ← decText_shown, ← decText_shown] at this
    simpa [dataText] using this
  | none =>
    refine .bind (bytesCheck_true _ _ _ _) fun _ => .bind (bytesCheck_true _ _ _ _) fun _ => .ite (fun _ => .raise rfl ?_) fun _ =>
      .ite (fun _ => .raise rfl ?_) fun _ => .bind (.ofRd (readNumericalArray_python _ _ _ _ _ _)) fun _ => .ret _
    · have := SaysTrue.strings (fn := fn) (len := buf.length) (rn := rn)
      rw [← decText_natCast] at this
      simpa [dataText] using this
    · have := SaysTrue.nestedArray (fn := fn) (len := buf.length) (rn := rn)
      rw [← decText_natCast] at this
      simpa [dataText] using this

theorem readScalars_true (buf : Bytes) (n : Nat) (r : Rec) : AllTrue fn buf.length rn (readScalarsM fn buf rn n r) := by
  induction n generalizing r with
  | zero => exact .pure _
  | succ n ih => exact .bind (readScalar_true _) fun _ => ih _

theorem readArrays_true (cfg : NpCfg) (buf : Bytes) (size : Int) (n : Nat) (r : Rec) :
    AllTrue fn buf.length rn (readArraysM cfg fn buf rn size n r) := by
  induction n generalizing r with
  | zero => exact .pure _
  | succ n ih => exact .bind (readArray_true _ _ _) fun _ => ih _

theorem readRecord_true (cfg : NpCfg) (buf : Bytes) : AllTrue fn buf.length rn (readRecordM cfg fn buf rn) := by
  refine .bind (.ofRd .cursor) fun start => .bind (.ofRd (.setCursor _)) fun _ => .bind (readInt_true _) fun size =>
    .bind (.ofRd .cursor) fun c => .bind (bytesCheck_true _ _ _ _) fun _ =>
    .bindOk (zeroNegativeCheck_true _ _) (fun c a c' h => zeroNegativeCheck_pos c a c' h) fun hpos _ =>
    .bind (readInt_true _) fun ns => .bind (readInt_true _) fun na => .bind (zeroNegativeCheck_true _ _) fun _ =>
    .bind (zeroNegativeCheck_true _ _) fun _ => .bind (bytesCheck_true _ _ _ _) fun _ => .bind (readScalars_true _ _ _) fun r =>
    .bind (readArrays_true _ _ _ _ _) fun r => .bind (.ofRd .cursor) fun c' => .ite (fun h => .raise rfl ?_) fun _ => .ret _
  have := SaysTrue.position (fn := fn) (len := buf.length) (rn := rn) (start := start) (c := c') (size := size) (by omega) hpos
  rw [← decText_natCast, ← decText_shown, ← decText_shown] at this
  exact this

end

theorem readLoop_true (cfg : NpCfg) (fn : PyStr) (fuel : Nat) (r : Reader) (e : Exc) (r' : Reader)
    (h : r.readLoopM cfg fn fuel = (.error e, r')) : r'.buf = r.buf ∧ TrueExc fn r.buf.length r'.recNum e := by
  induction fuel generalizing r with
  | zero =>
    rw [Reader.readLoopM] at h
    split at h
    · cases h; exact ⟨rfl, trivial⟩
    · cases h
  | succ fuel ih =>
    rw [Reader.readLoopM] at h
    split at h
    · have hr := readRecord_true (fn := fn) (rn := r.recNum) cfg r.buf r.cursor
      generalize readRecordM cfg fn r.buf r.recNum r.cursor = z at h hr
      rcases z with ⟨y, c'⟩
      cases y with
      | ok a => dsimp only at h; have := ih _ h; exact this
      | error e1 => cases h; exact ⟨rfl, hr _ _ rfl⟩
    · cases h

theorem readLoopM_buf (cfg : NpCfg) (fn : PyStr) (fuel : Nat) (r : Reader) : (r.readLoopM cfg fn fuel).2.buf = r.buf := by
  induction fuel generalizing r with
  | zero => rw [Reader.readLoopM]; split <;> rfl
  | succ fuel ih =>
    rw [Reader.readLoopM]
    split
    · generalize readRecordM cfg fn r.buf r.recNum r.cursor = z
      rcases z with ⟨y, c'⟩
      cases y with
      | ok a => exact ih _
      | error e1 => rfl
    · rfl

theorem integrityLoop_true (fn : PyStr) (buf : Bytes) (rn fuel : Nat) (total c : Int) (e : Exc) (c' : Int)
    (h : integrityLoopM fn buf rn fuel total c = (.error e, c')) : TrueExc fn buf.length rn e := by
  induction fuel generalizing total c with
  | zero =>
    rw [integrityLoopM] at h
    split at h
    · cases h; trivial
    · cases h
  | succ fuel ih =>
    rw [integrityLoopM] at h
    split at h
    · have hb : AllTrue fn buf.length rn (do
            let blockSize ← readIntM buf rn
            zeroNegativeCheckM fn rn blockSize (py! "block size")
            bytesCheckM fn rn (total + blockSize) (py! "total block size") buf.length (py! "total bytes in file")
            return blockSize : RdM Int) :=
        .bind (readInt_true _) fun _ => .bind (zeroNegativeCheck_true _ _) fun _ => .bind (bytesCheck_true _ _ _ _) fun _ => .ret _
      have hb := hb (c + 4)
      generalize (do
            let blockSize ← readIntM buf rn
            zeroNegativeCheckM fn rn blockSize (py! "block size")
            bytesCheckM fn rn (total + blockSize) (py! "total block size") buf.length (py! "total bytes in file")
            return blockSize : RdM Int) (c + 4) = z at h hb
      rcases z with ⟨y, c1⟩
      cases y with
      | ok a => exact ih _ _ h
      | error e1 => cases h; exact hb _ _ rfl
    · cases h

/-! ## Shapes -/

/-- The part of `readArrayM` before the checks of the shape. -/
def readHeadM (fn : PyStr) (buf : Bytes) (rn : Nat) (recordSize : Int) : RdM ArrHead :=
  readDataSM fn buf rn >>= fun name => readDataCM buf rn >>= fun n =>
    checkDataTypeM fn rn n name >>= fun p => readIntM buf rn >>= fun dim =>
    bytesCheckM fn rn dim (py! "array dimension") recordSize (py! "record size") >>= fun _ =>
    zeroNegativeCheckM fn rn dim (name ++ py! " array dimension") >>= fun _ =>
    readIntsM buf rn dim.toNat >>= fun dims =>
    Pure.pure { name := name, code := n, fmt := p.1, size := p.2, dim := dim, dims := dims }

theorem readHead_withText (fn : PyStr) (buf : Bytes) (rn : Nat) (size : Int) : Same fn rn (readHead buf rn size) (readHeadM fn buf rn size) :=
  .bind (readDataS_withText _) fun _ => .bind (readDataC_withText _) fun _ => .bind (checkDataType_withText _ _) fun _ =>
    .bind (readInt_withText _) fun _ => .bind (bytesCheck_withText _ _ _ _) fun _ => .bind (zeroNegativeCheck_withText _ _) fun _ =>
    .bind (readInts_withText _ _) fun _ => .ret _

theorem rdm_bind_assoc {α β γ : Type} (m : RdM α) (f : α → RdM β) (g : β → RdM γ) : (m >>= f) >>= g = m >>= fun a => f a >>= g := by
  funext c
  show RdM.bind (RdM.bind m f) g c = RdM.bind m (fun a => RdM.bind (f a) g) c
  unfold RdM.bind
  cases m c with
  | mk r c1 => cases r <;> rfl

theorem rdm_pure_bind {α β : Type} (a : α) (f : α → RdM β) : (Pure.pure a : RdM α) >>= f = f a := rfl

/-- The rest of `readArrayM`. -/
def readTailM (cfg : NpCfg) (fn : PyStr) (buf : Bytes) (rn : Nat) (recordSize : Int) (h : ArrHead) : RdM DmapArray :=
  let shape := if h.dim > 1 then h.dims.reverse else h.dims
  if (shape.any fun x => decide (x ≤ 0)) = true ∧ h.name ≠ slist then
    RdM.raise .dmapDataError (dataText fn (py! "Error: Array shape " ++ ('[' :: intsText shape) ++
      py! " contains dimension size <= 0. Failed at record " ++ decText rn))
  else
    match tooLargeDim recordSize 0 shape with
    | some (i, x) =>
      RdM.raise .dmapDataError (dataText fn (py! "Error: Array " ++ decText i ++ py! "-dimension size " ++ decText x ++
        py! " exceeds record size: " ++ decText recordSize ++ py! ". Failed at record " ++ decText rn))
    | none => do
      let total := prodInt shape
      bytesCheckM fn rn total (py! "total number of cells") recordSize (py! "record size")
      bytesCheckM fn rn (total * h.size) (py! "total number of cells in bytes") recordSize (py! "record size")
      if h.fmt = .s then
        RdM.raise .dmapDataError
          (dataText fn (py! "Error: Trying to read array of strings. Currently not implemented. Failed at record " ++ decText rn))
      else if h.code = 0 then
        RdM.raise .dmapDataError (dataText fn (py! "Trying to read DMap array data type. Failed at record " ++ decText rn))
      else do
        let v ← RdM.ofRd (readNumericalArray cfg buf shape h.fmt total h.size)
        return { name := h.name, value := v, dataType := h.code, fmt := h.fmt, dimension := h.dim, shape := shape }

theorem readArrayM_eq (cfg : NpCfg) (fn : PyStr) (buf : Bytes) (rn : Nat) (size : Int) :
    readArrayM cfg fn buf rn size = readHeadM fn buf rn size >>= readTailM cfg fn buf rn size := by
  unfold readArrayM readHeadM
  simp only [rdm_bind_assoc, rdm_pure_bind]
  rfl

/-- An array of which the head is in the buffer. -/
theorem readArrayM_head (cfg : NpCfg) (fn : PyStr) {buf : Bytes} (rn : Nat) {size c : Int} {name : PyStr} {fmt : Fmt} {dims : List Int}
    (hat : At buf c (encStr name ++ [UInt8.ofNat (code fmt)] ++ natLE 4 dims.length ++ dims.flatMap (intLE 4)))
    (hn : NulFree name) (hd : dims ≠ []) (hs : dims.length ≤ size) (hl : dims.length < 2 ^ 31) (hi : ∀ x ∈ dims, signedOk 4 x) :
    ∃ c', readArrayM cfg fn buf rn size c =
      readTailM cfg fn buf rn size
        { name := name, code := code fmt, fmt := fmt, size := cellSize fmt, dim := dims.length, dims := dims } c' := by
  have hb := hat.bounds
  obtain ⟨c', h1⟩ : ∃ c', readHead buf rn size c = (.ok _, c') := ⟨_, (readHead_exact rn size c
    { name := name, code := code fmt, fmt := fmt, size := cellSize fmt, dim := dims.length, dims := dims } _ hb.1 (by omega)).2
    ⟨_, ⟨hn, rfl, rfl, hs, rfl, List.length_pos_iff.2 hd, hl, hi, rfl⟩, hat, rfl⟩⟩
  have h2 := readHead_withText fn buf rn size c
  rcases h3 : readHeadM fn buf rn size c with ⟨r, c1⟩
  rw [h3] at h2
  cases r with
  | error e => dsimp only at h2; rw [h1] at h2; cases h2.1
  | ok a =>
    dsimp only at h2
    rw [h1] at h2
    cases h2
    refine ⟨c', ?_⟩
    rw [readArrayM_eq]
    show RdM.bind _ _ c = _
    unfold RdM.bind
    rw [h3]

end Verif
