import Verif.Dmap.Lemmas.Header
/-!
# The record number in exceptions of the reader
-/
namespace Verif
open Spec

/-- The record number in an exception. -/
def recordOf : Err → Option Nat
  | .zeroByte k => some k
  | .negativeByte k => some k
  | .mismatchByte k => some k
  | .dmapDataType _ _ k => some k
  | .dmapTypeError k => some k
  | .dmapCharError _ k => some k
  | .sdFieldMissing k _ => some k
  | .sdExtraField k _ => some k
  | .sdDataFormatType _ k => some k
  | _ => none

/-- An exception names this record or none. -/
def AtRecord (rn : Nat) (e : Err) : Prop := ∀ k, recordOf e = some k → k = rn

theorem atRecord_none {rn : Nat} {e : Err} (h : recordOf e = none) : AtRecord rn e := by
  intro k hk
  rw [h] at hk
  cases hk

theorem atRecord_some {rn : Nat} {e : Err} (h : recordOf e = some rn) : AtRecord rn e := by
  intro k hk
  rw [h] at hk
  cases hk
  rfl

variable (rn : Nat)

/-- Raises only exceptions naming the record. -/
abbrev Numbered {α : Type} (m : Rd α) : Prop := Safe (fun _ => True) (fun _ => True) (AtRecord rn) m

theorem setCursor_num (x : Int) : Numbered rn (Rd.setCursor x) :=
  fun _ _ => ⟨fun e c' h => by simp [Rd.setCursor] at h, fun _ _ _ => trivial⟩

theorem zeroNegativeCheck_num (x : Int) : Numbered rn (zeroNegativeCheck rn x) := by
  unfold zeroNegativeCheck
  exact .ite (fun _ => .raise (atRecord_some rfl)) fun _ => .ite (fun _ => .raise (atRecord_some rfl)) fun _ => Safe.pure ()

theorem bytesCheck_num (x b : Int) : Numbered rn (bytesCheck rn x b) := by
  unfold bytesCheck
  exact .ite (fun _ => .raise (atRecord_some rfl)) fun _ => Safe.pure ()

theorem checkDataType_num (n : Nat) (name : PyStr) : Numbered rn (checkDataType rn n name) := by
  unfold checkDataType
  cases dmapDataTypes.lookup n with
  | some p => exact Safe.pure p
  | none => exact .raise (atRecord_some rfl)

theorem readPre_num (buf : Bytes) (n : Nat) : Numbered rn (readPre buf n) := by
  intro c _
  unfold readPre
  refine ⟨fun e c' h => ?_, fun _ _ _ => trivial⟩
  split at h
  · cases h; exact atRecord_none rfl
  · split at h
    · cases h; exact atRecord_none rfl
    · cases h

theorem readDataC_num (buf : Bytes) : Numbered rn (readDataC buf) := by
  unfold readDataC
  refine .bind (readPre_num rn buf 1) fun _ => .bind .cursor fun c => ?_
  cases pyIndex buf c with
  | none => exact .raise (atRecord_none rfl)
  | some b => exact .bind (setCursor_num rn _) fun _ => .pure _

theorem readDataN_num (buf : Bytes) (n : Nat) : Numbered rn (readDataN buf n) := by
  unfold readDataN
  refine .bind (readPre_num rn buf n) fun _ => .bind .cursor fun c => ?_
  cases unpackFrom buf n c with
  | none => exact .raise (atRecord_none (by unfold unpackErr; split <;> rfl))
  | some b => exact .bind (setCursor_num rn _) fun _ => .pure _

theorem readDataS_num (buf : Bytes) : Numbered rn (readDataS buf rn) := by
  unfold readDataS
  refine .bind (readPre_num rn buf 1) fun _ => .bind .cursor fun c => ?_
  cases scanNul buf c ((buf.length - c).toNat + 1) 0 with
  | none => exact .raise (atRecord_none rfl)
  | some n =>
    refine .bind (bytesCheck_num rn _ _) fun _ => ?_
    cases unpackFrom buf n c with
    | none => exact .raise (atRecord_none rfl)
    | some b =>
      refine .bind (setCursor_num rn _) fun _ => ?_
      cases utf8Decode b with
      | none => exact .raise (atRecord_none rfl)
      | some s => exact .pure _

theorem readInt_num (buf : Bytes) : Numbered rn (readInt buf) := .bind (readDataN_num rn buf 4) fun _ => .pure _

theorem readData_num (buf : Bytes) (fm : Fmt) (n : Nat) : Numbered rn (readData buf rn fm n) := by
  unfold readData
  split
  · exact .bind (readDataC_num rn buf) fun _ => .pure _
  · exact .bind (readDataS_num rn buf) fun _ => .pure _
  · exact .bind (readDataN_num rn buf n) fun _ => .pure _

theorem readScalar_num (buf : Bytes) : Numbered rn (readScalar buf rn) := by
  unfold readScalar
  exact .bind (readDataS_num rn buf) fun _ => .bind (readDataC_num rn buf) fun _ =>
    .bind (checkDataType_num rn _ _) fun _ =>
    .ite (fun _ => .bind (readData_num rn _ _ _) fun _ => .pure _) fun _ => .raise (atRecord_none rfl)

theorem readNumericalArray_num (cfg : NpCfg) (buf : Bytes) (sh : List Int) (fm : Fmt) (t : Int) (sz : Nat) :
    Numbered rn (readNumericalArray cfg buf sh fm t sz) := by
  unfold readNumericalArray
  exact .bind .cursor fun c => .bind (.lift fun e h => (npFrombuffer_err h).elim (· ▸ atRecord_none rfl) (·.1 ▸ atRecord_none rfl)) fun cells =>
    .bind (setCursor_num rn _) fun _ => .bind (.lift fun e h => npReshape_err h ▸ atRecord_none rfl) fun _ => .pure _

theorem readInts_num (buf : Bytes) (n : Nat) : Numbered rn (readInts buf n) := by
  induction n with
  | zero => exact Safe.pure []
  | succ n ih => exact .bind (readInt_num rn buf) fun _ => .bind ih fun _ => .pure _

theorem readArray_num (cfg : NpCfg) (buf : Bytes) (n : Int) : Numbered rn (readArray cfg buf rn n) := by
  unfold readArray
  exact .bind (readDataS_num rn buf) fun _ => .bind (readDataC_num rn buf) fun _ =>
    .bind (checkDataType_num rn _ _) fun _ => .bind (readInt_num rn buf) fun _ =>
    .bind (bytesCheck_num rn _ _) fun _ => .bind (zeroNegativeCheck_num rn _) fun _ =>
    .bind (readInts_num rn buf _) fun _ =>
    .ite (fun _ => .raise (atRecord_none rfl)) fun _ => .ite (fun _ => .raise (atRecord_none rfl)) fun _ =>
    .bind (bytesCheck_num rn _ _) fun _ => .bind (bytesCheck_num rn _ _) fun _ =>
    .ite (fun _ => .raise (atRecord_none rfl)) fun _ => .ite (fun _ => .raise (atRecord_none rfl)) fun _ =>
    .bind (readNumericalArray_num rn _ _ _ _ _ _) fun _ => .pure _

theorem readScalars_num (buf : Bytes) (n : Nat) (r : Rec) : Numbered rn (readScalars buf rn n r) := by
  induction n generalizing r with
  | zero => exact Safe.pure r
  | succ n ih => exact .bind (readScalar_num rn buf) fun _ => ih _

theorem readArrays_num (cfg : NpCfg) (buf : Bytes) (k : Int) (n : Nat) (r : Rec) : Numbered rn (readArrays cfg buf rn k n r) := by
  induction n generalizing r with
  | zero => exact Safe.pure r
  | succ n ih => exact .bind (readArray_num rn cfg buf k) fun _ => ih _

theorem readRecord_num (cfg : NpCfg) (buf : Bytes) : Numbered rn (readRecord cfg buf rn) := by
  unfold readRecord
  exact .bind .cursor fun _ => .bind (setCursor_num rn _) fun _ =>
    .bind (readInt_num rn buf) fun _ => .bind .cursor fun _ =>
    .bind (bytesCheck_num rn _ _) fun _ => .bind (zeroNegativeCheck_num rn _) fun _ =>
    .bind (readInt_num rn buf) fun _ => .bind (readInt_num rn buf) fun _ =>
    .bind (zeroNegativeCheck_num rn _) fun _ => .bind (zeroNegativeCheck_num rn _) fun _ =>
    .bind (bytesCheck_num rn _ _) fun _ =>
    .bind (readScalars_num rn buf _ _) fun _ => .bind (readArrays_num rn cfg buf _ _ _) fun _ =>
    .bind .cursor fun _ => .ite (fun _ => .raise (atRecord_none rfl)) fun _ => .pure _

end Verif
