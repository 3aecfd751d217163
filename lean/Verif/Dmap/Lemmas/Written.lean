import Verif.Dmap.Lemmas.Header
/-!
# What the writer writes, for any record
-/
namespace Verif
open Spec

/-- The bytes written for the fields of a record, field by field. -/
inductive Written (rn : Nat) : Rec → Bytes → Prop
  | nil : Written rn [] []
  | scalar {k : PyStr} {s : DmapScalar} {r : Rec} {b bs : Bytes} :
      scalarToBytes rn s = .ok b → Written rn r bs → Written rn ((k, .scalar s) :: r) (b ++ bs)
  | array {k : PyStr} {a : DmapArray} {r : Rec} {b bs : Bytes} :
      arrayToBytes rn a = (.ok b, leftArray a) → Written rn r bs → Written rn ((k, .array a) :: r) (b ++ bs)

/-- The scalars of a record in order. -/
def scalarsOf (r : Rec) : List DmapScalar :=
  r.filterMap fun p => match p.2 with | .scalar s => some s | _ => none

/-- The arrays of a record in order. -/
def arraysOf (r : Rec) : List DmapArray :=
  r.filterMap fun p => match p.2 with | .array a => some a | _ => none

theorem Written.append {rn : Nat} {r1 r2 : Rec} {b1 b2 : Bytes} (h1 : Written rn r1 b1)
    (h2 : Written rn r2 b2) : Written rn (r1 ++ r2) (b1 ++ b2) := by
  induction h1 with
  | nil => exact h2
  | scalar h _ ih => rw [List.append_assoc]; exact .scalar h ih
  | array h _ ih => rw [List.append_assoc]; exact .array h ih

theorem Written.length {rn : Nat} {r : Rec} {b : Bytes} (h : Written rn r b) :
    r.length = (scalarsOf r).length + (arraysOf r).length := by
  induction h with
  | nil => rfl
  | scalar _ _ ih => simp [scalarsOf, arraysOf] at ih ⊢; omega
  | array _ _ ih => simp [scalarsOf, arraysOf] at ih ⊢; omega

theorem encodeFields_written {rn : Nat} {r : Rec} {b : Bytes} (h : Written rn r b) :
    encodeFields rn r = (.ok ⟨b, (scalarsOf r).length, (arraysOf r).length⟩, leftRec r) := by
  induction h with
  | nil => rfl
  | @scalar k s r b bs h _ ih =>
    simp only [encodeFields, h, ih]
    rfl
  | @array k a r b bs h _ ih =>
    simp only [encodeFields, h, ih]
    rfl

theorem written_of_encodeFields {rn : Nat} {r r' : Rec} {enc : Encoded}
    (h : encodeFields rn r = (.ok enc, r')) : Written rn r enc.data := by
  induction r generalizing enc r' with
  | nil => cases h; exact .nil
  | cons p r ih =>
    obtain ⟨k, f⟩ := p
    cases f with
    | other => simp only [encodeFields] at h; cases h
    | scalar s =>
      simp only [encodeFields] at h
      cases hs : scalarToBytes rn s with
      | error e => rw [hs] at h; cases h
      | ok b =>
        rw [hs] at h
        cases he : encodeFields rn r with
        | mk x r1 =>
          rw [he] at h
          cases x with
          | error e => cases h
          | ok enc1 => cases h; exact .scalar hs (ih he)
    | array a =>
      simp only [encodeFields] at h
      cases hs : arrayToBytes rn a with
      | mk y a' =>
        rw [hs] at h
        cases y with
        | error e => cases h
        | ok b =>
          cases he : encodeFields rn r with
          | mk x r1 =>
            rw [he] at h
            cases x with
            | error e => cases h
            | ok enc1 =>
              cases h
              rw [arrayToBytes_left_ok hs] at hs
              exact .array hs (ih he)

/-- The header and the fields of a record as written. -/
def blockBytes (r : Rec) (data : Bytes) : Bytes :=
  natLE 4 65537 ++ natLE 4 (data.length + 16) ++ natLE 4 (scalarsOf r).length ++
    natLE 4 (arraysOf r).length ++ data

theorem recordToBytes_written {rn : Nat} (buf : Bytes) {r : Rec} {data : Bytes} (h : Written rn r data)
    (hl : data.length + 16 < 2 ^ 31) (hn : r.length < 2 ^ 31) :
    recordToBytes rn buf r = (.ok (), buf ++ blockBytes r data, leftRec r) := by
  have hlen := h.length
  have := recordToBytes_eq (buf := buf) (l := [65537, data.length + 16, (scalarsOf r).length,
    (arraysOf r).length].map fun n : Nat => (n : Int)) (encodeFields_written h) (by simp [encodingIdentifier]) (appendInts_nats buf ?_)
  · rw [this]
    simp only [blockBytes, List.flatMap_cons, List.flatMap_nil, List.append_assoc, List.append_nil]
  · intro n hn'
    simp only [List.mem_cons, List.not_mem_nil, or_false] at hn'
    omega

theorem appendInts_ok {buf buf' : Bytes} {l : List Int} (h : appendInts buf l = (.ok (), buf')) :
    ∀ v ∈ l, signedOk 4 v := by
  induction l generalizing buf with
  | nil => simp
  | cons v l ih =>
    simp only [appendInts] at h
    unfold appendInt packSigned at h
    by_cases hv : signedOk 4 v
    · rw [if_pos hv] at h
      intro w hw
      rcases List.mem_cons.1 hw with rfl | hw
      · exact hv
      · exact ih h w hw
    · rw [if_neg hv] at h; cases h

theorem recordToBytes_inv {rn : Nat} {buf buf' : Bytes} {r r' : Rec}
    (h : recordToBytes rn buf r = (.ok (), buf', r')) :
    ∃ data, Written rn r data ∧ data.length + 16 < 2 ^ 31 ∧ (scalarsOf r).length < 2 ^ 31 ∧
      (arraysOf r).length < 2 ^ 31 ∧ buf' = buf ++ blockBytes r data ∧ r' = leftRec r := by
  cases he : encodeFields rn r with
  | mk x r1 =>
    cases x with
    | error e => unfold recordToBytes at h; rw [he] at h; cases h
    | ok enc =>
      have hw := written_of_encodeFields he
      have he' := encodeFields_written hw
      rw [he] at he'
      injection he' with e1 e2
      injection e1 with e1
      have h' := h
      unfold recordToBytes at h
      rw [he] at h
      simp only at h
      cases ha : appendInts buf [encodingIdentifier, enc.data.length + 16, enc.numScalars, enc.numArrays] with
      | mk y b =>
        rw [ha] at h
        cases y with
        | error e => cases h
        | ok u =>
          have hok := appendInts_ok ha
          have h1 := hok (enc.data.length + 16) (by simp)
          have h2 := hok enc.numScalars (by simp)
          have h3 := hok enc.numArrays (by simp)
          rw [e1] at h2 h3
          unfold signedOk at h1 h2 h3
          simp only at h2 h3
          have g1 : enc.data.length + 16 < 2 ^ 31 := by omega
          have g2 : (scalarsOf r).length < 2 ^ 31 := by omega
          have g3 : (arraysOf r).length < 2 ^ 31 := by omega
          refine ⟨enc.data, hw, g1, g2, g3, ?_⟩
          have := recordToBytes_eq (buf := buf) (l := [65537, enc.data.length + 16, (scalarsOf r).length,
            (arraysOf r).length].map fun n : Nat => (n : Int)) (encodeFields_written hw)
            (by simp [encodingIdentifier]) (appendInts_nats buf (by
              intro n hn'
              simp only [List.mem_cons, List.not_mem_nil, or_false] at hn'
              omega))
          rw [this] at h'
          simp only [Prod.mk.injEq, true_and] at h'
          obtain ⟨rfl, rfl⟩ := h'
          simp only [blockBytes, List.flatMap_cons, List.flatMap_nil, List.append_assoc, List.append_nil,
            and_self]

/-- The bytes written for the records of a list. -/
inductive WrittenList : Nat → List Rec → Bytes → Prop
  | nil {k : Nat} : WrittenList k [] []
  | cons {k : Nat} {r : Rec} {rs : List Rec} {data bs : Bytes} : Written k r data → data.length + 16 < 2 ^ 31 →
      (scalarsOf r).length < 2 ^ 31 → (arraysOf r).length < 2 ^ 31 → WrittenList (k + 1) rs bs →
      WrittenList k (r :: rs) (blockBytes r data ++ bs)

theorem recordsToBytes_inv {k rn rn' : Nat} {buf buf' : Bytes} {rs rs' : List Rec}
    (h : recordsToBytes k rn buf rs = (.ok (), buf', rn', rs')) :
    ∃ bs, WrittenList k rs bs ∧ buf' = buf ++ bs ∧ rs' = rs.map leftRec := by
  induction rs generalizing k rn buf rs' with
  | nil => cases h; exact ⟨[], .nil, by simp, rfl⟩
  | cons r rs ih =>
    simp only [recordsToBytes] at h
    cases hr : recordToBytes k buf r with
    | mk x y =>
      obtain ⟨b1, r1⟩ := y
      rw [hr] at h
      cases x with
      | error e => cases h
      | ok u =>
        obtain ⟨data, h1, h2, h3, h4, rfl, rfl⟩ := recordToBytes_inv hr
        simp only at h
        cases hs : recordsToBytes (k + 1) k (buf ++ blockBytes r data) rs with
        | mk x y =>
          obtain ⟨b2, rn2, rs2⟩ := y
          rw [hs] at h
          cases h
          obtain ⟨bs, g1, rfl, rfl⟩ := ih hs
          exact ⟨_, .cons h1 h2 h3 h4 g1, by simp, rfl⟩

theorem writeStream_inv {w w' : Writer} {inp : WInput} {out : Bytes} (hne : w.recs ≠ [])
    (h : w.writeStream inp = (.ok out, w')) :
    ∃ bs, WrittenList 0 w.recs bs ∧ out = w.buf ++ bs ∧ w'.buf = out ∧ w'.recs = w.recs.map leftRec ∧
      w'.filename = w.filename ∧ w'.isList = w.isList := by
  have he : w.isEmptyList = false := by
    unfold Writer.isEmptyList
    cases hr : w.recs
    · exact absurd hr hne
    · simp
  unfold Writer.writeStream at h
  simp only [he, Bool.false_eq_true, if_false, Writer.emptyRecordCheck, Writer.recordsToBytes] at h
  cases hs : recordsToBytes 0 w.recNum w.buf w.recs with
  | mk x y =>
    obtain ⟨b2, rn2, rs2⟩ := y
    rw [hs] at h
    cases x with
    | error e => cases h
    | ok u =>
      cases h
      obtain ⟨bs, g1, rfl, rfl⟩ := recordsToBytes_inv hs
      exact ⟨bs, g1, rfl, rfl, rfl, rfl, rfl⟩

theorem writeBytes_inv {recs : List Rec} {out : Bytes} (h : writeBytes recs = .ok out) :
    recs ≠ [] ∧ WrittenList 0 recs out := by
  unfold writeBytes at h
  rw [writerNew_dmapInput] at h
  simp only at h
  have hne : recs ≠ [] := by rintro rfl; cases h
  refine ⟨hne, ?_⟩
  cases hw : Writer.writeStream { filename := [], isList := true, recs := recs, buf := [], recNum := 0 } noRecords with
  | mk x w' =>
    rw [hw] at h
    cases h
    obtain ⟨bs, h1, h2, _⟩ := writeStream_inv (by exact hne) hw
    simp only [List.nil_append] at h2
    rw [h2]; exact h1

end Verif
