import Verif.Dmap.Model.Writer
/-!
# Exceptions of the encoder
-/
namespace Verif

/-- Any exception of the encoder; record number `rn` where one is carried. -/
inductive WriteErr (rn : Nat) : Err → Prop
  | char (name : PyStr) : WriteErr rn (.dmapCharError name rn)
  | type : WriteErr rn (.dmapTypeError rn)
  | data : WriteErr rn .dmapDataError
  | value : WriteErr rn .valueError
  | encode : WriteErr rn .unicodeEncodeError
  | struct : WriteErr rn .structError
  | pyType : WriteErr rn .typeError
  | overflow : WriteErr rn .overflowError
  | index : WriteErr rn .indexError
  | unmodelled : WriteErr rn .unmodelled

theorem chrEncode_err {rn : Nat} {v : Int} {e : Err} (h : chrEncode v = .error e) : WriteErr rn e := by
  unfold chrEncode at h
  split at h
  · cases h; exact .value
  · split at h
    · cases h; exact .encode
    · cases h

theorem typeByte_err {rn : Nat} {v : Int} {e : Err} (h : typeByte v = .error e) : WriteErr rn e := by
  unfold typeByte at h
  cases hc : chrEncode v with
  | error e' => rw [hc] at h; cases h; exact chrEncode_err hc
  | ok b =>
    rw [hc] at h
    simp only [Bind.bind, Except.bind] at h
    split at h
    · cases h
    · cases h; exact .struct

theorem packSigned_err {rn k : Nat} {v : Int} {e : Err} (h : packSigned k v = .error e) : WriteErr rn e := by
  unfold packSigned at h
  split at h
  · cases h
  · cases h; exact .struct

theorem packUnsigned_err {rn k : Nat} {v : Int} {e : Err} (h : packUnsigned k v = .error e) : WriteErr rn e := by
  unfold packUnsigned at h
  split at h
  · cases h
  · cases h; exact .struct

theorem scalarValueBytes_err {rn : Nat} {s : DmapScalar} {e : Err} (h : scalarValueBytes rn s = .error e) :
    WriteErr rn e := by
  unfold scalarValueBytes at h
  split at h
  all_goals first
    | (cases h; done)
    | (cases h; first | exact .unmodelled | exact .char _ | exact .pyType | exact .struct; done)
    | exact chrEncode_err h
    | exact packSigned_err h
    | exact packUnsigned_err h
    | (split at h <;> cases h; first | exact .overflow | exact .struct)

theorem scalarToBytes_err {rn : Nat} {s : DmapScalar} {e : Err} (h : scalarToBytes rn s = .error e) :
    WriteErr rn e := by
  unfold scalarToBytes at h
  cases h1 : typeByte s.dataType with
  | error e' => rw [h1] at h; cases h; exact typeByte_err h1
  | ok tb =>
    cases h2 : scalarValueBytes rn s with
    | error e' => rw [h1, h2] at h; cases h; exact scalarValueBytes_err h2
    | ok vb => rw [h1, h2] at h; cases h

theorem packShape_err {rn : Nat} {l : List Int} {e : Err} (h : packShape l = .error e) : WriteErr rn e := by
  induction l with
  | nil => cases h
  | cons x l ih =>
    simp only [packShape] at h
    cases h1 : packSigned 4 x with
    | error e' => rw [h1] at h; cases h; exact packSigned_err h1
    | ok b =>
      cases h2 : packShape l with
      | error e' => rw [h1, h2] at h; cases h; exact ih h2
      | ok bs => rw [h1, h2] at h; cases h

theorem arrayTypeCheck_err {rn : Nat} {a : DmapArray} {e : Err} (h : arrayTypeCheck rn a = .error e) :
    WriteErr rn e := by
  unfold arrayTypeCheck at h
  split at h
  · split at h
    · cases h; exact .index
    · cases h; exact .index
    · split at h
      · cases h; exact .char _
      · cases h
    · cases h
  · cases h; exact .data
  · cases h

theorem arrayToBytes_err {rn : Nat} {a a' : DmapArray} {e : Err} (h : arrayToBytes rn a = (.error e, a')) :
    WriteErr rn e := by
  unfold arrayToBytes at h
  split at h
  · rename_i h1; cases h; exact arrayTypeCheck_err h1
  · split at h
    · rename_i h1; cases h; exact typeByte_err h1
    · split at h
      · rename_i h1; cases h; exact packSigned_err h1
      · simp only at h
        split at h
        · rename_i h1; cases h; exact packShape_err h1
        · cases h

theorem encodeFields_err {rn : Nat} {r r' : Rec} {e : Err} (h : encodeFields rn r = (.error e, r')) :
    WriteErr rn e := by
  induction r generalizing r' with
  | nil => cases h
  | cons p r ih =>
    obtain ⟨k, f⟩ := p
    cases f with
    | scalar s =>
      simp only [encodeFields] at h
      split at h
      · rename_i h1; cases h; exact scalarToBytes_err h1
      · split at h
        · rename_i h1; cases h; exact ih h1
        · cases h
    | array a =>
      simp only [encodeFields] at h
      split at h
      · rename_i h1; cases h; exact arrayToBytes_err h1
      · split at h
        · rename_i h1; cases h; exact ih h1
        · cases h
    | other => cases h; exact .type

theorem appendInts_err {rn : Nat} {l : List Int} {buf buf' : Bytes} {e : Err}
    (h : appendInts buf l = (.error e, buf')) : WriteErr rn e := by
  induction l generalizing buf with
  | nil => cases h
  | cons v l ih =>
    simp only [appendInts, appendInt] at h
    split at h
    · rename_i h1
      split at h1
      · rename_i h2; cases h1; cases h; exact packSigned_err h2
      · cases h1
    · exact ih h

theorem recordToBytes_err {rn : Nat} {buf buf' : Bytes} {r r' : Rec} {e : Err}
    (h : recordToBytes rn buf r = (.error e, buf', r')) : WriteErr rn e := by
  unfold recordToBytes at h
  split at h
  · rename_i h1; cases h; exact encodeFields_err h1
  · split at h
    · rename_i h1; cases h; exact appendInts_err h1
    · cases h

end Verif
