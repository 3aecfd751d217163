import Verif.Dmap.Lemmas.WriteErrors
import Verif.Dmap.Props.Write
/-!
# C50: exceptions of the writer
-/
namespace Verif
open Spec

/-- The DMAP exceptions the writer documents, for record `rn`. -/
inductive DocWriteErr (rn : Nat) : Err → Prop
  | char (name : PyStr) : DocWriteErr rn (.dmapCharError name rn)
  | type : DocWriteErr rn (.dmapTypeError rn)
  | data : DocWriteErr rn .dmapDataError

/-- Exceptions of the writer that are no DMAP exceptions. -/
def undocumentedWrite : List Err :=
  [.valueError, .unicodeEncodeError, .structError, .typeError, .overflowError, .indexError, .unmodelled]

/-- **C50** (partial: other exceptions than the documented ones occur, see the violations below.)
If writing a list of records raises, the records before some position were written, the record at
that position cannot be written, and the exception is a documented one naming that position or one of
`undocumentedWrite`. -/
theorem C50_write_errors_partial {w w' : Writer} (hne : w.recs ≠ []) {inp : WInput} {e : Err}
    (h : w.writeStream inp = (.error e, w')) :
    ∃ good bad rest g, w.recs = good ++ bad :: rest ∧ WrittenList 0 good g ∧
      (∀ bs, ¬ WrittenList good.length [bad] bs) ∧
      (DocWriteErr good.length e ∨ e ∈ undocumentedWrite) ∧ w'.recNum = good.length := by
  have key : ∀ (recs : List Rec) (k rn : Nat) (buf buf' : Bytes) (rn' : Nat) (recs' : List Rec),
      recordsToBytes k rn buf recs = (.error e, buf', rn', recs') →
      ∃ good bad rest g, recs = good ++ bad :: rest ∧ WrittenList k good g ∧
      (∀ bs, ¬ WrittenList (k + good.length) [bad] bs) ∧ WriteErr (k + good.length) e ∧ rn' = k + good.length := by
    intro recs
    induction recs with
    | nil => intro k rn buf buf' rn' recs' h; cases h
    | cons r recs ih =>
      intro k rn buf buf' rn' recs' h
      simp only [recordsToBytes] at h
      rcases hr : recordToBytes k buf r with ⟨x, buf1, r1⟩
      rw [hr] at h
      cases x with
      | error e' =>
        cases h
        refine ⟨[], r, recs, [], rfl, .nil, ?_, recordToBytes_err hr, rfl⟩
        intro bs hl
        cases hl with
        | cons h1 h2 h3 h4 h5 =>
          have := recordToBytes_written' buf h1 h2 h3 h4
          rw [List.length_nil, Nat.add_zero, hr] at this
          cases this
      | ok u =>
        simp only at h
        rcases hs : recordsToBytes (k + 1) k buf1 recs with ⟨x, b2, rn2, rs2⟩
        rw [hs] at h
        cases h
        obtain ⟨data, h1, h2, h3, h4, _⟩ := recordToBytes_inv hr
        obtain ⟨good, bad, rest, g, e1, e2, e3, e4, e5⟩ := ih _ _ _ _ _ _ hs
        rw [Nat.add_assoc, Nat.add_comm 1] at e3 e4 e5
        exact ⟨r :: good, bad, rest, _, by rw [e1]; rfl, .cons h1 h2 h3 h4 e2, e3, e4, e5⟩
  rw [writeStream_eq hne] at h
  rcases hr : recordsToBytes 0 w.recNum w.buf w.recs with ⟨x, b, rn, rs⟩
  rw [hr] at h
  cases x with
  | ok u => cases h
  | error e' =>
    cases h
    obtain ⟨good, bad, rest, g, e1, e2, e3, e4, e5⟩ := key _ _ _ _ _ _ _ hr
    rw [Nat.zero_add] at e3 e4 e5
    refine ⟨good, bad, rest, g, e1, e2, e3, ?_, e5⟩
    cases e4 with
    | char n => exact .inl (.char n)
    | type => exact .inl .type
    | data => exact .inl .data
    | _ => exact .inr (by decide)

/-- A record that is not a DMAP structure in second place. -/
example : ∃ w', (writerOf [Sample.record2, [(py! "x", .other)]] []).writeStream noRecords =
    (.error (.dmapTypeError 1), w') :=
  ⟨_, Prod.ext (by decide +kernel) rfl⟩

/-- **C50** is violated: a short out of range raises `struct.error`. -/
theorem C50_violation_struct (name : PyStr) {v : Int} (hv : v < -2 ^ 15 ∨ 2 ^ 15 ≤ v) (fn : PyStr) (inp : WInput) :
    ((writerOf [[(name, .scalar ⟨name, .int v, 2, .h⟩)]] fn).writeStream inp).1 = .error .structError := by
  have h1 : scalarToBytes 0 ⟨name, .int v, 2, .h⟩ = .error .structError := by
    have h2 : typeByte 2 = .ok [2] := by decide +kernel
    have h3 : packSigned 2 v = .error .structError := by
      unfold packSigned
      rw [if_neg]
      simp [signedOk]
      omega
    simp only [scalarToBytes, h2, scalarValueBytes, h3, Bind.bind, Except.bind]
  rw [writeStream_eq (by simp [writerOf])]
  simp only [writerOf, recordsToBytes, recordToBytes, encodeFields, h1, Except.map]

/-- **C50** is violated: a negative character raises `ValueError`. -/
theorem C50_violation_value (name : PyStr) {v : Int} (hv : v < 0) (fn : PyStr) (inp : WInput) :
    ((writerOf [[(name, .scalar ⟨name, .int v, 1, .c⟩)]] fn).writeStream inp).1 = .error .valueError := by
  have h1 : scalarToBytes 0 ⟨name, .int v, 1, .c⟩ = .error .valueError := by
    have h2 : typeByte 1 = .ok [1] := by decide +kernel
    have h3 : chrEncode v = .error .valueError := by
      unfold chrEncode
      rw [if_pos (.inl hv)]
    simp only [scalarToBytes, h2, scalarValueBytes, h3, Bind.bind, Except.bind]
  rw [writeStream_eq (by simp [writerOf])]
  simp only [writerOf, recordsToBytes, recordToBytes, encodeFields, h1, Except.map]

end Verif
