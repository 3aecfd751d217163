import Verif.Dmap.Model.ArraysAgain
import Verif.Dmap.Props.Arrays
import Verif.Dmap.Lemmas.WriterObj
/-!
# C93: writing several times with changes in between

Specification: pieces, one for each call, each of which is what a writer made from the values at that time writes (with reversed
`shape` lists at every second call).
-/
namespace Verif
open Spec

/-- A kept field with its `shape` list reversed, as writing leaves it. -/
def turnField : HeldField → HeldField
  | .array id name dataType fmt dimension shape =>
    .array id name dataType fmt dimension (if dimension > 1 then shape.reverse else shape)
  | f => f

/-- The kept records as writing leaves them. -/
def turnRecs (rs : List (Dict PyStr HeldField)) : List (Dict PyStr HeldField) := rs.map fun r => r.map fun p => (p.1, turnField p.2)

theorem turnField_twice (f : HeldField) : turnField (turnField f) = f := by
  cases f with
  | scalar s => rfl
  | array id nm dt fm dm sh =>
    simp only [turnField]
    by_cases h : dm > 1
    · rw [if_pos h, if_pos h, List.reverse_reverse]
    · rw [if_neg h, if_neg h]

theorem turnRecs_twice (rs : List (Dict PyStr HeldField)) : turnRecs (turnRecs rs) = rs := by
  unfold turnRecs
  rw [List.map_map]
  refine (List.map_congr_left (g := id) fun r _ => ?_).trans (List.map_id _)
  simp only [Function.comp, List.map_map, id]
  exact (List.map_congr_left (g := id) fun p _ => by simp only [Function.comp, turnField_twice, id]).trans (List.map_id _)

theorem turnField_now (t : ArrTable) (f : HeldField) : (turnField f).now t = leftField (f.now t) := by
  cases f with
  | scalar s => rfl
  | array id nm dt fm dm sh =>
    simp only [turnField, HeldField.now, leftField, leftArray]
    by_cases h : dm > 1
    · rw [if_pos h, if_pos h]
    · rw [if_neg h, if_neg h]

theorem turnRecs_now (t : ArrTable) (rs : List (Dict PyStr HeldField)) : recsNow t (turnRecs rs) = (recsNow t rs).map leftRec := by
  unfold recsNow turnRecs
  rw [List.map_map, List.map_map]
  refine List.map_congr_left fun r _ => ?_
  simp only [Function.comp, leftRec, List.map_map]
  exact List.map_congr_left fun p _ => by simp only [Function.comp, turnField_now]

theorem relinkField_left (t : ArrTable) (f : HeldField) : relinkField f (leftField (f.now t)) = turnField f := by
  cases f with
  | scalar s => rfl
  | array id nm dt fm dm sh =>
    simp only [turnField, HeldField.now, leftField, leftArray, relinkField]
    by_cases h : dm > 1
    · rw [if_pos h, if_pos h]
    · rw [if_neg h, if_neg h]

theorem relink_left (t : ArrTable) (rs : List (Dict PyStr HeldField)) : relink rs ((recsNow t rs).map leftRec) = turnRecs rs := by
  have hr : ∀ r : Dict PyStr HeldField, List.zipWith (fun p q => (p.1, relinkField p.2 q.2)) r
      (leftRec (r.map fun p => (p.1, p.2.now t))) = r.map fun p => (p.1, turnField p.2) := by
    intro r
    induction r with
    | nil => rfl
    | cons p r ih =>
      simp only [leftRec, List.map_cons, List.zipWith_cons_cons] at ih ⊢
      rw [ih, relinkField_left]
  induction rs with
  | nil => rfl
  | cons r rs ih =>
    simp only [relink, recsNow, turnRecs, List.map_cons, List.zipWith_cons_cons] at ih ⊢
    rw [ih, hr]

theorem heldWriter_step {t : ArrTable} {w : HeldWriter} {out : Bytes} (h : (w.stream t).1 = .ok out) :
    ∃ p, writeBytes (recsNow t w.recs) = .ok p ∧ out = w.buf ++ p ∧ (w.stream t).2.recs = turnRecs w.recs ∧
      (w.stream t).2.buf = out := by
  have hne : recsNow t w.recs ≠ [] := by
    intro h0
    simp only [HeldWriter.stream, h0] at h
    cases h
  simp only [HeldWriter.stream] at h ⊢
  have hne' : (Writer.mk [] true (recsNow t w.recs) w.buf w.recNum).recs ≠ [] := hne
  rw [writeStream_eq hne'] at h
  cases hz : recordsToBytes 0 w.recNum w.buf (recsNow t w.recs) with
  | mk x q =>
    obtain ⟨b, rn, rs'⟩ := q
    simp only [hz] at h
    cases x with
    | error e => cases h
    | ok u =>
      obtain ⟨bs, h1, h2, h3⟩ := recordsToBytes_inv hz
      obtain ⟨rn1, e1⟩ := writeStream_written hne' noRecords h1
      obtain ⟨rn2, e2⟩ := writeStream_written (w := Writer.mk [] true (recsNow t w.recs) [] 0) hne noRecords h1
      rw [e1]
      have hb : b = out := by cases h; rfl
      refine ⟨bs, ?_, by rw [← hb, h2], relink_left t w.recs, by rw [← hb, h2]⟩
      rw [← heldStream_writeBytes]
      unfold heldStream
      rw [e2]
      rfl

theorem heldWriter_streams {ts : List ArrTable} {w : HeldWriter} {outs : List Bytes}
    (h : w.streams ts = outs.map .ok) : ∃ ps : List Bytes, ps.length = ts.length ∧
      (∀ (i : Nat) (t : ArrTable), ts[i]? = some t → ∃ p, ps[i]? = some p ∧
        writeBytes (recsNow t (if i % 2 = 0 then w.recs else turnRecs w.recs)) = .ok p) ∧
      ∀ (i : Nat) (o : Bytes), outs[i]? = some o → o = w.buf ++ (ps.take (i + 1)).flatten := by
  induction ts generalizing w outs with
  | nil =>
    cases outs with
    | nil => exact ⟨[], rfl, fun i t ht => by simp at ht, fun i o ho => by simp at ho⟩
    | cons o outs => cases h
  | cons t ts ih =>
    cases outs with
    | nil => cases h
    | cons o outs =>
      simp only [HeldWriter.streams, List.map_cons, List.cons.injEq] at h
      obtain ⟨h1, h2⟩ := h
      obtain ⟨p, e1, e2, e3, e4⟩ := heldWriter_step h1
      obtain ⟨ps, i1, i2, i3⟩ := ih h2
      refine ⟨p :: ps, by simp [i1], fun i t' ht => ?_, fun i o' ho => ?_⟩
      · cases i with
        | zero => cases ht; exact ⟨p, rfl, e1⟩
        | succ i =>
          obtain ⟨p', f1, f2⟩ := i2 i t' ht
          refine ⟨p', f1, ?_⟩
          rw [e3, turnRecs_twice] at f2
          by_cases hi : i % 2 = 0
          · rw [if_pos hi] at f2; rwa [if_neg (by omega)]
          · rw [if_neg hi] at f2; rwa [if_pos (by omega)]
      · cases i with
        | zero => cases ho; simp [e2]
        | succ i =>
          have := i3 i o' ho
          rw [e4, e2] at this
          simpa using this

/-- **C93** (any number of calls, with changes of the numbers in arrays in between.)  Every call appends a piece to what the calls
before returned: the records with the values at the time of that call, at every second call with the `shape` lists reversed.  The
pieces of earlier calls stay as they were written. -/
theorem C93_again {t0 : ArrTable} {l : List HeldRec} {rs : List (Dict PyStr HeldField)} (hw : heldWriter t0 l = .ok rs)
    {ts : List ArrTable} (hk : ∀ t ∈ ts, SameKind t0 t l) {outs : List Bytes}
    (h : (HeldWriter.mk rs [] 0).streams ts = outs.map .ok) :
    ∃ ps : List Bytes, ps.length = ts.length ∧
      (∀ (i : Nat) (t : ArrTable), ts[i]? = some t → ∃ recs p, dict2dmap (valsNow t l) = .ok recs ∧ ps[i]? = some p ∧
        writeBytes (if i % 2 = 0 then recs else recs.map leftRec) = .ok p) ∧
      ∀ (i : Nat) (o : Bytes), outs[i]? = some o → o = (ps.take (i + 1)).flatten := by
  obtain ⟨ps, h1, h2, h3⟩ := heldWriter_streams h
  refine ⟨ps, h1, fun i t ht => ?_, fun i o ho => by simpa using h3 i o ho⟩
  obtain ⟨p, e1, e2⟩ := h2 i t ht
  refine ⟨recsNow t rs, p, ?_, e1, ?_⟩
  · rw [heldWriter_now l (hk t (List.mem_of_getElem? ht)), hw]
    rfl
  · by_cases hi : i % 2 = 0
    · rw [if_pos hi] at e2 ⊢; exact e2
    · rw [if_neg hi] at e2 ⊢; rwa [turnRecs_now] at e2

/-! ## A case -/

/-- A record with a table of two rows and three columns. -/
def tableRecs : List HeldRec := [[(py! "n", .scalar .int (.int 2)), (py! "x", .arr 3)]]

/-- Characters counted from `k`. -/
def countFrom (k : UInt8) : ArrTable := fun _ => ⟨.int8, [2, 3], [[k], [k + 1], [k + 2], [k + 3], [k + 4], [k + 5]]⟩

/-- What the writer of the table keeps. -/
def tableKept : List (Dict PyStr HeldField) :=
  [[(py! "n", .scalar ⟨py! "n", .int 2, 3, .i⟩), (py! "x", .array 3 (py! "x") 1 .c 2 [2, 3])]]

/-- What three calls return. -/
def tableOuts : List Bytes :=
  ((HeldWriter.mk tableKept [] 0).streams [countFrom 1, countFrom 2, countFrom 3]).filterMap fun x => x.toOption

/-- Three calls with other numbers each time return streams, each longer than the one before. -/
example : heldWriter (countFrom 0) tableRecs = .ok tableKept ∧
    (∀ t ∈ [countFrom 1, countFrom 2, countFrom 3], SameKind (countFrom 0) t tableRecs) ∧
    (HeldWriter.mk tableKept [] 0).streams [countFrom 1, countFrom 2, countFrom 3] = tableOuts.map .ok ∧
    tableOuts.map List.length = [44, 88, 132] := by
  refine ⟨by decide +kernel, ?_, by decide +kernel, by decide +kernel⟩
  intro t ht id _
  simp only [List.mem_cons, List.not_mem_nil, or_false] at ht
  rcases ht with rfl | rfl | rfl <;> exact ⟨rfl, rfl⟩

end Verif
