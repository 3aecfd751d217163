import Verif.Dmap.Props.SharedShapes
/-!
# C87: how shape lists are left by a failed write

Specification: the fields before the one that fails have been written, and its own list is turned if the failure is that of a
size of its shape.
-/
namespace Verif
open Spec

/-- The field whose writing has failed, if that was after its shape list was turned: its characters, its type and its number of
dimensions can be written. -/
def reached (rn : Nat) (f : RefField) : List RefField :=
  match f with
  | .array a _ => if (arrayTypeCheck rn a).isOk && (typeByte a.dataType).isOk && decide (signedOk 4 a.dimension) then [f] else []
  | _ => []

theorem seenRec_append (h : Shapes) (before : List RefField) (p q : RefRec) :
    seenRec h before (p ++ q) = seenRec h before p ++ seenRec h (before ++ fieldList p) q := by
  induction p generalizing before with
  | nil => simp [seenRec, fieldList]
  | cons x p ih =>
    obtain ⟨k, f⟩ := x
    simp [seenRec, ih, fieldList]

theorem seenRecs_append (h : Shapes) (before : List RefField) (p q : List RefRec) :
    seenRecs h before (p ++ q) = seenRecs h before p ++ seenRecs h (before ++ p.flatMap fieldList) q := by
  induction p generalizing before with
  | nil => simp [seenRecs]
  | cons r p ih => simp [seenRecs, ih]

theorem seenRecs_length (h : Shapes) (before : List RefField) (rs : List RefRec) : (seenRecs h before rs).length = rs.length := by
  induction rs generalizing before with
  | nil => rfl
  | cons r rs ih => simp [seenRecs, ih]

theorem arrayToBytesR_error {rn : Nat} {h h' : Shapes} {before : List RefField} {a : DmapArray} {id : Nat} {e : Err}
    (he : arrayToBytesR rn (shapesAfter h before) a id = (.error e, h')) :
    h' = shapesAfter h (before ++ reached rn (.array a id)) ∧
      (arrayToBytes rn { a with shape := shapesAfter h before id }).1 = .error e := by
  have hsame : (fun i => if i = id then shapesAfter h before id else shapesAfter h before i) = shapesAfter h before := by
    funext i
    split
    · next hi => rw [hi]
    · rfl
  unfold arrayToBytesR at he
  unfold reached
  have hc : arrayTypeCheck rn { a with shape := shapesAfter h before id } = arrayTypeCheck rn a := rfl
  cases ha : arrayToBytes rn { a with shape := shapesAfter h before id } with
  | mk res a' =>
    rw [ha] at he
    dsimp only at he
    injection he with e1 e2
    subst e1
    refine ⟨?_, rfl⟩
    rw [← e2]
    unfold arrayToBytes at ha
    rw [hc] at ha
    dsimp only at ha ⊢
    cases hc : arrayTypeCheck rn a with
    | error x =>
      rw [hc] at ha
      cases ha
      simp [Except.isOk, Except.toBool, hsame]
    | ok u =>
      rw [hc] at ha
      dsimp only at ha
      cases ht : typeByte a.dataType with
      | error x =>
        rw [ht] at ha
        cases ha
        simp [Except.isOk, Except.toBool, hsame]
      | ok tb =>
        rw [ht] at ha
        dsimp only at ha
        by_cases hd : signedOk 4 a.dimension
        · unfold packSigned at ha
          rw [if_pos hd] at ha
          dsimp only at ha
          have hl : a' = leftArray { a with shape := shapesAfter h before id } := by
            unfold leftArray
            split at ha
            · exact (Prod.mk.inj ha).2.symm
            · exact (Prod.mk.inj ha).2.symm
          rw [hl, shapesAfter_array]
          simp [Except.isOk, Except.toBool, hd]
        · unfold packSigned at ha
          rw [if_neg hd] at ha
          cases ha
          simp [hd, hsame]

theorem encodeFieldsR_error {rn : Nat} {h h' : Shapes} {before : List RefField} {r : RefRec} {e : Err}
    (he : encodeFieldsR rn (shapesAfter h before) r = (.error e, h')) :
    ∃ p k f q b, r = p ++ (k, f) :: q ∧ Written rn (seenRec h before p) b ∧
      (∀ b', ¬ Written rn (seenRec h before (p ++ [(k, f)])) b') ∧
      h' = shapesAfter h (before ++ fieldList p ++ reached rn f) := by
  induction r generalizing before with
  | nil => cases he
  | cons x r ih =>
    obtain ⟨k, f⟩ := x
    cases f with
    | other =>
      cases he
      refine ⟨[], k, .other, r, [], rfl, .nil, nofun, ?_⟩
      simp [fieldList, reached]
    | scalar s =>
      simp only [encodeFieldsR] at he
      cases hs : scalarToBytes rn s with
      | error e1 =>
        rw [hs] at he
        cases he
        refine ⟨[], k, .scalar s, r, [], rfl, .nil, ?_, by simp [fieldList, reached]⟩
        intro b' hb
        cases hb with
        | scalar g _ => rw [hs] at g; cases g
      | ok bs =>
        rw [hs] at he
        dsimp only at he
        have hsc := shapesAfter_scalar h before (f := .scalar s) (fun _ => rfl)
        cases hr : encodeFieldsR rn (shapesAfter h before) r with
        | mk y h1 =>
          rw [hr] at he
          cases y with
          | ok enc => cases he
          | error e1 =>
            cases he
            rw [← hsc] at hr
            obtain ⟨p, k', f, q, b, rfl, i1, i2, i3⟩ := ih hr
            refine ⟨(k, .scalar s) :: p, k', f, q, _, rfl, .scalar hs i1, ?_, ?_⟩
            · intro b' hb
              cases hb with
              | scalar _ g => exact i2 _ g
            · rw [i3]
              simp [fieldList]
    | array a id =>
      simp only [encodeFieldsR] at he
      cases ha : arrayToBytesR rn (shapesAfter h before) a id with
      | mk res h1 =>
        rw [ha] at he
        cases res with
        | error e1 =>
          cases he
          obtain ⟨j1, j2⟩ := arrayToBytesR_error ha
          refine ⟨[], k, .array a id, r, [], rfl, .nil, ?_, by simpa [fieldList] using j1⟩
          intro b' hb
          cases hb with
          | array g _ => rw [g] at j2; cases j2
        | ok bs =>
          dsimp only at he
          unfold arrayToBytesR at ha
          cases hb : arrayToBytes rn { a with shape := shapesAfter h before id } with
          | mk res a' =>
            rw [hb] at ha
            dsimp only at ha
            injection ha with e1 e2
            subst e1
            have hl := arrayToBytes_left_ok hb
            rw [hl, shapesAfter_array] at e2
            rw [hl] at hb
            subst e2
            cases hr : encodeFieldsR rn (shapesAfter h (before ++ [.array a id])) r with
            | mk y h2 =>
              rw [hr] at he
              cases y with
              | ok enc => cases he
              | error e1 =>
                cases he
                obtain ⟨p, k', f, q, b, rfl, i1, i2, i3⟩ := ih hr
                refine ⟨(k, .array a id) :: p, k', f, q, _, rfl, .array hb i1, ?_, ?_⟩
                · intro b' hb'
                  cases hb' with
                  | array _ g => exact i2 _ g
                · rw [i3]
                  simp [fieldList]

/-- How the lists are left by a record that is not written. -/
def LeftAt (rn : Nat) (h : Shapes) (before : List RefField) (r : RefRec) (h' : Shapes) : Prop :=
  (∃ b, Written rn (seenRec h before r) b ∧
      ¬ (b.length + 16 < 2 ^ 31 ∧ (scalarsOf (seenRec h before r)).length < 2 ^ 31 ∧
        (arraysOf (seenRec h before r)).length < 2 ^ 31) ∧
      h' = shapesAfter h (before ++ fieldList r)) ∨
    ∃ p k f q b, r = p ++ (k, f) :: q ∧ Written rn (seenRec h before p) b ∧
      (∀ b', ¬ Written rn (seenRec h before (p ++ [(k, f)])) b') ∧
      h' = shapesAfter h (before ++ fieldList p ++ reached rn f)

theorem recordToBytesR_error {rn : Nat} {h h' : Shapes} {before : List RefField} {buf buf' : Bytes} {r : RefRec} {e : Err}
    (he : recordToBytesR rn (shapesAfter h before) buf r = (.error e, buf', h')) : LeftAt rn h before r h' := by
  have h1 := (recordToBytesR_eq rn h before buf r).1
  obtain ⟨i1, i2⟩ := encodeFieldsR_eq rn h before r
  rw [he] at h1
  unfold recordToBytesR at he
  cases hx : encodeFieldsR rn (shapesAfter h before) r with
  | mk x h2 =>
    rw [hx] at he i1 i2
    cases x with
    | error e1 =>
      cases he
      exact .inr (encodeFieldsR_error hx)
    | ok enc =>
      dsimp only at he i1 i2
      have hleft := i2 enc rfl
      have hw : Written rn (seenRec h before r) enc.data := by
        cases hy : encodeFields rn (seenRec h before r) with
        | mk y r' =>
          rw [hy] at i1
          dsimp only at i1
          subst i1
          exact written_of_encodeFields hy
      refine .inl ⟨enc.data, hw, ?_, ?_⟩
      · rintro ⟨g1, g2, g3⟩
        have hlen := hw.length
        have := recordToBytes_eq (buf := buf) (l := [65537, enc.data.length + 16, (scalarsOf (seenRec h before r)).length,
          (arraysOf (seenRec h before r)).length].map fun n : Nat => (n : Int)) (encodeFields_written hw)
          (by simp [encodingIdentifier]) (appendInts_nats buf (by
            intro n hn'
            simp only [List.mem_cons, List.not_mem_nil, or_false] at hn'
            omega))
        rw [this] at h1
        cases h1
      · generalize appendInts buf [encodingIdentifier, enc.data.length + 16, enc.numScalars, enc.numArrays] = z at he
        obtain ⟨z1, z2⟩ := z
        cases z1 with
        | error e1 =>
          cases he
          exact hleft
        | ok u => cases he

theorem recordsToBytesR_error {k : Nat} {h h' : Shapes} {before : List RefField} {buf buf' : Bytes} {rs : List RefRec} {e : Err}
    (he : recordsToBytesR k (shapesAfter h before) buf rs = (.error e, buf', h')) :
    ∃ good bad rest g, rs = good ++ bad :: rest ∧ WrittenList k (seenRecs h before good) g ∧
      LeftAt (k + good.length) h (before ++ good.flatMap fieldList) bad h' := by
  induction rs generalizing k before buf with
  | nil => cases he
  | cons r rs ih =>
    simp only [recordsToBytesR] at he
    cases hr : recordToBytesR k (shapesAfter h before) buf r with
    | mk x y =>
      obtain ⟨b1, h1⟩ := y
      rw [hr] at he
      cases x with
      | error e1 =>
        cases he
        refine ⟨[], r, rs, [], rfl, .nil, ?_⟩
        simpa using recordToBytesR_error hr
      | ok u =>
        dsimp only at he
        obtain ⟨i1, i2, i3⟩ := recordToBytesR_eq k h before buf r
        rw [hr] at i1 i2 i3
        dsimp only at i1 i2 i3
        have i3 := i3 rfl
        subst i3
        cases hy : recordToBytes k buf (seenRec h before r) with
        | mk y z =>
          obtain ⟨z1, z2⟩ := z
          rw [hy] at i1
          dsimp only at i1
          subst i1
          obtain ⟨data, g1, g2, g3, g4, -, -⟩ := recordToBytes_inv hy
          obtain ⟨good, bad, rest, g, rfl, j1, j2⟩ := ih he
          refine ⟨r :: good, bad, rest, _, rfl, .cons g1 g2 g3 g4 j1, ?_⟩
          have : k + (r :: good).length = k + 1 + good.length := by simp; omega
          rw [this, List.flatMap_cons, ← List.append_assoc]
          exact j2

/-- **C87** How the shape lists are left if the records cannot be written: the records before one of them have been written, and
every list is turned once for each array of more than one dimension whose sizes were reached. -/
theorem C87_error_left (h : Shapes) {rs : List RefRec} {e : Err} (hw : (writeShared h rs).1 = .error e) :
    ∃ good bad rest g, rs = good ++ bad :: rest ∧ WrittenList 0 (seenRecs h [] good) g ∧
      LeftAt good.length h (good.flatMap fieldList) bad (writeShared h rs).2 := by
  unfold writeShared at hw ⊢
  cases hr : recordsToBytesR 0 h [] rs with
  | mk x y =>
    obtain ⟨b, h'⟩ := y
    rw [hr] at hw
    cases x with
    | ok u => cases hw
    | error e1 =>
      obtain ⟨good, bad, rest, g, h1, h2, h3⟩ := recordsToBytesR_error (before := []) (by rw [shapesAfter_nil]; exact hr)
      exact ⟨good, bad, rest, g, h1, h2, by simpa using h3⟩

/-! ## Samples -/

/-- The list has a size that does not fit in four bytes. -/
def tooLong : Shapes := fun i => if i = 0 then [2, 2 ^ 31] else [2, 3]

/-- The record with list 1 is written and its list turned; the sizes of list 0 are reached, so this list is turned too. -/
example : (writeShared tooLong [otherRef, gridRef, otherRef]).1.isOk = false ∧
    (writeShared tooLong [otherRef, gridRef, otherRef]).2 1 = [3, 2] ∧
    (writeShared tooLong [otherRef, gridRef, otherRef]).2 0 = [2 ^ 31, 2] := by
  decide +kernel

/-- A record with a field that is neither a scalar nor an array after the grid: its list is left turned. -/
example : (writeShared twoThree [gridRef ++ [(py! "x", .other)]]).1 = .error (.dmapTypeError 0) ∧
    (writeShared twoThree [gridRef ++ [(py! "x", .other)]]).2 0 = [3, 2] := by
  decide +kernel

end Verif
