import Verif.Dmap.Model.SharedShapes
import Verif.Dmap.Props.Stream
/-!
# C87: arrays that share a shape list

Specification: the shape an array is written with is that of its list if the list was turned an even number of times before,
once by each array of more than one dimension written with it.
-/
namespace Verif
open Spec

/-- The field is an array of more than one dimension with this shape list. -/
def turnsList (id : Nat) : RefField → Bool
  | .array a i => i = id && decide (a.dimension > 1)
  | _ => false

/-- A list turned `n` times. -/
def turned (n : Nat) (s : List Int) : List Int := if n % 2 = 0 then s else s.reverse

/-- The shape lists after fields have been written. -/
def shapesAfter (h : Shapes) (fs : List RefField) : Shapes := fun id => turned (fs.countP (turnsList id)) (h id)

/-- A record as it is written after fields have been written. -/
def seenRec (h : Shapes) : List RefField → RefRec → Rec
  | _, [] => []
  | before, (k, f) :: r => (k, f.at (shapesAfter h before)) :: seenRec h (before ++ [f]) r

/-- The fields of a record. -/
def fieldList (r : RefRec) : List RefField := r.map Prod.snd

/-- The records as they are written after fields have been written. -/
def seenRecs (h : Shapes) : List RefField → List RefRec → List Rec
  | _, [] => []
  | before, r :: rs => seenRec h before r :: seenRecs h (before ++ fieldList r) rs

/-- Every array finds its shape list turned an even number of times, or the same both ways. -/
def Straight (h : Shapes) (fs : List RefField) : Prop :=
  ∀ before a id after, fs = before ++ .array a id :: after →
    before.countP (turnsList id) % 2 = 0 ∨ (h id).reverse = h id

/-! ## What is written -/

theorem turned_succ (n : Nat) (s : List Int) : (turned n s).reverse = turned (n + 1) s := by
  unfold turned
  rcases Nat.mod_two_eq_zero_or_one n with h | h
  · rw [if_pos h, if_neg (by omega)]
  · rw [if_neg (by omega), if_pos (by omega), List.reverse_reverse]

theorem shapesAfter_scalar (h : Shapes) (fs : List RefField) {f : RefField} (hf : ∀ id, turnsList id f = false) :
    shapesAfter h (fs ++ [f]) = shapesAfter h fs := by
  funext id
  simp [shapesAfter, List.countP_append, hf]

theorem shapesAfter_array (h : Shapes) (fs : List RefField) (a : DmapArray) (id : Nat) :
    (fun i => if i = id then (leftArray { a with shape := shapesAfter h fs id }).shape else shapesAfter h fs i) =
      shapesAfter h (fs ++ [.array a id]) := by
  funext i
  unfold leftArray
  dsimp only
  by_cases hi : i = id
  · subst hi
    rw [if_pos rfl]
    by_cases hd : a.dimension > 1
    · rw [if_pos hd]
      simp [shapesAfter, turned_succ, List.countP_append, turnsList, hd]
    · rw [if_neg hd]
      simp [shapesAfter, List.countP_append, turnsList, hd]
  · rw [if_neg hi]
    have : ¬ id = i := fun e => hi e.symm
    simp [shapesAfter, List.countP_append, turnsList, this]

theorem encodeFieldsR_eq (rn : Nat) (h : Shapes) (before : List RefField) (r : RefRec) :
    (encodeFieldsR rn (shapesAfter h before) r).1 = (encodeFields rn (seenRec h before r)).1 ∧
      ∀ enc, (encodeFieldsR rn (shapesAfter h before) r).1 = .ok enc →
        (encodeFieldsR rn (shapesAfter h before) r).2 = shapesAfter h (before ++ fieldList r) := by
  induction r generalizing before with
  | nil => simp [encodeFieldsR, encodeFields, seenRec, fieldList]
  | cons p r ih =>
    obtain ⟨k, f⟩ := p
    obtain ⟨i1, i2⟩ := ih (before ++ [f])
    have e : before ++ fieldList ((k, f) :: r) = before ++ [f] ++ fieldList r := by simp [fieldList]
    rw [e]
    cases f with
    | other => exact ⟨rfl, nofun⟩
    | scalar s =>
      rw [shapesAfter_scalar h before (fun _ => rfl)] at i1 i2
      simp only [encodeFieldsR, encodeFields, seenRec, RefField.at]
      cases scalarToBytes rn s with
      | error e => exact ⟨rfl, nofun⟩
      | ok bs =>
        dsimp only
        generalize encodeFieldsR rn (shapesAfter h before) r = x at i1 i2 ⊢
        generalize encodeFields rn (seenRec h (before ++ [.scalar s]) r) = y at i1 ⊢
        obtain ⟨x1, x2⟩ := x
        obtain ⟨y1, y2⟩ := y
        dsimp only at i1 i2
        subst i1
        cases x1 with
        | error e => exact ⟨rfl, nofun⟩
        | ok enc => exact ⟨rfl, fun _ _ => i2 enc rfl⟩
    | array a id =>
      simp only [encodeFieldsR, encodeFields, seenRec, RefField.at, arrayToBytesR]
      cases ha : arrayToBytes rn { a with shape := shapesAfter h before id } with
      | mk res a' =>
        cases res with
        | error e => exact ⟨rfl, nofun⟩
        | ok bs =>
          dsimp only
          rw [arrayToBytes_left_ok ha, shapesAfter_array]
          generalize encodeFieldsR rn (shapesAfter h (before ++ [.array a id])) r = x at i1 i2 ⊢
          generalize encodeFields rn (seenRec h (before ++ [.array a id]) r) = y at i1 ⊢
          obtain ⟨x1, x2⟩ := x
          obtain ⟨y1, y2⟩ := y
          dsimp only at i1 i2
          subst i1
          cases x1 with
          | error e => exact ⟨rfl, nofun⟩
          | ok enc => exact ⟨rfl, fun _ _ => i2 enc rfl⟩

theorem recordToBytesR_eq (rn : Nat) (h : Shapes) (before : List RefField) (buf : Bytes) (r : RefRec) :
    (recordToBytesR rn (shapesAfter h before) buf r).1 = (recordToBytes rn buf (seenRec h before r)).1 ∧
      (recordToBytesR rn (shapesAfter h before) buf r).2.1 = (recordToBytes rn buf (seenRec h before r)).2.1 ∧
      ((recordToBytesR rn (shapesAfter h before) buf r).1 = .ok () →
        (recordToBytesR rn (shapesAfter h before) buf r).2.2 = shapesAfter h (before ++ fieldList r)) := by
  obtain ⟨i1, i2⟩ := encodeFieldsR_eq rn h before r
  unfold recordToBytesR recordToBytes
  generalize encodeFieldsR rn (shapesAfter h before) r = x at i1 i2 ⊢
  generalize encodeFields rn (seenRec h before r) = y at i1 ⊢
  obtain ⟨x1, x2⟩ := x
  obtain ⟨y1, y2⟩ := y
  dsimp only at i1 i2
  subst i1
  cases x1 with
  | error e => exact ⟨rfl, rfl, nofun⟩
  | ok enc =>
    dsimp only
    generalize appendInts buf [encodingIdentifier, enc.data.length + 16, enc.numScalars, enc.numArrays] = z
    obtain ⟨z1, z2⟩ := z
    cases z1 with
    | error e => exact ⟨rfl, rfl, nofun⟩
    | ok u => exact ⟨rfl, rfl, fun _ => i2 enc rfl⟩

theorem recordsToBytesR_eq (k rn : Nat) (h : Shapes) (before : List RefField) (buf : Bytes) (rs : List RefRec) :
    (recordsToBytesR k (shapesAfter h before) buf rs).1 = (recordsToBytes k rn buf (seenRecs h before rs)).1 ∧
      (recordsToBytesR k (shapesAfter h before) buf rs).2.1 = (recordsToBytes k rn buf (seenRecs h before rs)).2.1 ∧
      ((recordsToBytesR k (shapesAfter h before) buf rs).1 = .ok () →
        (recordsToBytesR k (shapesAfter h before) buf rs).2.2 = shapesAfter h (before ++ rs.flatMap fieldList)) := by
  induction rs generalizing k rn before buf with
  | nil => simp [recordsToBytesR, recordsToBytes, seenRecs]
  | cons r rs ih =>
    obtain ⟨i1, i2, i3⟩ := recordToBytesR_eq k h before buf r
    simp only [recordsToBytesR, recordsToBytes, seenRecs]
    generalize recordToBytesR k (shapesAfter h before) buf r = x at i1 i2 i3 ⊢
    generalize recordToBytes k buf (seenRec h before r) = y at i1 i2 ⊢
    obtain ⟨x1, x2, x3⟩ := x
    obtain ⟨y1, y2, y3⟩ := y
    dsimp only at i1 i2 i3
    subst i1 i2
    cases x1 with
    | error e => exact ⟨rfl, rfl, nofun⟩
    | ok u =>
      dsimp only
      rw [i3 rfl]
      obtain ⟨j1, j2, j3⟩ := ih (k + 1) k (before ++ fieldList r) x2
      rw [List.flatMap_cons, ← List.append_assoc]
      exact ⟨j1, j2, j3⟩

theorem seenRecs_ne {h : Shapes} {before : List RefField} {rs : List RefRec} (hne : rs ≠ []) : seenRecs h before rs ≠ [] := by
  cases rs with
  | nil => exact absurd rfl hne
  | cons r rs => simp [seenRecs]

theorem shapesAfter_nil (h : Shapes) : shapesAfter h [] = h := rfl

/-- **C87** What is written for records that may share shape lists, whatever they are: every array with its list as often
turned as arrays of more than one dimension were written with that list before; and how the lists are left. -/
theorem C87_exact (h : Shapes) {rs : List RefRec} (hne : rs ≠ []) :
    (writeShared h rs).1 = writeBytes (seenRecs h [] rs) ∧
      ∀ out, (writeShared h rs).1 = .ok out → (writeShared h rs).2 = shapesAfter h (rs.flatMap fieldList) := by
  obtain ⟨i1, i2, i3⟩ := recordsToBytesR_eq 0 0 h [] [] rs
  rw [shapesAfter_nil] at i1 i2 i3
  rw [List.nil_append] at i3
  unfold writeShared writeBytes
  rw [writerNew_dmapInput]
  dsimp only
  rw [writeStream_eq (w := ⟨[], true, seenRecs h [] rs, [], 0⟩) (seenRecs_ne hne)]
  dsimp only
  generalize recordsToBytesR 0 h [] rs = x at i1 i2 i3 ⊢
  generalize recordsToBytes 0 0 [] (seenRecs h [] rs) = y at i1 i2 ⊢
  obtain ⟨x1, x2, x3⟩ := x
  obtain ⟨y1, y2, y3⟩ := y
  dsimp only at i1 i2 i3
  subst i1 i2
  cases x1 with
  | error e => exact ⟨rfl, nofun⟩
  | ok u => exact ⟨rfl, fun _ _ => i3 rfl⟩

/-! ## When sharing changes nothing -/

theorem turned_eq {n : Nat} {s : List Int} : turned n s = s ↔ n % 2 = 0 ∨ s.reverse = s := by
  unfold turned
  by_cases h : n % 2 = 0
  · simp [h]
  · rw [if_neg h]; simp [h]

theorem turned_length (n : Nat) (s : List Int) : (turned n s).length = s.length := by
  unfold turned
  split <;> simp

/-- `Straight` for fields that follow others. -/
def StraightAfter (h : Shapes) (before fs : List RefField) : Prop :=
  ∀ b a id after, fs = b ++ .array a id :: after → (before ++ b).countP (turnsList id) % 2 = 0 ∨ (h id).reverse = h id

theorem straight_nil (h : Shapes) (before : List RefField) : StraightAfter h before [] := by
  intro b a id after e
  cases b <;> cases e

theorem straight_cons {h : Shapes} {before fs : List RefField} {f : RefField} :
    StraightAfter h before (f :: fs) ↔ f.at (shapesAfter h before) = f.at h ∧ StraightAfter h (before ++ [f]) fs := by
  constructor
  · intro hs
    refine ⟨?_, fun b a id after e => ?_⟩
    · cases f with
      | scalar s => rfl
      | other => rfl
      | array a id =>
        have := hs [] a id fs rfl
        rw [List.append_nil] at this
        simp only [RefField.at, shapesAfter, turned_eq.2 this]
    · have := hs (f :: b) a id after (by rw [e]; rfl)
      simpa using this
  · intro ⟨h1, h2⟩ b a id after e
    cases b with
    | nil =>
      obtain ⟨rfl, rfl⟩ := List.cons.inj e
      rw [List.append_nil]
      simp only [RefField.at, Field.array.injEq, DmapArray.mk.injEq, true_and] at h1
      exact turned_eq.1 h1
    | cons c b =>
      obtain ⟨rfl, rfl⟩ := List.cons.inj e
      have := h2 b a id after rfl
      simpa using this

theorem straight_append {h : Shapes} {before f1 f2 : List RefField} :
    StraightAfter h before (f1 ++ f2) ↔ StraightAfter h before f1 ∧ StraightAfter h (before ++ f1) f2 := by
  induction f1 generalizing before with
  | nil => simp [straight_nil]
  | cons f f1 ih =>
    rw [List.cons_append, straight_cons, straight_cons, ih, and_assoc, List.append_assoc, List.singleton_append]

theorem seenRec_eq {h : Shapes} {before : List RefField} {r : RefRec} :
    seenRec h before r = recAt h r ↔ StraightAfter h before (fieldList r) := by
  induction r generalizing before with
  | nil => simp [seenRec, recAt, fieldList, straight_nil]
  | cons p r ih =>
    obtain ⟨k, f⟩ := p
    have e : fieldList ((k, f) :: r) = f :: fieldList r := rfl
    rw [e, straight_cons, ← ih]
    simp [seenRec, recAt]

theorem seenRecs_eq {h : Shapes} {before : List RefField} {rs : List RefRec} :
    seenRecs h before rs = rs.map (recAt h) ↔ StraightAfter h before (rs.flatMap fieldList) := by
  induction rs generalizing before with
  | nil => simp [seenRecs, straight_nil]
  | cons r rs ih =>
    rw [List.flatMap_cons, straight_append, ← ih, ← seenRec_eq]
    simp [seenRecs]

theorem packShape_inj {l l' : List Int} {b : Bytes} (h : packShape l = .ok b) (h' : packShape l' = .ok b) : l = l' := by
  induction l generalizing l' b with
  | nil =>
    cases h
    have := packShape_length h'
    cases l' with
    | nil => rfl
    | cons x l' => simp at this
  | cons x l ih =>
    cases l' with
    | nil =>
      cases h'
      have := packShape_length h
      simp at this
    | cons y l' =>
      simp only [packShape] at h h'
      unfold packSigned at h h'
      by_cases hx : signedOk 4 x
      · by_cases hy : signedOk 4 y
        · rw [if_pos hx] at h
          rw [if_pos hy] at h'
          cases h1 : packShape l with
          | error e => rw [h1] at h; cases h
          | ok c =>
            cases h2 : packShape l' with
            | error e => rw [h2] at h'; cases h'
            | ok c' =>
              rw [h1] at h
              rw [h2] at h'
              have e := (Except.ok.inj h).trans (Except.ok.inj h').symm
              obtain ⟨e1, e2⟩ := List.append_inj e (by simp)
              subst e2
              rw [intLE_inj hx hy e1, ih h1 h2]
        · rw [if_neg hy] at h'; cases h'
      · rw [if_neg hx] at h; cases h

/-- The bytes of an array tell its shape, and how many they are does not depend on it. -/
theorem array_shape {rn : Nat} {a a1 a2 : DmapArray} {s s' : List Int} {b b' : Bytes} (hl : s.length = s'.length)
    (h : arrayToBytes rn { a with shape := s } = (.ok b, a1)) (h' : arrayToBytes rn { a with shape := s' } = (.ok b', a2)) :
    b.length = b'.length ∧ (b = b' → s = s') := by
  obtain ⟨tb, db, sb, -, h2, h3, h4, rfl, -⟩ := arrayToBytes_inv h
  obtain ⟨tb', db', sb', -, g2, g3, g4, rfl, -⟩ := arrayToBytes_inv h'
  dsimp only at h2 h3 h4 g2 g3 g4 ⊢
  rw [h2] at g2
  rw [h3] at g3
  cases g2
  cases g3
  have l1 := packShape_length h4
  have l2 := packShape_length g4
  have hlen : sb.length = sb'.length := by
    rw [l1, l2]
    unfold leftArray
    dsimp only
    split <;> simp [hl]
  refine ⟨by simp [hlen], fun e => ?_⟩
  have e1 := List.append_cancel_left (List.append_cancel_right e)
  subst e1
  have := packShape_inj h4 g4
  unfold leftArray at this
  dsimp only at this
  split at this
  · exact List.reverse_inj.1 this
  · exact this

theorem written_seen {rn : Nat} {h : Shapes} {before : List RefField} {r : RefRec} {b b' : Bytes}
    (h1 : Written rn (seenRec h before r) b) (h2 : Written rn (recAt h r) b') :
    b.length = b'.length ∧ (b = b' → seenRec h before r = recAt h r) := by
  induction r generalizing before b b' with
  | nil =>
    cases h1
    cases h2
    exact ⟨rfl, fun _ => rfl⟩
  | cons p r ih =>
    obtain ⟨k, f⟩ := p
    cases f with
    | other => cases h1
    | scalar s =>
      cases h1 with
      | scalar g1 g2 =>
        cases h2 with
        | scalar g3 g4 =>
          rw [g1] at g3
          cases g3
          obtain ⟨i1, i2⟩ := ih g2 g4
          refine ⟨by simp [i1], fun e => ?_⟩
          have := i2 (List.append_cancel_left e)
          simp only [seenRec, recAt, List.map_cons, RefField.at]
          rw [this]
          rfl
    | array a id =>
      cases h1 with
      | array g1 g2 =>
        cases h2 with
        | array g3 g4 =>
          obtain ⟨j1, j2⟩ := array_shape (turned_length _ _) g1 g3
          obtain ⟨i1, i2⟩ := ih g2 g4
          refine ⟨by simp [i1, j1], fun e => ?_⟩
          obtain ⟨e1, e2⟩ := List.append_inj e j1
          simp only [seenRec, recAt, List.map_cons, RefField.at]
          rw [i2 e2, shapesAfter, j2 e1]
          rfl

theorem writtenList_seen {k : Nat} {h : Shapes} {before : List RefField} {rs : List RefRec} {b : Bytes}
    (h1 : WrittenList k (seenRecs h before rs) b) (h2 : WrittenList k (rs.map (recAt h)) b) :
    seenRecs h before rs = rs.map (recAt h) := by
  induction rs generalizing before b k with
  | nil => rfl
  | cons r rs ih =>
    generalize hb : b = c at h2
    cases h1 with
    | cons g1 g2 g3 g4 g5 =>
      cases h2 with
      | cons k1 k2 k3 k4 k5 =>
        obtain ⟨j1, j2⟩ := written_seen g1 k1
        obtain ⟨e1, e2⟩ := List.append_inj hb (by simp [blockBytes, j1])
        subst e2
        have e3 := (List.append_inj' e1 j1).2
        simp only [seenRecs, List.map_cons]
        rw [j2 e3, ih g5 k5]

/-- **C87** Records that share shape lists are written like records that do not, iff every array of them finds its list turned
an even number of times or its shape is the same both ways. -/
theorem C87_iff (h : Shapes) {rs : List RefRec} {out : Bytes} (hw : (writeShared h rs).1 = .ok out) (hne : rs ≠ []) :
    writeBytes (rs.map (recAt h)) = .ok out ↔ Straight h (rs.flatMap fieldList) := by
  have h1 := (C87_exact h hne).1
  rw [hw] at h1
  have hs : Straight h (rs.flatMap fieldList) ↔ StraightAfter h [] (rs.flatMap fieldList) := Iff.rfl
  rw [hs, ← seenRecs_eq]
  constructor
  · intro h2
    exact writtenList_seen (writeBytes_inv h1.symm).2 (writeBytes_inv h2).2
  · intro e
    rw [← e, ← h1]

/-- No array shares its shape list with an array of more than one dimension before it. -/
def ListsApart (fs : List RefField) : Prop :=
  ∀ before a id after, fs = before ++ .array a id :: after →
    ∀ b i, RefField.array b i ∈ before → b.dimension > 1 → i ≠ id

/-- **C87** If no array shares its shape list with one of more than one dimension before it, the result is that of records that
share nothing, also if it is an exception.  Missing: arrays that do, see `C87_iff` and `C87_twice_violation`. -/
theorem C87_apart_partial (h : Shapes) {rs : List RefRec} (hne : rs ≠ []) (ha : ListsApart (rs.flatMap fieldList)) :
    (writeShared h rs).1 = writeBytes (rs.map (recAt h)) := by
  rw [(C87_exact h hne).1, (seenRecs_eq (before := [])).2]
  intro before a id after e
  refine .inl ?_
  rw [List.nil_append, List.countP_eq_zero.2]
  intro f hf ht
  cases f with
  | array b i =>
    simp only [turnsList, Bool.and_eq_true, decide_eq_true_eq] at ht
    exact ha before a id after e b i hf ht.2 ht.1
  | scalar s => cases ht
  | other => cases ht

/-- **C87** violated: a record with an array of more than one dimension, whose shape is not the same both ways, is not written
twice if it is listed twice. -/
theorem C87_twice_violation (h : Shapes) {r : RefRec} {pre post : List RefField} {a : DmapArray} {id : Nat}
    (hr : fieldList r = pre ++ .array a id :: post) (hd : a.dimension > 1) (hs : (h id).reverse ≠ h id)
    (h1 : ∀ f ∈ pre ++ post, turnsList id f = false) {out : Bytes} (hw : (writeShared h [r, r]).1 = .ok out) :
    writeBytes [recAt h r, recAt h r] ≠ .ok out := by
  intro h2
  have := (C87_iff h hw (by simp)).1 h2 (fieldList r ++ pre) a id post (by simp [hr])
  rcases this with this | this
  · have c1 : pre.countP (turnsList id) = 0 := List.countP_eq_zero.2 fun f hf => by simp [h1 f (List.mem_append_left _ hf)]
    have c2 : post.countP (turnsList id) = 0 := List.countP_eq_zero.2 fun f hf => by simp [h1 f (List.mem_append_right _ hf)]
    rw [hr] at this
    simp [List.countP_append, c1, c2, turnsList, hd] at this
  · exact hs this

/-! ## Samples -/

/-- A record with a number and an array of two rows and three columns. -/
def gridRef : RefRec :=
  [(py! "n", .scalar ⟨py! "n", .int 7, 2, .h⟩),
   (py! "a", .array ⟨py! "a", ⟨.int8, [2, 3], [[1], [2], [3], [4], [5], [6]]⟩, 1, .c, 2, []⟩ 0)]

/-- The shape lists `[2, 3]`. -/
def twoThree : Shapes := fun _ => [2, 3]

/-- The shapes that are read from a stream. -/
def shapesRead (bs : Except Err Bytes) : List (List (List Nat)) :=
  match bs with
  | .error _ => []
  | .ok bs =>
    match readFile numpy2 bs with
    | .error _ => []
    | .ok (rs, _) => rs.map fun r => r.filterMap fun p => match p.2 with
      | .array a => some a.value.shape
      | _ => none

/-- **C87** violated for the reader: a record listed twice is read as an array of two rows and then one of three; with a list
of its own for each record both have two. -/
theorem C87_read_violation :
    shapesRead (writeShared twoThree [gridRef, gridRef]).1 = [[[2, 3]], [[3, 2]]] ∧
      shapesRead (writeBytes [recAt twoThree gridRef, recAt twoThree gridRef]) = [[[2, 3]], [[2, 3]]] := by
  decide +kernel

/-- The record listed three times: the list is turned twice before the third is written. -/
example : shapesRead (writeShared twoThree [gridRef, gridRef, gridRef]).1 = [[[2, 3]], [[3, 2]], [[2, 3]]] ∧
    (writeShared twoThree [gridRef, gridRef, gridRef]).2 0 = [3, 2] := by
  decide +kernel

example : ∃ out, (writeShared twoThree [gridRef, gridRef]).1 = .ok out ∧
    writeBytes [recAt twoThree gridRef, recAt twoThree gridRef] ≠ .ok out := by
  cases h : (writeShared twoThree [gridRef, gridRef]).1 with
  | error e => exact absurd (show (writeShared twoThree [gridRef, gridRef]).1.isOk = true by decide +kernel) (by rw [h]; nofun)
  | ok out =>
    exact ⟨out, rfl, C87_twice_violation twoThree (pre := [.scalar ⟨py! "n", .int 7, 2, .h⟩]) (post := []) rfl (by decide) (by decide)
      (by decide) h⟩

/-- The record beside one that differs in the number of the list. -/
def otherRef : RefRec :=
  [(py! "n", .scalar ⟨py! "n", .int 7, 2, .h⟩),
   (py! "a", .array ⟨py! "a", ⟨.int8, [2, 3], [[1], [2], [3], [4], [5], [6]]⟩, 1, .c, 2, []⟩ 1)]

example : Straight twoThree ([gridRef, otherRef].flatMap fieldList) ∧
    (writeShared twoThree [gridRef, otherRef]).1 = writeBytes [recAt twoThree gridRef, recAt twoThree otherRef] := by
  have hw : (writeShared twoThree [gridRef, otherRef]).1 = writeBytes [recAt twoThree gridRef, recAt twoThree otherRef] := by
    decide +kernel
  cases h : (writeShared twoThree [gridRef, otherRef]).1 with
  | error e => exact absurd (show (writeShared twoThree [gridRef, otherRef]).1.isOk = true by decide +kernel) (by rw [h]; nofun)
  | ok out =>
    rw [h] at hw
    exact ⟨(C87_iff twoThree h (by simp)).1 hw.symm, hw⟩

/-- They are also `ListsApart`, as are any records with one-dimensional arrays. -/
example : ListsApart ([gridRef, otherRef].flatMap fieldList) := by
  intro before a id after e b i hb hd
  rcases before with _ | ⟨x0, _ | ⟨x1, _ | ⟨x2, _ | ⟨x3, before⟩⟩⟩⟩ <;>
    simp [fieldList, gridRef, otherRef] at e
  · obtain ⟨rfl, -⟩ := e
    simp at hb
  · obtain ⟨rfl, rfl, rfl, ⟨-, rfl⟩, -⟩ := e
    simp at hb
    omega

end Verif
