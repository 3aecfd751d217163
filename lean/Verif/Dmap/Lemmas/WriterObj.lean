import Verif.Dmap.Lemmas.Char
/-!
# The writer object over several calls
-/
namespace Verif
open Spec

/-! ## What happens to the records -/

theorem touched_left (a : DmapArray) : Touched (.array a) (.array (leftArray a)) := by
  unfold leftArray
  split
  · exact .inr ⟨a, rfl, by assumption, rfl⟩
  · exact .inl rfl

theorem Pairs.refl {α : Type} {R : α → α → Prop} (h : ∀ x, R x x) (l : List α) : Pairs R l l := by
  induction l with
  | nil => exact .nil
  | cons x l ih => exact .cons (h x) ih

theorem touchedRec_refl (r : Rec) : TouchedRec r r := Pairs.refl (fun _ => ⟨rfl, .inl rfl⟩) r

theorem encodeFields_touched (rn : Nat) (r : Rec) : TouchedRec r (encodeFields rn r).2 := by
  induction r with
  | nil => exact .nil
  | cons p r ih =>
    obtain ⟨k, f⟩ := p
    cases f with
    | other => exact touchedRec_refl _
    | scalar s =>
      simp only [encodeFields]
      cases scalarToBytes rn s with
      | error e => exact touchedRec_refl _
      | ok b =>
        simp only
        cases he : encodeFields rn r with
        | mk x r1 =>
          rw [he] at ih
          cases x <;> exact .cons ⟨rfl, .inl rfl⟩ ih
    | array a =>
      simp only [encodeFields]
      have ht : Touched (.array a) (.array (arrayToBytes rn a).2) := by
        rcases arrayToBytes_left rn a with h | h
        · rw [h]; exact .inl rfl
        · rw [h]; exact touched_left a
      cases ha : arrayToBytes rn a with
      | mk y a' =>
        rw [ha] at ht
        cases y with
        | error e => exact .cons ⟨rfl, ht⟩ (touchedRec_refl _)
        | ok b =>
          simp only
          cases he : encodeFields rn r with
          | mk x r1 =>
            rw [he] at ih
            cases x <;> exact .cons ⟨rfl, ht⟩ ih

theorem recordToBytes_touched (rn : Nat) (buf : Bytes) (r : Rec) :
    TouchedRec r (recordToBytes rn buf r).2.2 := by
  have := encodeFields_touched rn r
  unfold recordToBytes
  cases he : encodeFields rn r with
  | mk x r1 =>
    rw [he] at this
    cases x with
    | error e => exact this
    | ok enc =>
      simp only
      generalize appendInts buf _ = z
      obtain ⟨z1, z2⟩ := z
      cases z1 <;> exact this

theorem recordsToBytes_touched (k rn : Nat) (buf : Bytes) (rs : List Rec) :
    Pairs TouchedRec rs (recordsToBytes k rn buf rs).2.2.2 := by
  induction rs generalizing k rn buf with
  | nil => exact .nil
  | cons r rs ih =>
    have h1 := recordToBytes_touched k buf r
    simp only [recordsToBytes]
    cases hr : recordToBytes k buf r with
    | mk x y =>
      obtain ⟨b1, r1⟩ := y
      rw [hr] at h1
      cases x with
      | error e => exact .cons h1 (Pairs.refl touchedRec_refl rs)
      | ok u => exact .cons h1 (ih (k + 1) k b1)

theorem isEmptyList_of_ne {w : Writer} (hne : w.recs ≠ []) : w.isEmptyList = false := by
  unfold Writer.isEmptyList
  cases hr : w.recs
  · exact absurd hr hne
  · simp

/-- A writer that holds records ignores the argument of `write_dmap_stream`. -/
theorem writeStream_eq {w : Writer} (hne : w.recs ≠ []) (inp : WInput) :
    w.writeStream inp =
      ((recordsToBytes 0 w.recNum w.buf w.recs).1.map fun _ => (recordsToBytes 0 w.recNum w.buf w.recs).2.1,
       { w with buf := (recordsToBytes 0 w.recNum w.buf w.recs).2.1,
                recNum := (recordsToBytes 0 w.recNum w.buf w.recs).2.2.1,
                recs := (recordsToBytes 0 w.recNum w.buf w.recs).2.2.2 }) := by
  unfold Writer.writeStream
  simp only [isEmptyList_of_ne hne, Bool.false_eq_true, if_false, Writer.emptyRecordCheck, Writer.recordsToBytes]
  generalize recordsToBytes 0 w.recNum w.buf w.recs = z
  obtain ⟨x, b, rn, rs⟩ := z
  cases x <;> rfl

theorem writeStream_touched {w : Writer} (hne : w.recs ≠ []) (inp : WInput) :
    Pairs TouchedRec w.recs (w.writeStream inp).2.recs := by
  rw [writeStream_eq hne]
  exact recordsToBytes_touched 0 w.recNum w.buf w.recs

theorem writeStream_filename (w : Writer) (inp : WInput) : (w.writeStream inp).2.filename = w.filename := by
  unfold Writer.writeStream
  generalize (if w.isEmptyList = true then checkDmapDict inp else Except.ok (w.isList, w.recs)) = z
  cases z with
  | error e => rfl
  | ok p =>
    obtain ⟨il, recs⟩ := p
    simp only
    split
    · rfl
    · unfold Writer.recordsToBytes
      simp only
      generalize recordsToBytes 0 w.recNum w.buf recs = z
      obtain ⟨x, b, rn, rs⟩ := z
      cases x <;> rfl

/-! ## No encoding step asks for a file name -/

theorem chrEncode_name {v : Int} : chrEncode v ≠ .error .filenameRequired := by
  unfold chrEncode
  split
  · nofun
  · split <;> nofun

theorem typeByte_name {v : Int} : typeByte v ≠ .error .filenameRequired := by
  unfold typeByte
  have := @chrEncode_name v
  cases h : chrEncode v with
  | error e => rw [h] at this; exact this
  | ok b =>
    simp only [bind, Except.bind]
    split <;> nofun

theorem packSigned_name {k : Nat} {v : Int} : packSigned k v ≠ .error .filenameRequired := by
  unfold packSigned; split <;> nofun

theorem packUnsigned_name {k : Nat} {v : Int} : packUnsigned k v ≠ .error .filenameRequired := by
  unfold packUnsigned; split <;> nofun

theorem scalarValueBytes_name {rn : Nat} {s : DmapScalar} : scalarValueBytes rn s ≠ .error .filenameRequired := by
  unfold scalarValueBytes
  split <;> first | exact chrEncode_name | exact packSigned_name | exact packUnsigned_name | (intro h; cases h; done) | (split <;> intro h <;> cases h)

theorem scalarToBytes_name {rn : Nat} {s : DmapScalar} : scalarToBytes rn s ≠ .error .filenameRequired := by
  unfold scalarToBytes
  have h1 := @typeByte_name s.dataType
  have h2 := @scalarValueBytes_name rn s
  cases h : typeByte s.dataType with
  | error e => rw [h] at h1; exact h1
  | ok b =>
    cases h' : scalarValueBytes rn s with
    | error e => rw [h'] at h2; exact h2
    | ok b => nofun

theorem packShape_name {l : List Int} : packShape l ≠ .error .filenameRequired := by
  induction l with
  | nil => nofun
  | cons x l ih =>
    unfold packShape
    have h1 := @packSigned_name 4 x
    cases h : packSigned 4 x with
    | error e => rw [h] at h1; exact h1
    | ok b =>
      cases h' : packShape l with
      | error e => rw [h'] at ih; exact ih
      | ok b => nofun

theorem arrayToBytes_name {rn : Nat} {a : DmapArray} : (arrayToBytes rn a).1 ≠ .error .filenameRequired := by
  have h0 : arrayTypeCheck rn a ≠ .error .filenameRequired := by
    unfold arrayTypeCheck
    repeat' split
    all_goals (intro h; cases h)
  have h1 := @typeByte_name a.dataType
  have h2 := @packSigned_name 4 a.dimension
  unfold arrayToBytes
  cases h : arrayTypeCheck rn a with
  | error e => rw [h] at h0; exact fun h => h0 (by injection h with h; rw [h])
  | ok u =>
    cases h' : typeByte a.dataType with
    | error e => rw [h'] at h1; exact h1
    | ok b =>
      cases h'' : packSigned 4 a.dimension with
      | error e => rw [h''] at h2; exact h2
      | ok b =>
        simp only
        split
        · rename_i h
          have := @packShape_name (if a.dimension > 1 then { a with shape := a.shape.reverse } else a).shape
          rw [h] at this
          exact this
        · nofun

theorem encodeFields_name {rn : Nat} {r : Rec} : (encodeFields rn r).1 ≠ .error .filenameRequired := by
  induction r with
  | nil => nofun
  | cons p r ih =>
    obtain ⟨k, f⟩ := p
    cases f with
    | other => nofun
    | scalar s =>
      have h1 := @scalarToBytes_name rn s
      simp only [encodeFields]
      cases h : scalarToBytes rn s with
      | error e => rw [h] at h1; exact fun h => h1 (by injection h with h; rw [h])
      | ok b =>
        simp only
        cases he : encodeFields rn r with
        | mk x r1 =>
          rw [he] at ih
          cases x with
          | error e => exact ih
          | ok enc => nofun
    | array a =>
      have h1 := @arrayToBytes_name rn a
      simp only [encodeFields]
      cases h : arrayToBytes rn a with
      | mk y a' =>
        rw [h] at h1
        cases y with
        | error e => exact fun h => h1 (by injection h with h; rw [h])
        | ok b =>
          simp only
          cases he : encodeFields rn r with
          | mk x r1 =>
            rw [he] at ih
            cases x with
            | error e => exact ih
            | ok enc => nofun

theorem appendInts_name {buf : Bytes} {l : List Int} : (appendInts buf l).1 ≠ .error .filenameRequired := by
  induction l generalizing buf with
  | nil => nofun
  | cons v l ih =>
    have h1 := @packSigned_name 4 v
    simp only [appendInts, appendInt]
    cases h : packSigned 4 v with
    | error e => rw [h] at h1; exact fun h => h1 (by injection h with h; rw [h])
    | ok b => exact ih

theorem recordToBytes_name {rn : Nat} {buf : Bytes} {r : Rec} :
    (recordToBytes rn buf r).1 ≠ .error .filenameRequired := by
  have h1 := @encodeFields_name rn r
  unfold recordToBytes
  cases he : encodeFields rn r with
  | mk x r1 =>
    rw [he] at h1
    cases x with
    | error e => exact fun h => h1 (by injection h with h; rw [h])
    | ok enc =>
      simp only
      have h2 := @appendInts_name buf [encodingIdentifier, enc.data.length + 16, enc.numScalars, enc.numArrays]
      cases ha : appendInts buf [encodingIdentifier, enc.data.length + 16, enc.numScalars, enc.numArrays] with
      | mk y b =>
        rw [ha] at h2
        cases y with
        | error e => exact h2
        | ok u => nofun

theorem recordsToBytes_name {k rn : Nat} {buf : Bytes} {rs : List Rec} :
    (recordsToBytes k rn buf rs).1 ≠ .error .filenameRequired := by
  induction rs generalizing k rn buf with
  | nil => nofun
  | cons r rs ih =>
    have h1 := @recordToBytes_name k buf r
    simp only [recordsToBytes]
    cases hr : recordToBytes k buf r with
    | mk x y =>
      obtain ⟨b1, r1⟩ := y
      rw [hr] at h1
      cases x with
      | error e => exact h1
      | ok u => exact ih

theorem writeStream_not_filename {w w' : Writer} (h : w.writeStream noRecords = (.error .filenameRequired, w')) :
    False := by
  unfold Writer.writeStream at h
  have hz : (if w.isEmptyList = true then checkDmapDict noRecords else Except.ok (w.isList, w.recs)) =
      .ok (if w.isEmptyList = true then (true, []) else (w.isList, w.recs)) := by
    split <;> rfl
  rw [hz] at h
  simp only [Writer.emptyRecordCheck] at h
  split at h
  · rename_i h2
    split at h2 <;> cases h2
    cases h
  · unfold Writer.recordsToBytes at h
    simp only at h
    have := @recordsToBytes_name 0 w.recNum w.buf (if w.isEmptyList = true then (true, []) else (w.isList, w.recs)).2
    generalize recordsToBytes 0 w.recNum w.buf _ = z at h this
    obtain ⟨x, b, rn, rs⟩ := z
    cases x with
    | error e => cases h; exact this rfl
    | ok u => cases h

theorem pairs_flat {r r' : Rec} (h : TouchedRec r r') (hf : FlatRec r) : r' = r := by
  induction h with
  | nil => rfl
  | @cons p q r r' hpq _ ih =>
    obtain ⟨h1, h2⟩ := hpq
    have e := ih fun k a ha => hf k a (List.mem_cons_of_mem _ ha)
    rw [e]
    congr 1
    obtain ⟨k, f⟩ := p
    obtain ⟨k', f'⟩ := q
    simp only at h1 h2
    subst h1
    rcases h2 with rfl | ⟨a, rfl, hd, _⟩
    · rfl
    · have := hf k' a (by simp)
      omega

theorem pairs_flatList {rs rs' : List Rec} (h : Pairs TouchedRec rs rs') (hf : ∀ r ∈ rs, FlatRec r) :
    rs' = rs := by
  induction h with
  | nil => rfl
  | cons h1 _ ih =>
    rw [pairs_flat h1 (hf _ (by simp)), ih fun r hr => hf r (List.mem_cons_of_mem _ hr)]

theorem leftField_afterWrite (f : Field) : leftField f = afterWrite f := by
  cases f with
  | array a =>
    simp only [leftField, leftArray, afterWrite, gt_iff_lt]
    split <;> rfl
  | scalar s => rfl
  | other => rfl

theorem leftRec_afterWrite (r : Rec) : leftRec r = r.map fun p => (p.1, afterWrite p.2) := by
  unfold leftRec
  simp only [leftField_afterWrite]

theorem leftRec_flat {r : Rec} (h : FlatRec r) : leftRec r = r := by
  unfold leftRec
  refine (List.map_congr_left (g := id) fun p hp => ?_).trans (List.map_id _)
  obtain ⟨k, f⟩ := p
  cases f with
  | array a =>
    have := h k a hp
    simp only [leftField, leftArray, id]
    rw [if_neg (by omega)]
  | scalar s => rfl
  | other => rfl

/-! ## Writing what can be written -/

theorem recordToBytes_written' {rn : Nat} (buf : Bytes) {r : Rec} {data : Bytes} (h : Written rn r data)
    (hl : data.length + 16 < 2 ^ 31) (h1 : (scalarsOf r).length < 2 ^ 31) (h2 : (arraysOf r).length < 2 ^ 31) :
    recordToBytes rn buf r = (.ok (), buf ++ blockBytes r data, leftRec r) := by
  have := recordToBytes_eq (buf := buf) (l := [65537, data.length + 16, (scalarsOf r).length,
    (arraysOf r).length].map fun n : Nat => (n : Int)) (encodeFields_written h) (by simp [encodingIdentifier])
    (appendInts_nats buf ?_)
  · rw [this]
    simp only [blockBytes, List.flatMap_cons, List.flatMap_nil, List.append_assoc, List.append_nil]
  · intro n hn'
    simp only [List.mem_cons, List.not_mem_nil, or_false] at hn'
    omega

/-- After writable records the loop goes on with the rest. -/
theorem recordsToBytes_append {k rn : Nat} (buf : Bytes) {rs : List Rec} (rest : List Rec) {bs : Bytes}
    (h : WrittenList k rs bs) :
    ∃ rn', recordsToBytes k rn buf (rs ++ rest) =
      ((recordsToBytes (k + rs.length) rn' (buf ++ bs) rest).1,
       (recordsToBytes (k + rs.length) rn' (buf ++ bs) rest).2.1,
       (recordsToBytes (k + rs.length) rn' (buf ++ bs) rest).2.2.1,
       rs.map leftRec ++ (recordsToBytes (k + rs.length) rn' (buf ++ bs) rest).2.2.2) := by
  induction h generalizing rn buf with
  | nil => exact ⟨rn, by simp⟩
  | @cons k r rs data bs h1 h2 h3 h4 _ ih =>
    obtain ⟨rn', h⟩ := ih (rn := k) (buf ++ blockBytes r data)
    refine ⟨rn', ?_⟩
    simp only [List.cons_append, recordsToBytes, recordToBytes_written' buf h1 h2 h3 h4, h, List.length_cons,
      List.map_cons, List.append_assoc, Nat.add_assoc, Nat.add_comm 1]

theorem recordsToBytes_writtenList {k rn : Nat} (buf : Bytes) {rs : List Rec} {bs : Bytes}
    (h : WrittenList k rs bs) :
    ∃ rn', recordsToBytes k rn buf rs = (.ok (), buf ++ bs, rn', rs.map leftRec) := by
  obtain ⟨rn', h⟩ := recordsToBytes_append (rn := rn) buf [] h
  exact ⟨rn', by simpa [recordsToBytes] using h⟩

theorem writeStream_written {w : Writer} (hne : w.recs ≠ []) (inp : WInput) {bs : Bytes}
    (h : WrittenList 0 w.recs bs) :
    ∃ rn', w.writeStream inp =
      (.ok (w.buf ++ bs), { w with buf := w.buf ++ bs, recNum := rn', recs := w.recs.map leftRec }) := by
  obtain ⟨rn', h⟩ := recordsToBytes_writtenList (rn := w.recNum) w.buf h
  refine ⟨rn', ?_⟩
  rw [writeStream_eq hne, h]
  rfl

theorem blockBytes_ne (r : Rec) (data : Bytes) : blockBytes r data ≠ [] := by
  intro h
  have := congrArg List.length h
  simp only [blockBytes, List.length_append, length_natLE, List.length_nil] at this
  omega

theorem writtenList_ne {k : Nat} {rs : List Rec} {bs : Bytes} (h : WrittenList k rs bs) (hne : rs ≠ []) :
    bs ≠ [] := by
  cases h with
  | nil => exact absurd rfl hne
  | cons => simp [blockBytes_ne]

/-! ## Positions in arrays -/

theorem rowMajor_lt {ns is : List Nat} {k : Nat} (h : rowMajor ns is = some k) : k < prod ns := by
  induction ns generalizing is k with
  | nil =>
    cases is with
    | nil => simp [rowMajor] at h; subst h; simp [prod]
    | cons => simp [rowMajor] at h
  | cons n ns ih =>
    cases is with
    | nil => simp [rowMajor] at h
    | cons i is =>
      simp only [rowMajor] at h
      split at h
      · cases hk : rowMajor ns is with
        | none => rw [hk] at h; simp at h
        | some k' =>
          rw [hk] at h
          simp only [Option.map_some, Option.some.injEq] at h
          have := ih hk
          subst h
          simp only [prod]
          have h1 : (i + 1) * prod ns ≤ n * prod ns := Nat.mul_le_mul_right _ (by omega)
          rw [Nat.add_mul, Nat.one_mul] at h1
          omega
      · cases h

theorem prod_append (l1 l2 : List Nat) : prod (l1 ++ l2) = prod l1 * prod l2 := by
  induction l1 with
  | nil => simp [prod]
  | cons n l ih => simp [prod, ih, Nat.mul_assoc]

theorem prod_reverse (l : List Nat) : prod l.reverse = prod l := by
  induction l with
  | nil => rfl
  | cons n l ih => simp [prod, prod_append, ih, Nat.mul_comm]

theorem firstFastest_snoc (ns is : List Nat) (n i : Nat) (hl : ns.length = is.length) :
    firstFastest (ns ++ [n]) (is ++ [i]) =
      if i < n then (firstFastest ns is).map fun k => k + prod ns * i else none := by
  induction ns generalizing is with
  | nil =>
    cases is with
    | nil => simp [firstFastest, prod]
    | cons => simp at hl
  | cons m ns ih =>
    cases is with
    | nil => simp at hl
    | cons j is =>
      simp only [List.cons_append, firstFastest]
      rw [ih is (by simpa using hl)]
      by_cases hj : j < m <;> by_cases hi : i < n <;> simp only [hj, hi, if_true, if_false, Option.map_none]
      cases firstFastest ns is with
      | none => rfl
      | some k =>
        simp only [Option.map_some, prod, Option.some.injEq]
        rw [Nat.mul_add, Nat.mul_assoc]; omega

theorem rowMajor_none_of_length {ns is : List Nat} (h : ns.length ≠ is.length) : rowMajor ns is = none := by
  induction ns generalizing is with
  | nil => cases is <;> simp_all [rowMajor]
  | cons n ns ih =>
    cases is with
    | nil => rfl
    | cons i is =>
      simp only [rowMajor]
      rw [ih (by simpa using h)]
      simp

theorem firstFastest_none_of_length {ns is : List Nat} (h : ns.length ≠ is.length) :
    firstFastest ns is = none := by
  induction ns generalizing is with
  | nil => cases is <;> simp_all [firstFastest]
  | cons n ns ih =>
    cases is with
    | nil => rfl
    | cons i is =>
      simp only [firstFastest]
      rw [ih (by simpa using h)]
      simp

/-- Row-major order of a shape is first-fastest order of the reversed shape. -/
theorem firstFastest_reverse (ns is : List Nat) : firstFastest ns.reverse is.reverse = rowMajor ns is := by
  by_cases hl : ns.length = is.length
  · induction ns generalizing is with
    | nil =>
      cases is with
      | nil => rfl
      | cons => simp at hl
    | cons n ns ih =>
      cases is with
      | nil => simp at hl
      | cons i is =>
        have hl' : ns.length = is.length := by simpa using hl
        simp only [List.reverse_cons, rowMajor]
        rw [firstFastest_snoc _ _ _ _ (by simpa using hl'), ih is hl', prod_reverse]
        simp only [Nat.add_comm, Nat.mul_comm]
  · rw [rowMajor_none_of_length hl, firstFastest_none_of_length (by simpa using hl)]

/-- In a concatenation of cells of one size the `k`-th cell is at its place. -/
theorem flatten_cell {cs : List Bytes} {n : Nat} (h : ∀ x ∈ cs, x.length = n) {k : Nat} {x : Bytes}
    (hk : cs[k]? = some x) : (cs.flatten.drop (k * n)).take n = x := by
  induction cs generalizing k with
  | nil => simp at hk
  | cons y cs ih =>
    have hy := h y (by simp)
    cases k with
    | zero =>
      simp only [List.getElem?_cons_zero, Option.some.injEq] at hk
      subst hk
      simp only [Nat.zero_mul, List.drop_zero, List.flatten_cons]
      rw [← hy, List.take_left]
    | succ k =>
      have := ih (fun z hz => h z (List.mem_cons_of_mem _ hz)) (k := k) (by simpa using hk)
      rw [← this, List.flatten_cons, Nat.succ_mul, Nat.add_comm, ← List.drop_drop]
      rw [show y ++ cs.flatten = y ++ cs.flatten from rfl, ← hy, List.drop_left]

end Verif
