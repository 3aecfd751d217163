import Verif.Dmap.Model.Arrays
import Verif.Dmap.Props.InputKinds
/-!
# C93: a writer writes the values it was given

Specification: `writeGiven (plainInput (valsNow t l))`, a writer made from the values in the arrays at one time and used at once.
-/
namespace Verif
open Spec

/-- The value a caller sees now. -/
def HeldVal.now (t : ArrTable) : HeldVal → PlainVal
  | .scalar ty v => .scalar ty v
  | .arr id => .arr (t id)

/-- The dictionaries of the caller with what their arrays contain now. -/
def valsNow (t : ArrTable) (l : List HeldRec) : List PlainRec := l.map fun d => d.map fun p => (p.1, p.2.now t)

/-- The numbers of the arrays in a value. -/
def HeldVal.ids : HeldVal → List Nat
  | .scalar _ _ => []
  | .arr id => [id]

/-- The numbers of the arrays in the dictionaries of the caller. -/
def arrayIds (l : List HeldRec) : List Nat := l.flatMap fun d => d.flatMap fun p => p.2.ids

/-- The bytes of an array. -/
def ArrTable.bytes (t : ArrTable) (id : Nat) : Bytes := (t id).cells.flatten

/-- `w = DmapWrite(l)` when the arrays contain `t0`, then `w.write_dmap_stream()` when they contain `t1`. -/
def makeThenWrite (t0 t1 : ArrTable) (l : List HeldRec) : Except Err Bytes :=
  match heldWriter t0 l with
  | .error e => .error e
  | .ok rs => heldStream t1 rs

/-! ## Lemmas -/

/-- The numbers of the arrays in a kept field. -/
def HeldField.ids : HeldField → List Nat
  | .scalar _ => []
  | .array id _ _ _ _ _ => [id]

/-- The arrays in a kept record. -/
def keptIds (r : Dict PyStr HeldField) : List Nat := r.flatMap fun p => p.2.ids

theorem heldField_ids {t : ArrTable} {k : PyStr} {v : HeldVal} {f : HeldField} (h : heldField t k v = .ok f) : f.ids = v.ids := by
  cases v with
  | scalar ty v =>
    simp only [heldField] at h
    cases hf : formatConversion ty with
    | none => rw [hf] at h; cases h
    | some fm =>
      rw [hf] at h; simp only at h
      cases hc : dmapFormatTypes fm with
      | none => rw [hc] at h; cases h
      | some c => rw [hc] at h; cases h; rfl
  | arr id =>
    simp only [heldField] at h
    cases hf : formatConversion (.np (t id).dtype) with
    | none => rw [hf] at h; cases h
    | some fm =>
      rw [hf] at h; simp only at h
      cases hc : dmapFormatTypes fm with
      | none => rw [hc] at h; cases h
      | some c => rw [hc] at h; cases h; rfl

theorem heldRec_ids {t : ArrTable} {d : HeldRec} {r : Dict PyStr HeldField} (h : heldRec t d = .ok r) :
    keptIds r = d.flatMap fun p => p.2.ids := by
  induction d generalizing r with
  | nil => cases h; rfl
  | cons p d ih =>
    obtain ⟨k, v⟩ := p
    simp only [heldRec] at h
    cases h1 : heldField t k v with
    | error e => rw [h1] at h; cases h
    | ok f =>
      cases h2 : heldRec t d with
      | error e => rw [h1, h2] at h; cases h
      | ok r' =>
        rw [h1, h2] at h
        cases h
        have := ih h2
        simp only [keptIds, List.flatMap_cons] at this ⊢
        rw [this, heldField_ids h1]

theorem heldWriter_ids {t : ArrTable} {l : List HeldRec} {rs : List (Dict PyStr HeldField)} (h : heldWriter t l = .ok rs) :
    rs.flatMap keptIds = arrayIds l := by
  induction l generalizing rs with
  | nil => cases h; rfl
  | cons d l ih =>
    simp only [heldWriter] at h
    cases h1 : heldRec t d with
    | error e => rw [h1] at h; cases h
    | ok r =>
      cases h2 : heldWriter t l with
      | error e => rw [h1, h2] at h; cases h
      | ok rs' =>
        rw [h1, h2] at h
        cases h
        have := ih h2
        simp only [arrayIds, List.flatMap_cons] at this ⊢
        rw [this, heldRec_ids h1]

/-- Of the same type and shape. -/
def SameKind (t0 t1 : ArrTable) (l : List HeldRec) : Prop :=
  ∀ id ∈ arrayIds l, (t1 id).dtype = (t0 id).dtype ∧ (t1 id).shape = (t0 id).shape

theorem heldField_now {t0 t1 : ArrTable} (k : PyStr) (v : HeldVal)
    (hk : ∀ id ∈ v.ids, (t1 id).dtype = (t0 id).dtype ∧ (t1 id).shape = (t0 id).shape) :
    plainToField k (v.now t1) = (heldField t0 k v).map (HeldField.now t1) := by
  cases v with
  | scalar ty v =>
    simp only [HeldVal.now, plainToField, heldField]
    cases formatConversion ty with
    | none => rfl
    | some fm => simp only; cases dmapFormatTypes fm <;> rfl
  | arr id =>
    obtain ⟨h1, h2⟩ := hk id (List.mem_singleton.2 rfl)
    simp only [HeldVal.now, plainToField, heldField]
    rw [h1, h2]
    cases formatConversion (.np (t0 id).dtype) with
    | none => rfl
    | some fm => simp only; cases dmapFormatTypes fm <;> rfl

theorem heldRec_now {t0 t1 : ArrTable} (d : HeldRec)
    (hk : ∀ id ∈ d.flatMap (fun p => p.2.ids), (t1 id).dtype = (t0 id).dtype ∧ (t1 id).shape = (t0 id).shape) :
    plainToRec (d.map fun p => (p.1, p.2.now t1)) = (heldRec t0 d).map fun r => r.map fun p => (p.1, p.2.now t1) := by
  induction d with
  | nil => rfl
  | cons p d ih =>
    obtain ⟨k, v⟩ := p
    simp only [List.flatMap_cons, List.mem_append] at hk
    simp only [List.map_cons, plainToRec, heldRec]
    rw [heldField_now k v fun id hi => hk id (.inl hi), ih fun id hi => hk id (.inr hi)]
    cases heldField t0 k v with
    | error e => rfl
    | ok f => cases heldRec t0 d <;> rfl

theorem heldWriter_now {t0 t1 : ArrTable} (l : List HeldRec) (hk : SameKind t0 t1 l) :
    dict2dmap (valsNow t1 l) = (heldWriter t0 l).map (recsNow t1) := by
  induction l with
  | nil => rfl
  | cons d l ih =>
    simp only [SameKind, arrayIds, List.flatMap_cons, List.mem_append] at hk
    have h1 := heldRec_now d fun id hi => hk id (.inl hi)
    have h2 := ih fun id hi => hk id (.inr hi)
    simp only [valsNow, List.map_cons, dict2dmap, heldWriter] at h2 ⊢
    rw [h1, h2]
    cases heldRec t0 d with
    | error e => rfl
    | ok f => cases heldWriter t0 l <;> rfl

theorem heldStream_writeBytes (t : ArrTable) (rs : List (Dict PyStr HeldField)) : heldStream t rs = writeBytes (recsNow t rs) := by
  have h : asDmapRecs (dmapInput (recsNow t rs)).recs = recsNow t rs := asDmapRecs_dmap _
  unfold heldStream writeBytes Writer.new checkDmapDict
  cases hr : recsNow t rs with
  | nil => rfl
  | cons r l =>
    rw [hr] at h
    cases r with
    | nil =>
      simp only [dmapInput, List.map_cons, List.map_nil] at h ⊢
      rw [h]; rfl
    | cons p r =>
      simp only [dmapInput, List.map_cons] at h ⊢
      rw [h]; rfl

theorem arrayToBytes_pair {rn : Nat} {id0 id1 : NdArr} {nm : PyStr} {dt : Int} {fm : Fmt} {dm : Int} {sh : List Int} {b0 b1 : Bytes}
    (h0 : (arrayToBytes rn ⟨nm, id0, dt, fm, dm, sh⟩).1 = .ok b0)
    (h1 : (arrayToBytes rn ⟨nm, id1, dt, fm, dm, sh⟩).1 = .ok b1) :
    ∃ P, b0 = P ++ id0.cells.flatten ∧ b1 = P ++ id1.cells.flatten := by
  have key : ∀ (v : NdArr) (b : Bytes), (arrayToBytes rn ⟨nm, v, dt, fm, dm, sh⟩).1 = .ok b →
      ∃ tb db sb, typeByte dt = .ok tb ∧ packSigned 4 dm = .ok db ∧
        packShape (if dm > 1 then sh.reverse else sh) = .ok sb ∧ b = packStr nm ++ tb ++ db ++ sb ++ v.cells.flatten := by
    intro v b h
    simp only [arrayToBytes] at h
    cases hc : arrayTypeCheck rn ⟨nm, v, dt, fm, dm, sh⟩ with
    | error e => rw [hc] at h; cases h
    | ok u =>
      rw [hc] at h; simp only at h
      cases ht : typeByte dt with
      | error e => rw [ht] at h; cases h
      | ok tb =>
        rw [ht] at h; simp only at h
        cases hd : packSigned 4 dm with
        | error e => rw [hd] at h; cases h
        | ok db =>
          rw [hd] at h; simp only at h
          have e : (if dm > 1 then (⟨nm, v, dt, fm, dm, sh.reverse⟩ : DmapArray) else ⟨nm, v, dt, fm, dm, sh⟩).shape =
              (if dm > 1 then sh.reverse else sh) := by
            by_cases hdm : dm > 1
            · rw [if_pos hdm, if_pos hdm]
            · rw [if_neg hdm, if_neg hdm]
          rw [e] at h
          cases hs : packShape (if dm > 1 then sh.reverse else sh) with
          | error e => rw [hs] at h; cases h
          | ok sb =>
            rw [hs] at h
            cases h
            exact ⟨tb, db, sb, rfl, rfl, rfl, rfl⟩
  obtain ⟨tb, db, sb, e1, e2, e3, rfl⟩ := key _ _ h0
  obtain ⟨tb', db', sb', f1, f2, f3, rfl⟩ := key _ _ h1
  rw [e1] at f1; rw [e2] at f2; rw [e3] at f3
  cases f1; cases f2; cases f3
  exact ⟨_, rfl, rfl⟩

theorem append_length_eq {a b c d : Bytes} (h : a.length = b.length) (h' : c.length = d.length) :
    (a ++ c).length = (b ++ d).length := by
  rw [List.length_append, List.length_append, h, h']

theorem append_eq_iff {a b c d : Bytes} (h : a.length = b.length) : a ++ c = b ++ d ↔ a = b ∧ c = d :=
  ⟨fun e => List.append_inj e h, fun ⟨e, f⟩ => by rw [e, f]⟩

theorem encodeFields_pair {t0 t1 : ArrTable} (rn : Nat) (r : Dict PyStr HeldField)
    (hl : ∀ id ∈ keptIds r, (t0.bytes id).length = (t1.bytes id).length) {e0 e1 : Encoded}
    (h0 : (encodeFields rn (r.map fun p => (p.1, p.2.now t0))).1 = .ok e0)
    (h1 : (encodeFields rn (r.map fun p => (p.1, p.2.now t1))).1 = .ok e1) :
    e0.data.length = e1.data.length ∧ e0.numScalars = e1.numScalars ∧ e0.numArrays = e1.numArrays ∧
      (e0.data = e1.data ↔ ∀ id ∈ keptIds r, t0.bytes id = t1.bytes id) := by
  induction r generalizing e0 e1 with
  | nil =>
    cases h0; cases h1
    exact ⟨rfl, rfl, rfl, fun _ id hi => (List.not_mem_nil hi).elim, fun _ => rfl⟩
  | cons p r ih =>
    obtain ⟨k, f⟩ := p
    simp only [keptIds, List.flatMap_cons, List.mem_append] at hl
    cases f with
    | scalar s =>
      have hn : ∀ t, HeldField.now t (.scalar s) = .scalar s := fun _ => rfl
      simp only [List.map_cons, hn, encodeFields] at h0 h1
      cases hs : scalarToBytes rn s with
      | error e => rw [hs] at h0; cases h0
      | ok bs =>
        rw [hs] at h0 h1; simp only at h0 h1
        cases g0 : encodeFields rn (r.map fun p => (p.1, p.2.now t0)) with
        | mk x0 r0 =>
          cases g1 : encodeFields rn (r.map fun p => (p.1, p.2.now t1)) with
          | mk x1 r1 =>
            rw [g0] at h0; rw [g1] at h1
            cases x0 with
            | error e => cases h0
            | ok d0 =>
              cases x1 with
              | error e => cases h1
              | ok d1 =>
                cases h0; cases h1
                obtain ⟨i1, i2, i3, i4⟩ := ih (fun id hi => hl id (.inr hi)) (by rw [g0]) (by rw [g1])
                refine ⟨by simp only [List.length_append, i1], by simp only [i2], i3, ?_⟩
                simp only [keptIds, List.flatMap_cons, HeldField.ids, List.nil_append]
                rw [append_eq_iff rfl]
                exact ⟨fun h => i4.1 h.2, fun h => ⟨rfl, i4.2 h⟩⟩
    | array id nm dt fm dm sh =>
      have hn : ∀ t : ArrTable, HeldField.now t (.array id nm dt fm dm sh) = .array ⟨nm, t id, dt, fm, dm, sh⟩ := fun _ => rfl
      simp only [List.map_cons, hn, encodeFields] at h0 h1
      cases a0 : arrayToBytes rn ⟨nm, t0 id, dt, fm, dm, sh⟩ with
      | mk y0 b0 =>
        cases a1 : arrayToBytes rn ⟨nm, t1 id, dt, fm, dm, sh⟩ with
        | mk y1 b1 =>
          rw [a0] at h0; rw [a1] at h1
          cases y0 with
          | error e => cases h0
          | ok c0 =>
            cases y1 with
            | error e => cases h1
            | ok c1 =>
              simp only at h0 h1
              obtain ⟨P, rfl, rfl⟩ := arrayToBytes_pair (by rw [a0]) (by rw [a1])
              have hid : (t0.bytes id).length = (t1.bytes id).length := hl id (.inl (List.mem_singleton.2 rfl))
              cases g0 : encodeFields rn (r.map fun p => (p.1, p.2.now t0)) with
              | mk x0 r0 =>
                cases g1 : encodeFields rn (r.map fun p => (p.1, p.2.now t1)) with
                | mk x1 r1 =>
                  rw [g0] at h0; rw [g1] at h1
                  cases x0 with
                  | error e => cases h0
                  | ok d0 =>
                    cases x1 with
                    | error e => cases h1
                    | ok d1 =>
                      cases h0; cases h1
                      obtain ⟨i1, i2, i3, i4⟩ := ih (fun id hi => hl id (.inr hi)) (by rw [g0]) (by rw [g1])
                      have hb : (P ++ (t0 id).cells.flatten).length = (P ++ (t1 id).cells.flatten).length := by
                        rw [List.length_append, List.length_append]
                        exact congrArg _ hid
                      refine ⟨append_length_eq hb i1, i2, by simp only [i3], ?_⟩
                      simp only [keptIds, List.flatMap_cons, HeldField.ids, List.singleton_append, List.mem_cons]
                      rw [append_eq_iff hb, append_eq_iff rfl]
                      constructor
                      · rintro ⟨⟨_, h⟩, h'⟩ j (rfl | hj)
                        · exact h
                        · exact i4.1 h' j hj
                      · intro h
                        exact ⟨⟨rfl, h id (.inl rfl)⟩, i4.2 fun j hj => h j (.inr hj)⟩

theorem appendInts_pair {vs : List Int} {b0 b1 c0 c1 : Bytes} (h0 : appendInts b0 vs = (.ok (), c0))
    (h1 : appendInts b1 vs = (.ok (), c1)) : ∃ X, c0 = b0 ++ X ∧ c1 = b1 ++ X := by
  induction vs generalizing b0 b1 with
  | nil => cases h0; cases h1; exact ⟨[], (List.append_nil _).symm, (List.append_nil _).symm⟩
  | cons v vs ih =>
    simp only [appendInts, appendInt] at h0 h1
    cases hp : packSigned 4 v with
    | error e => rw [hp] at h0; cases h0
    | ok bs =>
      rw [hp] at h0 h1
      obtain ⟨X, e0, e1⟩ := ih h0 h1
      exact ⟨bs ++ X, by rw [e0, List.append_assoc], by rw [e1, List.append_assoc]⟩

theorem recordToBytes_pair {t0 t1 : ArrTable} (rn : Nat) (r : Dict PyStr HeldField)
    (hl : ∀ id ∈ keptIds r, (t0.bytes id).length = (t1.bytes id).length) {b0 b1 c0 c1 : Bytes} {r0 r1 : Rec}
    (hb : b0.length = b1.length)
    (h0 : recordToBytes rn b0 (r.map fun p => (p.1, p.2.now t0)) = (.ok (), c0, r0))
    (h1 : recordToBytes rn b1 (r.map fun p => (p.1, p.2.now t1)) = (.ok (), c1, r1)) :
    c0.length = c1.length ∧ (c0 = c1 ↔ b0 = b1 ∧ ∀ id ∈ keptIds r, t0.bytes id = t1.bytes id) := by
  simp only [recordToBytes] at h0 h1
  cases g0 : encodeFields rn (r.map fun p => (p.1, p.2.now t0)) with
  | mk x0 q0 =>
    cases g1 : encodeFields rn (r.map fun p => (p.1, p.2.now t1)) with
    | mk x1 q1 =>
      rw [g0] at h0; rw [g1] at h1
      cases x0 with
      | error e => cases h0
      | ok d0 =>
        cases x1 with
        | error e => cases h1
        | ok d1 =>
          obtain ⟨i1, i2, i3, i4⟩ := encodeFields_pair rn r hl (by rw [g0]) (by rw [g1])
          simp only at h0 h1
          rw [← i1, ← i2, ← i3] at h1
          cases k0 : appendInts b0 [encodingIdentifier, d0.data.length + 16, d0.numScalars, d0.numArrays] with
          | mk y0 z0 =>
            cases k1 : appendInts b1 [encodingIdentifier, d0.data.length + 16, d0.numScalars, d0.numArrays] with
            | mk y1 z1 =>
              rw [k0] at h0; rw [k1] at h1
              cases y0 with
              | error e => cases h0
              | ok u0 =>
                cases y1 with
                | error e => cases h1
                | ok u1 =>
                  cases h0; cases h1
                  obtain ⟨X, rfl, rfl⟩ := appendInts_pair k0 k1
                  have hx : (b0 ++ X).length = (b1 ++ X).length := by rw [List.length_append, List.length_append, hb]
                  refine ⟨append_length_eq hx i1, ?_⟩
                  rw [append_eq_iff hx, append_eq_iff hb, i4]
                  exact ⟨fun h => ⟨h.1.1, h.2⟩, fun h => ⟨⟨h.1, rfl⟩, h.2⟩⟩

theorem recordsToBytes_pair {t0 t1 : ArrTable} (k n0 n1 : Nat) (rs : List (Dict PyStr HeldField))
    (hl : ∀ id ∈ rs.flatMap keptIds, (t0.bytes id).length = (t1.bytes id).length) {b0 b1 : Bytes} (hb : b0.length = b1.length)
    (h0 : (recordsToBytes k n0 b0 (recsNow t0 rs)).1 = .ok ()) (h1 : (recordsToBytes k n1 b1 (recsNow t1 rs)).1 = .ok ()) :
    ((recordsToBytes k n0 b0 (recsNow t0 rs)).2.1 = (recordsToBytes k n1 b1 (recsNow t1 rs)).2.1 ↔
      b0 = b1 ∧ ∀ id ∈ rs.flatMap keptIds, t0.bytes id = t1.bytes id) := by
  induction rs generalizing k n0 n1 b0 b1 with
  | nil => exact ⟨fun h => ⟨h, fun id hi => (List.not_mem_nil hi).elim⟩, fun h => h.1⟩
  | cons r rs ih =>
    simp only [List.flatMap_cons, List.mem_append] at hl
    simp only [recsNow, List.map_cons, recordsToBytes] at h0 h1 ⊢
    cases g0 : recordToBytes k b0 (r.map fun p => (p.1, p.2.now t0)) with
    | mk x0 q0 =>
      cases g1 : recordToBytes k b1 (r.map fun p => (p.1, p.2.now t1)) with
      | mk x1 q1 =>
        obtain ⟨c0, r0⟩ := q0
        obtain ⟨c1, r1⟩ := q1
        rw [g0] at h0; rw [g1] at h1
        cases x0 with
        | error e => cases h0
        | ok u0 =>
          cases x1 with
          | error e => cases h1
          | ok u1 =>
            obtain ⟨j1, j2⟩ := recordToBytes_pair k r (fun id hi => hl id (.inl hi)) hb g0 g1
            have := ih (k + 1) k k (fun id hi => hl id (.inr hi)) j1 h0 h1
            simp only [recsNow] at this
            simp only [List.flatMap_cons, List.mem_append]
            refine this.trans ?_
            rw [j2]
            constructor
            · rintro ⟨⟨e, f⟩, g⟩
              exact ⟨e, fun id hi => hi.elim (f id) (g id)⟩
            · rintro ⟨e, f⟩
              exact ⟨⟨e, fun id hi => f id (.inl hi)⟩, fun id hi => f id (.inr hi)⟩

theorem heldStream_ok {t : ArrTable} {rs : List (Dict PyStr HeldField)} {out : Bytes} (h : heldStream t rs = .ok out) :
    (recordsToBytes 0 0 [] (recsNow t rs)).1 = .ok () ∧ (recordsToBytes 0 0 [] (recsNow t rs)).2.1 = out := by
  cases rs with
  | nil => cases h
  | cons r rs =>
    have e : recsNow t (r :: rs) = (r.map fun p => (p.1, p.2.now t)) :: recsNow t rs := rfl
    simp only [heldStream, Writer.writeStream, Writer.isEmptyList, e, List.isEmpty_cons, Bool.and_false, Bool.false_eq_true,
      if_false, Writer.emptyRecordCheck, Writer.recordsToBytes] at h
    rw [e]
    generalize recordsToBytes 0 0 [] ((r.map fun p => (p.1, p.2.now t)) :: recsNow t rs) = x at h ⊢
    obtain ⟨y, b, n, q⟩ := x
    cases y with
    | error e => cases h
    | ok u => cases h; exact ⟨rfl, rfl⟩

/-! ## C93 -/

/-- With changes of the numbers in arrays in between, what is written is what a writer made and used at the time of writing writes,
also where that fails. -/
theorem C93_now {t0 t1 : ArrTable} {l : List HeldRec} (hne : l ≠ []) (hd : l.head? ≠ some []) (hk : SameKind t0 t1 l) :
    makeThenWrite t0 t1 l = writeGiven (plainInput (valsNow t1 l)) := by
  have hne' : valsNow t1 l ≠ [] := by
    intro h
    exact hne (List.map_eq_nil_iff.1 h)
  have hd' : (valsNow t1 l).head? ≠ some [] := by
    cases l with
    | nil => exact (hne rfl).elim
    | cons d l =>
      cases d with
      | nil => exact (hd rfl).elim
      | cons p d => simp [valsNow]
  have h := C83_plain_partial true hne' hd'
  have e : (⟨true, (plainInput (valsNow t1 l)).recs⟩ : WInput) = plainInput (valsNow t1 l) := rfl
  rw [e] at h
  rw [h, heldWriter_now l hk]
  unfold makeThenWrite
  cases heldWriter t0 l with
  | error e => rfl
  | ok rs => exact heldStream_writeBytes t1 rs

/-- The part that holds: nothing else is looked at, so with the arrays of these records as they were, the values that the writer
was given are written, whatever happened to other arrays. -/
theorem C93_unchanged_partial {t0 t1 : ArrTable} {l : List HeldRec} (hne : l ≠ []) (hd : l.head? ≠ some [])
    (h : ∀ id ∈ arrayIds l, t1 id = t0 id) : makeThenWrite t0 t1 l = writeGiven (plainInput (valsNow t0 l)) := by
  rw [C93_now hne hd fun id hi => by rw [h id hi]; exact ⟨rfl, rfl⟩]
  have e : valsNow t1 l = valsNow t0 l := by
    refine List.map_congr_left fun d hd => List.map_congr_left fun p hp => ?_
    obtain ⟨k, v⟩ := p
    cases v with
    | scalar ty v => rfl
    | arr id =>
      have : id ∈ arrayIds l := List.mem_flatMap.2 ⟨d, hd, List.mem_flatMap.2 ⟨_, hp, List.mem_singleton.2 rfl⟩⟩
      simp only [HeldVal.now, h id this]
  rw [e]

/-- A writer made from DMAP structures keeps the records of the caller, with their arrays: what is written is what a writer made
from them at the time of writing writes, whatever the arrays were before, also of other types and shapes. -/
theorem C93_dmap (t : ArrTable) (rs : List (Dict PyStr HeldField)) : heldStream t rs = writeBytes (recsNow t rs) :=
  heldStream_writeBytes t rs

/-- With DMAP structures too the values at the time the writer was made are written exactly when the bytes of every array in the
records are as they were. -/
theorem C93_dmap_exact {t0 t1 : ArrTable} {rs : List (Dict PyStr HeldField)}
    (hl : ∀ id ∈ rs.flatMap keptIds, (t0.bytes id).length = (t1.bytes id).length) {given written : Bytes}
    (h0 : writeBytes (recsNow t0 rs) = .ok given) (h1 : heldStream t1 rs = .ok written) :
    written = given ↔ ∀ id ∈ rs.flatMap keptIds, t1.bytes id = t0.bytes id := by
  rw [← heldStream_writeBytes] at h0
  obtain ⟨a0, a1⟩ := heldStream_ok h0
  obtain ⟨b0, b1⟩ := heldStream_ok h1
  have := recordsToBytes_pair 0 0 0 rs hl (b0 := []) (b1 := []) rfl a0 b0
  rw [a1, b1] at this
  constructor
  · intro e id hi
    exact ((this.1 e.symm).2 id hi).symm
  · intro e
    exact (this.2 ⟨rfl, fun id hi => (e id hi).symm⟩).symm

/-- Exactly when the values that the writer was given are written: when the bytes of every array in the records are as they
were. -/
theorem C93_exact {t0 t1 : ArrTable} {l : List HeldRec} (hne : l ≠ []) (hd : l.head? ≠ some [])
    (hl : ∀ id ∈ arrayIds l, (t0.bytes id).length = (t1.bytes id).length) {given written : Bytes}
    (h0 : writeGiven (plainInput (valsNow t0 l)) = .ok given) (h1 : makeThenWrite t0 t1 l = .ok written) :
    written = given ↔ ∀ id ∈ arrayIds l, t1.bytes id = t0.bytes id := by
  rw [← C93_now hne hd (t0 := t0) fun _ _ => ⟨rfl, rfl⟩] at h0
  unfold makeThenWrite at h0 h1
  cases hw : heldWriter t0 l with
  | error e => rw [hw] at h0; cases h0
  | ok rs =>
    rw [hw] at h0 h1
    rw [← heldWriter_ids hw] at hl ⊢
    exact C93_dmap_exact hl ((heldStream_writeBytes t0 rs).symm.trans h0) h1

/-- The violation: one array of the records with other bytes at the time of writing, and something else is written than the writer
was given. -/
theorem C93_violation {t0 t1 : ArrTable} {l : List HeldRec} (hne : l ≠ []) (hd : l.head? ≠ some [])
    (hl : ∀ id ∈ arrayIds l, (t0.bytes id).length = (t1.bytes id).length) {id : Nat} (hi : id ∈ arrayIds l)
    (hc : t1.bytes id ≠ t0.bytes id) {given written : Bytes}
    (h0 : writeGiven (plainInput (valsNow t0 l)) = .ok given) (h1 : makeThenWrite t0 t1 l = .ok written) : written ≠ given :=
  fun e => hc ((C93_exact hne hd hl h0 h1).1 e id hi)

/-! ## A case -/

/-- Two records that share the array with number 3. -/
def sharedRecs : List HeldRec :=
  [[(py! "n", .scalar .int (.int 2)), (py! "x", .arr 3)], [(py! "x", .arr 3), (py! "y", .arr 5)]]

/-- Two `int16` in every array. -/
def arrBefore : ArrTable := fun _ => ⟨.int16, [2], [[1, 0], [2, 0]]⟩

/-- The array with number `j` has another second cell. -/
def arrAfter (j : Nat) : ArrTable := fun i => if i = j then ⟨.int16, [2], [[1, 0], [9, 0]]⟩ else arrBefore i

theorem arrAfter_kind (j : Nat) : SameKind arrBefore (arrAfter j) sharedRecs := by
  intro id _
  unfold arrAfter
  by_cases h : id = j
  · rw [if_pos h]; exact ⟨rfl, rfl⟩
  · rw [if_neg h]; exact ⟨rfl, rfl⟩

/-- The hypotheses of `C93_now` hold with an array that is changed; the result is no error and is not what was given. -/
example : sharedRecs ≠ [] ∧ sharedRecs.head? ≠ some [] ∧ SameKind arrBefore (arrAfter 3) sharedRecs ∧
    ∃ a b, writeGiven (plainInput (valsNow arrBefore sharedRecs)) = .ok a ∧
      makeThenWrite arrBefore (arrAfter 3) sharedRecs = .ok b ∧ b ≠ a := by
  have hl : ∀ id ∈ arrayIds sharedRecs, (arrBefore.bytes id).length = ((arrAfter 3).bytes id).length := by decide +kernel
  have g0 : (writeGiven (plainInput (valsNow arrBefore sharedRecs))).isOk = true := by decide +kernel
  have g1 : (makeThenWrite arrBefore (arrAfter 3) sharedRecs).isOk = true := by decide +kernel
  refine ⟨by decide, by decide, arrAfter_kind 3, ?_⟩
  cases h0 : writeGiven (plainInput (valsNow arrBefore sharedRecs)) with
  | error e => rw [h0] at g0; cases g0
  | ok a =>
    cases h1 : makeThenWrite arrBefore (arrAfter 3) sharedRecs with
    | error e => rw [h1] at g1; cases g1
    | ok b =>
      exact ⟨a, b, rfl, rfl, C93_violation (by decide) (by decide) hl (id := 3) (by decide) (by decide) h0 h1⟩

/-- The array with number 3 as a column: `a.shape = (2, 1)`. -/
def arrColumn : ArrTable := fun i => if i = 3 then ⟨.int16, [2, 1], [[1, 0], [2, 0]]⟩ else arrBefore i

/-- `C93_now` needs the shapes: they are looked up when the writer is made, so that after `a.shape = (2, 1)` the old shape is
written (by `C93_exact` what was given), which is not what a writer made then writes. -/
example : makeThenWrite arrBefore arrColumn sharedRecs = writeGiven (plainInput (valsNow arrBefore sharedRecs)) ∧
    makeThenWrite arrBefore arrColumn sharedRecs ≠ writeGiven (plainInput (valsNow arrColumn sharedRecs)) := by
  decide +kernel

/-- A record of DMAP structures with two arrays (`C93_dmap_exact`): written in both states, and differently. -/
example : (∀ id ∈ [[(py! "x", HeldField.array 3 (py! "x") 2 .h 1 [2]), (py! "y", .array 5 (py! "y") 2 .h 1 [2])]].flatMap keptIds,
      (arrBefore.bytes id).length = ((arrAfter 5).bytes id).length) ∧
    (writeBytes (recsNow arrBefore [[(py! "x", .array 3 (py! "x") 2 .h 1 [2]), (py! "y", .array 5 (py! "y") 2 .h 1 [2])]])).isOk ∧
    (heldStream (arrAfter 5) [[(py! "x", .array 3 (py! "x") 2 .h 1 [2]), (py! "y", .array 5 (py! "y") 2 .h 1 [2])]]).isOk ∧
    (arrAfter 5).bytes 5 ≠ arrBefore.bytes 5 := by
  decide +kernel

/-- An array that is not in the records may change (`C93_unchanged_partial`). -/
example : (∀ id ∈ arrayIds sharedRecs, arrAfter 4 id = arrBefore id) ∧ arrAfter 4 4 ≠ arrBefore 4 := by decide

end Verif
