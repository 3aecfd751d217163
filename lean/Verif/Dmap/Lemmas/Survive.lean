import Verif.Dmap.Lemmas.Written
/-!
# Records that come back from a write are encodable
-/
namespace Verif
open Spec

theorem Dict.length_set {κ α : Type} [DecidableEq κ] (d : Dict κ α) (k : κ) (v : α) :
    (d.set k v).length = if k ∈ d.keys then d.length else d.length + 1 := by
  have hl : ∀ e : Dict κ α, e.length = e.keys.length := fun e => by simp [Dict.keys]
  split
  · rename_i h
    rw [hl, Dict.keys_set_of_mem h, ← hl]
  · rename_i h
    rw [Dict.set_of_not_mem h]; simp

/-- Building a dictionary from as many pairs as it has entries never met a key twice. -/
theorem Dict.nodup_of_length {κ α : Type} [DecidableEq κ] (l : List (κ × α)) (d : Dict κ α)
    (hd : d.keys.Nodup) :
    (l.foldl (fun d p => Dict.set d p.1 p.2) d).length ≤ d.length + l.length ∧
    ((l.foldl (fun d p => Dict.set d p.1 p.2) d).length = d.length + l.length →
      (Dict.keys (d ++ l)).Nodup) := by
  induction l generalizing d with
  | nil => simp; exact hd
  | cons p l ih =>
    obtain ⟨h1, h2⟩ := ih (d.set p.1 p.2) (Dict.nodup_set hd _ _)
    have hs := Dict.length_set d p.1 p.2
    simp only [List.foldl_cons, List.length_cons]
    by_cases hk : p.1 ∈ d.keys
    · rw [if_pos hk] at hs
      exact ⟨by omega, fun h => by omega⟩
    · rw [if_neg hk] at hs
      refine ⟨by omega, fun h => ?_⟩
      have := h2 (by omega)
      rw [Dict.set_of_not_mem hk] at this
      simpa using this

/-- Array loop with known non-negative shapes. -/
theorem readArraysL_sound' {cfg : NpCfg} {buf : Bytes} (rn : Nat) {n : Nat}
    (hn : n < 2 ^ 31) (k : Nat) {c c' : Int} {as : List DmapArray} (h0 : 0 ≤ c) (h1 : c ≤ buf.length)
    (h : readArraysL cfg buf rn n k c = (.ok as, c')) (hnn : ∀ a ∈ as, ∀ x ∈ a.shape, 0 ≤ x) :
    as.length = k ∧ ∃ bs, SeqEnc (ArrayEnc cfg.maxDims n presented) as bs ∧ At buf c bs ∧
      c' = c + bs.length := by
  induction k generalizing c as with
  | zero =>
    unfold readArraysL at h
    obtain ⟨rfl, rfl⟩ := rd_pure_ok.1 h
    exact ⟨rfl, [], .nil, at_nil.2 ⟨h0, h1⟩, by simp⟩
  | succ k ih =>
    unfold readArraysL at h
    rw [rd_bind_ok] at h
    obtain ⟨a, c1, ha, h⟩ := h
    rw [rd_bind_ok] at h
    obtain ⟨as', c2, has, h⟩ := h
    rw [rd_pure_ok] at h
    obtain ⟨rfl, rfl⟩ := h
    obtain ⟨b, ⟨hb, _⟩, hat, rfl⟩ :=
      (readArray_exact rn n hn c a c1 h0 h1 (hnn a (by simp))).1 ha
    have hbd := hat.bounds
    obtain ⟨hl, bs, hbs, hat2, rfl⟩ := ih (by omega) (by omega) has fun x hx => hnn x (by simp [hx])
    refine ⟨by simp [hl], b ++ bs, .cons hb hbs, at_append.2 ⟨hat, hat2⟩, by simp; omega⟩

theorem readArraysL_length {cfg : NpCfg} {buf : Bytes} {rn : Nat} {n : Int}
    (k : Nat) {c c' : Int} {as : List DmapArray}
    (h : readArraysL cfg buf rn n k c = (.ok as, c')) : as.length = k := by
  induction k generalizing c as with
  | zero =>
    unfold readArraysL at h
    obtain ⟨rfl, rfl⟩ := rd_pure_ok.1 h
    rfl
  | succ k ih =>
    unfold readArraysL at h
    rw [rd_bind_ok] at h
    obtain ⟨a, c1, ha, h⟩ := h
    rw [rd_bind_ok] at h
    obtain ⟨as', c2, has, h⟩ := h
    rw [rd_pure_ok] at h
    obtain ⟨rfl, rfl⟩ := h
    simp [ih has]

theorem natLE_inj {n m : Nat} (hn : n < 2 ^ 31) (hm : m < 2 ^ 31) (h : natLE 4 n = natLE 4 m) : n = m := by
  have := congrArg leNat h
  rw [leNat_natLE, leNat_natLE] at this
  omega

/-- Reading a written block that gives one record: the header is the one written. -/
theorem readRecord_written {cfg : NpCfg} {r rec : Rec} {data : Bytes}
    (hl : data.length + 16 < 2 ^ 31) (hs : (scalarsOf r).length < 2 ^ 31) (ha : (arraysOf r).length < 2 ^ 31)
    {c' : Int} (h : readRecord cfg (blockBytes r data) 0 0 = (.ok rec, c')) :
    ∃ (ss : List DmapScalar) (as : List DmapArray) (sb : Bytes),
      0 < (scalarsOf r).length ∧ 0 < (arraysOf r).length ∧
      ss.length = (scalarsOf r).length ∧ as.length = (arraysOf r).length ∧
      SeqEnc ScalarEnc ss sb ∧ At (blockBytes r data) 16 sb ∧
      rec = addArrays (addScalars [] ss) as ∧
      ((∀ a ∈ as, ∀ x ∈ a.shape, 0 ≤ x) → ∃ ab,
        SeqEnc (ArrayEnc cfg.maxDims (data.length + 16) presented) as ab ∧ data = sb ++ ab) := by
  have hlen : (blockBytes r data).length = data.length + 16 := by
    simp only [blockBytes, List.length_append, length_natLE]; omega
  obtain ⟨n, ns, na, ss, as, c1, h1, h2, h3, h4, h5, h6, h7, h8, h9, h10, h11, h12, h13⟩ :=
    (readRecord_ok (by omega) (by omega)).1 h
  have hat : At (blockBytes r data) (0 + 4) (natLE 4 (data.length + 16) ++ natLE 4 (scalarsOf r).length ++
      natLE 4 (arraysOf r).length) := by
    refine ⟨natLE 4 65537, data, ?_, by simp⟩
    simp only [blockBytes, List.append_assoc]
  have hd : At (blockBytes r data) 16 data := by
    refine ⟨natLE 4 65537 ++ natLE 4 (data.length + 16) ++ natLE 4 (scalarsOf r).length ++
      natLE 4 (arraysOf r).length, [], ?_, by simp⟩
    simp only [blockBytes, List.append_assoc, List.append_nil]
  have he := at_unique h9 hat (by simp)
  obtain ⟨he, e3⟩ := List.append_inj he (by simp)
  obtain ⟨e1, e2⟩ := List.append_inj he (by simp)
  have e1 := natLE_inj h1 hl e1
  have e2 := natLE_inj h5 hs e2
  have e3 := natLE_inj h6 ha e3
  subst e1 e2 e3
  have hb : (16 : Int) ≤ (blockBytes r data).length := by omega
  obtain ⟨sb, ⟨g1, g2⟩, g3, rfl⟩ := (readScalarsL_exact 0 _ (0 + 16) ss c1 (by omega) (by omega)).1 h10
  refine ⟨ss, as, sb, h3, h4, g1, readArraysL_length _ h11, g2, g3, h13, fun hnn => ?_⟩
  have hbd := g3.bounds
  obtain ⟨_, ab, g4, g5, g6⟩ := readArraysL_sound' 0 hl _ (by omega) (by omega) h11 hnn
  refine ⟨ab, g4, ?_⟩
  have hat2 : At (blockBytes r data) 16 (sb ++ ab) := at_append.2 ⟨g3, g5⟩
  exact at_unique hd hat2 (by simp only [List.length_append]; omega)

/-- A field list shown by a reader comes from scalars followed by arrays. -/
theorem fieldsOf_of_present {r : Rec} {ss : List DmapScalar} {as : List DmapArray}
    (h : presentRec r = fieldsOf ss as) : ∃ as0, r = fieldsOf ss as0 ∧ as = as0.map present := by
  unfold presentRec fieldsOf at h
  obtain ⟨r1, r2, rfl, h1, h2⟩ := List.map_eq_append_iff.1 h
  have e1 : r1 = ss.map fun s => (s.name, Field.scalar s) := by
    clear h h2
    induction r1 generalizing ss with
    | nil =>
      simp only [List.map_nil] at h1
      rw [← h1]
    | cons p r1 ih =>
      cases ss with
      | nil => simp at h1
      | cons s ss =>
        simp only [List.map_cons, List.cons.injEq] at h1
        obtain ⟨k, f⟩ := p
        rw [ih h1.2]
        simp only [List.map_cons, List.cons.injEq, and_true]
        have := h1.1
        simp only [Prod.mk.injEq] at this
        obtain ⟨rfl, hf⟩ := this
        cases f <;> simp_all [presentField]
  have e2 : ∃ as0 : List DmapArray, r2 = as0.map (fun a => (a.name, Field.array a)) ∧ as = as0.map present := by
    clear h h1
    induction r2 generalizing as with
    | nil =>
      simp only [List.map_nil] at h2
      have : as = [] := by simpa using h2.symm
      subst this
      exact ⟨[], rfl, rfl⟩
    | cons p r1 ih =>
      cases as with
      | nil => simp at h2
      | cons a as =>
        simp only [List.map_cons, List.cons.injEq] at h2
        obtain ⟨as0, rfl, rfl⟩ := ih h2.2
        obtain ⟨k, f⟩ := p
        have := h2.1
        simp only [Prod.mk.injEq] at this
        obtain ⟨rfl, hf⟩ := this
        cases f with
        | array a0 =>
          simp only [presentField, Field.array.injEq] at hf
          subst hf
          exact ⟨a0 :: as0, rfl, rfl⟩
        | scalar s => simp [presentField] at hf
        | other => simp [presentField] at hf
  obtain ⟨as0, rfl, rfl⟩ := e2
  exact ⟨as0, by rw [e1]; rfl, rfl⟩

theorem scalarsOf_fieldsOf (ss : List DmapScalar) (as : List DmapArray) : scalarsOf (fieldsOf ss as) = ss := by
  simp [scalarsOf, fieldsOf, List.filterMap_append, List.filterMap_map, Function.comp_def]

theorem arraysOf_fieldsOf (ss : List DmapScalar) (as : List DmapArray) : arraysOf (fieldsOf ss as) = as := by
  simp [arraysOf, fieldsOf, List.filterMap_append, List.filterMap_map, Function.comp_def]

/-- The read of a single written record, reduced to `read_record`. -/
theorem writeThenRead_one {cfg : NpCfg} {r rec : Rec} {ds : List PlainRec}
    (h : writeThenRead cfg [r] = .ok ([rec], ds)) :
    ∃ data c', Written 0 r data ∧ data.length + 16 < 2 ^ 31 ∧ (scalarsOf r).length < 2 ^ 31 ∧
      (arraysOf r).length < 2 ^ 31 ∧ readRecord cfg (blockBytes r data) 0 0 = (.ok rec, c') := by
  unfold writeThenRead at h
  cases hw : writeBytes [r] with
  | error e => rw [hw] at h; cases h
  | ok bs =>
    rw [hw] at h
    obtain ⟨_, hl⟩ := writeBytes_inv hw
    cases hl with
    | @cons _ _ _ data _ h1 h2 h3 h4 h5 =>
      cases h5
      refine ⟨data, ?_⟩
      simp only [List.append_nil] at h
      obtain ⟨hb, rd', g1, g2⟩ := readFile_ok.1 h
      obtain ⟨r1, g3, g4, g5, rfl⟩ := readRecords_ok.1 g1
      obtain ⟨sizes, recs, t1, t2, t3, t4, t5⟩ := readLoop_each cfg _ (freshReader (blockBytes r data)) r1 0 rfl
        (by simp) g3
      simp only at g2
      rw [t2] at g2
      simp only [freshReader, List.nil_append] at g2
      subst g2
      have := t5 0 rec rfl
      exact ⟨_, h1, h2, h3, h4, this⟩

/-- A record that comes back has its scalars first and distinct names. -/
theorem survive_order {cfg : NpCfg} {r : Rec} {ds : List PlainRec}
    (h : writeThenRead cfg [r] = .ok ([presentRec r], ds)) :
    ∃ ss as data sb, r = fieldsOf ss as ∧ ss ≠ [] ∧ as ≠ [] ∧ (r.map Prod.fst).Nodup ∧
      Written 0 r data ∧ data.length + 16 < 2 ^ 31 ∧ SeqEnc ScalarEnc ss sb ∧
      ((∀ a ∈ as, ∀ x ∈ a.shape, 0 ≤ x) → ∃ ab,
        SeqEnc (ArrayEnc cfg.maxDims (data.length + 16) presented) (as.map present) ab ∧ data = sb ++ ab) := by
  obtain ⟨data, c', h1, h2, h3, h4, h5⟩ := writeThenRead_one h
  obtain ⟨ss, as, sb, g1, g2, g3, g4, g5, g6, g7, g8⟩ := readRecord_written h2 h3 h4 h5
  have hlen := h1.length
  have e : addArrays (addScalars [] ss) as =
      (fieldsOf ss as).foldl (fun d p => Dict.set d p.1 p.2) [] := by
    unfold addArrays addScalars fieldsOf
    rw [List.foldl_append]
  rw [e] at g7
  have hpl : (presentRec r).length = r.length := by simp [presentRec]
  have hfl : (fieldsOf ss as).length = ss.length + as.length := by simp [fieldsOf]
  obtain ⟨_, hnd⟩ := Dict.nodup_of_length (fieldsOf ss as) ([] : Dict PyStr Field) (by simp)
  have hnd := hnd (by
    rw [← g7, hpl, hfl]; simp; omega)
  simp only [List.nil_append] at hnd
  have := Dict.ofList_of_nodup hnd
  unfold Dict.ofList at this
  rw [this] at g7
  obtain ⟨as0, hr, rfl⟩ := fieldsOf_of_present g7
  refine ⟨ss, as0, data, sb, hr, ?_, ?_, ?_, h1, h2, g5, ?_⟩
  · rintro rfl; simp at g3; omega
  · rintro rfl; simp at g4; omega
  · have hk : (presentRec r).map Prod.fst = r.map Prod.fst := by
      simp [presentRec]
    rw [← hk, g7]
    exact hnd
  · intro hnn
    refine g8 ?_
    simp only [List.mem_map]
    rintro _ ⟨a, ha, rfl⟩
    exact hnn a ha

theorem length_utf8EncodeChar (ch : Char) : 1 ≤ (utf8EncodeChar ch).length ∧
    ((utf8EncodeChar ch).length = 1 → ch.toNat < 128) := by
  unfold utf8EncodeChar
  simp only
  split
  · simp; omega
  · split
    · simp
    · split <;> simp

theorem length_utf8Encode_ge (s : PyStr) : s.length ≤ (utf8Encode s).length ∧
    ((utf8Encode s).length = s.length → Ascii s) := by
  induction s with
  | nil => simp [utf8Encode, Ascii]
  | cons ch s ih =>
    have := length_utf8EncodeChar ch
    have e : utf8Encode (ch :: s) = utf8EncodeChar ch ++ utf8Encode s := by simp [utf8Encode]
    rw [e]
    simp only [List.length_append, List.length_cons]
    refine ⟨by omega, fun h => ?_⟩
    have h1 := this.2 (by omega)
    have h2 := ih.2 (by omega)
    intro c hc
    rcases List.mem_cons.1 hc with rfl | hc
    · exact h1
    · exact h2 c hc

theorem length_packStr (s : PyStr) : (packStr s).length = s.length + 1 := by
  unfold packStr packS
  simp only [List.length_append, List.length_take, List.length_replicate, List.length_singleton]
  omega

theorem packStr_length_le (s : PyStr) : (packStr s).length ≤ (encStr s).length ∧
    ((packStr s).length = (encStr s).length → Ascii s) := by
  have := length_utf8Encode_ge s
  rw [length_packStr]
  simp only [encStr, List.length_append, List.length_singleton]
  exact ⟨by omega, fun h => this.2 (by omega)⟩

theorem typeByte_length {n : Int} {b : Bytes} (h : typeByte n = .ok b) : b.length = 1 := by
  unfold typeByte at h
  cases hc : chrEncode n with
  | error e => rw [hc] at h; cases h
  | ok bs =>
    rw [hc] at h
    replace h : (if bs.length = 1 then Except.ok bs else Except.error Err.structError) = Except.ok b := h
    split at h
    · cases h; assumption
    · cases h

theorem packSigned_length {k : Nat} {v : Int} {b : Bytes} (h : packSigned k v = .ok b) : b.length = k := by
  unfold packSigned at h
  split at h
  · cases h; simp
  · cases h

theorem packUnsigned_length {k : Nat} {v : Int} {b : Bytes} (h : packUnsigned k v = .ok b) : b.length = k := by
  unfold packUnsigned at h
  split at h
  · cases h; simp
  · cases h

theorem scalarValueBytes_length {rn : Nat} {s : DmapScalar} {b vb : Bytes} (h : scalarValueBytes rn s = .ok b)
    (he : ValEnc s.fmt s.value vb) (hc : s.fmt = .c → ∀ n, s.value = .int n → n < 128) :
    b.length ≤ vb.length ∧ (b.length = vb.length → ValueOK s.fmt s.value) := by
  obtain ⟨nm, v, dt, fm⟩ := s
  simp only at he hc
  cases he with
  | str ht =>
    simp only [scalarValueBytes, Except.ok.injEq] at h
    subst h
    have := packStr_length_le ‹PyStr›
    exact ⟨this.1, fun h => .str ⟨this.2 h, ht⟩⟩
  | f32 => simp only [scalarValueBytes, Except.ok.injEq] at h; subst h; exact ⟨by simp, fun _ => .f32 (quiet32_not _)⟩
  | f64 => simp only [scalarValueBytes, Except.ok.injEq] at h; subst h; exact ⟨by simp, fun _ => .f64⟩
  | @char n hn =>
    have hn := hc rfl n rfl
    have hn' : n < 128 := by omega
    simp only [scalarValueBytes, chrEncode_small hn', Except.ok.injEq] at h
    subst h
    exact ⟨by simp, fun _ => .char hn'⟩
  | i16 h1 h2 => exact ⟨by rw [packSigned_length h]; simp, fun _ => .i16 h1 h2⟩
  | i32 h1 h2 => exact ⟨by rw [packSigned_length h]; simp, fun _ => .i32 h1 h2⟩
  | i64 h1 h2 => exact ⟨by rw [packSigned_length h]; simp, fun _ => .i64 h1 h2⟩
  | u8 h1 => exact ⟨by rw [packUnsigned_length h]; simp, fun _ => .u8 h1⟩
  | u16 h1 => exact ⟨by rw [packUnsigned_length h]; simp, fun _ => .u16 h1⟩
  | u32 h1 => exact ⟨by rw [packUnsigned_length h]; simp, fun _ => .u32 h1⟩
  | u64 h1 => exact ⟨by rw [packUnsigned_length h]; simp, fun _ => .u64 h1⟩

theorem scalarToBytes_inv {rn : Nat} {s : DmapScalar} {b : Bytes} (h : scalarToBytes rn s = .ok b) :
    ∃ tb vb, typeByte s.dataType = .ok tb ∧ scalarValueBytes rn s = .ok vb ∧ b = packStr s.name ++ tb ++ vb := by
  unfold scalarToBytes at h
  cases ht : typeByte s.dataType with
  | error e => rw [ht] at h; cases h
  | ok tb =>
    cases hv : scalarValueBytes rn s with
    | error e => rw [ht, hv] at h; cases h
    | ok vb => rw [ht, hv] at h; cases h; exact ⟨tb, vb, rfl, rfl, rfl⟩

theorem scalarToBytes_length {rn : Nat} {s : DmapScalar} {b eb : Bytes} (h : scalarToBytes rn s = .ok b)
    (he : ScalarEnc s eb) (hc : s.fmt = .c → ∀ n, s.value = .int n → n < 128) :
    b.length ≤ eb.length ∧ (b.length = eb.length → ScalarOK s) := by
  obtain ⟨tb, vb, h1, h2, rfl⟩ := scalarToBytes_inv h
  obtain ⟨hn, hcode, vb', h3, rfl⟩ := he
  have g1 := packStr_length_le s.name
  have g2 := scalarValueBytes_length h2 h3 hc
  have g3 := typeByte_length h1
  simp only [List.length_append, List.length_singleton]
  exact ⟨by omega, fun h => ⟨⟨g1.2 (by omega), hn⟩, hcode, g2.2 (by omega)⟩⟩

theorem packShape_length {l : List Int} {b : Bytes} (h : packShape l = .ok b) : b.length = 4 * l.length := by
  induction l generalizing b with
  | nil => cases h; rfl
  | cons x l ih =>
    simp only [packShape] at h
    cases h1 : packSigned 4 x with
    | error e => rw [h1] at h; cases h
    | ok b1 =>
      cases h2 : packShape l with
      | error e => rw [h1, h2] at h; cases h
      | ok b2 =>
        rw [h1, h2] at h
        cases h
        rw [List.length_append, packSigned_length h1, ih h2, List.length_cons]; omega

theorem arrayToBytes_inv {rn : Nat} {a a' : DmapArray} {b : Bytes} (h : arrayToBytes rn a = (.ok b, a')) :
    ∃ tb db sb, arrayTypeCheck rn a = .ok () ∧ typeByte a.dataType = .ok tb ∧ packSigned 4 a.dimension = .ok db ∧
      packShape (leftArray a).shape = .ok sb ∧
      b = packStr a.name ++ tb ++ db ++ sb ++ a.value.cells.flatten ∧ a' = leftArray a := by
  unfold arrayToBytes at h
  cases h1 : arrayTypeCheck rn a with
  | error e => rw [h1] at h; cases h
  | ok u =>
    rw [h1] at h
    cases h2 : typeByte a.dataType with
    | error e => rw [h2] at h; cases h
    | ok tb =>
      rw [h2] at h
      cases h3 : packSigned 4 a.dimension with
      | error e => rw [h3] at h; cases h
      | ok db =>
        rw [h3] at h
        cases h4 : packShape (leftArray a).shape with
        | error e =>
          simp only at h
          change (match packShape (leftArray a).shape with
            | .error e => ((.error e : Except Err Bytes), leftArray a)
            | .ok sb => (.ok _, leftArray a)) = _ at h
          rw [h4] at h; cases h
        | ok sb =>
          simp only at h
          change (match packShape (leftArray a).shape with
            | .error e => ((.error e : Except Err Bytes), leftArray a)
            | .ok sb => (.ok _, leftArray a)) = _ at h
          rw [h4] at h; cases h
          exact ⟨tb, db, sb, rfl, rfl, rfl, rfl, rfl, rfl⟩

theorem arrayTypeCheck_inv {rn : Nat} {a : DmapArray} (h : arrayTypeCheck rn a = .ok ()) :
    (a.fmt = .c → a.value.shape.head? ≠ some 0) ∧
    (a.fmt = .c → a.value.shape.length = 1 → ∀ n, a.value.dtype ≠ .other n true) := by
  unfold arrayTypeCheck at h
  constructor
  · intro hf
    rw [hf] at h
    cases hs : a.value.shape with
    | nil => simp
    | cons m l =>
      rw [hs] at h
      rintro h0
      simp only [List.head?_cons, Option.some.injEq] at h0
      subst h0
      cases h
  · intro hf hl n hd
    rw [hf] at h
    match hs : a.value.shape, hl with
    | [m], _ =>
      rw [hs, hd] at h
      cases m <;> cases h

theorem length_leftArray_shape (a : DmapArray) : (leftArray a).shape.length = a.shape.length := by
  unfold leftArray
  split <;> simp

theorem arrayToBytes_length {rn mr size : Nat} {a a' : DmapArray} {b eb : Bytes}
    (h : arrayToBytes rn a = (.ok b, a')) (he : ArrayEnc mr size presented (present a) eb) :
    b.length ≤ eb.length ∧ (b.length = eb.length → ArrayOK mr size a) := by
  obtain ⟨tb, db, sb, h1, h2, h3, h4, rfl, _⟩ := arrayToBytes_inv h
  have hb := he.bytes
  have g1 := packStr_length_le a.name
  have g2 := typeByte_length h2
  have g3 := packSigned_length h3
  have g4 := packShape_length h4
  rw [length_leftArray_shape] at g4
  have hsh := congrArg List.length he.shape
  simp only [List.length_map] at hsh
  subst hb
  simp only [List.length_append, List.length_singleton, length_natLE, length_flatMap_natLE,
    List.length_reverse]
  change a.shape.length = a.value.shape.length at hsh
  change _ ≤ (encStr a.name).length + 1 + 4 + 4 * a.value.shape.length + a.value.cells.flatten.length ∧
    (_ = (encStr a.name).length + 1 + 4 + 4 * a.value.shape.length + a.value.cells.flatten.length → _)
  refine ⟨by omega, fun h => ?_⟩
  have hc := arrayTypeCheck_inv h1
  exact
    { name := ⟨g1.2 (by omega), he.name⟩
      numeric := he.numeric
      code := he.code
      rank := he.rank
      rankPos := he.rankPos
      rankMax := he.rankMax
      shape := he.shape
      dims := he.dims
      dimsSmall := he.dimsSmall
      charFirst := hc.1
      charType := hc.2
      count := he.count
      cells := he.cells }

theorem written_arrays_length {rn mr size : Nat} {as : List DmapArray} {data ab : Bytes}
    (h : Written rn (fieldsOf [] as) data) (he : SeqEnc (ArrayEnc mr size presented) (as.map present) ab) :
    data.length ≤ ab.length ∧ (data.length = ab.length → ∀ a ∈ as, ArrayOK mr size a) := by
  induction as generalizing data ab with
  | nil => cases h; cases he; simp
  | cons a as ih =>
    simp only [fieldsOf, List.map_nil, List.nil_append, List.map_cons] at h he ih
    cases h with
    | array h1 h2 =>
      cases he with
      | cons e1 e2 =>
        have g1 := arrayToBytes_length h1 e1
        have g2 := ih h2 e2
        simp only [List.length_append]
        refine ⟨by omega, fun h => ?_⟩
        intro x hx
        rcases List.mem_cons.1 hx with rfl | hx
        · exact g1.2 (by omega)
        · exact g2.2 (by omega) x hx

theorem written_length {rn mr size : Nat} {ss : List DmapScalar} {as : List DmapArray} {data sb ab : Bytes}
    (h : Written rn (fieldsOf ss as) data) (hs : SeqEnc ScalarEnc ss sb)
    (he : SeqEnc (ArrayEnc mr size presented) (as.map present) ab)
    (hc : ∀ s ∈ ss, s.fmt = .c → ∀ n, s.value = .int n → n < 128) :
    data.length ≤ sb.length + ab.length ∧
    (data.length = sb.length + ab.length → (∀ s ∈ ss, ScalarOK s) ∧ ∀ a ∈ as, ArrayOK mr size a) := by
  induction ss generalizing data sb with
  | nil => cases hs; simpa using written_arrays_length h he
  | cons s ss ih =>
    simp only [fieldsOf, List.map_cons, List.cons_append] at h ih
    cases h with
    | scalar h1 h2 =>
      cases hs with
      | cons e1 e2 =>
        have g1 := scalarToBytes_length h1 e1 (hc s (by simp))
        have g2 := ih h2 e2 fun x hx => hc x (by simp [hx])
        simp only [List.length_append]
        refine ⟨by omega, fun h => ?_⟩
        have g3 := g2.2 (by omega)
        refine ⟨?_, g3.2⟩
        intro x hx
        rcases List.mem_cons.1 hx with rfl | hx
        · exact g1.2 (by omega)
        · exact g3.1 x hx

theorem written_size {rn mr size : Nat} {ss : List DmapScalar} {as : List DmapArray} {data : Bytes}
    (h : Written rn (fieldsOf ss as) data) (hs : ∀ s ∈ ss, ScalarOK s) (ha : ∀ a ∈ as, ArrayOK mr size a) :
    data.length + 16 = blockSize ss as := by
  have harr : ∀ (as : List DmapArray) (data : Bytes), Written rn (fieldsOf [] as) data →
      (∀ a ∈ as, ArrayOK mr size a) → data.length = (as.map arraySize).sum := by
    intro as
    induction as with
    | nil => intro data h _; cases h; rfl
    | cons a as ih =>
      intro data h ha
      simp only [fieldsOf, List.map_nil, List.nil_append, List.map_cons] at h ih
      cases h with
      | array h1 h2 =>
        obtain ⟨tb, db, sb, h1, h3, h4, h5, rfl, _⟩ := arrayToBytes_inv h1
        have g := ha a (by simp)
        have := ih _ h2 fun x hx => ha x (by simp [hx])
        have hsh := congrArg List.length g.shape
        simp only [List.length_map] at hsh
        have g2 := typeByte_length h3
        have g3 := packSigned_length h4
        have g4 := packShape_length h5
        rw [length_leftArray_shape, hsh] at g4
        simp only [List.length_append, List.map_cons, List.sum_cons, arraySize, length_packStr, this,
          length_flatten_of g.cells, g.count]
        omega
  induction ss generalizing data with
  | nil =>
    have := harr as data h ha
    simp [blockSize]; omega
  | cons s ss ih =>
    simp only [fieldsOf, List.map_cons, List.cons_append] at h ih
    cases h with
    | scalar h1 h2 =>
      have := ih h2 fun x hx => hs x (by simp [hx])
      obtain ⟨bs, e1, _, e2⟩ := scalarToBytes_ok rn (hs s (by simp))
      rw [e1] at h1
      cases h1
      simp only [List.length_append, blockSize, List.map_cons, List.sum_cons] at this ⊢
      omega

/-- A record that comes back is encodable. -/
theorem survive_encodable {cfg : NpCfg} {r : Rec} {ds : List PlainRec}
    (h : writeThenRead cfg [r] = .ok ([presentRec r], ds))
    (hc : ∀ k s, (k, Field.scalar s) ∈ r → s.fmt = .c → ∀ n, s.value = .int n → n < 128)
    (hnn : ∀ k a, (k, Field.array a) ∈ r → ∀ x ∈ a.shape, 0 ≤ x) : Encodable cfg.maxDims r := by
  obtain ⟨ss, as, data, sb, rfl, h1, h2, h3, h4, h5, h6, h7⟩ := survive_order h
  have hms : ∀ s ∈ ss, (s.name, Field.scalar s) ∈ fieldsOf ss as := fun s hs =>
    List.mem_append_left _ (List.mem_map.2 ⟨s, hs, rfl⟩)
  have hma : ∀ a ∈ as, (a.name, Field.array a) ∈ fieldsOf ss as := fun s hs =>
    List.mem_append_right _ (List.mem_map.2 ⟨s, hs, rfl⟩)
  obtain ⟨ab, h8, h9⟩ := h7 fun a ha => hnn a.name a (hma a ha)
  have g := (written_length h4 h6 h8 fun s hs => hc _ s (hms s hs)).2 (by rw [h9]; simp)
  have hsz := written_size h4 g.1 g.2
  refine ⟨ss, as, rfl, h1, h2, h3, g.1, ?_, by omega⟩
  rw [← hsz]
  exact g.2

end Verif
