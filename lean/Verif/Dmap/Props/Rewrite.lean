import Verif.Dmap.Props.Size
import Verif.Dmap.Props.Stream
import Verif.Dmap.Props.Text
/-!
# C84: what was read can be written and read again
-/
namespace Verif
open Spec

/-- The scalars of a record come before its arrays, and there are some of both. -/
def ScalarsFirst (r : Rec) : Prop :=
  ∃ l1 l2 : Rec, r = l1 ++ l2 ∧ l1 ≠ [] ∧ l2 ≠ [] ∧ (∀ p ∈ l1, ∃ s, p.2 = .scalar s) ∧ ∀ p ∈ l2, ∃ a, p.2 = .array a

/-- Texts are ASCII, chars below 128. -/
def PlainScalar (s : DmapScalar) : Prop :=
  Ascii s.name ∧ (∀ t, s.value = .str t → Ascii t) ∧ (s.fmt = .c → ∀ v, s.value = .int v → v < 128)

/-- The size of the block that is written for a record of ASCII texts. -/
def recBytes (r : Rec) : Nat := 16 + (r.map fun p => fieldBytes p.2).sum

/-- The name is ASCII; there are chars in an array of chars; the dimensions of an empty array are below the given size. -/
def PlainArray (size : Nat) (a : DmapArray) : Prop :=
  Ascii a.name ∧ (a.fmt = .c → a.value.shape.head? ≠ some 0) ∧ (0 ∈ a.value.shape → ∀ n ∈ a.value.shape, n < size)

/-- A record that is not changed by writing and reading it. -/
structure Rewritable (r : Rec) : Prop where
  order : ScalarsFirst r
  scalars : ∀ k s, (k, Field.scalar s) ∈ r → PlainScalar s
  arrays : ∀ k a, (k, Field.array a) ∈ r → PlainArray (recBytes r) a

theorem nodup_set {r : Rec} (h : (r.map Prod.fst).Nodup) (k : PyStr) (f : Field) : ((Dict.set r k f).map Prod.fst).Nodup ∧
    ∀ x, x ∈ (Dict.set r k f).map Prod.fst → x = k ∨ x ∈ r.map Prod.fst := by
  induction r with
  | nil => simp [Dict.set]
  | cons p r ih =>
    rw [List.map_cons, List.nodup_cons] at h
    obtain ⟨h1, h2⟩ := ih h.2
    simp only [Dict.set]
    split
    · rename_i hk
      refine ⟨?_, fun x hx => ?_⟩
      · rw [List.map_cons, List.nodup_cons]
        exact h
      · rw [List.map_cons, List.mem_cons] at hx ⊢
        rcases hx with rfl | hx
        · exact .inl hk
        · exact .inr (.inr hx)
    · rename_i hk
      refine ⟨?_, fun x hx => ?_⟩
      · rw [List.map_cons, List.nodup_cons]
        refine ⟨fun hx => ?_, h1⟩
        rcases h2 _ hx with e | e
        · exact hk e
        · exact h.1 e
      · rw [List.map_cons, List.mem_cons] at hx ⊢
        rcases hx with rfl | hx
        · exact .inr (.inl rfl)
        · rcases h2 _ hx with e | e
          · exact .inl e
          · exact .inr (.inr e)

theorem nodup_ofList (l : List (PyStr × Field)) : ((Dict.ofList l).map Prod.fst).Nodup := by
  have : ∀ (l : List (PyStr × Field)) (r : Rec), (r.map Prod.fst).Nodup →
      ((l.foldl (fun d p => Dict.set d p.1 p.2) r).map Prod.fst).Nodup := by
    intro l
    induction l with
    | nil => exact fun r h => h
    | cons p l ih => exact fun r h => ih _ (nodup_set h p.1 p.2).1
  exact this l [] (by simp)

theorem scalars_of {l : Rec} (h : ∀ p ∈ l, ∃ s : DmapScalar, p = (s.name, .scalar s)) :
    ∃ ss : List DmapScalar, l = ss.map fun s => (s.name, .scalar s) := by
  induction l with
  | nil => exact ⟨[], rfl⟩
  | cons p l ih =>
    obtain ⟨s, rfl⟩ := h p (by simp)
    obtain ⟨ss, rfl⟩ := ih fun p hp => h p (by simp [hp])
    exact ⟨s :: ss, rfl⟩

theorem arrays_of {l : Rec} (h : ∀ p ∈ l, ∃ a : DmapArray, p = (a.name, .array a)) :
    ∃ as : List DmapArray, l = as.map fun a => (a.name, .array a) := by
  induction l with
  | nil => exact ⟨[], rfl⟩
  | cons p l ih =>
    obtain ⟨s, rfl⟩ := h p (by simp)
    obtain ⟨ss, rfl⟩ := ih fun p hp => h p (by simp [hp])
    exact ⟨s :: ss, rfl⟩

theorem scalarOK_of {s : DmapScalar} {b : Bytes} (h : ScalarEnc s b) (hp : PlainScalar s) : ScalarOK s := by
  obtain ⟨h1, h2, vb, h3, -⟩ := h
  obtain ⟨p1, p2, p3⟩ := hp
  refine ⟨⟨p1, h1⟩, h2, ?_⟩
  cases s with
  | mk name value dataType fmt =>
    dsimp only at h3 p2 p3 ⊢
    cases h3 with
    | str h => exact .str ⟨p2 _ rfl, h⟩
    | f32 => exact .f32 (quiet32_not _)
    | f64 => exact .f64
    | char h => exact .char (by have := p3 rfl _ rfl; omega)
    | i16 a b => exact .i16 a b
    | i32 a b => exact .i32 a b
    | i64 a b => exact .i64 a b
    | u8 a => exact .u8 a
    | u16 a => exact .u16 a
    | u32 a => exact .u32 a
    | u64 a => exact .u64 a

theorem arrayOK_of {mr n m : Nat} {a : DmapArray} {b : Bytes} (h : ArrayEnc mr n presented a b) (hp : PlainArray m a)
    (hm : arraySize a < m) : ArrayOK mr m a := by
  obtain ⟨p1, p2, p3⟩ := hp
  have hcell : 1 ≤ cellSize a.fmt := by
    have := h.numeric
    cases ha : a.fmt <;> simp_all [isNumeric, cellSize]
  refine ⟨⟨p1, h.name⟩, h.numeric, h.code, h.rank, h.rankPos, h.rankMax, h.shape, h.dims, ?_, p2, ?_, h.count, h.cells⟩
  · by_cases hz : 0 ∈ a.value.shape
    · exact p3 hz
    · have hpos : ∀ n ∈ a.value.shape, 1 ≤ n := fun n hn => by
        rcases Nat.eq_zero_or_pos n with rfl | h
        · exact absurd hn hz
        · exact h
      intro n hn
      have h1 := le_prod hpos hn
      have h2 : prod a.value.shape ≤ prod a.value.shape * cellSize a.fmt := Nat.le_mul_of_pos_right _ hcell
      unfold arraySize at hm
      omega
  · intro hc _ n hn
    rw [h.dtype, hc] at hn
    cases hn

theorem scalar_fieldBytes {s : DmapScalar} (hp : PlainScalar s) : fieldBytes (.scalar s) = scalarSize s := by
  unfold fieldBytes scalarSize valueSize
  dsimp only
  rw [length_utf8Encode_ascii hp.1]
  cases s with
  | mk name value dataType fmt =>
    dsimp only
    cases value with
    | str t =>
      dsimp only
      rw [length_utf8Encode_ascii (hp.2.1 t rfl)]
    | _ => rfl

theorem sum_const_length {l : List Bytes} {n : Nat} (h : ∀ x ∈ l, x.length = n) : (l.map List.length).sum = l.length * n := by
  induction l with
  | nil => simp
  | cons x l ih =>
    rw [List.map_cons, List.sum_cons, ih fun y hy => h y (by simp [hy]), h x (by simp), List.length_cons, Nat.succ_mul,
      Nat.add_comm]

theorem array_fieldBytes {mr n : Nat} {a : DmapArray} {b : Bytes} (h : ArrayEnc mr n presented a b) (hp : Ascii a.name) :
    fieldBytes (.array a) = arraySize a := by
  unfold fieldBytes arraySize
  dsimp only
  rw [length_utf8Encode_ascii hp, sum_const_length h.cells, h.count]

theorem le_sum_of_mem {α : Type} {g : α → Nat} {l : List α} {x : α} (h : x ∈ l) : g x ≤ (l.map g).sum := by
  induction l with
  | nil => cases h
  | cons y l ih =>
    rw [List.map_cons, List.sum_cons]
    rcases List.mem_cons.1 h with rfl | h
    · omega
    · have := ih h; omega

/-- What a block was read as is encodable, if it is rewritable, with the dtypes of a reader. -/
theorem encodable_of_block {mr : Nat} {b : Block} {bs : Bytes} (h : BlockEnc mr b bs) (hr : Rewritable b.record) :
    Encodable mr b.record ∧ ∀ p ∈ b.record, StandardDtype p.2 := by
  obtain ⟨l1, l2, e, n1, n2, q1, q2⟩ := hr.order
  obtain ⟨sb, ab, s1, s2, -⟩ := h.bytes
  have hmem : ∀ p ∈ b.record, (∃ s ∈ b.scalars, p = (s.name, .scalar s)) ∨ ∃ a ∈ b.arrays, p = (a.name, .array a) := by
    intro p hp
    have := Dict.mem_ofList hp
    unfold Block.fields at this
    rcases List.mem_append.1 this with hm | hm
    · obtain ⟨s, hs, rfl⟩ := List.mem_map.1 hm
      exact .inl ⟨s, hs, rfl⟩
    · obtain ⟨a, ha, rfl⟩ := List.mem_map.1 hm
      exact .inr ⟨a, ha, rfl⟩
  have hsm : ∀ p ∈ l1, ∃ s ∈ b.scalars, p = (s.name, .scalar s) := by
    intro p hp
    rcases hmem p (by rw [e]; simp [hp]) with h | ⟨a, -, rfl⟩
    · exact h
    · obtain ⟨s, hs⟩ := q1 _ hp
      cases hs
  have ham : ∀ p ∈ l2, ∃ a ∈ b.arrays, p = (a.name, .array a) := by
    intro p hp
    rcases hmem p (by rw [e]; simp [hp]) with ⟨s, -, rfl⟩ | h
    · obtain ⟨s, hs⟩ := q2 _ hp
      cases hs
    · exact h
  obtain ⟨ss, rfl⟩ := scalars_of fun p hp => (hsm p hp).imp fun s hs => hs.2
  obtain ⟨as, rfl⟩ := arrays_of fun p hp => (ham p hp).imp fun s hs => hs.2
  have hs1 : ∀ s ∈ ss, s ∈ b.scalars ∧ PlainScalar s := by
    intro s hs
    have hp : (s.name, Field.scalar s) ∈ ss.map fun s => (s.name, Field.scalar s) := List.mem_map.2 ⟨s, hs, rfl⟩
    obtain ⟨s', h1, h2⟩ := hsm _ hp
    obtain rfl : s = s' := Field.scalar.inj (congrArg Prod.snd h2)
    exact ⟨h1, hr.scalars _ _ (by rw [e]; exact List.mem_append_left _ hp)⟩
  have ha1 : ∀ a ∈ as, a ∈ b.arrays ∧ PlainArray (recBytes b.record) a := by
    intro a ha
    have hp : (a.name, Field.array a) ∈ as.map fun a => (a.name, Field.array a) := List.mem_map.2 ⟨a, ha, rfl⟩
    obtain ⟨a', h1, h2⟩ := ham _ hp
    obtain rfl : a = a' := Field.array.inj (congrArg Prod.snd h2)
    exact ⟨h1, hr.arrays _ _ (by rw [e]; exact List.mem_append_right _ hp)⟩
  have h3 : ((Dict.ofList b.fields).map fun p => fieldBytes p.2) = (ss.map scalarSize) ++ as.map arraySize := by
    show (b.record.map fun p => fieldBytes p.2) = _
    rw [e, List.map_append, List.map_map, List.map_map]
    congr 1
    · exact List.map_congr_left fun s hs => scalar_fieldBytes (hs1 s hs).2
    · refine List.map_congr_left fun a ha => ?_
      obtain ⟨x, hx⟩ := seqEnc_mem s2 (ha1 a ha).1
      exact array_fieldBytes hx (ha1 a ha).2.1
  have hrec : recBytes b.record = blockSize ss as := by
    unfold recBytes blockSize
    rw [show (b.record.map fun p => fieldBytes p.2) = _ from h3, List.sum_append]
    omega
  have hsize : blockSize ss as ≤ bs.length := by
    have h1 := blockEnc_bytes h
    have h2 := ofList_bytes fieldBytes b.fields
    rw [h3, List.sum_append] at h2
    unfold blockSize
    omega
  refine ⟨⟨ss, as, e, ?_, ?_, nodup_ofList _, ?_, ?_, ?_⟩, ?_⟩
  · rintro rfl; exact n1 rfl
  · rintro rfl; exact n2 rfl
  · intro s hs
    obtain ⟨x, hx⟩ := seqEnc_mem s1 (hs1 s hs).1
    exact scalarOK_of hx (hs1 s hs).2
  · intro a ha
    obtain ⟨x, hx⟩ := seqEnc_mem s2 (ha1 a ha).1
    refine arrayOK_of hx (hrec ▸ (ha1 a ha).2) ?_
    have := le_sum_of_mem (g := arraySize) ha
    unfold blockSize
    omega
  · have := h.small
    omega
  · intro p hp
    rcases hmem p hp with ⟨s, -, rfl⟩ | ⟨a, ha, rfl⟩
    · trivial
    · obtain ⟨x, hx⟩ := seqEnc_mem s2 ha
      exact hx.dtype

/-- The records of a file are written and read again. -/
def readAgain (cfg : NpCfg) (bs : Bytes) : Except Err (List Rec × List PlainRec) :=
  match readFile cfg bs with
  | .error e => .error e
  | .ok (rs, _) =>
    match writeBytes rs with
    | .error e => .error e
    | .ok bs' => readFile cfg bs'

theorem fileEnc_mem {mr : Nat} {bl : List Block} {bs : Bytes} (h : FileEnc mr bl bs) {b : Block} (hb : b ∈ bl) :
    ∃ x, BlockEnc mr b x := seqEnc_mem h hb

/-- **C84** (partial: `Rewritable` records, no negative `slist` dimension.)  The records read from a file can be written, and
the new file is read as the same records.  Missing: see `C84_violation`. -/
theorem C84_again_partial (cfg : NpCfg) {bs : Bytes} (hneg : ¬ NegSlist bs) {rs : List Rec} {ds : List PlainRec}
    (h : readFile cfg bs = .ok (rs, ds)) (hr : ∀ r ∈ rs, Rewritable r) :
    ∃ bs', writeBytes rs = .ok bs' ∧ readFile cfg bs' = .ok (rs, ds) := by
  obtain ⟨bl, h1, rfl⟩ := C04_lossless cfg hneg h
  have he : ∀ r ∈ bl.map Block.record, Encodable cfg.maxDims r ∧ ∀ p ∈ r, StandardDtype p.2 := by
    intro r hx
    obtain ⟨b, hb, rfl⟩ := List.mem_map.1 hx
    obtain ⟨x, hx'⟩ := fileEnc_mem h1 hb
    exact encodable_of_block hx' (hr _ hx)
  have hne : bl ≠ [] := by rintro rfl; cases h1; cases h
  have hne' : bl.map Block.record ≠ [] := by simpa using hne
  have h2 := C01_identical cfg hne' (fun r hx => (he r hx).1) fun r hx => (he r hx).2
  unfold writeThenRead at h2
  cases hw : writeBytes (bl.map Block.record) with
  | error e => rw [hw] at h2; cases h2
  | ok bs' =>
    rw [hw] at h2
    dsimp only at h2
    refine ⟨bs', rfl, ?_⟩
    rw [h2]
    have hd := dmap2dict_encodable (cfg := cfg) fun r hx => (he r hx).1
    have hp : (bl.map Block.record).map presentRec = bl.map Block.record := by
      have h3 := C01_roundtrip cfg hne' fun r hx => (he r hx).1
      have h4 := C01_identical cfg hne' (fun r hx => (he r hx).1) fun r hx => (he r hx).2
      rw [h4] at h3
      exact (congrArg Prod.fst (Except.ok.inj h3)).symm
    rw [hp] at hd
    rw [readFile_fileEnc h1 hne, hd] at h
    cases h
    rfl

/-- **C84** (partial, as above.)  If moreover no name occurs twice in a block of the file, the identifiers are those of the
writer and no single precision scalar is a NaN, the new file is the old one, byte for byte. -/
theorem C84_bytes_partial (cfg : NpCfg) {bl : List Block} {bs : Bytes} (hb : FileEnc cfg.maxDims bl bs) (hneg : ¬ NegSlist bs)
    (hid : ∀ b ∈ bl, b.ident = [1, 0, 1, 0]) (hn : ∀ b ∈ bl, b.NoNaN) (hnd : ∀ b ∈ bl, (b.fields.map Prod.fst).Nodup)
    {rs : List Rec} {ds : List PlainRec} (h : readFile cfg bs = .ok (rs, ds)) (hr : ∀ r ∈ rs, Rewritable r) :
    writeBytes rs = .ok bs := by
  obtain ⟨bs', h1, h2⟩ := C84_again_partial cfg hneg h hr
  have hne : bl ≠ [] := by rintro rfl; cases hb; cases h
  have hrs : rs = bl.map Block.record := by
    rw [readFile_fileEnc hb hne] at h
    cases hd : dmap2dict cfg (bl.map Block.record) with
    | error e' => rw [hd] at h; cases h
    | ok p => rw [hd] at h; cases h; rfl
  have he : ∀ r ∈ rs, Encodable cfg.maxDims r := by
    intro r hx
    have hx' := hx
    rw [hrs] at hx'
    obtain ⟨b, hb', rfl⟩ := List.mem_map.1 hx'
    obtain ⟨x, hx''⟩ := fileEnc_mem hb hb'
    exact (encodable_of_block hx'' (hr _ hx)).1
  obtain ⟨-, hl⟩ := writeBytes_inv h1
  have hf := writtenList_encodable hl he
  rw [h1]
  refine congrArg Except.ok (C04_accepted_injective_partial cfg hb hf ?_ hn hnd ?_ h h2).symm
  · rw [hrs, List.map_map, List.map_map]
    exact List.map_congr_left fun b hb => hid b hb
  · intro x hx
    obtain ⟨r, hx', rfl⟩ := List.mem_map.1 hx
    obtain ⟨ss, as, rfl, -, -, e3, -⟩ := he r hx'
    rw [blockOf_fieldsOf]
    have : (writtenBlock ss as).fields.map Prod.fst = (fieldsOf ss as).map Prod.fst := by
      simp [writtenBlock, Block.fields, fieldsOf, present, Function.comp_def]
    rw [this]
    exact e3

/-- **C84** `Rewritable` is exact: if the file has one record without chars above 127, it is read again as the same if and
only if the record is `Rewritable`. -/
theorem C84_iff (cfg : NpCfg) {bs : Bytes} (hneg : ¬ NegSlist bs) {r : Rec} {ds : List PlainRec}
    (h : readFile cfg bs = .ok ([r], ds))
    (hc : ∀ k s, (k, Field.scalar s) ∈ r → s.fmt = .c → ∀ v, s.value = .int v → v < 128) :
    readAgain cfg bs = .ok ([r], ds) ↔ Rewritable r := by
  have hra : readAgain cfg bs = writeThenRead cfg [r] := by
    unfold readAgain writeThenRead
    rw [h]
    rfl
  constructor
  · intro ha
    rw [hra] at ha
    obtain ⟨bl, h1, hbl⟩ := C04_lossless cfg hneg h
    obtain ⟨b, hb, rfl⟩ : ∃ b ∈ bl, Block.record b = r := List.mem_map.1 (by rw [← hbl]; simp)
    obtain ⟨x, hx⟩ := fileEnc_mem h1 hb
    obtain ⟨sb, ab, s1, s2, -⟩ := hx.bytes
    have harr : ∀ k a, (k, Field.array a) ∈ b.record → ∃ y, ArrayEnc cfg.maxDims x.length presented a y := by
      intro k a hm
      have := Dict.mem_ofList hm
      unfold Block.fields at this
      rcases List.mem_append.1 this with hm | hm
      · obtain ⟨s, -, hs⟩ := List.mem_map.1 hm
        cases congrArg Prod.snd hs
      · obtain ⟨a', ha', hs⟩ := List.mem_map.1 hm
        obtain rfl : a' = a := Field.array.inj (congrArg Prod.snd hs)
        exact seqEnc_mem s2 ha'
    have hpr : presentRec b.record = b.record := by
      unfold presentRec
      refine (List.map_congr_left (g := id) fun p hp => ?_).trans (List.map_id _)
      obtain ⟨k, f⟩ := p
      cases f with
      | array a =>
        obtain ⟨y, hy⟩ := harr k a hp
        simp only [presentField, present, ← hy.dtype, id]
      | scalar s => rfl
      | other => rfl
    have he : Encodable cfg.maxDims b.record := by
      refine survive_encodable (ds := ds) (by rw [hpr]; exact ha) hc fun k a hm n hn => ?_
      obtain ⟨y, hy⟩ := harr k a hm
      rw [hy.shape] at hn
      obtain ⟨m, -, rfl⟩ := List.mem_map.1 hn
      exact Int.natCast_nonneg m
    obtain ⟨ss, as, e, e1, e2, e3, e4, e5, e6⟩ := he
    have hps : ∀ s ∈ ss, PlainScalar s := by
      intro s hs
      have o := e4 s hs
      refine ⟨o.name.1, fun t ht => ?_, fun hf => hc s.name s (by rw [e]; exact List.mem_append_left _ (List.mem_map.2 ⟨s, hs, rfl⟩)) hf⟩
      have ov := o.value
      rw [ht] at ov
      cases hf : s.fmt <;> rw [hf] at ov <;> cases ov
      rename_i hp
      exact hp.1
    have hma : ∀ a ∈ as, (a.name, Field.array a) ∈ b.record := fun a ha => by
      rw [e]; exact List.mem_append_right _ (List.mem_map.2 ⟨a, ha, rfl⟩)
    have hrec : recBytes b.record = blockSize ss as := by
      unfold recBytes blockSize
      rw [e]
      unfold fieldsOf
      rw [List.map_append, List.map_map, List.map_map, List.sum_append]
      have g1 : ss.map ((fun p : PyStr × Field => fieldBytes p.2) ∘ fun s => (s.name, Field.scalar s)) = ss.map scalarSize :=
        List.map_congr_left fun s hs => scalar_fieldBytes (hps s hs)
      have g2 : as.map ((fun p : PyStr × Field => fieldBytes p.2) ∘ fun a => (a.name, Field.array a)) = as.map arraySize := by
        refine List.map_congr_left fun a ha => ?_
        obtain ⟨y, hy⟩ := harr _ a (hma a ha)
        exact array_fieldBytes hy (e5 a ha).name.1
      rw [g1, g2]
      omega
    refine ⟨⟨_, _, e, by simpa using e1, by simpa using e2, ?_, ?_⟩, fun k s hm => ?_, fun k a hm => ?_⟩
    · intro p hp
      obtain ⟨s, -, rfl⟩ := List.mem_map.1 hp
      exact ⟨s, rfl⟩
    · intro p hp
      obtain ⟨a, -, rfl⟩ := List.mem_map.1 hp
      exact ⟨a, rfl⟩
    · rw [e] at hm
      rcases List.mem_append.1 hm with hm | hm
      · obtain ⟨s', hs', hs⟩ := List.mem_map.1 hm
        obtain rfl : s' = s := Field.scalar.inj (congrArg Prod.snd hs)
        exact hps _ hs'
      · obtain ⟨a', -, hs⟩ := List.mem_map.1 hm
        cases congrArg Prod.snd hs
    · rw [e] at hm
      rcases List.mem_append.1 hm with hm | hm
      · obtain ⟨s', -, hs⟩ := List.mem_map.1 hm
        cases congrArg Prod.snd hs
      · obtain ⟨a', ha', hs⟩ := List.mem_map.1 hm
        obtain rfl : a' = a := Field.array.inj (congrArg Prod.snd hs)
        have o := e5 _ ha'
        exact ⟨o.name.1, o.charFirst, fun _ n hn => hrec ▸ o.dimsSmall n hn⟩
  · intro hr
    obtain ⟨bs', h1, h2⟩ := C84_again_partial cfg hneg h (by simpa using hr)
    rw [hra]
    unfold writeThenRead
    rw [h1]
    exact h2

/-- The sample file is read, its record is rewritable, and writing it gives the same bytes. -/
example : ∃ rs ds, readFile numpy1 Sample.bytes2 = .ok (rs, ds) ∧ rs ≠ [] ∧ (∀ r ∈ rs, Rewritable r) ∧
    writeBytes rs = .ok Sample.bytes2 := by
  have hr : ∀ r ∈ [Sample.record2], Rewritable r := by
    intro r hr
    rw [List.mem_singleton.1 hr]
    refine ⟨⟨Sample.record2.take 1, Sample.record2.drop 1, rfl, by decide, by decide, ?_, ?_⟩, ?_, ?_⟩
    · intro p hp
      rcases List.mem_singleton.1 hp with rfl
      exact ⟨_, rfl⟩
    · intro p hp
      rcases List.mem_singleton.1 hp with rfl
      exact ⟨_, rfl⟩
    · intro k s hs
      rcases List.mem_cons.1 hs with h | h
      · cases h
        exact ⟨by decide, nofun, nofun⟩
      · cases List.mem_singleton.1 h
    · intro k a ha
      rcases List.mem_cons.1 ha with h | h
      · cases h
      · cases List.mem_singleton.1 h
        exact ⟨by decide, by decide, fun h => absurd h (by decide)⟩
  exact ⟨[Sample.record2], _, rfl, by decide, hr,
    C84_bytes_partial numpy1 bytes2_blocks Sample.bytes2_plain (by decide) (by decide) (by decide) rfl hr⟩

/-- A block of one scalar and one array, given by their bytes. -/
def pairBlock (s a : Bytes) : Bytes :=
  [1, 0, 1, 0] ++ natLE 4 (16 + s.length + a.length) ++ [1, 0, 0, 0, 1, 0, 0, 0] ++ s ++ a

/-- The array `b` of type int with the one element 5. -/
def fiveArray : Bytes := [98, 0, 3, 1, 0, 0, 0, 1, 0, 0, 0, 5, 0, 0, 0]

/-- **C84** violated: files that are read without complaint, but whose records cannot be written and read again.  A scalar
and an array share the name `b`; the scalar is named `é`; its value is the string `é`; it is a char of value 200 (before
NumPy 2 only, with NumPy 2 it is not read); the array is an empty `slist` of chars, which the writer does not accept. -/
theorem C84_violation :
    let shared := pairBlock [98, 0, 2, 7, 0] fiveArray
    let name := pairBlock [195, 169, 0, 2, 7, 0] fiveArray
    let text := pairBlock [97, 0, 9, 195, 169, 0] fiveArray
    let char := pairBlock [97, 0, 1, 200] fiveArray
    let empty := pairBlock [97, 0, 2, 7, 0] [115, 108, 105, 115, 116, 0, 1, 1, 0, 0, 0, 0, 0, 0, 0]
    ((readFile numpy2 shared).isOk = true ∧ readAgain numpy2 shared = .error (.zeroByte 0)) ∧
    ((readFile numpy2 name).isOk = true ∧ (readAgain numpy2 name).isOk = false) ∧
    ((readFile numpy2 text).isOk = true ∧ readAgain numpy2 text = .error (.mismatchByte 0)) ∧
    ((readFile numpy1 char).isOk = true ∧ readAgain numpy1 char = .error .unicodeDecodeError) ∧
    (readFile numpy1 empty).isOk = true ∧ readAgain numpy1 empty = .error .indexError := by
  decide +kernel

/-- So the record with the name `é` is not `Rewritable`. -/
example : ∃ r ds, readFile numpy2 (pairBlock [195, 169, 0, 2, 7, 0] fiveArray) = .ok ([r], ds) ∧ ¬ Rewritable r := by
  have hk : (match readFile numpy2 (pairBlock [195, 169, 0, 2, 7, 0] fiveArray) with
      | .ok ([r], _) => r.all fun p => match p.2 with
        | .scalar s => s.fmt != .c
        | _ => true
      | _ => false) = true := by decide +kernel
  have hv := C84_violation.2.1.2
  generalize hf : readFile numpy2 (pairBlock [195, 169, 0, 2, 7, 0] fiveArray) = x at hk
  match x, hk with
  | .ok ([r], ds), hk =>
    refine ⟨r, ds, rfl, fun hr => ?_⟩
    have h := (C84_iff numpy2 (Sample.not_negSlist (by decide)) hf fun k s hm hc => ?_).2 hr
    · rw [h] at hv
      cases hv
    · have := List.all_eq_true.1 hk _ hm
      simp [hc] at this

end Verif
