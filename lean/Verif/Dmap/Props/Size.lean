import Verif.Dmap.Props.RoundTrip
/-!
# C72: what is read is no larger than the file
-/
namespace Verif
open Verif.Spec

/-- The bytes that a field takes in a file: name, type, dimensions and values. -/
def fieldBytes : Field → Nat
  | .scalar s => (utf8Encode s.name).length + 2 + match s.value with
    | .str t => (utf8Encode t).length + 1
    | _ => cellSize s.fmt
  | .array a => (utf8Encode a.name).length + 6 + 4 * a.value.shape.length + (a.value.cells.map List.length).sum
  | .other => 0

/-- The bytes that the fields of records take. -/
def recordsBytes (rs : List Rec) : Nat := (rs.map fun r => (r.map fun f => fieldBytes f.2).sum).sum

theorem set_bytes (g : Field → Nat) (r : Rec) (k : PyStr) (f : Field) :
    ((r.set k f).map fun p => g p.2).sum ≤ (r.map fun p => g p.2).sum + g f := by
  induction r with
  | nil => simp [Dict.set]
  | cons p r ih =>
    simp only [Dict.set]
    split
    · simp only [List.map_cons, List.sum_cons]; omega
    · simp only [List.map_cons, List.sum_cons]; omega

theorem ofList_bytes (g : Field → Nat) (l : List (PyStr × Field)) :
    ((Dict.ofList l).map fun p => g p.2).sum ≤ (l.map fun p => g p.2).sum := by
  have : ∀ (l : List (PyStr × Field)) (r : Rec), ((l.foldl (fun d p => Dict.set d p.1 p.2) r).map fun p => g p.2).sum ≤
      (r.map fun p => g p.2).sum + (l.map fun p => g p.2).sum := by
    intro l
    induction l with
    | nil => simp
    | cons p l ih =>
      intro r
      have h1 := ih (Dict.set r p.1 p.2)
      have h2 := set_bytes g r p.1 p.2
      simp only [List.foldl_cons, List.map_cons, List.sum_cons]
      omega
  have h := this l []
  simp only [List.map_nil, List.sum_nil] at h
  unfold Dict.ofList
  omega

theorem scalarEnc_bytes {s : DmapScalar} {bs : Bytes} (h : ScalarEnc s bs) : bs.length = fieldBytes (.scalar s) := by
  obtain ⟨_, _, vb, hv, rfl⟩ := h
  cases s with
  | mk name value dataType fmt =>
    dsimp only at hv
    cases hv <;> simp [fieldBytes, encStr, cellSize] <;> omega

theorem arrayEnc_bytes {mr n : Nat} {dt : Fmt → DType} {a : DmapArray} {bs : Bytes} (h : ArrayEnc mr n dt a bs) :
    bs.length = fieldBytes (.array a) := by
  rw [h.bytes]
  have : ∀ l : List Nat, (l.flatMap fun n => natLE 4 n).length = 4 * l.length := by
    intro l
    induction l with
    | nil => rfl
    | cons x l ih => simp only [List.flatMap_cons, List.length_append, ih, length_natLE, List.length_cons]; omega
  simp only [fieldBytes, encStr, List.length_append, this, List.length_flatten, length_natLE, List.length_cons, List.length_nil,
    List.length_reverse]

theorem seqEnc_bytes {α : Type} {R : α → Bytes → Prop} {g : α → Nat} (hg : ∀ x b, R x b → b.length = g x) {l : List α} {bs : Bytes}
    (h : SeqEnc R l bs) : bs.length = (l.map g).sum := by
  induction h with
  | nil => rfl
  | cons h _ ih => simp only [List.length_append, List.map_cons, List.sum_cons, ih, hg _ _ h]

theorem blockEnc_bytes {mr : Nat} {b : Block} {bs : Bytes} (h : BlockEnc mr b bs) :
    bs.length = 16 + (b.fields.map fun f => fieldBytes f.2).sum := by
  obtain ⟨sb, ab, h1, h2, h3⟩ := h.bytes
  have e1 := seqEnc_bytes (g := fun s => fieldBytes (.scalar s)) (fun _ _ h => scalarEnc_bytes h) h1
  have e2 := seqEnc_bytes (g := fun a => fieldBytes (.array a)) (fun _ _ h => arrayEnc_bytes h) h2
  rw [h3]
  simp only [Block.fields, List.length_append, length_natLE, h.ident, e1, e2, List.map_append, List.sum_append, List.map_map, Function.comp_def]
  omega

/-- **C72** (partial: without negative `slist` dimensions, see below.)  The records read from a file take, with 16 bytes for each,
no more bytes than the file has; exactly as many, if no record has two fields of a name. -/
theorem C72_size_partial (cfg : NpCfg) {bs : Bytes} (hneg : ¬ NegSlist bs) {rs : List Rec} {ds : List PlainRec}
    (h : readFile cfg bs = .ok (rs, ds)) :
    16 * rs.length + recordsBytes rs ≤ bs.length ∧
    ∃ bl : List Block, FileEnc cfg.maxDims bl bs ∧ rs = bl.map Block.record ∧ ((∀ b ∈ bl, (b.fields.map (·.1)).Nodup) → 16 * rs.length + recordsBytes rs = bs.length) := by
  obtain ⟨bl, hbl, rfl⟩ := C04_lossless cfg hneg h
  have hlen := seqEnc_bytes (R := BlockEnc cfg.maxDims) (g := fun b => 16 + (b.fields.map fun f => fieldBytes f.2).sum) (fun _ _ h => blockEnc_bytes h) hbl
  refine ⟨?_, bl, hbl, rfl, fun hn => ?_⟩
  · rw [hlen]
    clear hlen hbl h
    induction bl with
    | nil => simp [recordsBytes]
    | cons b bl ih =>
      have := ofList_bytes fieldBytes b.fields
      simp only [recordsBytes, Block.record, List.map_cons, List.sum_cons, List.length_cons] at ih ⊢
      omega
  · rw [hlen]
    clear hlen hbl h
    induction bl with
    | nil => simp [recordsBytes]
    | cons b bl ih =>
      have ih := ih fun b hb => hn b (by simp [hb])
      have : Dict.ofList b.fields = b.fields := Dict.ofList_of_nodup (hn b (by simp))
      simp only [recordsBytes, Block.record, List.map_cons, List.sum_cons, List.length_cons, this] at ih ⊢
      omega

example := C72_size_partial numpy1 Sample.bytes2_plain bytes2_read

/-- A record whose `slist` has a negative dimension that leads back into the array before it, where a third array begins. -/
def twiceRead : Bytes :=
  [0, 0, 0, 0, 60, 0, 0, 0, 1, 0, 0, 0, 3, 0, 0, 0, 97, 0, 1, 5,
   98, 0, 16, 1, 0, 0, 0, 11, 0, 0, 0, 99, 0, 16, 1, 0, 0, 0, 18, 0, 0, 0,
   115, 108, 105, 115, 116, 0, 16, 1, 0, 0, 0, 230, 255, 255, 255, 1, 2, 3]

/-- **C72** fails in general: a negative `slist` dimension makes the reader read bytes twice, and it accepts the file. -/
theorem C72_violation : ∃ r, readFile numpy2 twiceRead = .ok r ∧ twiceRead.length < 16 * r.1.length + recordsBytes r.1 := by
  refine ⟨_, rfl, ?_⟩
  decide +kernel

end Verif
