import Verif.Dmap.Props.Corrupt
import Verif.Dmap.Props.Stream
import Verif.Dmap.Props.Read
import Verif.SDarn.Props.Write
/-!
# C82: what is written can be read
-/
namespace Verif
open Spec

/-- A record without scalars. -/
def NoScalars (r : Rec) : Prop := ∀ p ∈ r, ∀ s, p.2 ≠ .scalar s

/-- A record without arrays. -/
def NoArrays (r : Rec) : Prop := ∀ p ∈ r, ∀ a, p.2 ≠ .array a

theorem scalarsOf_nil {r : Rec} (h : NoScalars r) : scalarsOf r = [] := by
  unfold scalarsOf
  rw [List.filterMap_eq_nil_iff]
  intro p hp
  split
  · rename_i s hs
    exact absurd hs (h p hp s)
  · rfl

theorem arraysOf_nil {r : Rec} (h : NoArrays r) : arraysOf r = [] := by
  unfold arraysOf
  rw [List.filterMap_eq_nil_iff]
  intro p hp
  split
  · rename_i a ha
    exact absurd ha (h p hp a)
  · rfl

theorem length_blockBytes (r : Rec) (data : Bytes) : (blockBytes r data).length = data.length + 16 := by
  simp [blockBytes]
  omega

theorem writtenList_tiles {k : Nat} {rs : List Rec} {bs : Bytes} (h : WrittenList k rs bs) (pre : Bytes) :
    ∃ sizes, Tiles (pre ++ bs) pre.length sizes ∧ sizes.length = rs.length := by
  induction h generalizing pre with
  | nil => exact ⟨[], by simp [Tiles], rfl⟩
  | @cons k r rs data bs h1 h2 h3 h4 h5 ih =>
    obtain ⟨sizes, g1, g2⟩ := ih (pre ++ blockBytes r data)
    refine ⟨(data.length + 16) :: sizes, ⟨by omega, h2, ?_, ?_, ?_⟩, by simp [g2]⟩
    · simp only [List.length_append, length_blockBytes]
      omega
    · rw [← List.drop_drop, List.drop_left]
      unfold blockBytes
      simp only [List.append_assoc]
      have e1 : (natLE 4 65537).length = 4 := by simp
      have e2 : (natLE 4 (data.length + 16)).length = 4 := by simp
      rw [List.drop_append_of_le_length (by omega), List.drop_of_length_le (by omega), List.nil_append,
        List.take_append_of_le_length (by omega), List.take_of_length_le (by omega)]
    · rw [List.length_append, length_blockBytes, List.append_assoc] at g1
      exact g1

/-- **C82** Every stream that is written, whatever is in it, passes the integrity test: it is made of as many blocks as there
are records, of the sizes they tell. -/
theorem C82_sizes {recs : List Rec} {bs : Bytes} (h : writeBytes recs = .ok bs) :
    integrityOf bs = .ok () ∧ ∃ sizes, Tiles bs 0 sizes ∧ sizes.length = recs.length := by
  obtain ⟨h1, h2⟩ := writeBytes_inv h
  obtain ⟨sizes, h3, h4⟩ := writtenList_tiles h2 []
  refine ⟨(C10_integrity bs).2 ⟨?_, sizes, h3⟩, sizes, h3, h4⟩
  rintro rfl
  cases h2 with
  | nil => exact h1 rfl

/-- **C82 (partial)** Records as C01 asks for them can be read.  Not so others: `C82_fields_violation`, and C13 to C15. -/
theorem C82_read_partial (cfg : NpCfg) {recs : List Rec} (hne : recs ≠ []) (h : ∀ r ∈ recs, Encodable cfg.maxDims r) :
    ∃ bs out, writeBytes recs = .ok bs ∧ readFile cfg bs = .ok out ∧ out.1.length = recs.length := by
  obtain ⟨bs, h1, h2⟩ := writeBytes_ok hne h
  exact ⟨bs, _, h1, readFile_written hne h h2, by simp⟩

example : ∃ bs out, writeBytes [Sample.record, Sample.record2] = .ok bs ∧ readFile numpy2 bs = .ok out ∧ out.1.length = 2 :=
  C82_read_partial numpy2 (by decide) (Sample.both_encodable (by decide))

/-- **C82** violated: a record without scalars or without arrays is written, but the reader stops at it with
`ZeroByteError`, whatever the other records are. -/
theorem C82_fields_violation (cfg : NpCfg) {good rest : List Rec} {r : Rec} (hg : ∀ x ∈ good, Encodable cfg.maxDims x)
    (hr : NoScalars r ∨ NoArrays r) {bs : Bytes} (h : writeBytes (good ++ r :: rest) = .ok bs) :
    readFile cfg bs = .error (.zeroByte good.length) := by
  obtain ⟨-, h1⟩ := writeBytes_inv h
  obtain ⟨pre, b2, rfl, h2, h3⟩ := writtenList_append_inv h1
  have hpre := writtenList_encodable h2 hg
  cases h3 with
  | @cons _ _ _ data b3 g1 g2 g3 g4 g5 =>
    have c := C09_header cfg hpre (ident := natLE 4 65537) (rest := data ++ b3) (by simp)
      (n := ((data.length + 16 : Nat) : Int)) (ns := ((scalarsOf r).length : Int)) (na := ((arraysOf r).length : Int))
      ⟨by omega, by omega⟩ ⟨by omega, by omega⟩ ⟨by omega, by omega⟩
    have e : pre ++ (blockBytes r data ++ b3) = pre ++ header (natLE 4 65537) ((data.length + 16 : Nat) : Int)
        ((scalarsOf r).length : Int) ((arraysOf r).length : Int) ++ (data ++ b3) := by
      unfold header blockBytes
      rw [intLE_natCast (by omega), intLE_natCast (by omega), intLE_natCast (by omega)]
      simp only [List.append_assoc]
    rw [e]
    rw [List.length_map] at c
    obtain ⟨c1, c2⟩ := c.2.2.2 (by omega) (by simp only [List.length_append]; omega)
    by_cases hs : scalarsOf r = []
    · exact c1 (by rw [hs]; rfl)
    · have ha : NoArrays r := by
        rcases hr with hr | hr
        · exact absurd (scalarsOf_nil hr) hs
        · exact hr
      have := List.length_pos_iff.2 hs
      exact (c2.2 (by omega)).1 (by rw [arraysOf_nil ha]; rfl)

/-- One scalar and no arrays, after a good record and before another. -/
def scalarRecord : Rec := [(py! "x", .scalar ⟨py! "x", .int 7, 2, .h⟩)]

example : ∃ bs, writeBytes ([Sample.record] ++ scalarRecord :: [Sample.record]) = .ok bs ∧ integrityOf bs = .ok () ∧
    readFile numpy2 bs = .error (.zeroByte 1) := by
  have h : (match writeBytes ([Sample.record] ++ scalarRecord :: [Sample.record]) with | .ok _ => true | _ => false) = true := by
    decide +kernel
  split at h
  · rename_i bs hb
    refine ⟨bs, hb, (C82_sizes hb).1, C82_fields_violation numpy2 (fun x hx => Sample.both_encodable (by decide) x (by simp_all))
      (.inr ?_) hb⟩
    intro p hp a
    simp only [scalarRecord, List.mem_singleton] at hp
    rw [hp]
    exact fun c => by cases c
  · cases h

namespace SD

/-- Same names and formats in the same order; scalar or array is left open. -/
def SameFormats (r r' : Rec) : Prop := r.map (fun p => (p.1, p.2.fmt?)) = r'.map fun p => (p.1, p.2.fmt?)

theorem sameFormats_mem {r r' : Rec} (h : SameFormats r r') {k : PyStr} {f : Field} (hm : (k, f) ∈ r) :
    ∃ f', (k, f') ∈ r' ∧ f'.fmt? = f.fmt? := by
  have : (k, f.fmt?) ∈ r.map fun p => (p.1, p.2.fmt?) := List.mem_map.2 ⟨_, hm, rfl⟩
  rw [h] at this
  obtain ⟨⟨k', f'⟩, h1, h2⟩ := List.mem_map.1 this
  have h3 := congrArg Prod.fst h2
  have h4 := congrArg Prod.snd h2
  dsimp only at h3 h4
  subst h3
  exact ⟨f', h1, h4⟩

theorem sameFormats_has {r r' : Rec} (h : SameFormats r r') (k : PyStr) : Has r k ↔ Has r' k := by
  constructor
  · rintro ⟨f, hf⟩
    obtain ⟨f', h1, -⟩ := sameFormats_mem h hf
    exact ⟨f', h1⟩
  · rintro ⟨f, hf⟩
    obtain ⟨f', h1, -⟩ := sameFormats_mem (Eq.symm h) hf
    exact ⟨f', h1⟩

/-- **C82** The checks of the SuperDARN writers do not tell scalars from arrays: a record passes if one of the same names and
formats does. -/
theorem C82_kinds (ft : FileType) {r r' : Rec} (h : SameFormats r r') : Conforms ft r ↔ Conforms ft r' := by
  have key : ∀ {r r' : Rec}, SameFormats r r' → Conforms ft r → Conforms ft r' := by
    intro r r' h c
    refine ⟨fun g hg => ?_, fun k hk => c.known k ((sameFormats_has h k).2 hk), fun k f hf t ht => ?_⟩
    · rcases c.complete g hg with d | d
      · exact .inl fun k t ht => (sameFormats_has h k).1 (d k t ht)
      · exact .inr fun k t ht hh => d k t ht ((sameFormats_has h k).2 hh)
    · obtain ⟨f', h1, h2⟩ := sameFormats_mem (Eq.symm h) hf
      rw [← h2]
      exact c.typed k f' h1 t ht
  exact ⟨key h, key (Eq.symm h)⟩

/-- A record whose scalar and array change places passes or fails with it. -/
example : Conforms .grid [(py! "start.year", .scalar ⟨py! "start.year", .int 1, 2, .h⟩), (py! "ptab", .other)] ↔
    Conforms .grid [(py! "start.year", .array ⟨py! "start.year", ⟨.int16, [1], [[1, 0]]⟩, 2, .h, 1, [1]⟩), (py! "ptab", .other)] :=
  C82_kinds .grid rfl

/-- A value for a format. -/
def zeroOf : Fmt → PyVal
  | .f => .f32 0
  | .d => .f64 0
  | .s => .str []
  | .dmap => .str []
  | _ => .int 0

/-- All fields of the first group of the format, every one a scalar. -/
def allScalars (ft : FileType) : Rec :=
  ((required ft).headD []).map fun p => (p.1, .scalar ⟨p.1, zeroOf p.2, code p.2, p.2⟩)

theorem noArrays_allScalars (ft : FileType) : NoArrays (allScalars ft) := by
  intro p hp a
  obtain ⟨q, -, rfl⟩ := List.mem_map.1 hp
  exact fun c => by cases c

/-- Written by `write_X`, passing the integrity test, and refused by the readers. -/
def UnreadableFile (cfg : NpCfg) (ft : FileType) (recs : List Rec) : Prop :=
  ∀ (fs : FileSys) (fn : PyStr), fn ≠ [] → ∃ w w' fs' bs, darnWriter (dmapInput recs) fn = .ok w ∧
    darnWrite ft w fs [] = (.ok (), w', fs') ∧ fs' fn = some bs ∧ integrityOf bs = .ok () ∧
    readFile cfg bs = .error (.zeroByte 0) ∧ ∃ e, readDarn cfg ft bs = .error e

theorem unreadable_of {cfg : NpCfg} {ft : FileType} {r : Rec} (hc : Conforms ft r) (hr : NoScalars r ∨ NoArrays r)
    {bs : Bytes} (hw : writeBytes [r] = .ok bs) : UnreadableFile cfg ft [r] := by
  intro fs fn hfn
  have hread := C82_fields_violation cfg (good := []) (rest := []) (by simp) hr hw
  obtain ⟨-, hl⟩ := writeBytes_inv hw
  refine ⟨{ filename := fn, isList := true, recs := [r], buf := [], recNum := 0 },
    { filename := fn, isList := true, recs := [leftRec r], buf := bs, recNum := 0 },
    fs.write fn bs, bs, ?_, ?_, by simp [FileSys.write], (C82_sizes hw).1, hread, ?_⟩
  · unfold darnWriter
    rw [writerNew_dmapInput]
    rfl
  · unfold darnWrite
    have ht : target { filename := fn, isList := true, recs := [r], buf := [], recNum := 0 } [] = fn := rfl
    rw [filenameCheck_of (by rw [ht]; exact hfn), ht]
    have : recordsToBytes 0 0 [] [r] = (.ok (), bs, 0, [leftRec r]) := by
      cases hl with
      | cons g1 g2 g3 g4 g5 =>
        cases g5
        have := g1.le_length
        have := g1.length
        simp only [recordsToBytes]
        rw [recordToBytes_written [] g1 g2 (by omega)]
        simp
    have hc' : ∀ x ∈ [r], Conforms ft x := by
      intro x hx
      rw [List.mem_singleton.1 hx]
      exact hc
    have he : ({ filename := fn, isList := true, recs := [r], buf := [], recNum := 0 } : Writer).emptyRecordCheck = .ok () := rfl
    simp only [he, darnStructureToBytes, darnToBytes_conform hc', this]
  · cases hd : readDarn cfg ft bs with
    | error e => exact ⟨e, rfl⟩
    | ok ds =>
      obtain ⟨rs, h1, -⟩ := (C29_fresh cfg ft bs ds).1 hd
      rw [hread] at h1
      cases h1

theorem conforms_nil (ft : FileType) : Conforms ft [] :=
  (describes_readCheck_ok (rn := 0)).1 (by cases ft <;> decide +kernel)

theorem conforms_allScalars (ft : FileType) : Conforms ft (allScalars ft) :=
  (describes_readCheck_ok (rn := 0)).1 (by cases ft <;> decide +kernel)

/-- **C82** violated for every SuperDARN file type: the writer accepts and writes a record without fields, and one with all
fields of the format as scalars, and the file cannot be read. -/
theorem C82_darn_violation (cfg : NpCfg) (ft : FileType) :
    UnreadableFile cfg ft [[]] ∧ UnreadableFile cfg ft [allScalars ft] := by
  refine ⟨unreadable_of (bs := [1, 0, 1, 0, 16, 0, 0, 0, 0, 0, 0, 0, 0, 0, 0, 0]) (conforms_nil ft)
    (.inl fun p hp => absurd hp (List.not_mem_nil)) (by decide +kernel), ?_⟩
  have h : (match writeBytes [allScalars ft] with | .ok _ => true | _ => false) = true := by
    cases ft <;> decide +kernel
  split at h
  · rename_i bs hb
    exact unreadable_of (conforms_allScalars ft) (.inr (noArrays_allScalars ft)) hb
  · cases h

/-- There are many such fields. -/
example : 40 < (allScalars .rawacf).length ∧ 10 < (allScalars .grid).length := by decide +kernel

end SD

end Verif
