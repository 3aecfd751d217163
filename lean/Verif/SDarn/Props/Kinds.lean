import Verif.SDarn.Props.Objects
import Verif.SDarn.Props.Write
/-!
# C61: file types are told apart
-/
namespace Verif.SD
open Verif Verif.Spec

/-- The table `types` of a file type, which lists the fields of every record of RST. -/
def mainTable : FileType → Table
  | .iqdat => Iqdat.types
  | .rawacf => Rawacf.types
  | .fitacf => Fitacf.types
  | .snd => Snd.types
  | .grid => Grid.types
  | .map => Map.types

/-- The record has a field of the main table. -/
def HasMain (ft : FileType) (r : Rec) : Prop := ∃ k t, (k, t) ∈ mainTable ft ∧ Has r k

/-- The names of the tables. -/
def tableNames (gs : List Table) : List PyStr := gs.flatMap fun g => g.map Prod.fst

theorem mem_tableNames {gs : List Table} {k : PyStr} : k ∈ tableNames gs ↔ ∃ t, Lists gs k t := by
  unfold tableNames Lists
  simp only [List.mem_flatMap, List.mem_map, Prod.exists, exists_and_right, exists_eq_right]
  constructor
  · rintro ⟨g, hg, t, ht⟩
    exact ⟨t, g, hg, ht⟩
  · rintro ⟨t, g, hg, ht⟩
    exact ⟨g, hg, t, ht⟩

/-- The main table has a name the other type does not list, or a group of the other type has a name of it and one that
the first type does not list. -/
theorem tables_apart (ft ft' : FileType) (h : ft ≠ ft') :
    (∃ k ∈ (mainTable ft).map Prod.fst, k ∉ tableNames (required ft' ++ optional ft')) ∨
    ∃ g ∈ required ft', (∃ k ∈ g.map Prod.fst, k ∈ (mainTable ft).map Prod.fst) ∧
      ∃ k ∈ g.map Prod.fst, k ∉ tableNames (required ft ++ optional ft) := by
  cases ft <;> cases ft' <;> first | exact absurd rfl h | decide +kernel

/-- **C61.** A record that conforms to a file type and has its main fields conforms to no other file type.  Missing: records
without the main fields, see `C61_violation`. -/
theorem C61_record_partial {ft ft' : FileType} (hne : ft ≠ ft') {r : Rec} (h : Conforms ft r) (hm : HasMain ft r) :
    ¬ Conforms ft' r := by
  intro h'
  have hall : ∀ k t, (k, t) ∈ mainTable ft → Has r k := by
    obtain ⟨k, t, hk, hh⟩ := hm
    rcases h.complete (mainTable ft) (by cases ft <;> exact List.mem_cons_self) with hc | hc
    · exact hc
    · exact absurd hh (hc k t hk)
  have hmain : ∀ k ∈ (mainTable ft).map Prod.fst, Has r k := by
    intro k hk
    obtain ⟨⟨k, t⟩, hp, rfl⟩ := List.mem_map.1 hk
    exact hall k t hp
  rcases tables_apart ft ft' hne with ⟨k, hk, hn⟩ | ⟨g, hg, ⟨k, hk, hm⟩, k', hk', hn⟩
  · exact hn (mem_tableNames.2 (h'.known k (hmain k hk)))
  · obtain ⟨⟨k, t⟩, hp, rfl⟩ := List.mem_map.1 hk
    obtain ⟨⟨k', t'⟩, hp', rfl⟩ := List.mem_map.1 hk'
    rcases h'.complete g hg with hc | hc
    · exact hn (mem_tableNames.2 (h.known k' (hc k' t' hp')))
    · exact hc k t hp (hmain k hm)

/-- **C61.** A file that `read_X` accepts, and in which a record has the main fields, is accepted by no other `read_Y`. -/
theorem C61_read_partial (cfg : NpCfg) {ft ft' : FileType} (hne : ft ≠ ft') {bs : Bytes} {rs : List Rec} {ds ds' : List PlainRec}
    (hr : readFile cfg bs = .ok (rs, ds)) (h : readDarn cfg ft bs = .ok ds') (hm : ∃ r ∈ rs, HasMain ft r) :
    ∃ e, readDarn cfg ft' bs = .error e := by
  cases h' : readDarn cfg ft' bs with
  | error e => exact ⟨e, rfl⟩
  | ok ds'' =>
    obtain ⟨rs1, h1, c1⟩ := (C29_fresh cfg ft bs _).1 h
    obtain ⟨rs2, h2, c2⟩ := (C29_fresh cfg ft' bs _).1 h'
    rw [hr] at h1 h2
    cases h1
    cases h2
    obtain ⟨r, hr, hm⟩ := hm
    exact absurd (c2 r hr) (C61_record_partial hne (c1 r hr) hm)

/-- **C61.** Records of one type that are given to `write_Y` of another raise, and no file changes. -/
theorem C61_write_partial {ft ft' : FileType} (hne : ft ≠ ft') {w : Writer} {r : Rec} (hr : r ∈ w.recs) (h : Conforms ft r)
    (hm : HasMain ft r) (fs : FileSys) (fn : PyStr) : ∃ e w', darnWrite ft' w fs fn = (.error e, w', fs) :=
  C18_darn_bad_record hr (C61_record_partial hne h hm) fs fn

/-- A record without main fields: one of an old rawacf file, or of a fitacf file. -/
def Sample.stray : Rec :=
  fieldsOf [⟨py! "ifmode", .int 1, 2, .h⟩] [⟨py! "mplgexs", ⟨.int16, [2], [[1, 0], [2, 0]]⟩, 2, .h, 1, [2]⟩]

/-- A grid record without main fields. -/
def Sample.vectors : Rec :=
  fieldsOf (Sample.scalarsOf (Grid.fittedFields.take 7)) [⟨py! "vector.mlon", ⟨.float32, [1], [[0, 0, 128, 63]]⟩, 4, .f, 1, [1]⟩]

theorem Sample.stray_encodable {mr : Nat} (h : 1 ≤ mr) : Encodable mr Sample.stray := by
  refine ⟨_, _, rfl, by decide +kernel, by decide, by decide +kernel, ?_, ?_, by decide +kernel⟩
  · intro s hs
    rw [List.mem_singleton.1 hs]
    exact ⟨⟨by decide, by decide⟩, rfl, .i16 (by decide) (by decide)⟩
  · intro a ha
    rw [List.mem_singleton.1 ha]
    exact ⟨⟨by decide, by decide⟩, rfl, rfl, rfl, by decide, h, rfl, .inl (by decide), by decide +kernel,
      by decide, nofun, by decide, by decide⟩

/-- **C61** violated: a file of a record without main fields is read as a rawacf file and as a fitacf file. -/
theorem C61_violation (cfg : NpCfg) (h0 : 1 ≤ cfg.maxDims) : ∃ bs, writeBytes [Sample.stray] = .ok bs ∧
    readDarn cfg .rawacf bs = .ok [plainRec Sample.stray] ∧ readDarn cfg .fitacf bs = .ok [plainRec Sample.stray] := by
  have he : ∀ r ∈ [Sample.stray], Encodable cfg.maxDims r := by
    intro r hr
    rw [List.mem_singleton.1 hr]
    exact Sample.stray_encodable h0
  obtain ⟨bs, h1, h2⟩ := writeBytes_ok (by decide) he
  have h2 := readFile_written (cfg := cfg) (by decide) he h2
  refine ⟨bs, h1, ?_, ?_⟩ <;> rw [C29_fresh] <;> refine ⟨_, h2, ?_⟩ <;> intro r hr <;> rw [List.mem_singleton.1 hr] <;>
    exact conforms_presentRec.2 ((describes_readCheck_ok (rn := 0)).1 (by decide +kernel))

/-- A grid record without main fields conforms to both grid and map. -/
example : Conforms .grid Sample.vectors ∧ Conforms .map Sample.vectors ∧ ¬ HasMain .grid Sample.vectors := by
  refine ⟨(describes_readCheck_ok (rn := 0)).1 (by decide +kernel), (describes_readCheck_ok (rn := 0)).1 (by decide +kernel), ?_⟩
  rintro ⟨k, t, hk, f, hf⟩
  have : ∀ p ∈ Sample.vectors, ∀ q ∈ mainTable .grid, q.1 ≠ p.1 := by decide +kernel
  exact this _ hf _ hk rfl

/-- The file of a full rawacf record: read by `read_rawacf`, rejected by the five others. -/
example : ∃ bs, writeBytes [Sample.rawacf] = .ok bs ∧ (∃ ds, readDarn numpy2 .rawacf bs = .ok ds) ∧
    ∀ ft, ft ≠ .rawacf → ∃ e, readDarn numpy2 ft bs = .error e := by
  have he : ∀ r ∈ [Sample.rawacf], Encodable numpy2.maxDims r := by
    intro r hr
    rw [List.mem_singleton.1 hr]
    exact Sample.rawacf_encodable (by decide)
  obtain ⟨bs, h1, h2⟩ := writeBytes_ok (by decide) he
  have h2 := readFile_written (cfg := numpy2) (by decide) he h2
  have h3 : readDarn numpy2 .rawacf bs = .ok ([Sample.rawacf].map plainRec) := by
    rw [C29_fresh]
    refine ⟨_, h2, ?_⟩
    intro r hr
    rw [List.mem_singleton.1 hr]
    exact conforms_presentRec.2 Sample.rawacf_conforms
  refine ⟨bs, h1, ⟨_, h3⟩, fun ft hne => C61_read_partial numpy2 (Ne.symm hne) h2 h3 ⟨presentRec Sample.rawacf, by simp, ?_⟩⟩
  refine ⟨py! "cp", .h, by decide +kernel, ?_⟩
  exact has_iff.2 (by decide +kernel)

/-- The same record, given to a writer. -/
example (ft : FileType) (h : ft ≠ .rawacf) (fs : FileSys) : ∃ e w', darnWrite ft (writerOf [Sample.rawacf] (py! "f")) fs [] =
    (.error e, w', fs) :=
  C61_write_partial (Ne.symm h) (List.mem_singleton.2 rfl) Sample.rawacf_conforms
    ⟨py! "cp", .h, by decide +kernel, has_iff.2 (by decide +kernel)⟩ fs []

end Verif.SD
