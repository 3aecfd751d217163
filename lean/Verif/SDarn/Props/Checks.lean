import Verif.SDarn.Sample
/-!
# Properties of the SuperDARN field checks (C23 - C26, C28)
-/
namespace Verif.SD
open Verif

/-! ## C23: decision -/

/-- **C23** (reading).  The checks of `read_X` accept a record iff it conforms to the format of X. -/
theorem C23_read (ft : FileType) (rn : Nat) (r : Rec) :
    readCheck (readGroups ft) (readOptional ft) rn r = .ok () ↔ Conforms ft r :=
  (readCheck_outcome (describes_read ft) rn r).iff

/-- **C23** (writing).  The checks of `write_X` accept a record iff it conforms to the format of X. -/
theorem C23_write (ft : FileType) (rn : Nat) (r : Rec) :
    writeCheck (writeGroups ft) (writeOptional ft) rn r = .ok () ↔ Conforms ft r :=
  (writeCheck_outcome (describes_write ft) rn r).iff

/-- A record of 52 fields conforms, one with a missing and an unknown field does not. -/
example : Conforms .rawacf Sample.rawacf ∧ ¬ Conforms .rawacf Sample.broken :=
  ⟨(C23_read .rawacf 0 _).1 (by decide +kernel),
   fun h => absurd ((C23_read .rawacf 0 _).2 h) (by decide +kernel)⟩

/-! ## C24: the errors name the offending fields -/

/-- The record holds values that are not DMAP structures. -/
def HasOther (r : Rec) : Prop := ∃ p ∈ r, p.2 = Field.other

/-- What a reader reports: a partially present group first, then unknown fields, then types. -/
structure Reports (req op : List Table) (rn : Nat) (r : Rec) (res : Except Err Unit) : Prop where
  missing : (∃ k, Missing req r k) → (∃ k, Extra (req ++ op) r k) ∨
    ∃ fs, res = .error (.sdFieldMissing rn fs) ∧ ∀ k, k ∈ fs ↔ Missing req r k
  extra : (∃ k, Extra (req ++ op) r k) → (∃ k, Missing req r k) ∨
    ∃ fs, res = .error (.sdExtraField rn fs) ∧ ∀ k, k ∈ fs ↔ Extra (req ++ op) r k
  types : (¬ ∃ k, Missing req r k) → (¬ ∃ k, Extra (req ++ op) r k) → ¬ HasOther r →
    (∃ k t, WrongType (req ++ op) r k t) →
      ∃ l, res = .error (.sdDataFormatType l rn) ∧ ∀ k t, (k, t) ∈ l ↔ WrongType (req ++ op) r k t
  other : (¬ ∃ k, Missing req r k) → (¬ ∃ k, Extra (req ++ op) r k) → HasOther r →
    res = .error .attributeError

theorem Outcome.reports {req op : List Table} {rn : Nat} {r : Rec} {b : Bool} {res : Except Err Unit}
    (h : Outcome req op rn r b res) : Reports req op rn r res := by
  have ex : ∀ {α : Type} {l : List α}, l ≠ [] → ∃ x, x ∈ l := fun h => List.exists_mem_of_ne_nil _ h
  cases h with
  | ok h =>
    have h' := satisfies_iff.1 h
    refine ⟨(fun ⟨k, hk⟩ => absurd hk (h'.1 k)), (fun ⟨k, hk⟩ => absurd hk (h'.2.1 k)),
      (fun _ _ _ ⟨k, t, hk⟩ => absurd hk (h'.2.2 k t)), ?_⟩
    rintro _ _ ⟨⟨k, f⟩, hp, hf⟩
    simp only at hf
    subst hf
    obtain ⟨t, ht⟩ := h.known k ⟨_, hp⟩
    have := h.typed k _ hp t ht
    cases this
  | missing fs h1 h2 h3 =>
    have hm : ∃ k, Missing req r k := by obtain ⟨k, hk⟩ := ex h1; exact ⟨k, (h2 k).1 hk⟩
    exact ⟨fun _ => .inr ⟨fs, rfl, h2⟩, fun _ => .inl hm, fun h => absurd hm h, fun h => absurd hm h⟩
  | extra fs h1 h2 h3 =>
    have he : ∃ k, Extra (req ++ op) r k := by obtain ⟨k, hk⟩ := ex h1; exact ⟨k, (h2 k).1 hk⟩
    exact ⟨fun _ => .inl he, fun _ => .inr ⟨fs, rfl, h2⟩, fun _ h => absurd he h, fun _ h => absurd he h⟩
  | types l h1 h2 h3 h4 h5 =>
    exact ⟨(fun ⟨k, hk⟩ => absurd hk (h3 k)), (fun ⟨k, hk⟩ => absurd hk (h4 k)),
      fun _ _ _ _ => ⟨l, rfl, h2⟩, (fun _ _ ⟨p, hp, hf⟩ => absurd hf (h5 p hp))⟩
  | other h1 h2 h3 =>
    exact ⟨(fun ⟨k, hk⟩ => absurd hk (h1 k)), (fun ⟨k, hk⟩ => absurd hk (h2 k)),
      fun _ _ h => absurd h3 h, fun _ _ _ => rfl⟩

/-- **C24** (reading one record).  A record with a partially present group is rejected with
exactly its missing fields, whatever else is wrong with it; a record with complete groups and
unknown fields with exactly those; otherwise with exactly the fields of another type and the
type expected; always with the number of the record. -/
theorem C24_read_fields (ft : FileType) (rn : Nat) (r : Rec) :
    Reports (required ft) (optional ft) rn r (readCheck (readGroups ft) (readOptional ft) rn r) ∧
    ((∃ k, Missing (required ft) r k) →
      ∃ fs, readCheck (readGroups ft) (readOptional ft) rn r = .error (.sdFieldMissing rn fs) ∧
        ∀ k, k ∈ fs ↔ Missing (required ft) r k) := by
  have h := readCheck_outcome (describes_read ft) rn r
  refine ⟨h.reports, ?_⟩
  rintro ⟨k, hk⟩
  rcases h.reports.missing ⟨k, hk⟩ with ⟨k', he⟩ | h'
  · generalize readCheck (readGroups ft) (readOptional ft) rn r = res at h ⊢
    cases h with
    | ok h => exact absurd hk ((satisfies_iff.1 h).1 k)
    | missing fs h1 h2 h3 => exact ⟨fs, rfl, h2⟩
    | extra fs h1 h2 h3 => exact absurd hk (h3 rfl k)
    | types l h1 h2 h3 h4 h5 => exact absurd hk (h3 k)
    | other h1 h2 h3 => exact absurd hk (h1 k)
  · exact h'

/-- **C24** (writing one record).  As for reading, but unknown fields are reported first. -/
theorem C24_write_fields (ft : FileType) (rn : Nat) (r : Rec) :
    Reports (required ft) (optional ft) rn r (writeCheck (writeGroups ft) (writeOptional ft) rn r) ∧
    ((∃ k, Extra (required ft ++ optional ft) r k) →
      ∃ fs, writeCheck (writeGroups ft) (writeOptional ft) rn r = .error (.sdExtraField rn fs) ∧
        ∀ k, k ∈ fs ↔ Extra (required ft ++ optional ft) r k) := by
  have h := writeCheck_outcome (describes_write ft) rn r
  refine ⟨h.reports, ?_⟩
  rintro ⟨k, hk⟩
  rcases h.reports.extra ⟨k, hk⟩ with ⟨k', he⟩ | h'
  · generalize writeCheck (writeGroups ft) (writeOptional ft) rn r = res at h ⊢
    cases h with
    | ok h => exact absurd hk ((satisfies_iff.1 h).2.1 k)
    | missing fs h1 h2 h3 => exact absurd hk (h3 rfl k)
    | extra fs h1 h2 h3 => exact ⟨fs, rfl, h2⟩
    | types l h1 h2 h3 h4 h5 => exact absurd hk (h4 k)
    | other h1 h2 h3 => exact absurd hk (h2 k)
  · exact h'

/-- The three errors on concrete records. -/
example :
    readCheck (readGroups .rawacf) (readOptional .rawacf) 7 Sample.broken =
        .error (.sdFieldMissing 7 [py! "cp"]) ∧
    writeCheck (writeGroups .rawacf) (writeOptional .rawacf) 7 Sample.broken =
        .error (.sdExtraField 7 [py! "foo"]) ∧
    readCheck (readGroups .rawacf) (readOptional .rawacf) 3 Sample.illTyped =
        .error (.sdDataFormatType [(py! "cp", .h)] 3) := by
  decide +kernel

/-! ## C25: reader and writer agree -/

/-- **C25.**  The checks of `read_X` accept a record iff those of `write_X` do. -/
theorem C25_same_records (ft : FileType) (rn rn' : Nat) (r : Rec) :
    readCheck (readGroups ft) (readOptional ft) rn r = .ok () ↔
      writeCheck (writeGroups ft) (writeOptional ft) rn' r = .ok () :=
  (C23_read ft rn r).trans (C23_write ft rn' r).symm

/-- Both sides hold for the sample record and fail for the broken one. -/
example :
    (readCheck (readGroups .rawacf) (readOptional .rawacf) 0 Sample.rawacf = .ok () ∧
      writeCheck (writeGroups .rawacf) (writeOptional .rawacf) 0 Sample.rawacf = .ok ()) ∧
    readCheck (readGroups .rawacf) (readOptional .rawacf) 0 Sample.broken ≠ .ok () ∧
      writeCheck (writeGroups .rawacf) (writeOptional .rawacf) 0 Sample.broken ≠ .ok () := by
  decide +kernel

/-! ## C26: the tables are unambiguous -/

/-- **C26** (tables).  In each file type no field name occurs twice, neither in two groups nor
in one. -/
theorem C26_names_unique (ft : FileType) :
    ((required ft ++ optional ft).flatMap fun g => g.map Prod.fst).Nodup := by
  cases ft <;> decide +kernel

/-- **C26** (formats).  Every field name has exactly one data type. -/
theorem C26_one_format (ft : FileType) : OneFormat (required ft ++ optional ft) := by
  cases ft <;> exact oneFormat_of (by decide +kernel)

example : Lists (required .rawacf ++ optional .rawacf) (py! "cp") .h :=
  ⟨Rawacf.types, by decide +kernel, by decide +kernel⟩

/-- All file types. -/
def allTypes : List FileType := [.iqdat, .rawacf, .fitacf, .grid, .map, .snd]

/-- **C26** (formats across file types).  A field name that occurs in several file types has the
same data type in all of them. -/
theorem C26_same_format (ft ft' : FileType) (k : PyStr) (t t' : Fmt)
    (h : Lists (required ft ++ optional ft) k t) (h' : Lists (required ft' ++ optional ft') k t') :
    t = t' := by
  have all : OneFormat (allTypes.flatMap fun ft => required ft ++ optional ft) :=
    oneFormat_of (by decide +kernel)
  have mem : ∀ ft : FileType, ft ∈ allTypes := by intro ft; cases ft <;> decide
  obtain ⟨g, hg, hk⟩ := h
  obtain ⟨g', hg', hk'⟩ := h'
  exact all k t t' ⟨g, List.mem_flatMap.2 ⟨ft, mem ft, hg⟩, hk⟩
    ⟨g', List.mem_flatMap.2 ⟨ft', mem ft', hg'⟩, hk'⟩

example : Lists (required .rawacf ++ optional .rawacf) (py! "bmnum") .h ∧
    Lists (required .iqdat ++ optional .iqdat) (py! "bmnum") .h :=
  ⟨⟨Rawacf.types, by decide +kernel, by decide +kernel⟩, ⟨Iqdat.types, by decide +kernel, by decide +kernel⟩⟩

/-- Two results with the same exception and the same set of fields. -/
inductive SameResult : Except Err Unit → Except Err Unit → Prop
  | ok : SameResult (.ok ()) (.ok ())
  | missing (rn : Nat) (fs fs' : List PyStr) : (∀ k, k ∈ fs ↔ k ∈ fs') →
      SameResult (.error (.sdFieldMissing rn fs)) (.error (.sdFieldMissing rn fs'))
  | extra (rn : Nat) (fs fs' : List PyStr) : (∀ k, k ∈ fs ↔ k ∈ fs') →
      SameResult (.error (.sdExtraField rn fs)) (.error (.sdExtraField rn fs'))
  | types (rn : Nat) (l l' : List (PyStr × Fmt)) : (∀ p, p ∈ l ↔ p ∈ l') →
      SameResult (.error (.sdDataFormatType l rn)) (.error (.sdDataFormatType l' rn))
  | other : SameResult (.error .attributeError) (.error .attributeError)

theorem Outcome.same {req op : List Table} {rn : Nat} {r r' : Rec} {b : Bool} {res res' : Except Err Unit}
    (hr : ∀ p, p ∈ r ↔ p ∈ r') (h : Outcome req op rn r b res) (h' : Outcome req op rn r' b res') :
    SameResult res res' := by
  have ex : ∀ {α : Type} {l : List α}, l ≠ [] → ∃ x, x ∈ l := fun h => List.exists_mem_of_ne_nil _ h
  have has : ∀ k, Has r k ↔ Has r' k := fun k => by simp only [Has, hr]
  have hM : ∀ k, Missing req r k ↔ Missing req r' k := fun k => by simp only [Missing, has]
  have hE : ∀ k, Extra (req ++ op) r k ↔ Extra (req ++ op) r' k := fun k => by simp only [Extra, has]
  have hW : ∀ k t, WrongType (req ++ op) r k t ↔ WrongType (req ++ op) r' k t :=
    fun k t => by simp only [WrongType, hr]
  have hO : (∃ p ∈ r, p.2 = Field.other) ↔ ∃ p ∈ r', p.2 = Field.other := by simp only [hr]
  have hS : Satisfies req op r ↔ Satisfies req op r' := by
    rw [satisfies_iff, satisfies_iff]; simp only [hM, hE, hW]
  have nM : ∀ {fs : List PyStr} {r : Rec}, fs ≠ [] → (∀ k, k ∈ fs ↔ Missing req r k) →
      ¬ ∀ k, ¬ Missing req r k := fun h1 h2 h => by
    obtain ⟨k, hk⟩ := ex h1; exact h k ((h2 k).1 hk)
  have nE : ∀ {fs : List PyStr} {r : Rec}, fs ≠ [] → (∀ k, k ∈ fs ↔ Extra (req ++ op) r k) →
      ¬ ∀ k, ¬ Extra (req ++ op) r k := fun h1 h2 h => by
    obtain ⟨k, hk⟩ := ex h1; exact h k ((h2 k).1 hk)
  have nW : ∀ {l : List (PyStr × Fmt)} {r : Rec}, l ≠ [] → (∀ k t, (k, t) ∈ l ↔ WrongType (req ++ op) r k t) →
      ¬ ∀ k t, ¬ WrongType (req ++ op) r k t := fun h1 h2 h => by
    obtain ⟨⟨k, t⟩, hk⟩ := ex h1; exact h k t ((h2 k t).1 hk)
  cases h with
  | ok h =>
    have : res' = .ok () := h'.iff.2 (hS.1 h)
    subst this; exact .ok
  | missing fs h1 h2 h3 =>
    have h2' := fun k => (h2 k).trans (hM k)
    cases h' with
    | ok h => exact absurd (satisfies_iff.1 h).1 (nM h1 h2')
    | missing fs' g1 g2 g3 => exact .missing rn fs fs' fun k => (h2' k).trans (g2 k).symm
    | extra fs' g1 g2 g3 =>
      cases b with
      | true => exact absurd (g3 rfl) (nM h1 h2')
      | false => exact absurd (fun k hk => h3 rfl k ((hE k).2 hk)) (nE g1 g2)
    | types l g1 g2 g3 g4 g5 => exact absurd g3 (nM h1 h2')
    | other g1 g2 g3 => exact absurd g1 (nM h1 h2')
  | extra fs h1 h2 h3 =>
    have h2' := fun k => (h2 k).trans (hE k)
    cases h' with
    | ok h => exact absurd (satisfies_iff.1 h).2.1 (nE h1 h2')
    | missing fs' g1 g2 g3 =>
      cases b with
      | true => exact absurd (fun k hk => h3 rfl k ((hM k).2 hk)) (nM g1 g2)
      | false => exact absurd (g3 rfl) (nE h1 h2')
    | extra fs' g1 g2 g3 => exact .extra rn fs fs' fun k => (h2' k).trans (g2 k).symm
    | types l g1 g2 g3 g4 g5 => exact absurd g4 (nE h1 h2')
    | other g1 g2 g3 => exact absurd g2 (nE h1 h2')
  | types l h1 h2 h3 h4 h5 =>
    have h2' := fun k t => (h2 k t).trans (hW k t)
    cases h' with
    | ok h => exact absurd (satisfies_iff.1 h).2.2 (nW h1 h2')
    | missing fs' g1 g2 g3 => exact absurd (fun k hk => h3 k ((hM k).2 hk)) (nM g1 g2)
    | extra fs' g1 g2 g3 => exact absurd (fun k hk => h4 k ((hE k).2 hk)) (nE g1 g2)
    | types l' g1 g2 g3 g4 g5 => exact .types rn l l' fun ⟨k, t⟩ => (h2' k t).trans (g2 k t).symm
    | other g1 g2 g3 =>
      obtain ⟨p, hp, hf⟩ := hO.2 g3
      exact absurd hf (h5 p hp)
  | other h1 h2 h3 =>
    cases h' with
    | ok h =>
      have := ((Outcome.other (rn := rn) (first := b) h1 h2 h3).iff).2 (hS.2 h)
      cases this
    | missing fs' g1 g2 g3 => exact absurd (fun k hk => h1 k ((hM k).2 hk)) (nM g1 g2)
    | extra fs' g1 g2 g3 => exact absurd (fun k hk => h2 k ((hE k).2 hk)) (nE g1 g2)
    | types l g1 g2 g3 g4 g5 =>
      obtain ⟨p, hp, hf⟩ := hO.1 h3
      exact absurd hf (g5 p hp)
    | other g1 g2 g3 => exact .other

theorem Describes.congr {gs gs' opt opt' req op : List Table} (h : Describes gs opt req op)
    (hg : gs'.Perm gs) (ho : opt'.Perm opt) : Describes gs' opt' req op := by
  have hm : ∀ g, g ∈ gs' ↔ g ∈ gs := fun g => hg.mem_iff
  have hi : ∀ g, inTables g opt' = inTables g opt := by
    intro g
    unfold inTables
    rw [Bool.eq_iff_iff]
    simp only [List.any_eq_true, ho.mem_iff]
  have hL : ∀ k t, Lists gs' k t ↔ Lists gs k t := fun k t => by simp only [Lists, hm]
  refine ⟨?_, ?_, ?_, ?_⟩
  · intro k t t' h1 h2
    exact h.one k t t' ((hL k t).1 h1) ((hL k t').1 h2)
  · intro g
    rw [← h.reqd g]
    simp only [List.mem_filter, hm, hi]
  · intro g hgm
    exact h.sub g ((hm g).1 hgm)
  · intro g hgm
    rcases h.sup g hgm with h | h
    · exact .inl h
    · exact .inr ((hm g).2 h)

/-- **C26** (order, reading).  Permuting the tables, the optional tables and the fields of the
record changes neither the exception nor the set of fields it carries. -/
theorem C26_read_order (ft : FileType) (rn : Nat) {gs opt : List Table} {r r' : Rec}
    (hg : gs.Perm (readGroups ft)) (ho : opt.Perm (readOptional ft)) (hr : r'.Perm r) :
    SameResult (readCheck (readGroups ft) (readOptional ft) rn r) (readCheck gs opt rn r') :=
  (readCheck_outcome (describes_read ft) rn r).same (fun _ => hr.mem_iff.symm)
    (readCheck_outcome ((describes_read ft).congr hg ho) rn r')

/-- **C26** (order, writing). -/
theorem C26_write_order (ft : FileType) (rn : Nat) {gs opt : List Table} {r r' : Rec}
    (hg : gs.Perm (writeGroups ft)) (ho : opt.Perm (writeOptional ft)) (hr : r'.Perm r) :
    SameResult (writeCheck (writeGroups ft) (writeOptional ft) rn r) (writeCheck gs opt rn r') :=
  (writeCheck_outcome (describes_write ft) rn r).same (fun _ => hr.mem_iff.symm)
    (writeCheck_outcome ((describes_write ft).congr hg ho) rn r')

/-- Reversing the groups and the broken record: a permutation with a non-trivial outcome. -/
example : (readGroups .rawacf).reverse.Perm (readGroups .rawacf) ∧
    Sample.broken.reverse.Perm Sample.broken ∧
    readCheck (readGroups .rawacf).reverse [] 1 Sample.broken.reverse =
      .error (.sdFieldMissing 1 [py! "cp"]) :=
  ⟨List.reverse_perm _, List.reverse_perm _, by decide +kernel⟩

/-! ## C28: no `KeyError` -/

/-- **C28** (reading). -/
theorem C28_read_no_keyError (ft : FileType) (rn : Nat) (r : Rec) :
    readCheck (readGroups ft) (readOptional ft) rn r ≠ .error .keyError := by
  have h := readCheck_outcome (describes_read ft) rn r
  intro he
  rw [he] at h
  cases h

/-- **C28** (writing). -/
theorem C28_write_no_keyError (ft : FileType) (rn : Nat) (r : Rec) :
    writeCheck (writeGroups ft) (writeOptional ft) rn r ≠ .error .keyError := by
  have h := writeCheck_outcome (describes_write ft) rn r
  intro he
  rw [he] at h
  cases h

/-- Alone, the type check does raise `KeyError` on an unknown field: the order of the checks
matters. -/
example : incorrectTypesCheck (readGroups .rawacf) Sample.broken 0 = .error .keyError := by
  decide +kernel

end Verif.SD
