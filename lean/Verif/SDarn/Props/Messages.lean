import Verif.SDarn.Model.Messages
import Verif.Dmap.Lemmas.Messages
import Verif.SDarn.Props.Objects
/-!
# C70: texts of exceptions of checks and writers
-/
namespace Verif
open Spec

/-- Two exceptions say the same: class, record number, and the same fields. -/
def SaysSame : Err → Err → Prop
  | .sdFieldMissing n l, .sdFieldMissing m k => n = m ∧ l.Perm k
  | .sdExtraField n l, .sdExtraField m k => n = m ∧ l.Perm k
  | .sdDataFormatType l n, .sdDataFormatType k m => n = m ∧ l = k
  | .dmapCharError a n, .dmapCharError b m => n = m ∧ a = b
  | .dmapTypeError n, .dmapTypeError m => n = m
  | _, _ => False

theorem fmtStr_inj {x y : Fmt} (h : fmtStr x = fmtStr y) : x = y := by
  cases x <;> cases y <;> first | rfl | cases h

theorem reprFmt_telling (printable : Char → Bool) : Telling (fun x : Fmt => reprStr printable (fmtStr x)) := by
  intro a b r s h
  obtain ⟨h1, h2⟩ := reprStr_telling printable _ _ _ _ h
  exact ⟨fmtStr_inj h1, h2⟩

theorem telling_after {α : Type} {text : α → PyStr} (ht : Telling text) {a : PyStr} {x y : α} (h : a ++ text x = a ++ text y) : x = y :=
  ht.inj (List.append_cancel_left h)

/-- **C70** The texts of the exceptions that checks of SuperDARN records and writers raise tell all: if two of them have the same
text, whatever order sets are shown in, they are of the same class and name the same record and the same fields. -/
theorem C70_checks (printable : Char → Bool) {e e' : Err} {t : PyStr} (h : ShownAs printable e t) (h' : ShownAs printable e' t) :
    SaysSame e e' := by
  have set := reprSet_telling (reprStr_telling printable) (reprStr_notClosing printable)
  have dict := reprDict_telling (reprStr_telling printable) (reprStr_notClosing printable) (reprFmt_telling printable)
  generalize ht : t = t' at h'
  cases h with
  | @missing rn fields order hp =>
    cases h' with
    | @missing rn' fields' order' hp' =>
      unfold missingText at ht
      simp only [List.append_assoc] at ht
      obtain ⟨h1, h2⟩ := digits_split (x := ' ') (y := ' ') (by decide) (by decide) (List.append_cancel_left ht)
      have h3 := telling_after (a := py! " are missing: ") set h2
      exact ⟨h1, hp.symm.trans (h3 ▸ hp')⟩
    | @extra rn' fields' order' hp' =>
      exfalso
      unfold missingText extraText at ht
      simp only [List.append_assoc] at ht
      obtain ⟨h1, h2⟩ := digits_split (x := ' ') (y := ' ') (by decide) (by decide) (List.append_cancel_left ht)
      simp at h2
    | types => simp [missingText, wrongTypesText] at ht
    | char => simp [missingText, charText] at ht
    | type => simp [missingText, dmapTypeText] at ht
  | @extra rn fields order hp =>
    cases h' with
    | @missing rn' fields' order' hp' =>
      exfalso
      unfold missingText extraText at ht
      simp only [List.append_assoc] at ht
      obtain ⟨h1, h2⟩ := digits_split (x := ' ') (y := ' ') (by decide) (by decide) (List.append_cancel_left ht)
      simp at h2
    | @extra rn' fields' order' hp' =>
      unfold extraText at ht
      simp only [List.append_assoc] at ht
      obtain ⟨h1, h2⟩ := digits_split (x := ' ') (y := ' ') (by decide) (by decide) (List.append_cancel_left ht)
      have h3 := telling_after (a := py! " are not allowed: ") set h2
      exact ⟨h1, hp.symm.trans (h3 ▸ hp')⟩
    | types => simp [extraText, wrongTypesText] at ht
    | char => simp [extraText, charText] at ht
    | type => simp [extraText, dmapTypeText] at ht
  | @types fields rn =>
    cases h' with
    | missing => simp [missingText, wrongTypesText] at ht
    | extra => simp [extraText, wrongTypesText] at ht
    | @types fields' rn' =>
      unfold wrongTypesText at ht
      simp only [List.append_assoc] at ht
      obtain ⟨h1, h2⟩ := digits_split (x := ',') (y := ',') (by decide) (by decide) (List.append_cancel_left ht)
      exact ⟨h1, telling_after (a := py! ", following parameters need to be the data type: ") dict h2⟩
    | char => simp [charText, wrongTypesText] at ht
    | type => simp [dmapTypeText, wrongTypesText] at ht
  | @char name rn =>
    cases h' with
    | missing => simp [missingText, charText] at ht
    | extra => simp [extraText, charText] at ht
    | types => simp [charText, wrongTypesText] at ht
    | @char name' rn' =>
      unfold charText at ht
      simp only [List.append_assoc] at ht
      obtain ⟨h1, h2⟩ := reprStr_telling printable _ _ _ _ (List.append_cancel_left ht)
      obtain ⟨h3, -⟩ := digits_split (x := ' ') (y := ' ') (by decide) (by decide) (List.append_cancel_left h2)
      exact ⟨h3, h1⟩
    | type => simp [charText, dmapTypeText] at ht
  | @type cls rn =>
    cases h' with
    | missing => simp [missingText, dmapTypeText] at ht
    | extra => simp [extraText, dmapTypeText] at ht
    | types => simp [dmapTypeText, wrongTypesText] at ht
    | char => simp [charText, dmapTypeText] at ht
    | @type cls' rn' =>
      have split : ∀ c n, dmapTypeText c n = (py! "Error: <class '" ++ c ++ (py! "'> does not match the DMAP data type structures: DmapScalar, DmapArray." ++
          py! " Please make sure you have the correct Data Structure. Failed at record")) ++ (' ' :: Nat.toDigits 10 n) := by
        intro c n
        simp [dmapTypeText, decText]
      rw [split, split] at ht
      exact (digits_last (by decide) (by decide) ht).1

/-- The letters of the formats. -/
def fmtLetters : List (Fmt × PyStr) :=
  [(.dmap, []), (.c, ['c']), (.h, ['h']), (.i, ['i']), (.f, ['f']), (.d, ['d']), (.s, ['s']), (.q, ['q']), (.B, ['B']), (.H, ['H']),
   (.I, ['I']), (.Q, ['Q'])]

/-- What the texts of these exceptions are. -/
def WordsOf (printable : Char → Bool) (t : PyStr) : Err → Prop
  | .sdFieldMissing n l => ∃ l' : List PyStr, l'.Perm l ∧
    t = fillIn (py! "Error: The following fields in record {} are missing: {}") [digits n, reprSet (reprStr printable) l']
  | .sdExtraField n l => ∃ l' : List PyStr, l'.Perm l ∧
    t = fillIn (py! "Error: The following fields in record {} are not allowed: {}") [digits n, reprSet (reprStr printable) l']
  | .sdDataFormatType l n => ∃ l' : List (PyStr × PyStr), l'.map Prod.fst = l.map Prod.fst ∧
    (∀ p ∈ l.zip l', (p.1.2, p.2.2) ∈ fmtLetters) ∧
    t = fillIn (py! "Error: In record {}, following parameters need to be the data type: {}")
      [digits n, reprDict (reprStr printable) (reprStr printable) l']
  | .dmapCharError a n => t = fillIn (py! "Error: For field ({},) at record number {} is a string type trying to be written in as a char. DMAP treats char as int8. Please revise this field type")
      [reprStr printable a, digits n]
  | .dmapTypeError n => ∃ cls, t = fillIn (py! "Error: <class '{}'> does not match the DMAP data type structures: DmapScalar, DmapArray. Please make sure you have the correct Data Structure. Failed at record {}")
      [cls, digits n]
  | _ => False

/-- **C70** The texts in full: number of the record, names of the fields, and the letters of the types. -/
theorem C70_words (printable : Char → Bool) {e : Err} {t : PyStr} (h : ShownAs printable e t) : WordsOf printable t e := by
  cases h with
  | @missing rn fields order hp => exact ⟨order, hp, by simp [missingText, fillIn, digits, decText]⟩
  | @extra rn fields order hp => exact ⟨order, hp, by simp [extraText, fillIn, digits, decText]⟩
  | @types fields rn =>
    refine ⟨fields.map fun p => (p.1, fmtStr p.2), by simp, ?_, ?_⟩
    · intro p hp
      have : ∀ (l : List (PyStr × Fmt)) p, p ∈ l.zip (l.map fun p => (p.1, fmtStr p.2)) → p.2.2 = fmtStr p.1.2 := by
        intro l
        induction l with
        | nil => simp
        | cons a l ih =>
          intro p hp
          rcases List.mem_cons.1 hp with rfl | hp
          · rfl
          · exact ih p hp
      rw [this _ _ hp]
      cases p.1.2 <;> simp [fmtLetters, fmtStr]
    · simp [wrongTypesText, fillIn, digits, decText, reprDict, itemsText_map]
  | @char name rn =>
    show charText printable name rn = _
    unfold charText
    rw [decText_natCast]
    simp only [List.append_assoc]
    rfl
  | @type cls rn => 
    refine ⟨cls, ?_⟩
    unfold dmapTypeText
    rw [decText_natCast]
    simp only [List.append_assoc]
    exact congrArg (fun x => py! "Error: <class '" ++ (cls ++ x)) (List.append_nil _).symm

example : ShownAs (fun _ => true) (.sdFieldMissing 3 [py! "a", py! "it's"]) (py! "Error: The following fields in record 3 are missing: {\"it's\", 'a'}") :=
  ShownAs.missing (order := [py! "it's", py! "a"]) (by decide)

example : ShownAs (fun _ => true) (.dmapCharError (py! "bmnum") 12)
    (py! "Error: For field ('bmnum',) at record number 12 is a string type trying to be written in as a char. DMAP treats char as int8. Please revise this field type") :=
  ShownAs.char

end Verif
