import Verif.Borealis.Model.Messages
import Verif.Borealis.Model.Checks
/-!
# C70: texts of exceptions of checks of Borealis files
-/
namespace Verif.Bor

/-- Two exceptions say the same: class, records, and the same fields. -/
def SaysSame : Err → Err → Prop
  | .fieldMissing l, .fieldMissing k => l.Perm k
  | .extraField l, .extraField k => l.Perm k
  | .dataFormatType l, .dataFormatType k => l = k
  | .numberOfRecords l, .numberOfRecords k => l = k
  | .badRecords m e t, .badRecords m' e' t' => Reordered m m' ∧ Reordered e e' ∧ t = t'
  | .version v, .version w => v = w
  | _, _ => False

/-- The names of the classes that the model tells apart. -/
def knownNames : List PyStr :=
  [py! "str", py! "numpy.str_", py! "numpy.bytes_", py! "numpy.bool_", py! "numpy.uint8", py! "numpy.uint16", py! "numpy.uint32",
   py! "numpy.int16", py! "numpy.int32", py! "numpy.int64", py! "numpy.float32", py! "numpy.float64", py! "numpy.complex64",
   py! "int", py! "float"]

/-- The names of other classes are different and not those of the classes that the model tells apart. -/
def OtherNames (other : Nat → PyStr) : Prop :=
  (∀ n m, other n = other m → n = m) ∧ ∀ n, other n ∉ knownNames

theorem tyName_inj {other : Nat → PyStr} (ho : OtherNames other) (s t : Ty) (h : tyName other s = tyName other t) : s = t := by
  have known : ∀ s : Ty, (∃ n, s = .other n) ∨ tyName other s ∈ knownNames := fun s => by
    cases s <;> first | exact .inl ⟨_, rfl⟩ | exact .inr (by simp [tyName, knownNames])
  rcases known s with ⟨n, rfl⟩ | hs
  · rcases known t with ⟨m, rfl⟩ | ht
    · rw [ho.1 n m h]
    · rw [← h] at ht; exact absurd ht (ho.2 n)
  · rcases known t with ⟨m, rfl⟩ | ht
    · rw [h] at hs; exact absurd hs (ho.2 m)
    · cases s <;> cases t <;> first | rfl | (simp [tyName] at h; done) | exact absurd hs (ho.2 _) | exact absurd ht (ho.2 _)

theorem Reordered.symm {a b : List (PyStr × List PyStr)} (h : Reordered a b) : Reordered b a := by
  induction h with
  | nil => exact .nil
  | cons h _ ih => exact .cons h.symm ih

theorem Reordered.trans {a b c : List (PyStr × List PyStr)} (h : Reordered a b) (h' : Reordered b c) : Reordered a c := by
  induction h generalizing c with
  | nil => exact h'
  | cons h _ ih =>
    cases h' with
    | cons h2 t2 => exact .cons (h.trans h2) (ih t2)

theorem dimsText_telling (n : Nat) (l : List Nat) : ∀ (m : Nat) (k : List Nat) (r s : PyStr),
    dimsText (n :: l) ++ r = dimsText (m :: k) ++ s → n :: l = m :: k ∧ r = s := by
  induction l generalizing n with
  | nil =>
    intro m k r s h
    cases k with
    | nil =>
      simp only [dimsText, List.append_assoc] at h
      obtain ⟨h1, h2⟩ := digits_split (x := ')') (y := ')') (by decide) (by decide) h
      exact ⟨by rw [h1], List.append_cancel_left (as := py! ")") h2⟩
    | cons b k =>
      simp only [dimsText, List.append_assoc] at h
      obtain ⟨h1, h2⟩ := digits_split (x := ')') (y := ',') (by decide) (by decide) h
      simp at h2
  | cons a l ih =>
    intro m k r s h
    cases k with
    | nil =>
      simp only [dimsText, List.append_assoc] at h
      obtain ⟨h1, h2⟩ := digits_split (x := ',') (y := ')') (by decide) (by decide) h
      simp at h2
    | cons b k =>
      rw [dimsText, dimsText] at h
      simp only [List.append_assoc] at h
      obtain ⟨h1, h2⟩ := digits_split (x := ',') (y := ',') (by decide) (by decide) h
      obtain ⟨h3, h4⟩ := ih a b k r s (List.append_cancel_left (as := py! ", ") h2)
      exact ⟨by rw [h1, h3], h4⟩

theorem dims_single (n a b : Nat) (l : List Nat) (r s : PyStr) : Nat.toDigits 10 n ++ (py! ",)" ++ r) ≠ dimsText (a :: b :: l) ++ s := by
  intro h
  simp only [dimsText, List.append_assoc] at h
  obtain ⟨h1, h2⟩ := digits_split (x := ',') (y := ',') (by decide) (by decide) h
  simp at h2

theorem dims_none (a b : Nat) (l : List Nat) (r s : PyStr) : py! ")" ++ r ≠ dimsText (a :: b :: l) ++ s := by
  intro h
  simp only [dimsText, List.append_assoc] at h
  cases hd : Nat.toDigits 10 a with
  | nil => simp [hd] at h
  | cons c t =>
    have hc := digits_isDigit (n := a) (c := c) (by simp [hd])
    simp only [hd, List.cons_append, List.nil_append, List.cons.injEq] at h
    rw [← h.1] at hc
    cases hc

theorem digits_none (n : Nat) (r s : PyStr) : py! ")" ++ r ≠ Nat.toDigits 10 n ++ s := by
  intro h
  cases hd : Nat.toDigits 10 n with
  | nil => exact absurd hd (by simp)
  | cons c t =>
    have hc := digits_isDigit (n := n) (c := c) (by simp [hd])
    simp only [hd, List.cons_append, List.nil_append, List.cons.injEq] at h
    rw [← h.1] at hc
    cases hc

theorem shapeText_telling : Telling shapeText := by
  intro x y r s h
  match x, y with
  | [], [] => exact ⟨rfl, List.append_cancel_left h⟩
  | [], [n] =>
    simp only [shapeText, List.append_assoc, List.cons_append, List.nil_append, List.cons.injEq, true_and] at h
    exact absurd h (digits_none _ _ _)
  | [n], [] =>
    simp only [shapeText, List.append_assoc, List.cons_append, List.nil_append, List.cons.injEq, true_and] at h
    exact absurd h.symm (digits_none _ _ _)
  | [], a :: b :: l =>
    simp only [shapeText, List.cons_append, List.nil_append, List.cons.injEq, true_and] at h
    exact absurd h (dims_none _ _ _ _ _)
  | a :: b :: l, [] =>
    simp only [shapeText, List.cons_append, List.nil_append, List.cons.injEq, true_and] at h
    exact absurd h.symm (dims_none _ _ _ _ _)
  | [n], [m] =>
    simp only [shapeText, List.append_assoc] at h
    obtain ⟨h1, h2⟩ := digits_split (x := ',') (y := ',') (by decide) (by decide) (List.append_cancel_left h)
    exact ⟨by rw [h1], List.append_cancel_left (as := py! ",)") h2⟩
  | [n], a :: b :: l =>
    simp only [shapeText, List.append_assoc] at h
    exact absurd (List.append_cancel_left h) (dims_single _ _ _ _ _ _)
  | a :: b :: l, [n] =>
    simp only [shapeText, List.append_assoc] at h
    exact absurd (List.append_cancel_left h).symm (dims_single _ _ _ _ _ _)
  | a :: b :: l, c :: d :: k =>
    simp only [shapeText, List.append_assoc] at h
    exact dimsText_telling _ _ _ _ _ _ (List.append_cancel_left h)

theorem typesText_telling (printable : Char → Bool) {other : Nat → PyStr} (ho : OtherNames other) (dset : PyStr → Bool) :
    Telling (typesText printable other dset) := by
  have hv : Telling fun p : Bool × Ty => reprStr printable (expectedText other p) := by
    intro s t r q h
    obtain ⟨h1, h2⟩ := reprStr_telling printable _ _ _ _ h
    obtain ⟨b, s⟩ := s
    obtain ⟨d, t⟩ := t
    cases b <;> cases d
    · exact ⟨by rw [tyName_inj ho s t (List.append_cancel_right (List.append_cancel_left h1))], h2⟩
    · simp [expectedText, tyStr] at h1
    · simp [expectedText, tyStr] at h1
    · exact ⟨by rw [tyName_inj ho s t (List.append_cancel_right (List.append_cancel_left (List.append_cancel_left h1)))], h2⟩
  intro l k r q h
  obtain ⟨h1, h2⟩ := reprDict_telling (reprStr_telling printable) (reprStr_notClosing printable) hv _ _ _ _ h
  refine ⟨?_, h2⟩
  have := congrArg (List.map fun p : PyStr × Bool × Ty => (p.1, p.2.2)) h1
  simpa [List.map_map, Function.comp_def] using this

theorem fieldsText_telling (printable : Char → Bool) : Telling (fieldsText printable) :=
  reprDict_telling (reprStr_telling printable) (reprStr_notClosing printable)
    (reprSet_telling (reprStr_telling printable) (reprStr_notClosing printable))

/-- A text that starts with a name and one that has it after `p` are different, if nothing in `p` followed by itself looks like
what follows the name. -/
theorem name_first {p x0 : PyStr} (hd : ∀ i, i ≤ p.length → (p.drop i ++ p.take i).isPrefixOf x0 = false) (h0 : p ≠ []) :
    ∀ (k : Nat) (fn x y : PyStr), fn.length ≤ k → p.length ≤ x0.length → fn ++ (x0 ++ x) ≠ p ++ (fn ++ y) := by
  intro k
  induction k with
  | zero =>
    intro fn x y hk hl h
    have : fn = [] := List.length_eq_zero_iff.1 (Nat.le_zero.1 hk)
    subst this
    have h1 := hd 0 (Nat.zero_le _)
    have : p <+: x0 := List.prefix_of_prefix_length_le ⟨_, h.symm⟩ ⟨_, rfl⟩ hl
    simp only [List.drop_zero, List.take_zero, List.append_nil] at h1
    rw [List.isPrefixOf_iff_prefix.2 this] at h1
    cases h1
  | succ k ih =>
    intro fn x y hk hl h
    by_cases hlen : fn.length ≤ p.length
    · have hp : fn <+: p := List.prefix_of_prefix_length_le ⟨_, h⟩ ⟨_, rfl⟩ hlen
      obtain ⟨q, rfl⟩ := hp
      rw [List.append_assoc] at h
      have h1 := List.append_cancel_left h
      have h2 := hd fn.length hlen
      simp only [List.drop_left, List.take_left] at h2
      have : q ++ fn <+: x0 := List.prefix_of_prefix_length_le ⟨y, by rw [List.append_assoc]; exact h1.symm⟩ ⟨_, rfl⟩
        (by simp only [List.length_append] at hl ⊢; omega)
      rw [List.isPrefixOf_iff_prefix.2 this] at h2
      cases h2
    · have hp : p <+: fn := List.prefix_of_prefix_length_le ⟨_, h.symm⟩ ⟨_, rfl⟩ (by omega)
      obtain ⟨q, rfl⟩ := hp
      rw [List.append_assoc, List.append_assoc] at h
      have h1 := List.append_cancel_left h
      have hpos : 0 < p.length := List.length_pos_iff.2 h0
      exact ih q x y (by simp only [List.length_append] at hk; omega) hl h1

theorem bad_first {p : PyStr} (h0 : p ≠ []) (hl : p.length ≤ 57)
    (hd : (List.range (p.length + 1)).all fun i => !(p.drop i ++ p.take i).isPrefixOf (py! " contains invalid records.\n\tRecords with missing fields: "))
    (fn x y : PyStr) : fn ++ (py! " contains invalid records.\n\tRecords with missing fields: " ++ x) ≠ p ++ (fn ++ y) := by
  refine name_first ?_ h0 fn.length fn x y (Nat.le_refl _) hl
  intro i hi
  have := List.all_eq_true.1 hd i (List.mem_range.2 (by omega))
  simpa using this

theorem itemsText_last {α : Type} (text : α → PyStr) (l : List α) : ∃ t, itemsText text l = t ++ ['}'] := by
  induction l with
  | nil => exact ⟨[], rfl⟩
  | cons a l ih =>
    cases l with
    | nil => exact ⟨_, rfl⟩
    | cons b l =>
      obtain ⟨t, ht⟩ := ih
      exact ⟨text a ++ (',' :: ' ' :: t), by simp [itemsText, ht]⟩

theorem version_bad (printable : Char → Bool) (other : Nat → PyStr) (dset : PyStr → Bool) (fn v : PyStr) (missing extra : List (PyStr × List PyStr))
    (types : List (PyStr × List (PyStr × Ty))) : versionText fn v ≠ badText printable other dset fn missing extra types := by
  intro h
  obtain ⟨t, ht⟩ := itemsText_last (fun p : PyStr × List (PyStr × Ty) => reprStr printable p.1 ++ (':' :: ' ' :: typesText printable other dset p.2)) types
  unfold versionText badText reprDict at h
  rw [ht] at h
  have h1 := congrArg List.reverse h
  simp only [List.reverse_append, List.reverse_cons, List.append_assoc, List.nil_append, List.cons_append, List.reverse_nil] at h1
  exact absurd (List.cons.inj h1).1 (by decide)

/-- **C70** The texts of the exceptions that checks of a Borealis file raise tell all: if two of them have the same text, whatever
order sets are shown in, they are of the same class and name the same records and the same fields. -/
theorem C70_borealis (printable : Char → Bool) {other : Nat → PyStr} (ho : OtherNames other) (dset : PyStr → Bool) (fn : PyStr) {e e' : Err} {t : PyStr}
    (h : ShownAs printable other dset fn e t) (h' : ShownAs printable other dset fn e' t) : SaysSame e e' := by
  have set := reprSet_telling (reprStr_telling printable) (reprStr_notClosing printable)
  have types := typesText_telling printable ho dset
  have fields := fieldsText_telling printable
  generalize ht : t = t' at h'
  cases h with
  | missing hp =>
    cases h' with
    | missing hp' =>
      have h1 := List.append_cancel_left (List.append_cancel_left (List.append_cancel_left ht))
      exact hp.symm.trans (set.inj h1 ▸ hp')
    | extra hp' =>
      have h1 := List.append_cancel_left (List.append_cancel_left ht)
      simp at h1
    | types => simp [missingText, wrongTypesText] at ht
    | numbers => simp [missingText, numbersText] at ht
    | bad => exact absurd ht.symm (bad_first (by decide) (by decide) (by decide +kernel) _ _ _)
    | version => simp [missingText, versionText] at ht
  | extra hp =>
    cases h' with
    | missing hp' =>
      have h1 := List.append_cancel_left (List.append_cancel_left ht)
      simp at h1
    | extra hp' =>
      have h1 := List.append_cancel_left (List.append_cancel_left (List.append_cancel_left ht))
      exact hp.symm.trans (set.inj h1 ▸ hp')
    | types => simp [extraText, wrongTypesText] at ht
    | numbers => simp [extraText, numbersText] at ht
    | bad => exact absurd ht.symm (bad_first (by decide) (by decide) (by decide +kernel) _ _ _)
    | version => simp [extraText, versionText] at ht
  | types =>
    cases h' with
    | missing => simp [missingText, wrongTypesText] at ht
    | extra => simp [extraText, wrongTypesText] at ht
    | types => exact types.inj (List.append_cancel_left (List.append_cancel_left (List.append_cancel_left ht)))
    | numbers => simp [wrongTypesText, numbersText] at ht
    | bad => exact absurd ht.symm (bad_first (by decide) (by decide) (by decide +kernel) _ _ _)
    | version => simp [wrongTypesText, versionText] at ht
  | numbers =>
    cases h' with
    | missing => simp [missingText, numbersText] at ht
    | extra => simp [extraText, numbersText] at ht
    | types => simp [wrongTypesText, numbersText] at ht
    | numbers =>
      exact (reprDict_telling (reprStr_telling printable) (reprStr_notClosing printable) shapeText_telling).inj
        (List.append_cancel_left (List.append_cancel_left (List.append_cancel_left (List.append_cancel_left ht))))
    | bad => exact absurd ht.symm (bad_first (by decide) (by decide) (by decide +kernel) _ _ _)
    | version => simp [numbersText, versionText] at ht
  | bad hm he =>
    cases h' with
    | missing => exact absurd ht (bad_first (by decide) (by decide) (by decide +kernel) _ _ _)
    | extra => exact absurd ht (bad_first (by decide) (by decide) (by decide +kernel) _ _ _)
    | types => exact absurd ht (bad_first (by decide) (by decide) (by decide +kernel) _ _ _)
    | numbers => exact absurd ht (bad_first (by decide) (by decide) (by decide +kernel) _ _ _)
    | bad hm' he' =>
      obtain ⟨rfl, h1⟩ := fields _ _ _ _ (List.append_cancel_left (List.append_cancel_left ht))
      obtain ⟨rfl, h2⟩ := fields _ _ _ _ (List.append_cancel_left h1)
      have h3 := (reprDict_telling (reprStr_telling printable) (reprStr_notClosing printable) types).inj (List.append_cancel_left h2)
      exact ⟨hm.symm.trans hm', he.symm.trans he', h3⟩
    | version => exact absurd ht.symm (version_bad _ _ _ _ _ _ _ _)
  | version =>
    cases h' with
    | missing => simp [missingText, versionText] at ht
    | extra => simp [extraText, versionText] at ht
    | types => simp [wrongTypesText, versionText] at ht
    | numbers => simp [numbersText, versionText] at ht
    | bad => exact absurd ht (version_bad _ _ _ _ _ _ _ _)
    | version => exact List.append_cancel_right (List.append_cancel_left ht)

/-- The names of the classes. -/
def classNames : List (Ty × PyStr) :=
  [(.str, py! "str"), (.npStr, py! "numpy.str_"), (.npBytes, py! "numpy.bytes_"), (.npBool, py! "numpy.bool_"), (.u8, py! "numpy.uint8"),
   (.u16, py! "numpy.uint16"), (.u32, py! "numpy.uint32"), (.i16, py! "numpy.int16"), (.i32, py! "numpy.int32"), (.i64, py! "numpy.int64"),
   (.f32, py! "numpy.float32"), (.f64, py! "numpy.float64"), (.c64, py! "numpy.complex64"), (.pyInt, py! "int"), (.pyFloat, py! "float")]

/-- What is said of the type that a field should have: its class, and of a dataset that it is an array. -/
def TypeWords (other : Nat → PyStr) (dset : PyStr → Bool) (p : PyStr × Ty) (q : PyStr × PyStr) : Prop :=
  p.1 = q.1 ∧ ∃ n, ((p.2, n) ∈ classNames ∨ ∃ k, p.2 = .other k ∧ n = other k) ∧
    q.2 = fillIn (if dset p.1 then py! "np.ndarray of <class '{}'>" else py! "<class '{}'>") [n]

/-- Lists whose elements belong together one by one. -/
def Pairwise2 {α β : Type} (R : α → β → Prop) : List α → List β → Prop
  | [], [] => True
  | a :: l, b :: m => R a b ∧ Pairwise2 R l m
  | _, _ => False

/-- `repr` of shapes: the numbers separated by commas, with a comma after a single one. -/
def shapeWords : List Nat → PyStr
  | [n] => fillIn (py! "({},)") [Nat.toDigits 10 n]
  | l => fillIn (py! "({})") [((l.map (Nat.toDigits 10)).intersperse (py! ", ")).flatten]

/-- What the texts of these exceptions are. -/
def WordsOf (printable : Char → Bool) (other : Nat → PyStr) (dset : PyStr → Bool) (fn t : PyStr) : Err → Prop
  | .fieldMissing l => ∃ l' : List PyStr, l'.Perm l ∧
    t = fillIn (py! "The following fields in file {} are missing: {}") [fn, reprSet (reprStr printable) l']
  | .extraField l => ∃ l' : List PyStr, l'.Perm l ∧
    t = fillIn (py! "The following fields in file {} are not allowed: {}") [fn, reprSet (reprStr printable) l']
  | .dataFormatType l => ∃ l', Pairwise2 (TypeWords other dset) l l' ∧
    t = fillIn (py! "In file {}, the following parameters are not of their given correct type: {}")
      [fn, reprDict (reprStr printable) (reprStr printable) l']
  | .numberOfRecords l =>
    t = fillIn (py! "The number of records in file {} cannot be determined due to varying shapes of arrays for the unshared parameters. All arrays of the unshared parameters should have the same first dimension size equal to number of records: {}")
      [fn, reprDict (reprStr printable) shapeWords l]
  | .badRecords missing extra types => ∃ missing' extra' types', Reordered missing' missing ∧ Reordered extra' extra ∧
    Pairwise2 (fun p q => p.1 = q.1 ∧ Pairwise2 (TypeWords other dset) p.2 q.2) types types' ∧
    t = fillIn (py! "{} contains invalid records.\n\tRecords with missing fields: {}\n\tRecords with extra fields: {}\n\tRecords with fields of incorrect types: {}")
      [fn, reprDict (reprStr printable) (reprSet (reprStr printable)) missing', reprDict (reprStr printable) (reprSet (reprStr printable)) extra',
       reprDict (reprStr printable) (reprDict (reprStr printable) (reprStr printable)) types']
  | .version v =>
    t = fillIn (py! "Version {} from the borealis_git_hash is not a recognized Borealis version or has not been implemented yet. {} was not used.") [v, fn]
  | _ => False

theorem pairwise2_map {α β : Type} {R : α → β → Prop} {f : α → β} (h : ∀ a, R a (f a)) (l : List α) : Pairwise2 R l (l.map f) := by
  induction l with
  | nil => trivial
  | cons a l ih => exact ⟨h a, ih⟩

theorem typeWords_expected (other : Nat → PyStr) (dset : PyStr → Bool) (p : PyStr × Ty) :
    TypeWords other dset p (p.1, expectedText other (dset p.1, p.2)) := by
  refine ⟨rfl, tyName other p.2, ?_, ?_⟩
  · cases p.2 <;> first | exact .inr ⟨_, rfl, rfl⟩ | exact .inl (by simp [classNames, tyName])
  · unfold expectedText tyStr
    cases dset p.1 <;> rfl

theorem typesText_words (printable : Char → Bool) (other : Nat → PyStr) (dset : PyStr → Bool) (l : List (PyStr × Ty)) :
    typesText printable other dset l =
      reprDict (reprStr printable) (reprStr printable) (l.map fun p => (p.1, expectedText other (dset p.1, p.2))) := by
  unfold typesText reprDict
  rw [itemsText_map, itemsText_map]

theorem dims_words (n m : Nat) (l : List Nat) :
    dimsText (n :: m :: l) = (((n :: m :: l).map (Nat.toDigits 10)).intersperse (py! ", ")).flatten ++ py! ")" := by
  induction l generalizing n m with
  | nil => simp [dimsText]
  | cons k l ih =>
    show Nat.toDigits 10 n ++ (py! ", " ++ dimsText (m :: k :: l)) = _
    rw [ih]
    simp

theorem shape_words (l : List Nat) : shapeText l = shapeWords l := by
  match l with
  | [] => rfl
  | [n] => rfl
  | n :: m :: l =>
    show py! "(" ++ dimsText (n :: m :: l) = py! "(" ++ ((((n :: m :: l).map (Nat.toDigits 10)).intersperse (py! ", ")).flatten ++ py! ")")
    rw [dims_words]

set_option maxRecDepth 8000 in
/-- **C70** The texts in full: name of the file, records, fields, types and shapes. -/
theorem C70_borealis_words (printable : Char → Bool) {other : Nat → PyStr} {dset : PyStr → Bool} {fn : PyStr} {e : Err} {t : PyStr}
    (h : ShownAs printable other dset fn e t) : WordsOf printable other dset fn t e := by
  cases h with
  | @missing fields order hp => exact ⟨order, hp, by simp [missingText, fillIn]⟩
  | @extra fields order hp => exact ⟨order, hp, by simp [extraText, fillIn]⟩
  | @types l =>
    refine ⟨_, pairwise2_map (typeWords_expected other dset) l, ?_⟩
    unfold wrongTypesText
    rw [typesText_words]
    simp [fillIn]
  | @numbers l =>
    show numbersText printable fn l = _
    unfold numbersText
    rw [show (shapeText : List Nat → PyStr) = shapeWords from funext shape_words]
    refine congrArg (fun x => py! "The number of records in file " ++ (fn ++ x)) ?_
    exact congrArg (fun x => py! " cannot be determined due to varying shapes of arrays for the unshared parameters. All arrays of the unshared parameters should have the same first dimension size equal to number of records: " ++ x)
      (List.append_nil _).symm
  | @bad missing extra missing' extra' types hm he =>
    refine ⟨missing', extra', types.map fun p => (p.1, p.2.map fun p => (p.1, expectedText other (dset p.1, p.2))), hm, he,
      pairwise2_map (fun p => ⟨rfl, pairwise2_map (typeWords_expected other dset) p.2⟩) types, ?_⟩
    have : reprDict (reprStr printable) (typesText printable other dset) types = reprDict (reprStr printable)
        (reprDict (reprStr printable) (reprStr printable)) (types.map fun p => (p.1, p.2.map fun p => (p.1, expectedText other (dset p.1, p.2)))) := by
      unfold reprDict
      rw [itemsText_map]
      simp only [typesText_words]
      rfl
    unfold badText fieldsText
    rw [this]
    simp [fillIn]
  | @version v => simp [WordsOf, versionText, fillIn]

/-- Such names exist. -/
theorem otherNames_example : OtherNames fun n => py! "numpy.other" ++ Nat.toDigits 10 n := by
  refine ⟨fun n m h => digits_inj (List.append_cancel_left h), fun n h => ?_⟩
  simp [knownNames] at h

example : ShownAs (fun _ => true) (fun n => py! "numpy.other" ++ Nat.toDigits 10 n) (· == py! "c") (py! "f.hdf5")
    (.badRecords [(py! "1", [py! "a", py! "b"])] [] [(py! "2", [(py! "c", .f32)])])
    (py! "f.hdf5 contains invalid records.\n\tRecords with missing fields: {'1': {'b', 'a'}}\n\tRecords with extra fields: {}\n\tRecords with fields of incorrect types: {'2': {'c': \"np.ndarray of <class 'numpy.float32'>\"}}") :=
  ShownAs.bad (missing' := [(py! "1", [py! "b", py! "a"])]) (.cons (by decide) .nil) .nil

example : numbersText (fun _ => true) (py! "f") [(py! "a", [2]), (py! "b", [3, 4]), (py! "c", [])] =
    py! "The number of records in file f cannot be determined due to varying shapes of arrays for the unshared " ++
    (py! "parameters. All arrays of the unshared parameters should have the same first dimension size equal to number of records: " ++
    py! "{'a': (2,), 'b': (3, 4), 'c': ()}") := by decide +kernel

end Verif.Bor
