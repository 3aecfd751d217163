import Verif.Py.Str
/-!
# Texts of numbers, strings, sets and dictionaries

`str.format` of integers, and `repr` of strings, sets and dictionaries as CPython writes them.  Sets are lists in the order in
which Python iterates over them.  Which characters above 127 are printable depends on the version of Python: a parameter.
-/
namespace Verif

/-- `'{}'.format(n)` of an integer. -/
def decText : Int → PyStr
  | .ofNat n => Nat.toDigits 10 n
  | .negSucc n => '-' :: Nat.toDigits 10 (n + 1)

/-- The last `k` hexadecimal digits of a number. -/
def hexText : Nat → Nat → PyStr
  | 0, _ => []
  | k + 1, n => Nat.digitChar (n / 16 ^ k % 16) :: hexText k n

/-- A character within a string in quotes (`unicode_repr` of CPython). -/
def escapeChar (printable : Char → Bool) (quote c : Char) : PyStr :=
  if c = quote ∨ c = '\\' then ['\\', c]
  else if c = '\t' then py! "\\t"
  else if c = '\n' then py! "\\n"
  else if c = '\r' then py! "\\r"
  else if c.toNat < 32 ∨ c.toNat = 127 then '\\' :: 'x' :: hexText 2 c.toNat
  else if c.toNat < 127 ∨ printable c = true then [c]
  else if c.toNat < 256 then '\\' :: 'x' :: hexText 2 c.toNat
  else if c.toNat < 65536 then '\\' :: 'u' :: hexText 4 c.toNat
  else '\\' :: 'U' :: hexText 8 c.toNat

/-- The quotes around a string. -/
def quoteOf (s : PyStr) : Char := if '\'' ∈ s ∧ '"' ∉ s then '"' else '\''

/-- `repr` of a string. -/
def reprStr (printable : Char → Bool) (s : PyStr) : PyStr :=
  quoteOf s :: (s.flatMap (escapeChar printable (quoteOf s)) ++ [quoteOf s])

/-- The items of a set or dictionary and the closing bracket. -/
def itemsText {α : Type} (text : α → PyStr) : List α → PyStr
  | [] => ['}']
  | [a] => text a ++ ['}']
  | a :: b :: l => text a ++ (',' :: ' ' :: itemsText text (b :: l))

/-- `repr` of a set. -/
def reprSet {α : Type} (text : α → PyStr) (l : List α) : PyStr :=
  if l.isEmpty then py! "set()" else '{' :: itemsText text l

/-- `repr` of a dictionary. -/
def reprDict {α β : Type} (key : α → PyStr) (value : β → PyStr) (l : List (α × β)) : PyStr :=
  '{' :: itemsText (fun p => key p.1 ++ (':' :: ' ' :: value p.2)) l

theorem itemsText_map {α β : Type} (text : β → PyStr) (f : α → β) (l : List α) : itemsText text (l.map f) = itemsText (fun a => text (f a)) l := by
  induction l with
  | nil => rfl
  | cons a l ih =>
    cases l with
    | nil => rfl
    | cons b l =>
      show text (f a) ++ (',' :: ' ' :: itemsText text ((b :: l).map f)) = _
      rw [ih]
      rfl

/-- A text with every `{}` replaced by the next of the given texts, as `str.format` does. -/
def fillIn : PyStr → List PyStr → PyStr
  | [], _ => []
  | '{' :: '}' :: t, a :: l => a ++ fillIn t l
  | c :: t, l => c :: fillIn t l

/-! ## Texts tell what they stand for -/

/-- Texts from which the object can be read, whatever follows. -/
def Telling {α : Type} (text : α → PyStr) : Prop := ∀ a b r s, text a ++ r = text b ++ s → a = b ∧ r = s

theorem Telling.inj {α : Type} {text : α → PyStr} (h : Telling text) {a b : α} (he : text a = text b) : a = b :=
  (h a b [] [] (by rw [he])).1

/-- The value of a hexadecimal digit. -/
def digitVal (c : Char) : Nat := if c.toNat < 58 then c.toNat - 48 else c.toNat - 87

theorem digitVal_digitChar {d : Nat} (h : d < 16) : digitVal (Nat.digitChar d) = d := by
  have : ∀ d : Fin 16, digitVal (Nat.digitChar d) = d := by decide +kernel
  exact this ⟨d, h⟩

/-- The number of hexadecimal digits. -/
def hexVal (l : PyStr) : Nat := l.foldl (fun n c => n * 16 + digitVal c) 0

theorem hexVal_go (k n v : Nat) : (hexText k n).foldl (fun n c => n * 16 + digitVal c) v = v * 16 ^ k + n % 16 ^ k := by
  induction k generalizing v with
  | zero => simp [hexText, Nat.mod_one]
  | succ k ih =>
    rw [hexText, List.foldl_cons, ih, digitVal_digitChar (Nat.mod_lt _ (by decide)), Nat.pow_succ, Nat.mod_mul, Nat.add_mul,
      Nat.mul_assoc, Nat.mul_comm 16, Nat.mul_comm (n / 16 ^ k % 16)]
    omega

theorem hexVal_hexText (k n : Nat) (h : n < 16 ^ k) : hexVal (hexText k n) = n := by
  rw [hexVal, hexVal_go, Nat.mod_eq_of_lt h, Nat.zero_mul, Nat.zero_add]

theorem hexText_length (k n : Nat) : (hexText k n).length = k := by
  induction k with
  | zero => rfl
  | succ k ih => rw [hexText, List.length_cons, ih]

/-- Read a character within quotes. -/
def unescape : PyStr → Option (Char × PyStr)
  | '\\' :: 't' :: r => some ('\t', r)
  | '\\' :: 'n' :: r => some ('\n', r)
  | '\\' :: 'r' :: r => some ('\r', r)
  | '\\' :: 'x' :: r => some (Char.ofNat (hexVal (r.take 2)), r.drop 2)
  | '\\' :: 'u' :: r => some (Char.ofNat (hexVal (r.take 4)), r.drop 4)
  | '\\' :: 'U' :: r => some (Char.ofNat (hexVal (r.take 8)), r.drop 8)
  | '\\' :: c :: r => some (c, r)
  | c :: r => some (c, r)
  | [] => none

theorem take_hexText (k n : Nat) (r : PyStr) : (hexText k n ++ r).take k = hexText k n := by
  rw [List.take_append_of_le_length (by rw [hexText_length]; exact Nat.le_refl _), List.take_of_length_le (by rw [hexText_length]; exact Nat.le_refl _)]

theorem drop_hexText (k n : Nat) (r : PyStr) : (hexText k n ++ r).drop k = r := by
  have := List.drop_left (l₁ := hexText k n) (l₂ := r)
  rwa [hexText_length] at this

theorem ofNat_toNat' (c : Char) : Char.ofNat c.toNat = c := by simp

theorem unescape_escapeChar (printable : Char → Bool) {quote : Char} (hq : quote = '\'' ∨ quote = '"') (c : Char) (r : PyStr) :
    unescape (escapeChar printable quote c ++ r) = some (c, r) := by
  have hc : c.toNat < 16 ^ 8 := c.val.toNat_lt
  unfold escapeChar
  split
  · rename_i h
    rcases h with rfl | rfl
    · rcases hq with rfl | rfl <;> rfl
    · rfl
  split
  · rename_i h; subst h; rfl
  split
  · rename_i h; subst h; rfl
  split
  · rename_i h; subst h; rfl
  split
  · show some (Char.ofNat (hexVal ((hexText 2 c.toNat ++ r).take 2)), (hexText 2 c.toNat ++ r).drop 2) = _
    rw [take_hexText, drop_hexText, hexVal_hexText _ _ (by omega), ofNat_toNat']
  split
  · rename_i h _ _ _ _ _
    show unescape (c :: r) = _
    have hne : c ≠ '\\' := fun e => h (.inr e)
    rw [unescape] <;> intros <;> simp_all
  split
  · show some (Char.ofNat (hexVal ((hexText 2 c.toNat ++ r).take 2)), (hexText 2 c.toNat ++ r).drop 2) = _
    rw [take_hexText, drop_hexText, hexVal_hexText _ _ (by omega), ofNat_toNat']
  split
  · show some (Char.ofNat (hexVal ((hexText 4 c.toNat ++ r).take 4)), (hexText 4 c.toNat ++ r).drop 4) = _
    rw [take_hexText, drop_hexText, hexVal_hexText _ _ (by omega), ofNat_toNat']
  · show some (Char.ofNat (hexVal ((hexText 8 c.toNat ++ r).take 8)), (hexText 8 c.toNat ++ r).drop 8) = _
    rw [take_hexText, drop_hexText, hexVal_hexText _ _ hc, ofNat_toNat']

theorem escapeChar_head (printable : Char → Bool) {quote : Char} (hq : quote = '\'' ∨ quote = '"') (c : Char) :
    ∃ x l, escapeChar printable quote c = x :: l ∧ x ≠ quote := by
  have hb : '\\' ≠ quote := by rcases hq with rfl | rfl <;> decide
  unfold escapeChar
  split
  · exact ⟨_, _, rfl, hb⟩
  rename_i h
  split
  · exact ⟨_, _, rfl, hb⟩
  split
  · exact ⟨_, _, rfl, hb⟩
  split
  · exact ⟨_, _, rfl, hb⟩
  split
  · exact ⟨_, _, rfl, hb⟩
  split
  · exact ⟨_, _, rfl, fun e => h (.inl e)⟩
  split
  · exact ⟨_, _, rfl, hb⟩
  split
  · exact ⟨_, _, rfl, hb⟩
  · exact ⟨_, _, rfl, hb⟩

theorem quoted_telling (printable : Char → Bool) {quote : Char} (hq : quote = '\'' ∨ quote = '"') (a b r s : PyStr)
    (h : a.flatMap (escapeChar printable quote) ++ quote :: r = b.flatMap (escapeChar printable quote) ++ quote :: s) :
    a = b ∧ r = s := by
  induction a generalizing b with
  | nil =>
    cases b with
    | nil => exact ⟨rfl, by simpa using h⟩
    | cons d b =>
      obtain ⟨x, l, he, hx⟩ := escapeChar_head printable hq d
      rw [List.flatMap_cons, he] at h
      simp only [List.flatMap_nil, List.nil_append, List.cons_append, List.cons.injEq] at h
      exact absurd h.1.symm hx
  | cons c a ih =>
    cases b with
    | nil =>
      obtain ⟨x, l, he, hx⟩ := escapeChar_head printable hq c
      rw [List.flatMap_cons, he] at h
      simp only [List.flatMap_nil, List.nil_append, List.cons_append, List.cons.injEq] at h
      exact absurd h.1 hx
    | cons d b =>
      rw [List.flatMap_cons, List.flatMap_cons, List.append_assoc, List.append_assoc] at h
      have h2 := congrArg unescape h
      rw [unescape_escapeChar _ hq, unescape_escapeChar _ hq] at h2
      simp only [Option.some.injEq, Prod.mk.injEq] at h2
      obtain ⟨rfl, h2⟩ := h2
      obtain ⟨rfl, rfl⟩ := ih b h2
      exact ⟨rfl, rfl⟩

theorem quoteOf_cases (s : PyStr) : quoteOf s = '\'' ∨ quoteOf s = '"' := by
  unfold quoteOf
  split
  · exact .inr rfl
  · exact .inl rfl

/-- A string can be read from its `repr`. -/
theorem reprStr_telling (printable : Char → Bool) : Telling (reprStr printable) := by
  intro a b r s h
  unfold reprStr at h
  simp only [List.cons_append, List.cons.injEq, List.append_assoc, List.nil_append] at h
  obtain ⟨hq, h⟩ := h
  rw [← hq] at h
  exact quoted_telling printable (quoteOf_cases a) a b r s h

/-- A text that does not start with a closing bracket. -/
def NotClosing {α : Type} (text : α → PyStr) : Prop := ∀ a, ∃ c l, text a = c :: l ∧ c ≠ '}'

theorem reprStr_notClosing (printable : Char → Bool) : NotClosing (reprStr printable) := by
  intro a
  refine ⟨_, _, rfl, ?_⟩
  rcases quoteOf_cases a with h | h <;> rw [h] <;> decide

theorem itemsText_telling {α : Type} {text : α → PyStr} (h : Telling text) (hc : NotClosing text) : Telling (itemsText text) := by
  have nilCons : ∀ (a : α) (l : List α) (r s : PyStr), itemsText text (a :: l) ++ r ≠ '}' :: s := by
    intro a l r s he
    obtain ⟨c, t, ht, hne⟩ := hc a
    cases l with
    | nil =>
      simp only [itemsText, ht, List.cons_append, List.cons.injEq] at he
      exact hne he.1
    | cons b l =>
      simp only [itemsText, ht, List.cons_append, List.cons.injEq] at he
      exact hne he.1
  intro x
  induction x with
  | nil =>
    intro y r s he
    cases y with
    | nil => exact ⟨rfl, by simpa [itemsText] using he⟩
    | cons a l => exact absurd he.symm (nilCons a l s r)
  | cons a l ih =>
    intro y r s he
    cases y with
    | nil => exact absurd he (nilCons a l r s)
    | cons b m =>
      cases l with
      | nil =>
        cases m with
        | nil =>
          simp only [itemsText, List.append_assoc] at he
          obtain ⟨rfl, he2⟩ := h _ _ _ _ he
          exact ⟨rfl, by simpa using he2⟩
        | cons b2 m =>
          simp only [itemsText, List.append_assoc, List.cons_append, List.nil_append] at he
          obtain ⟨-, he2⟩ := h _ _ _ _ he
          cases he2
      | cons a2 l =>
        cases m with
        | nil =>
          simp only [itemsText, List.append_assoc, List.cons_append, List.nil_append] at he
          obtain ⟨-, he2⟩ := h _ _ _ _ he
          cases he2
        | cons b2 m =>
          simp only [itemsText, List.append_assoc, List.cons_append] at he
          obtain ⟨h1, he2⟩ := h _ _ _ _ he
          simp only [List.cons.injEq, true_and] at he2
          obtain ⟨he3, he4⟩ := ih (b2 :: m) r s he2
          rw [h1, he3]
          exact ⟨rfl, he4⟩

/-- A set can be read from its `repr`, if its elements can. -/
theorem reprSet_telling {α : Type} {text : α → PyStr} (h : Telling text) (hc : NotClosing text) : Telling (reprSet text) := by
  intro a b r s he
  cases a with
  | nil =>
    cases b with
    | nil => exact ⟨rfl, by simpa [reprSet] using he⟩
    | cons x l => simp [reprSet] at he
  | cons x l =>
    cases b with
    | nil => simp [reprSet] at he
    | cons y m =>
      simp only [reprSet, List.isEmpty_cons, Bool.false_eq_true, if_false, List.cons_append, List.cons.injEq, true_and] at he
      exact itemsText_telling h hc _ _ _ _ he

/-- A dictionary can be read from its `repr`, if its keys and values can. -/
theorem reprDict_telling {α β : Type} {key : α → PyStr} {value : β → PyStr} (hk : Telling key) (hc : NotClosing key)
    (hv : Telling value) : Telling (reprDict key value) := by
  intro a b r s he
  simp only [reprDict, List.cons_append, List.cons.injEq, true_and] at he
  refine itemsText_telling ?_ ?_ _ _ _ _ he
  · intro p q r s h
    simp only [List.append_assoc, List.cons_append] at h
    obtain ⟨h1, h⟩ := hk _ _ _ _ h
    simp only [List.cons.injEq, true_and] at h
    obtain ⟨h2, h⟩ := hv _ _ _ _ h
    exact ⟨Prod.ext h1 h2, h⟩
  · intro p
    obtain ⟨c, l, h, hne⟩ := hc p.1
    exact ⟨c, l ++ (':' :: ' ' :: value p.2), by simp only [h, List.cons_append], hne⟩

theorem reprDict_notClosing {α β : Type} {key : α → PyStr} {value : β → PyStr} : NotClosing (reprDict key value) :=
  fun _ => ⟨_, _, rfl, by decide⟩

/-! ## Numbers -/

theorem digits_inj {n m : Nat} (h : Nat.toDigits 10 n = Nat.toDigits 10 m) : n = m := by
  have := congrArg (fun l => Nat.ofDigitChars 10 l 0) h
  simpa [Nat.ofDigitChars_ten_toDigits] using this

theorem digits_isDigit {n : Nat} {c : Char} (h : c ∈ Nat.toDigits 10 n) : c.isDigit = true :=
  Nat.isDigit_of_mem_toDigits (by decide) (by decide) h

theorem split_at {p : Char → Bool} {a b r s : PyStr} {x y : Char} (ha : ∀ c ∈ a, p c = true) (hb : ∀ c ∈ b, p c = true)
    (hx : p x = false) (hy : p y = false) (h : a ++ x :: r = b ++ y :: s) : a = b ∧ x :: r = y :: s := by
  induction a generalizing b with
  | nil =>
    cases b with
    | nil => exact ⟨rfl, h⟩
    | cons c b =>
      simp only [List.nil_append, List.cons_append, List.cons.injEq] at h
      rw [h.1, hb c (by simp)] at hx
      cases hx
  | cons d a ih =>
    cases b with
    | nil =>
      simp only [List.nil_append, List.cons_append, List.cons.injEq] at h
      rw [← h.1, ha d (by simp)] at hy
      cases hy
    | cons c b =>
      simp only [List.cons_append, List.cons.injEq] at h
      obtain ⟨h1, h2⟩ := ih (fun c hc => ha c (List.mem_cons_of_mem _ hc)) (fun c hc => hb c (List.mem_cons_of_mem _ hc)) h.2
      exact ⟨by rw [h.1, h1], h2⟩

/-- A number can be read from the start of a text, if no digit follows. -/
theorem digits_split {n m : Nat} {r s : PyStr} {x y : Char} (hx : x.isDigit = false) (hy : y.isDigit = false)
    (h : Nat.toDigits 10 n ++ x :: r = Nat.toDigits 10 m ++ y :: s) : n = m ∧ x :: r = y :: s := by
  obtain ⟨h1, h2⟩ := split_at (p := Char.isDigit) (fun c hc => digits_isDigit hc) (fun c hc => digits_isDigit hc) hx hy h
  exact ⟨digits_inj h1, h2⟩

/-- A number can be read from the end of a text, if no digit is before. -/
theorem digits_last {n m : Nat} {a b : PyStr} {x y : Char} (hx : x.isDigit = false) (hy : y.isDigit = false)
    (h : a ++ x :: Nat.toDigits 10 n = b ++ y :: Nat.toDigits 10 m) : n = m ∧ a = b ∧ x = y := by
  have h := congrArg List.reverse h
  simp only [List.reverse_append, List.reverse_cons, List.append_assoc, List.cons_append, List.nil_append] at h
  obtain ⟨h1, h2⟩ := split_at (p := Char.isDigit) (fun c hc => digits_isDigit (List.mem_reverse.1 hc))
    (fun c hc => digits_isDigit (List.mem_reverse.1 hc)) hx hy h
  simp only [List.cons.injEq, List.reverse_inj] at h1 h2
  exact ⟨digits_inj h1, h2.2, h2.1⟩

end Verif
