import Verif.Borealis.Props.ConvertTypes
import Verif.Borealis.Props.ConvertHeader
import Verif.Borealis.Props.ConvertIqdat
import Verif.Borealis.Props.ConvertRawacf
import Verif.SDarn.Props.Write
/-!
# Converted records can be written
-/
namespace Verif.Bor
open Verif Verif.Spec

set_option linter.constructorNameAsVariable false

/-- What a value needs to survive in a file, beyond fitting its type. -/
def Survives (maxRank : Nat) : PlainVal → Prop
  | .scalar (.np .int8) v => ∃ n : Nat, v = .int n ∧ n < 128
  | .scalar .str v => ∃ t, v = .str t ∧ PlainText t
  | .scalar (.np .float32) v => ∀ b, v = .f32 b → ¬ IsSNaN b
  | .scalar _ _ => True
  | .arr a => 1 ≤ a.shape.length ∧ a.shape.length ≤ maxRank ∧ ∀ n ∈ a.shape, 1 ≤ n

/-- The format of an array in the tables. -/
def shortFmt (f : Fmt) : Bool := f == .h || f == .i || f == .f

theorem scalar_field {k : PyStr} (hk : PlainText k) {mr : Nat} {v : PlainVal} {f : Fmt} (h1 : fmtOf v = some f)
    (h2 : arrayVal v = false) (h3 : FitsType v) (h4 : Survives mr v) :
    ∃ s, plainToField k v = .ok (.scalar s) ∧ s.name = k ∧ Spec.ScalarOK s ∧ scalarSize s = k.length + 2 + bytesOf v ∧
      SameValue v (plainField (.scalar s)) := by
  cases v with
  | arr a => cases h2
  | scalar ty x =>
    unfold FitsType at h3
    split at h3
    · rename_i heq
      cases heq
      obtain ⟨n, rfl, hn⟩ := h4
      exact ⟨_, rfl, rfl, ⟨hk, rfl, .char hn⟩, rfl, rfl⟩
    · rename_i heq
      cases heq
      obtain ⟨n, rfl, ha, hb⟩ := h3
      exact ⟨_, rfl, rfl, ⟨hk, rfl, .i16 ha hb⟩, rfl, rfl⟩
    · rename_i heq
      cases heq
      obtain ⟨n, rfl, ha, hb⟩ := h3
      exact ⟨_, rfl, rfl, ⟨hk, rfl, .i32 ha hb⟩, rfl, rfl⟩
    · rename_i heq
      cases heq
      obtain ⟨n, rfl⟩ := h3
      exact ⟨_, rfl, rfl, ⟨hk, rfl, .f32 (h4 _ rfl)⟩, rfl, rfl⟩
    · rename_i heq
      cases heq
      obtain ⟨t, rfl, ht⟩ := h4
      exact ⟨_, rfl, rfl, ⟨hk, rfl, .str ht⟩, rfl, rfl⟩
    · exact h3.elim
    · rename_i heq
      cases heq

theorem array_field {k : PyStr} (hk : PlainText k) {mr : Nat} {v : PlainVal} {f : Fmt} (h1 : fmtOf v = some f)
    (hf : shortFmt f = true) (h2 : arrayVal v = true) (h3 : FitsType v) (h4 : Survives mr v) :
    ∃ a, plainToField k v = .ok (.array a) ∧ a.name = k ∧
      (∀ size, arraySize a ≤ size → ArrayOK mr size a) ∧ arraySize a = k.length + 2 + bytesOf v ∧
      SameValue v (plainField (.array a)) := by
  cases v with
  | scalar ty x => cases h2
  | arr a =>
    obtain ⟨hc, hl⟩ := h3
    obtain ⟨hp, hm, hd⟩ := h4
    have key : ∀ (dt : DType) (f : Fmt) (c : Int), a.dtype = dt → formatConversion (.np dt) = some f →
        dmapFormatTypes f = some c → c = Spec.code f → isNumeric f = true → dt.size = cellSize f → 1 ≤ dt.size → f ≠ .c →
        presented f = dt →
        ∃ x, plainToField k (.arr a) = .ok (.array x) ∧ x.name = k ∧
      (∀ size, arraySize x ≤ size → ArrayOK mr size x) ∧ arraySize x = k.length + 2 + bytesOf (.arr a) ∧
      SameValue (.arr a) (plainField (.array x)) := by
      intro dt f c e1 e2 e3 e4 e5 e6 e8 e7 e9
      refine ⟨{ name := k, value := a, dataType := c, fmt := f, dimension := a.shape.length,
                shape := a.shape.map Int.ofNat }, ?_, rfl, ?_, ?_, ?_⟩
      · simp only [plainToField, e1, e2, e3]
      · intro size hs
        refine ⟨hk, e5, e4, rfl, hp, hm, rfl, .inl hd, ?_, fun h => absurd h e7, fun h => absurd h e7, hc, ?_⟩
        · intro n hn
          have h5 := le_prod hd hn
          simp only [arraySize, ← e6] at hs
          have h6 : Spec.prod a.shape * 1 ≤ Spec.prod a.shape * dt.size := Nat.mul_le_mul_left _ e8
          omega
        · intro x hx
          rw [hl x hx, e1, e6]
      · simp only [arraySize, bytesOf, e1, e6]; omega
      · show (⟨presented f, a.shape, a.cells⟩ : Verif.NdArr) = a
        rw [e9, ← e1]
    cases hdt : a.dtype <;> simp only [fmtOf, hdt, formatConversion, Option.some.injEq, reduceCtorEq] at h1 <;> subst h1 <;>
      first
      | (cases hf; done)
      | exact key _ _ _ hdt rfl rfl rfl rfl rfl (by decide) (by decide) rfl

/-- A record with the names, formats and kinds of a table becomes a DMAP record. -/
theorem plain_split {mr : Nat} : ∀ (t : SD.Table) (n : Nat) {d : PlainRec},
    d.map (fun p => (p.1, fmtOf p.2, arrayVal p.2)) = (kinds n t).map (fun p => (p.1, some p.2.1, p.2.2)) →
    (∀ p ∈ t, PlainText p.1) → (∀ p ∈ kinds n t, p.2.2 = true → shortFmt p.2.1 = true) →
    (∀ p ∈ d, FitsType p.2) → (∀ p ∈ d, Survives mr p.2) →
    ∃ ss as, plainToRec d = .ok (fieldsOf ss as) ∧ ss.length = min n t.length ∧ as.length = t.length - n ∧
      (∀ s ∈ ss, Spec.ScalarOK s) ∧ (∀ a ∈ as, ∀ size, arraySize a ≤ size → ArrayOK mr size a) ∧
      (ss.map scalarSize).sum + (as.map arraySize).sum = (d.map fun p => p.1.length + 2 + bytesOf p.2).sum ∧
      SameRecord d (plainRec (fieldsOf ss as)) := by
  intro t
  induction t with
  | nil =>
    intro n d h _ _ _ _
    have : d = [] := by simpa [kinds] using h
    subst this
    exact ⟨[], [], rfl, by simp, by simp, by simp, by simp, rfl, .nil⟩
  | cons p t ih =>
    intro n d h hn hf h3 h4
    obtain ⟨k, f⟩ := p
    cases d with
    | nil => simp [kinds] at h
    | cons q d =>
      obtain ⟨k', v⟩ := q
      simp only [kinds, List.map_cons, List.cons.injEq, Prod.mk.injEq] at h
      obtain ⟨⟨rfl, h1, h2⟩, h⟩ := h
      obtain ⟨ss, as, e1, e2, e3, e4, e5, e6, e7⟩ := ih (n - 1) h (fun p hp => hn p (List.mem_cons_of_mem _ hp))
        (fun p hp => hf p (List.mem_cons_of_mem _ hp)) (fun p hp => h3 p (List.mem_cons_of_mem _ hp))
        (fun p hp => h4 p (List.mem_cons_of_mem _ hp))
      have hk : PlainText k' := hn (k', f) List.mem_cons_self
      have hv3 := h3 (k', v) List.mem_cons_self
      have hv4 := h4 (k', v) List.mem_cons_self
      cases n with
      | zero =>
        have hff : shortFmt f = true := hf (k', f, (0 == 0)) List.mem_cons_self rfl
        obtain ⟨a, a1, rfl, a2, a3, a4⟩ := array_field hk h1 hff h2 hv3 hv4
        have : ss = [] := List.eq_nil_of_length_eq_zero (by rw [e2]; simp)
        subst this
        refine ⟨[], a :: as, ?_, by simp, by simp [e3], by simp, ?_, ?_, .cons ⟨rfl, a4⟩ e7⟩
        · simp only [plainToRec, a1, e1, bind, Except.bind]; rfl
        · intro x hx
          rcases List.mem_cons.1 hx with rfl | hx
          · exact a2
          · exact e5 x hx
        · simp only [List.map_cons, List.sum_cons, List.map_nil, List.sum_nil] at e6 ⊢
          rw [a3]; omega
      | succ n =>
        obtain ⟨s, s1, rfl, s2, s3, s4⟩ := scalar_field hk h1 (by simpa using h2) hv3 hv4
        refine ⟨s :: ss, as, ?_, by simp [e2], by simp [e3], ?_, e5, ?_, .cons ⟨rfl, s4⟩ e7⟩
        · simp only [plainToRec, s1, e1, bind, Except.bind]; rfl
        · intro x hx
          rcases List.mem_cons.1 hx with rfl | hx
          · exact s2
          · exact e4 x hx
        · simp only [List.map_cons, List.sum_cons] at e6 ⊢
          rw [s3]; omega

theorem le_sum {α : Type} (g : α → Nat) : ∀ {l : List α} {a : α}, a ∈ l → g a ≤ (l.map g).sum
  | x :: l, a, h => by
    rcases List.mem_cons.1 h with rfl | h
    · simp
    · have := le_sum g h
      simp only [List.map_cons, List.sum_cons]; omega

theorem plainToRec_keys : ∀ {d : PlainRec} {r : Verif.Rec}, plainToRec d = .ok r → r.map Prod.fst = d.map Prod.fst
  | [], r, h => by cases h; rfl
  | (k, v) :: d, r, h => by
    rw [plainToRec] at h
    obtain ⟨f, h1, h⟩ := bind_ok h
    obtain ⟨r', h2, h⟩ := bind_ok h
    cases h
    simp only [List.map_cons, plainToRec_keys h2]

theorem target_names (t : Target) : (∀ p ∈ targetTable t, PlainText p.1) ∧
    (∀ p ∈ kinds (targetScalars t) (targetTable t), p.2.2 = true → shortFmt p.2.1 = true) ∧
    ((targetTable t).map Prod.fst).Nodup ∧ 1 ≤ targetScalars t ∧ targetScalars t < (targetTable t).length := by
  unfold PlainText
  cases t <;> decide +kernel

/-- A converted record whose values survive is one that can be written. -/
theorem plain_encodable {t : Target} {mr : Nat} {d : PlainRec}
    (hk : d.map (fun p => (p.1, fmtOf p.2, arrayVal p.2)) =
      (kinds (targetScalars t) (targetTable t)).map (fun p => (p.1, some p.2.1, p.2.2)))
    (hf : ∀ p ∈ d, FitsType p.2) (hs : ∀ p ∈ d, Survives mr p.2) (hb : recordBytes d < 2 ^ 31) :
    ∃ r, plainToRec d = .ok r ∧ Encodable mr r ∧ SameRecord d (plainRec r) := by
  obtain ⟨n1, n2, n3, n4, n5⟩ := target_names t
  obtain ⟨ss, as, e1, e2, e3, e4, e5, e6, e7⟩ := plain_split _ _ hk n1 n2 hf hs
  have hsz : blockSize ss as = recordBytes d := by unfold blockSize recordBytes; omega
  refine ⟨_, e1, ⟨ss, as, rfl, ?_, ?_, ?_, e4, ?_, by rw [hsz]; exact hb⟩, e7⟩
  · rintro rfl
    simp at e2; omega
  · rintro rfl
    simp at e3; omega
  · rw [plainToRec_keys e1]
    have := congrArg (List.map Prod.fst) hk
    simp only [List.map_map, Function.comp_def] at this
    have h2 : (kinds (targetScalars t) (targetTable t)).map Prod.fst = (targetTable t).map Prod.fst := by
      conv => rhs; rw [← kinds_fst (targetScalars t) (targetTable t), List.map_map]
      rfl
    rw [← h2] at n3
    rw [show d.map Prod.fst = _ from this]
    exact n3
  · intro a ha
    refine e5 a ha _ ?_
    have := le_sum arraySize ha
    unfold blockSize; omega

/-! ## Values -/

/-- The arrays of what is converted to. -/
def arrayNames : Target → List PyStr
  | .iqdat => [py! "ptab", py! "ltab", py! "tsc", py! "tus", py! "tatten", py! "tnoise", py! "toff", py! "tsze", py! "data"]
  | .rawacf => [py! "ptab", py! "ltab", py! "pwr0", py! "slist", py! "acfd", py! "xcfd"]

theorem target_kinds (t : Target) : ∀ p ∈ kinds (targetScalars t) (targetTable t),
    (p.2.2 = true → p.1 ∈ arrayNames t) ∧
    (p.2.2 = false → p.2.1 = .c → p.1 ∈ [py! "radar.revision.major", py! "radar.revision.minor", py! "origin.code"]) ∧
    (p.2.2 = false → p.2.1 = .s → p.1 ∈ [py! "origin.time", py! "origin.command", py! "combf"]) := by
  cases t <;> decide +kernel

/-- The array can be written. -/
def GoodShape (mr : Nat) (s : List Nat) : Prop := 1 ≤ s.length ∧ s.length ≤ mr ∧ ∀ n ∈ s, 1 ≤ n

theorem survives_of {t : Target} {mr : Nat} {d : PlainRec}
    (hk : d.map (fun p => (p.1, fmtOf p.2, arrayVal p.2)) =
      (kinds (targetScalars t) (targetTable t)).map (fun p => (p.1, some p.2.1, p.2.2)))
    (hc : ∀ k ∈ [py! "radar.revision.major", py! "radar.revision.minor", py! "origin.code"],
      ∃ n : Nat, intField d k = some n ∧ n < 128)
    (ht : ∀ k ∈ [py! "origin.time", py! "origin.command", py! "combf"], ∃ x, textField d k = some x ∧ PlainText x)
    (ha : ∀ k ∈ arrayNames t, ∃ a, arrField d k = some a ∧ GoodShape mr a.shape) (hq : QuietNumbers d) :
    ∀ p ∈ d, Survives mr p.2 := by
  have hn : Dict.NodupKeys d := by
    have := congrArg (List.map Prod.fst) hk
    simp only [List.map_map, Function.comp_def] at this
    have h2 : (kinds (targetScalars t) (targetTable t)).map Prod.fst = (targetTable t).map Prod.fst := by
      conv => rhs; rw [← kinds_fst (targetScalars t) (targetTable t), List.map_map]
      rfl
    have n3 := (target_names t).2.2.1
    rw [← h2] at n3
    show (d.map Prod.fst).Nodup
    rw [show d.map Prod.fst = _ from this]
    exact n3
  intro p hp
  obtain ⟨k, v⟩ := p
  have hg := Dict.get?_of_mem hn hp
  have hm : (k, fmtOf v, arrayVal v) ∈ d.map (fun p => (p.1, fmtOf p.2, arrayVal p.2)) := List.mem_map.2 ⟨_, hp, rfl⟩
  rw [hk] at hm
  obtain ⟨⟨k', f, b⟩, hm, he⟩ := List.mem_map.1 hm
  simp only [Prod.mk.injEq] at he
  obtain ⟨rfl, he, rfl⟩ := he
  obtain ⟨k1, k2, k3⟩ := target_kinds t _ hm
  cases v with
  | arr a =>
    obtain ⟨x, hx, hs⟩ := ha _ (k1 rfl)
    simp only [arrField, hg, Option.some.injEq] at hx
    subst hx
    exact hs
  | scalar ty x =>
    unfold Survives
    split
    · rename_i heq
      cases heq
      cases he
      obtain ⟨n, h1, h2⟩ := hc _ (k2 rfl rfl)
      simp only [intField, hg] at h1
      split at h1
      · rename_i heq
        cases heq
        cases h1
        exact ⟨n, rfl, h2⟩
      · cases h1
    · rename_i heq
      cases heq
      cases he
      obtain ⟨n, h1, h2⟩ := ht _ (k3 rfl rfl)
      simp only [textField, hg] at h1
      split at h1
      · rename_i heq
        cases heq
        cases h1
        exact ⟨n, rfl, h2⟩
      · cases h1
    · rename_i heq
      cases heq
      rintro b rfl
      exact hq _ _ hp
    · trivial
    · rename_i heq
      cases heq

/-! ## Texts -/

theorem plain_append {s t : PyStr} (hs : PlainText s) (ht : PlainText t) : PlainText (s ++ t) := by
  constructor
  · intro c hc
    rcases List.mem_append.1 hc with hc | hc
    · exact hs.1 c hc
    · exact ht.1 c hc
  · intro hc
    rcases List.mem_append.1 hc with hc | hc
    · exact hs.2 hc
    · exact ht.2 hc

theorem plain_digits (n : Nat) : PlainText (natText n) := by
  have key : ∀ c ∈ natText n, 48 ≤ c.toNat ∧ c.toNat ≤ 57 := by
    intro c hc
    have := Nat.isDigit_of_mem_toDigits (by decide) (by decide) hc
    simp only [Char.isDigit, Bool.and_eq_true, decide_eq_true_eq] at this
    exact ⟨this.1, this.2⟩
  constructor
  · intro c hc
    have := key c hc
    omega
  · intro hc
    exact absurd (key _ hc).1 (by decide)

theorem plain_int (n : Int) : PlainText (intText n) := by
  unfold intText
  split
  · exact plain_append (s := ['-']) (by unfold PlainText; decide) (plain_digits _)
  · exact plain_digits _

theorem text_of {r : Rec} {k t u : PyStr} {v : Val} (h : IsText (Dict.get? r k) t) (hv : field r k = .ok v)
    (hu : v.text = .ok u) : u = t := by
  rw [field_iff, h] at hv
  cases hv
  cases hu
  rfl

theorem plain_command {s : Source} (hw : Writable s) {x : PlainVal} (h : s.command = .ok x) :
    ∃ t, x = .scalar .str (.str t) ∧ PlainText t := by
  unfold Source.command at h
  obtain ⟨t, h', rfl⟩ := text_ok h
  obtain ⟨_, e1, h⟩ := bind_ok h'
  obtain ⟨a, e2, h⟩ := bind_ok h
  obtain ⟨_, e3, h⟩ := bind_ok h
  obtain ⟨b, e4, h⟩ := bind_ok h
  cases h
  obtain ⟨a', ha, pa⟩ := hw.texts (py! "borealis_git_hash") (by decide)
  obtain ⟨b', hb, pb⟩ := hw.texts (py! "experiment_name") (by decide)
  have := text_of ha e1 e2
  subst this
  have := text_of hb e3 e4
  subst this
  exact ⟨_, rfl, plain_append (plain_append (plain_append (by unfold PlainText; decide) pa) (by unfold PlainText; decide)) pb⟩

theorem plain_combf {s : Source} (hw : Writable s) {x : PlainVal} (h : s.combf = .ok x) :
    ∃ t, x = .scalar .str (.str t) ∧ PlainText t := by
  unfold Source.combf at h
  obtain ⟨t, h', rfl⟩ := text_ok h
  obtain ⟨_, -, h⟩ := bind_ok h'
  obtain ⟨n, -, h⟩ := bind_ok h
  obtain ⟨_, e1, h⟩ := bind_ok h
  obtain ⟨a, e2, h⟩ := bind_ok h
  obtain ⟨_, e3, h⟩ := bind_ok h
  obtain ⟨b, e4, h⟩ := bind_ok h
  cases h
  obtain ⟨a', ha, pa⟩ := hw.texts (py! "experiment_comment") (by decide)
  obtain ⟨b', hb, pb⟩ := hw.texts (py! "slice_comment") (by decide)
  have := text_of ha e1 e2
  subst this
  have := text_of hb e3 e4
  subst this
  refine ⟨_, rfl, ?_⟩
  have l1 : PlainText (py! "Converted from Borealis file: ") := by unfold PlainText; decide
  have l2 : PlainText (py! " record ") := by unfold PlainText; decide
  have l3 : PlainText (py! " with scaling factor = ") := by unfold PlainText; decide
  have l4 : PlainText (py! " ; Number of beams in record: ") := by unfold PlainText; decide
  have l5 : PlainText (py! " ; ") := by unfold PlainText; decide
  exact plain_append (plain_append (plain_append (plain_append (plain_append (plain_append (plain_append (plain_append
    (plain_append (plain_append (plain_append l1 hw.origin) l2) hw.name) l3) (plain_int _)) l4) (plain_digits _)) l5) pa) l5) pb

theorem survives_header {cfg : NpCfg} {ops : Ops} {t : Target} {s : Source} {ds : List PlainRec} (hw : Writable s)
    (hp : PlainDates ops) (h : convertRecord cfg ops t s = .ok ds) {d : PlainRec} (hd : d ∈ ds) :
    (∀ k ∈ [py! "radar.revision.major", py! "radar.revision.minor", py! "origin.code"],
      ∃ n : Nat, intField d k = some n ∧ n < 128) ∧
    (∀ k ∈ [py! "origin.time", py! "origin.command", py! "combf"], ∃ x, textField d k = some x ∧ PlainText x) := by
  have hh := C55_header h d hd
  obtain ⟨v, tail, h1, h2⟩ := hw.tag
  obtain ⟨m1, n, m2, m3, -⟩ := C44_version h h2 h1 d hd
  obtain ⟨rev, beam, b, txpow, nrang, l, -, hl, hr⟩ := convertRecord_common h hd
  constructor
  · intro k hk
    simp only [List.mem_cons, List.not_mem_nil, or_false] at hk
    rcases hk with rfl | rfl | rfl
    · exact ⟨0, m1, by decide⟩
    · exact ⟨n, m2, by omega⟩
    · exact ⟨100, hh.constants (py! "origin.code", 100) (by decide), by decide⟩
  · intro k hk
    simp only [List.mem_cons, List.not_mem_nil, or_false] at hk
    rcases hk with rfl | rfl | rfl
    · obtain ⟨e, x, -, h3, h4, -⟩ := hh.date
      exact ⟨_, h4, hp _ _ h3⟩
    · obtain ⟨x, h3, h4⟩ := entry_get hl (k := py! "origin.command") rfl
      obtain ⟨t, rfl, h5⟩ := plain_command hw h3
      exact ⟨t, by simp only [textField, h4], h5⟩
    · obtain ⟨x, h3, h4⟩ := entry_get hl (k := py! "combf") (x := s.combf)
        (by rw [get?_append]; exact hr.combf)
      obtain ⟨t, rfl, h5⟩ := plain_combf hw h3
      exact ⟨t, by simp only [textField, h4], h5⟩

/-! ## Arrays -/

theorem good_one {mr n : Nat} (hm : 3 ≤ mr) (h : 1 ≤ n) : GoodShape mr [n] :=
  ⟨by simp, by simp; omega, by simpa using h⟩

theorem good_table {mr : Nat} (hm : 3 ≤ mr) {v : Option Val} {x : Option Verif.NdArr} (h : SameTable v x) {a : NdArr}
    (hv : v = some (.arr a)) {n : Nat} {ds : List Nat} (hs : a.shape = n :: ds) (hl : ds.length ≤ 1)
    (hn : 1 ≤ n) (hd : ∀ m ∈ ds, 1 ≤ m) : ∃ b, x = some b ∧ GoodShape mr b.shape := by
  obtain ⟨a', b, h1, h2, h3, -⟩ := h
  rw [hv] at h1
  cases h1
  refine ⟨b, h2, ?_⟩
  rw [h3, hs]
  refine ⟨by simp, by simp; omega, ?_⟩
  intro m hm
  rcases List.mem_cons.1 hm with rfl | hm
  · exact hn
  · exact hd m hm

theorem good_tables {mr : Nat} (hm : 3 ≤ mr) {ops : Ops} {s : Source} {d : PlainRec} (hw : Writable s)
    (hh : HeaderOf ops s d) :
    (∃ a, arrField d (py! "ptab") = some a ∧ GoodShape mr a.shape) ∧
    (∃ a, arrField d (py! "ltab") = some a ∧ GoodShape mr a.shape) := by
  obtain ⟨n, ⟨a, h1, h2⟩, h3⟩ := hw.pulses
  obtain ⟨b, m, k, h4, h5, h6, h7⟩ := hw.lags
  exact ⟨good_table hm hh.pulses h1 h2 (by simp) h3 (by simp), good_table hm hh.lags h4 h5 (by simp) h6 (by simpa using h7)⟩

theorem first_pos {v : Option Val} {e : Elt} (h : IsFirst v e) : ∃ a n, v = some (.arr a) ∧ a.shape = [n] ∧ 1 ≤ a.data.length := by
  obtain ⟨a, n, h1, h2, h3⟩ := h
  exact ⟨a, n, h1, h2, by have := (List.getElem?_eq_some_iff.1 h3).1; omega⟩

theorem good_bfiq {cfg : NpCfg} {mr : Nat} (hm : 3 ≤ mr) {ops : Ops} {s : Source} {ds : List PlainRec} (hwf : WFRec s.fields)
    (hw : Writable s) (hn : NotEmpty .iqdat s.fields) (h : convertRecord cfg ops .iqdat s = .ok ds) {d : PlainRec} (hd : d ∈ ds) :
    ∀ k ∈ arrayNames .iqdat, ∃ a, arrField d k = some a ∧ GoodShape mr a.shape := by
  have hh := C55_header h d hd
  obtain ⟨g1, g2⟩ := good_tables hm hw hh
  obtain ⟨a, norm, beams, na, nq, ns, hb, h1, h2, h3⟩ := hn
  obtain ⟨rev, o, -, -, -, h'⟩ := convertBfiq_ok hb h
  obtain ⟨p, -, h'⟩ := mapE_mem h' hd
  obtain ⟨l, hl, h'⟩ := bind_ok h'
  obtain ⟨_, _, _, _, hs, -, hl, -⟩ := beamSamples_ok hl
  cases hs
  have hpos : 1 ≤ 2 * l.length := by
    have := Nat.mul_pos h2 (Nat.mul_pos h1 h3)
    omega
  have times : ∀ k, (∃ g : Elt → Except Err (BitVec 32), Dict.get? (iqdatFields cfg ops s rev norm ns nq o p.2 p.1 l) k = some (do
        let ts ← (← field s.fields (py! "sqn_timestamps")).elems
        .ok (arr32 [ts.length] ((← mapE g ts).map BitVec.toInt)))) →
      ∃ a, arrField d k = some a ∧ GoodShape mr a.shape := by
    rintro k ⟨g, hg⟩
    obtain ⟨v, h4, h5⟩ := entry_get h' hg
    obtain ⟨w, h6, h4⟩ := bind_ok h4
    obtain ⟨ts, h7, h4⟩ := bind_ok h4
    obtain ⟨us, h8, h4⟩ := bind_ok h4
    cases h4
    obtain ⟨e, x, he, -⟩ := hh.date
    obtain ⟨b, n, e1, -, e2⟩ := first_pos he
    obtain ⟨b', n', rfl, -, rfl⟩ := elems_ok h7
    rw [field_iff, e1] at h6
    cases h6
    exact ⟨_, by rw [arrField, h5]; rfl, good_one hm e2⟩
  intro k hk
  simp only [arrayNames, List.mem_cons, List.not_mem_nil, or_false] at hk
  rcases hk with rfl | rfl | rfl | rfl | rfl | rfl | rfl | rfl | rfl
  · exact g1
  · exact g2
  · exact times _ ⟨ops.tsc, rfl⟩
  · exact times _ ⟨ops.tus, rfl⟩
  · exact ⟨_, entry_arr h' rfl, good_one hm h2⟩
  · obtain ⟨v, h4, h5⟩ := entry_get h' (k := py! "tnoise") rfl
    obtain ⟨w, h6, h4⟩ := bind_ok h4
    obtain ⟨b, h7, h4⟩ := bind_ok h4
    cases h4
    obtain ⟨e, he, -⟩ := hh.noise
    obtain ⟨c, n, e1, e3, e2⟩ := first_pos he
    have hwc := hwf _ _ e1
    rw [field_iff, e1] at h6
    cases h6
    cases h7
    refine ⟨_, by rw [arrField, h5]; rfl, ?_⟩
    show GoodShape mr b.shape
    rw [NdArr.WF, e3] at hwc
    rw [e3]
    exact good_one hm (by simpa [prod, hwc] using e2)
  · exact ⟨_, entry_arr h' rfl, good_one hm h2⟩
  · exact ⟨_, entry_arr h' rfl, good_one hm h2⟩
  · exact ⟨_, entry_arr h' rfl, good_one hm hpos⟩

theorem good_rawacf {cfg : NpCfg} {mr : Nat} (hm : 3 ≤ mr) {ops : Ops} {s : Source} {ds : List PlainRec}
    (hw : Writable s) (hn : NotEmpty .rawacf s.fields) (h : convertRecord cfg ops .rawacf s = .ok ds) {d : PlainRec} (hd : d ∈ ds) :
    ∀ k ∈ arrayNames .rawacf, ∃ a, arrField d k = some a ∧ GoodShape mr a.shape := by
  have hh := C55_header h d hd
  obtain ⟨g1, g2⟩ := good_tables hm hw hh
  obtain ⟨m, x, norm, beams, nr, nl, hb, h1, h2⟩ := hn
  obtain ⟨rev, intf, -, h'⟩ := convertRawacf_ok hb h
  obtain ⟨p, -, h'⟩ := mapE_mem h' hd
  obtain ⟨l0, lm, lx, -, -, -, h'⟩ := rawacfRecord_ok h'
  have h3 : GoodShape mr [nr, nl - 1, 2] := by
    refine ⟨by simp, by simpa using hm, ?_⟩
    intro n hn
    simp only [List.mem_cons, List.not_mem_nil, or_false] at hn
    omega
  intro k hk
  simp only [arrayNames, List.mem_cons, List.not_mem_nil, or_false] at hk
  rcases hk with rfl | rfl | rfl | rfl | rfl | rfl
  · exact g1
  · exact g2
  · exact ⟨_, entry_arr h' rfl, good_one hm h1⟩
  · exact ⟨_, entry_arr h' rfl, good_one hm h1⟩
  · exact ⟨_, entry_arr h' rfl, h3⟩
  · exact ⟨_, entry_arr h' rfl, h3⟩

/-- A converted record can be written and read back. -/
theorem converted_encodable {cfg : NpCfg} {mr : Nat} (hm : 3 ≤ mr) {ops : Ops} {t : Target} {s : Source} {ds : List PlainRec}
    (hwf : WFRec s.fields) (hw : Writable s) (hn : NotEmpty t s.fields) (hp : PlainDates ops)
    (h : convertRecord cfg ops t s = .ok ds) {d : PlainRec} (hd : d ∈ ds) (hq : QuietNumbers d) (hb : recordBytes d < 2 ^ 31) :
    ∃ r, plainToRec d = .ok r ∧ Encodable mr r ∧ SameRecord d (plainRec r) := by
  obtain ⟨h1, h2⟩ := convertRecord_kinds hwf h hd
  obtain ⟨h3, h4⟩ := survives_header hw hp h hd
  refine plain_encodable h1 h2 (survives_of h1 h3 h4 ?_ hq) hb
  cases t with
  | iqdat => exact good_bfiq hm hwf hw hn h hd
  | rawacf => exact good_rawacf hm hw hn h hd

end Verif.Bor
