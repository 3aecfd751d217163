import Verif.Borealis.Lemmas.ConvertRawacf
import Verif.SDarn.Props.Checks
/-!
# The types of converted records
-/
namespace Verif.Bor
open Verif

set_option linter.constructorNameAsVariable false

/-- The DMAP format of a value. -/
def fmtOf : PlainVal → Option Fmt
  | .scalar ty _ => formatConversion ty
  | .arr a => formatConversion (.np a.dtype)

/-- The value is an array. -/
def arrayVal : PlainVal → Bool
  | .arr _ => true
  | .scalar _ _ => false

/-- Fields with formats, and whether they are arrays. -/
abbrev Kinds := List (PyStr × Fmt × Bool)

/-- The value of an entry has the format and kind and fits its type. -/
def EntryFits (x : Except Err PlainVal) (p : Fmt × Bool) : Prop :=
  ∀ v, x = .ok v → fmtOf v = some p.1 ∧ arrayVal v = p.2 ∧ FitsType v

/-- The entries have the names, formats and kinds of the table. -/
inductive EntriesFit : List Entry → Kinds → Prop
  | nil : EntriesFit [] []
  | cons {k : PyStr} {x : Except Err PlainVal} {p : Fmt × Bool} {l : List Entry} {t : Kinds} :
      EntryFits x p → EntriesFit l t → EntriesFit ((k, x) :: l) ((k, p) :: t)

/-- A table in which the fields from position `n` on are arrays. -/
def kinds (n : Nat) : SD.Table → Kinds
  | [] => []
  | (k, f) :: t => (k, f, n == 0) :: kinds (n - 1) t

theorem kinds_fst (n : Nat) (t : SD.Table) : (kinds n t).map (fun p => (p.1, p.2.1)) = t := by
  induction t generalizing n with
  | nil => rfl
  | cons p t ih => simp [kinds, ih]

theorem EntriesFit.append {l l' : List Entry} {t t' : Kinds} (h : EntriesFit l t) (h' : EntriesFit l' t') :
    EntriesFit (l ++ l') (t ++ t') := by
  induction h with
  | nil => exact h'
  | cons h1 _ ih => exact .cons h1 ih

theorem EntriesFit.dict {l : List Entry} {t : Kinds} (h : EntriesFit l t) {d : PlainRec}
    (hd : dictOf l = .ok d) :
    d.map (fun p => (p.1, fmtOf p.2, arrayVal p.2)) = t.map (fun p => (p.1, some p.2.1, p.2.2)) ∧
    ∀ p ∈ d, FitsType p.2 := by
  induction h generalizing d with
  | nil => cases hd; exact ⟨rfl, by simp⟩
  | cons h1 _ ih =>
    obtain ⟨v, h2, hd⟩ := bind_ok hd
    obtain ⟨d', h3, hd⟩ := bind_ok hd
    cases hd
    obtain ⟨h4, h5⟩ := ih h3
    obtain ⟨h6, h8, h7⟩ := h1 v h2
    constructor
    · simp only [List.map_cons, h4, h6, h8]
    · intro p hp
      rcases List.mem_cons.1 hp with rfl | hp
      · exact h7
      · exact h5 p hp

/-! ## Entries -/

theorem fits_i8 {x : Except Err Int} (h : ∀ n, x = .ok n → signedOk 1 n) : EntryFits (i8 x) (.c, false) := by
  intro v hv
  obtain ⟨n, h1, rfl⟩ := i8_ok hv
  exact ⟨rfl, rfl, n, rfl, by have := h n h1; unfold signedOk at this; omega⟩

theorem fits_i16 {x : Except Err Int} (h : ∀ n, x = .ok n → signedOk 2 n) : EntryFits (i16 x) (.h, false) := by
  intro v hv
  obtain ⟨n, h1, rfl⟩ := i16_ok hv
  exact ⟨rfl, rfl, n, rfl, by have := h n h1; unfold signedOk at this; omega⟩

theorem fits_i32 {x : Except Err Int} (h : ∀ n, x = .ok n → signedOk 4 n) : EntryFits (i32 x) (.i, false) := by
  intro v hv
  obtain ⟨n, h1, rfl⟩ := i32_ok hv
  exact ⟨rfl, rfl, n, rfl, by have := h n h1; unfold signedOk at this; omega⟩

theorem fits_f32 (x : Except Err (BitVec 32)) : EntryFits (f32 x) (.f, false) := by
  intro v hv
  obtain ⟨n, h1, rfl⟩ := f32_ok hv
  exact ⟨rfl, rfl, n, rfl⟩

theorem fits_text (x : Except Err PyStr) : EntryFits (text x) (.s, false) := by
  intro v hv
  obtain ⟨n, h1, rfl⟩ := text_ok hv
  exact ⟨rfl, rfl, n, rfl⟩

theorem fits_arr16 {s : List Nat} {l : List Int} (h : l.length = Spec.prod s) : EntryFits (.ok (arr16 s l)) (.h, true) := by
  intro v hv
  cases hv
  refine ⟨rfl, rfl, ?_, ?_⟩
  · simpa [arr16] using h
  · intro c hc
    simp only [List.mem_map] at hc
    obtain ⟨n, -, rfl⟩ := hc
    simp [DType.size]

theorem fits_arr32 {s : List Nat} {l : List Int} (h : l.length = Spec.prod s) : EntryFits (.ok (arr32 s l)) (.i, true) := by
  intro v hv
  cases hv
  refine ⟨rfl, rfl, ?_, ?_⟩
  · simpa using h
  · intro c hc
    simp only [List.mem_map] at hc
    obtain ⟨n, -, rfl⟩ := hc
    simp [DType.size]

theorem fits_arrF32 {s : List Nat} {l : List (BitVec 32)} (h : l.length = Spec.prod s) :
    EntryFits (.ok (arrF32 s l)) (.f, true) := by
  intro v hv
  cases hv
  refine ⟨rfl, rfl, ?_, ?_⟩
  · simpa using h
  · intro c hc
    simp only [List.mem_map] at hc
    obtain ⟨n, -, rfl⟩ := hc
    simp [DType.size]

theorem fits_bind {α : Type} {x : Except Err α} {g : α → Except Err PlainVal} {f : Fmt × Bool}
    (h : ∀ a, x = .ok a → EntryFits (g a) f) : EntryFits (x >>= g) f := by
  intro v hv
  obtain ⟨a, h1, h2⟩ := bind_ok hv
  exact h a h1 v h2

theorem fits_error (e : Err) (f : Fmt × Bool) : EntryFits (.error e) f := by
  intro v hv
  cases hv

theorem npI16_ok {cfg : NpCfg} {ops : Ops} {v : Val} {n : Int} (h : npI16 cfg ops v = .ok n) : signedOk 2 n := by
  have hb : ∀ b : BitVec 16, signedOk 2 b.toInt := by
    intro b
    have h1 := b.toInt_lt
    have h2 := b.le_toInt
    unfold signedOk
    omega
  unfold npI16 at h
  split at h
  · exact pyIntTo_ok rfl h
  · cases h; exact hb _
  · cases h; exact hb _
  · cases h; exact hb _
  · cases h; exact wrapInt_ok 2 _ rfl
  · cases h

theorem npI32_ok {cfg : NpCfg} {v : Val} {n : Int} (h : npI32 cfg v = .ok n) : signedOk 4 n := by
  unfold npI32 at h
  split at h
  · exact pyIntTo_ok rfl h
  · cases h; exact wrapInt_ok 4 _ rfl
  · cases h

theorem bits16_ok (b : BitVec 16) : signedOk 2 b.toInt := by
  have h1 := b.toInt_lt
  have h2 := b.le_toInt
  unfold signedOk
  omega

theorem bits32_ok (b : BitVec 32) : signedOk 4 b.toInt := by
  have h1 := b.toInt_lt
  have h2 := b.le_toInt
  unfold signedOk
  omega

theorem eltI16_ok (ops : Ops) (e : Elt) : signedOk 2 (eltI16 ops e) := by
  unfold eltI16
  split
  · exact wrapInt_ok 2 _ rfl
  · exact bits16_ok _

/-- Every successful result of a computation satisfies `P`. -/
def Gives {α : Type} (x : Except Err α) (P : α → Prop) : Prop := ∀ a, x = .ok a → P a

theorem gives_bind {α β : Type} {x : Except Err α} {g : α → Except Err β} {P : β → Prop}
    (h : ∀ a, Gives (g a) P) : Gives (x >>= g) P := by
  intro b hb
  obtain ⟨a, -, h2⟩ := bind_ok hb
  exact h a b h2

theorem gives_ok {α : Type} {a : α} {P : α → Prop} (h : P a) : Gives (.ok a) P := by
  intro b hb
  cases hb
  exact h

theorem gives_py (cfg : NpCfg) {k : Nat} (n : Int) (hk : 256 ^ k % 2 = 0) : Gives (pyIntTo cfg k n) (signedOk k) :=
  fun _ h => pyIntTo_ok hk h

theorem fits_source16 (cfg : NpCfg) (ops : Ops) (s : Source) (k : PyStr) : EntryFits (s.i16 cfg ops k) (.h, false) :=
  fits_i16 (gives_bind fun _ _ h => npI16_ok h)

theorem fits_fl16 (g : Elt → BitVec 16) (s : Source) (k : PyStr) : EntryFits (s.fl16 g k) (.h, false) :=
  fits_i16 (gives_bind fun _ => gives_bind fun _ => gives_ok (bits16_ok _))

theorem fits_round16 (cfg : NpCfg) (ops : Ops) (s : Source) (k : PyStr) : EntryFits (s.round16 cfg ops k) (.h, false) :=
  fits_i16 (gives_bind fun _ => gives_bind fun _ => gives_bind fun _ => gives_py cfg _ rfl)

theorem fits_status (cfg : NpCfg) (ops : Ops) (s : Source) (k : PyStr) : EntryFits (s.status cfg ops k) (.h, false) := by
  refine fits_i16 ?_
  intro n hn
  split at hn
  · exact pyIntTo_ok rfl hn
  · exact npI16_ok hn

theorem i8_gives (cfg : NpCfg) (r : Revision) : Gives (r.i8 cfg) (signedOk 1) := by
  intro n hn
  cases r with
  | num m => exact pyIntTo_ok rfl hn
  | text t =>
    obtain ⟨m, -, h⟩ := bind_ok hn
    exact pyIntTo_ok rfl h

theorem common_fits (cfg : NpCfg) (ops : Ops) (s : Source) (rev : Revision × Revision) (beam : Elt) (b : Nat)
    {txpow nrang : Except Err Int} (h1 : Gives txpow (signedOk 2)) (h2 : Gives nrang (signedOk 2)) :
    EntriesFit (commonFields cfg ops s rev beam b txpow nrang) ((kinds 50 SD.Iqdat.types).take 39) := by
  unfold commonFields
  have hd : ∀ g : Date → BitVec 16, EntryFits (i16 (do .ok (g (← s.date ops)).toInt)) (.h, false) :=
    fun g => fits_i16 (gives_bind fun _ => gives_ok (bits16_ok _))
  refine .cons (fits_i8 (i8_gives cfg _)) <| .cons (fits_i8 (i8_gives cfg _)) <|
    .cons (fits_i8 (gives_py cfg _ rfl)) <| .cons (fits_text _) <| .cons (fits_text _) <|
    .cons (fits_source16 cfg ops s _) <|
    .cons (fits_i16 (gives_bind fun _ => gives_bind fun _ => gives_bind fun _ => gives_py cfg _ rfl)) <|
    .cons (hd _) <| .cons (hd _) <| .cons (hd _) <| .cons (hd _) <| .cons (hd _) <| .cons (hd _) <|
    .cons (fits_i32 (gives_bind fun _ => gives_ok (bits32_ok _))) <|
    .cons (fits_i16 h1) <| .cons (fits_source16 cfg ops s _) <| .cons (fits_i16 (gives_py cfg _ rfl)) <|
    .cons (fits_source16 cfg ops s _) <| .cons (fits_fl16 _ s _) <| .cons (fits_i16 (gives_py cfg _ rfl)) <|
    .cons (fits_status cfg ops s _) <| .cons (fits_status cfg ops s _) <|
    .cons (fits_f32 _) <| .cons (fits_f32 _) <|
    .cons (fits_i16 fun _ h => npI16_ok h) <| .cons (fits_i16 (gives_ok (eltI16_ok ops _))) <|
    .cons (fits_f32 _) <| .cons (fits_source16 cfg ops s _) <|
    .cons (fits_i16 (gives_py cfg _ rfl)) <| .cons (fits_i16 (gives_py cfg _ rfl)) <|
    .cons (fits_fl16 _ s _) <|
    .cons (fits_i32 (gives_bind fun _ => gives_bind fun _ => gives_ok (bits32_ok _))) <|
    .cons (fits_source16 cfg ops s _) <| .cons (fits_source16 cfg ops s _) <|
    .cons (fits_i16 (gives_bind fun _ => gives_bind fun _ => gives_py cfg _ rfl)) <|
    .cons (fits_i16 (gives_bind fun _ => gives_bind fun _ => gives_py cfg _ rfl)) <|
    .cons (fits_i16 h2) <| .cons (fits_round16 cfg ops s _) <| .cons (fits_round16 cfg ops s _) .nil

theorem prod_eq (s : List Nat) : Spec.prod s = prod s := by
  induction s with
  | nil => rfl
  | cons d ds ih => simp [Spec.prod, prod, ih]

theorem fits_asI16 {ops : Ops} {r : Rec} (hw : WFRec r) (k : PyStr) :
    EntryFits (do asI16 ops (← field r k)) (.h, true) := by
  refine fits_bind fun v hv => ?_
  refine fits_bind fun a ha => fits_arr16 ?_
  cases v with
  | arr a' =>
    cases ha
    rw [field_iff] at hv
    rw [List.length_map, prod_eq]
    exact hw k a hv
  | py t e => cases ha
  | np t e => cases ha

theorem iqdat_fits (cfg : NpCfg) (ops : Ops) {s : Source} (hw : WFRec s.fields) (rev : Revision × Revision)
    (norm : Val) (nsamps nseq : Nat) (order : NdArr) (beam : Elt) (b : Nat) (l : List Elt) :
    EntriesFit (iqdatFields cfg ops s rev norm nsamps nseq order beam b l) (kinds 50 SD.Iqdat.types) := by
  have ht : kinds 50 SD.Iqdat.types = (kinds 50 SD.Iqdat.types).take 39 ++ (kinds 50 SD.Iqdat.types).drop 39 := (List.take_append_drop _ _).symm
  rw [ht]
  unfold iqdatFields
  refine EntriesFit.append (common_fits cfg ops s rev beam b (gives_py cfg _ rfl)
    (gives_bind fun _ _ h => npI16_ok h)) ?_
  refine .cons (fits_i16 (gives_py cfg _ rfl)) <| .cons (fits_source16 cfg ops s _) <|
    .cons (fits_i32 (gives_py cfg _ rfl)) <| .cons (fits_i32 (gives_py cfg _ rfl)) <|
    .cons (fits_i32 (gives_py cfg _ rfl)) <| .cons (fits_i32 (gives_py cfg _ rfl)) <|
    .cons (fits_text _) <| .cons (fits_i32 (gives_bind fun _ _ h => npI32_ok h)) <|
    .cons (fits_i32 (gives_py cfg _ rfl)) <| .cons (fits_i32 (gives_bind fun _ _ h => npI32_ok h)) <|
    .cons (fits_i32 (gives_bind fun _ => gives_bind fun _ => gives_bind fun _ => gives_bind fun _ => gives_ok (bits32_ok _))) <|
    .cons (fits_asI16 hw _) <| .cons (fits_asI16 hw _) <|
    .cons (fits_bind fun _ _ => fits_bind fun _ _ => fits_bind fun _ h => fits_arr32 (by simp [Spec.prod, mapE_length h])) <|
    .cons (fits_bind fun _ _ => fits_bind fun _ _ => fits_bind fun _ h => fits_arr32 (by simp [Spec.prod, mapE_length h])) <|
    .cons (fits_arr16 (by simp [Spec.prod])) <| .cons ?_ <|
    .cons (fits_arr32 (by simp [Spec.prod])) <| .cons (fits_arr32 (by simp [Spec.prod])) <|
    .cons (fits_arr16 ?_) .nil
  · refine fits_bind fun v hv => ?_
    refine fits_bind fun a ha => fits_arrF32 ?_
    cases v with
    | arr a' =>
      cases ha
      rw [field_iff] at hv
      rw [List.length_map, prod_eq]
      exact hw _ a hv
    | py t e => cases ha
    | np t e => cases ha
  · unfold iqData
    rw [pairs_length]
    simp [Spec.prod]

/-- The fields of a converted rawacf record. -/
def rawacfTable : SD.Table :=
  SD.Iqdat.types.take 39 ++
  [(py! "xcf", .h), (py! "tfreq", .h), (py! "mxpwr", .i), (py! "lvmax", .i), (py! "rawacf.revision.major", .i),
   (py! "rawacf.revision.minor", .i), (py! "combf", .s), (py! "thr", .f), (py! "ptab", .h), (py! "ltab", .h),
   (py! "pwr0", .f), (py! "slist", .h), (py! "acfd", .f), (py! "xcfd", .f)]

theorem txpow_ok (cfg : NpCfg) (ops : Ops) (r : Rec) : Gives (txpowOf cfg ops r) (signedOk 2) := by
  intro n hn
  unfold txpowOf at hn
  split at hn
  · exact pyIntTo_ok rfl hn
  · obtain ⟨l, -, h⟩ := bind_ok hn
    split at h
    · cases h; exact wrapInt_ok 2 _ rfl
    · cases h

theorem acfData_fits {ops : Ops} {norm : Val} {factor : Int} {nr nl : Nat} {l : List Elt}
    (h : l.length = nr * (nl - 1)) : EntryFits (.ok (acfData ops norm factor nr nl l)) (.f, true) := by
  refine fits_arrF32 ?_
  rw [pairs_length, h]
  simp [Spec.prod, Nat.mul_comm, Nat.mul_assoc]

theorem rawacf_fits (cfg : NpCfg) (ops : Ops) {s : Source} (hw : WFRec s.fields) (rev : Revision × Revision)
    (norm : Val) (nr nl : Nat) (beam : Elt) (b : Nat) {l0 lm : List Elt} {lx : Option (List Elt)}
    (h0 : l0.length = nr) (hm : lm.length = nr * (nl - 1)) (hx : ∀ l, lx = some l → l.length = nr * (nl - 1)) :
    EntriesFit (rawacfFields cfg ops s rev norm nr nl beam b l0 lm lx) (kinds 47 rawacfTable) := by
  have ht : kinds 47 rawacfTable = (kinds 50 SD.Iqdat.types).take 39 ++ (kinds 47 rawacfTable).drop 39 := by
    decide +kernel
  rw [ht]
  unfold rawacfFields
  refine EntriesFit.append (common_fits cfg ops s rev beam b (txpow_ok cfg ops _)
    (gives_ok (wrapInt_ok 2 _ rfl))) ?_
  refine .cons (fits_i16 (gives_py cfg _ rfl)) <| .cons (fits_source16 cfg ops s _) <|
    .cons (fits_i32 (gives_py cfg _ rfl)) <| .cons (fits_i32 (gives_py cfg _ rfl)) <|
    .cons (fits_i32 (gives_py cfg _ rfl)) <| .cons (fits_i32 (gives_py cfg _ rfl)) <|
    .cons (fits_text _) <| .cons (fits_f32 _) <|
    .cons (fits_asI16 hw _) <| .cons (fits_asI16 hw _) <|
    .cons (fits_arrF32 (by simp [Spec.prod, h0])) <|
    .cons (fits_arr16 (by simp [Spec.prod])) <|
    .cons (acfData_fits hm) <| .cons ?_ .nil
  split
  · exact fits_error _ _
  · rename_i l
    exact acfData_fits (hx l rfl)

/-! ## Conversion to DMAP structures -/

theorem plainToField_ok {k : PyStr} {v : PlainVal} {f : Fmt} (h : fmtOf v = some f) :
    ∃ x, plainToField k v = .ok x ∧ x.fmt? = some f := by
  cases v with
  | scalar ty v =>
    simp only [fmtOf] at h
    have hne : f ≠ .dmap := by
      rintro rfl
      unfold formatConversion at h
      split at h <;> cases h
    have : ∃ c, dmapFormatTypes f = some c := by
      cases f <;> first | exact absurd rfl hne | exact ⟨_, rfl⟩
    obtain ⟨c, hc⟩ := this
    exact ⟨.scalar ⟨k, v, c, f⟩, by simp only [plainToField, h, hc], rfl⟩
  | arr a =>
    simp only [fmtOf] at h
    have hne : f ≠ .dmap := by
      rintro rfl
      unfold formatConversion at h
      split at h <;> cases h
    have : ∃ c, dmapFormatTypes f = some c := by
      cases f <;> first | exact absurd rfl hne | exact ⟨_, rfl⟩
    obtain ⟨c, hc⟩ := this
    exact ⟨.array ⟨k, a, c, f, a.shape.length, a.shape.map Int.ofNat⟩, by simp only [plainToField, h, hc], rfl⟩

theorem plainToRec_ok {d : PlainRec} {t : SD.Table}
    (h : d.map (fun p => (p.1, fmtOf p.2)) = t.map (fun p => (p.1, some p.2))) :
    ∃ r, plainToRec d = .ok r ∧ r.map (fun p => (p.1, p.2.fmt?)) = t.map (fun p => (p.1, some p.2)) := by
  induction d generalizing t with
  | nil =>
    cases t with
    | nil => exact ⟨[], rfl, rfl⟩
    | cons p t => simp at h
  | cons p d ih =>
    cases t with
    | nil => simp at h
    | cons q t =>
      simp only [List.map_cons, List.cons.injEq, Prod.mk.injEq] at h
      obtain ⟨x, h1, h2⟩ := plainToField_ok (k := p.1) h.1.2
      obtain ⟨r, h3, h4⟩ := ih h.2
      refine ⟨(p.1, x) :: r, ?_, ?_⟩
      · obtain ⟨k, v⟩ := p
        simp only [plainToRec, h1, h3, bind, Except.bind]
        rfl
      · simp only [List.map_cons, h2, h4, h.1.1]

/-- A record with the fields of a table. -/
def tableRec (t : SD.Table) : Verif.Rec := t.map fun p => (p.1, .scalar ⟨p.1, .int 0, 0, p.2⟩)

theorem conforms_of_formats {ft : SD.FileType} {t : SD.Table} {r : Verif.Rec} (h0 : SD.Conforms ft (tableRec t))
    (h : r.map (fun p => (p.1, p.2.fmt?)) = t.map (fun p => (p.1, some p.2))) : SD.Conforms ft r := by
  have ht : (tableRec t).map (fun p => (p.1, p.2.fmt?)) = t.map (fun p => (p.1, some p.2)) := by
    simp [tableRec, Field.fmt?]
  have key : ∀ (r r' : Verif.Rec), r.map (fun p => (p.1, p.2.fmt?)) = r'.map (fun p => (p.1, p.2.fmt?)) →
      ∀ k f, (k, f) ∈ r → ∃ f', (k, f') ∈ r' ∧ f'.fmt? = f.fmt? := by
    intro r r' hrr k f hm
    have : (k, f.fmt?) ∈ r.map (fun p => (p.1, p.2.fmt?)) := List.mem_map.2 ⟨(k, f), hm, rfl⟩
    rw [hrr] at this
    obtain ⟨⟨k', f'⟩, h1, h2⟩ := List.mem_map.1 this
    simp only [Prod.mk.injEq] at h2
    exact ⟨f', h2.1 ▸ h1, h2.2⟩
  have h1 := key r (tableRec t) (h.trans ht.symm)
  have h2 := key (tableRec t) r (ht.trans h.symm)
  have has : ∀ k, SD.Has r k ↔ SD.Has (tableRec t) k := by
    intro k
    constructor
    · rintro ⟨f, hf⟩
      obtain ⟨f', hf', -⟩ := h1 k f hf
      exact ⟨f', hf'⟩
    · rintro ⟨f, hf⟩
      obtain ⟨f', hf', -⟩ := h2 k f hf
      exact ⟨f', hf'⟩
  refine ⟨?_, ?_, ?_⟩
  · intro g hg
    rcases h0.complete g hg with h | h
    · exact .inl fun k t hk => (has k).2 (h k t hk)
    · exact .inr fun k t hk hr => h k t hk ((has k).1 hr)
  · intro k hk
    exact h0.known k ((has k).1 hk)
  · intro k f hf t hl
    obtain ⟨f', hf', he⟩ := h1 k f hf
    rw [← he]
    exact h0.typed k f' hf' t hl

theorem iqdat_table_conforms : SD.Conforms .iqdat (tableRec SD.Iqdat.types) :=
  (SD.C23_write .iqdat 0 _).1 (by decide +kernel)

theorem rawacf_table_conforms : SD.Conforms .rawacf (tableRec rawacfTable) :=
  (SD.C23_write .rawacf 0 _).1 (by decide +kernel)

end Verif.Bor
