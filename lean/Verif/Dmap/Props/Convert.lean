import Verif.Dmap.Lemmas.WriterObj
import Verif.Dmap.Lemmas.Programs
import Verif.Dmap.Sample
/-!
# C31 - C33: `dict2dmap`, `dmap2dict` and the type tables
-/
namespace Verif
open Spec

/-! ## Specification -/

/-- The plain types that have a DMAP format (from the documentation of the DMAP data types). -/
inductive HasFormat : PyTy → Fmt → Prop
  | int8 : HasFormat (.np .int8) .c
  | int16 : HasFormat (.np .int16) .h
  | int : HasFormat .int .i
  | int32 : HasFormat (.np .int32) .i
  | float : HasFormat .float .f
  | float32 : HasFormat (.np .float32) .f
  | float64 : HasFormat (.np .float64) .d
  | str : HasFormat .str .s
  | int64 : HasFormat (.np .int64) .q
  | uint8 : HasFormat (.np .uint8) .B
  | uint16 : HasFormat (.np .uint16) .H
  | uint32 : HasFormat (.np .uint32) .I
  | uint64 : HasFormat (.np .uint64) .Q

/-- `v` can be a value of the Python/NumPy type. -/
inductive Inhabits : PyTy → PyVal → Prop
  | int8 {v : Int} : -2 ^ 7 ≤ v → v < 2 ^ 7 → Inhabits (.np .int8) (.int v)
  | int16 {v : Int} : -2 ^ 15 ≤ v → v < 2 ^ 15 → Inhabits (.np .int16) (.int v)
  | int32 {v : Int} : -2 ^ 31 ≤ v → v < 2 ^ 31 → Inhabits (.np .int32) (.int v)
  | int64 {v : Int} : -2 ^ 63 ≤ v → v < 2 ^ 63 → Inhabits (.np .int64) (.int v)
  | uint8 {v : Int} : 0 ≤ v → v < 2 ^ 8 → Inhabits (.np .uint8) (.int v)
  | uint16 {v : Int} : 0 ≤ v → v < 2 ^ 16 → Inhabits (.np .uint16) (.int v)
  | uint32 {v : Int} : 0 ≤ v → v < 2 ^ 32 → Inhabits (.np .uint32) (.int v)
  | uint64 {v : Int} : 0 ≤ v → v < 2 ^ 64 → Inhabits (.np .uint64) (.int v)
  | int {v : Int} : Inhabits .int (.int v)
  | float {b : BitVec 64} : Inhabits .float (.f64 b)
  | floatSingle {b : BitVec 32} : ¬ IsSNaN b → Inhabits .float (.f32 b)
  | float32 {b : BitVec 32} : Inhabits (.np .float32) (.f32 b)
  | float64 {b : BitVec 64} : Inhabits (.np .float64) (.f64 b)
  | str {s : PyStr} : Inhabits .str (.str s)

/-- The documented casts: `np.int32` becomes `int`, `np.float32` becomes `float`. -/
def castTy : PyTy → PyTy
  | .np .int32 => .int
  | .np .float32 => .float
  | t => t

/-- The value after the cast: a signalling NaN becomes quiet. -/
def castNum : PyTy → PyVal → PyVal
  | .np .float32, .f32 b => .f32 (quiet32 b)
  | _, v => v

/-- A plain value after the documented casts. -/
def castPlain : PlainVal → PlainVal
  | .scalar ty v => .scalar (castTy ty) (castNum ty v)
  | .arr a => .arr a

/-- A plain value that has a DMAP type. -/
def Convertible : PlainVal → Prop
  | .scalar ty v => (∃ fm, HasFormat ty fm) ∧ Inhabits ty v
  | .arr a => ∃ fm, HasFormat (.np a.dtype) fm

/-- A plain value whose type has no DMAP format. -/
def NoFormat : PlainVal → Prop
  | .scalar ty _ => ¬ ∃ fm, HasFormat ty fm
  | .arr a => ¬ ∃ fm, HasFormat (.np a.dtype) fm

/-! ## C32 -/

theorem hasFormat_iff (ty : PyTy) (fm : Fmt) : HasFormat ty fm ↔ formatConversion ty = some fm := by
  constructor
  · intro h; cases h <;> rfl
  · intro h
    cases ty with
    | int => cases h; constructor
    | float => cases h; constructor
    | str => cases h; constructor
    | np d => cases d <;> first | (cases h; done) | (cases h; constructor)

/-- **C32** Format characters and codes correspond one to one, both in the reader's table
(`DMAP_DATA_TYPES`) and in the writer's (`DMAP_FORMAT_TYPES`). -/
theorem C32_codes (fm : Fmt) (hf : fm ≠ .dmap) :
    dmapFormatTypes fm = some (code fm : Int) ∧
    (dmapDataTypes.filter fun p => p.2.1 = fm) = [(code fm, (fm, fm.size))] ∧
    (dmapDataTypes.filter fun p => p.1 = code fm) = [(code fm, (fm, fm.size))] := by
  cases fm <;> first | exact absurd rfl hf | decide

example : dmapFormatTypes .h = some 2 ∧ code .h = 2 ∧ Fmt.h.size = 2 := by decide

/-- **C32** Every code of the reader's table except 0 is produced by the writer's table. -/
theorem C32_codes_complete {n : Nat} {fm : Fmt} {k : Nat} (h : (n, (fm, k)) ∈ dmapDataTypes) :
    (n = 0 ∧ fm = .dmap) ∨ (dmapFormatTypes fm = some (n : Int) ∧ k = fm.size ∧ n = code fm) := by
  simp only [dmapDataTypes, List.mem_cons, Prod.mk.injEq, List.not_mem_nil, or_false] at h
  rcases h with ⟨rfl, rfl, rfl⟩ | ⟨rfl, rfl, rfl⟩ | ⟨rfl, rfl, rfl⟩ | ⟨rfl, rfl, rfl⟩ | ⟨rfl, rfl, rfl⟩ | ⟨rfl, rfl, rfl⟩ |
    ⟨rfl, rfl, rfl⟩ | ⟨rfl, rfl, rfl⟩ | ⟨rfl, rfl, rfl⟩ | ⟨rfl, rfl, rfl⟩ | ⟨rfl, rfl, rfl⟩ | ⟨rfl, rfl, rfl⟩ <;>
    first | exact .inl ⟨rfl, rfl⟩ | exact .inr ⟨rfl, rfl, rfl⟩

example : (19, (Fmt.Q, 8)) ∈ dmapDataTypes := by decide

/-- **C32** Casting a value for a format and asking for the format of the result gives the format back;
the cast type is the one the documentation lists. -/
theorem C32_casts (fm : Fmt) (hf : fm ≠ .dmap) :
    ∃ ty, dmapCastingTypes fm = some ty ∧ formatConversion ty = some fm ∧ ty = shownTy fm := by
  cases fm <;> first | exact absurd rfl hf | exact ⟨_, rfl, rfl, rfl⟩

example : dmapCastingTypes .s = some .str ∧ formatConversion .str = some .s := by decide

/-- **C32** `castVal` casts to the type of the table. -/
theorem C32_cast_value {cfg : NpCfg} {fm : Fmt} {v : PyVal} {p : PlainVal} (h : castVal cfg fm v = .ok p) :
    ∃ ty w, p = .scalar ty w ∧ dmapCastingTypes fm = some ty ∧ formatConversion ty = some fm := by
  have key : ∀ (s : Bool) (k : Nat) (ty : PyTy) (x : Int),
      ((do let v ← npIntCast cfg s k x; return PlainVal.scalar ty (PyVal.int v)) : Except Err PlainVal) = .ok p →
      ∃ w, p = .scalar ty w := by
    intro s k ty x h
    cases hc : npIntCast cfg s k x with
    | error e => rw [hc] at h; cases h
    | ok y => rw [hc] at h; cases h; exact ⟨_, rfl⟩
  cases fm <;> cases v <;> first
    | (cases h; done)
    | (obtain ⟨w, rfl⟩ := key _ _ _ _ h; exact ⟨_, _, rfl, rfl, rfl⟩)
    | (cases h; exact ⟨_, _, rfl, rfl, rfl⟩)

example : castVal numpy1 .h (.int 7) = .ok (.scalar (.np .int16) (.int 7)) := by decide

/-- **C32** Which plain types are accepted. -/
theorem C32_accepted_types (ty : PyTy) :
    (∃ fm, HasFormat ty fm) ↔
      ty ∈ [.int, .float, .str, .np .int8, .np .int16, .np .int32, .np .int64, .np .uint8, .np .uint16,
        .np .uint32, .np .uint64, .np .float32, .np .float64] := by
  constructor
  · rintro ⟨fm, h⟩; cases h <;> decide
  · intro h
    simp only [List.mem_cons, List.not_mem_nil, or_false] at h
    rcases h with rfl | rfl | rfl | rfl | rfl | rfl | rfl | rfl | rfl | rfl | rfl | rfl | rfl <;>
      exact ⟨_, by constructor⟩

example : (∃ fm, HasFormat (.np .uint16) fm) ∧ ¬ ∃ fm, HasFormat (.np (.other 1 false)) fm :=
  ⟨(C32_accepted_types _).2 (by decide), fun h => absurd ((C32_accepted_types _).1 h) (by decide)⟩

/-! ## C31 -/

theorem plainToField_ok {k : PyStr} {v : PlainVal} (h : Convertible v) :
    ∃ f, plainToField k v = .ok f := by
  have hc : ∀ ty fm, HasFormat ty fm → formatConversion ty = some fm := fun ty fm h => (hasFormat_iff ty fm).1 h
  have hd : ∀ ty fm, HasFormat ty fm → ∃ c, dmapFormatTypes fm = some c := by
    intro ty fm h; cases h <;> exact ⟨_, rfl⟩
  cases v with
  | scalar ty v =>
    obtain ⟨⟨fm, hf⟩, _⟩ := h
    obtain ⟨c, hcd⟩ := hd _ _ hf
    simp only [plainToField, hc _ _ hf, hcd]
    exact ⟨_, rfl⟩
  | arr a =>
    obtain ⟨fm, hf⟩ := h
    obtain ⟨c, hcd⟩ := hd _ _ hf
    simp only [plainToField, hc _ _ hf, hcd]
    exact ⟨_, rfl⟩

/-- The DMAP structure for a plain value. -/
def FieldFor (k : PyStr) (f : Field) : PlainVal → Prop
  | .scalar ty v => ∃ fm, HasFormat ty fm ∧ f = .scalar ⟨k, v, code fm, fm⟩
  | .arr a => ∃ fm, HasFormat (.np a.dtype) fm ∧
      f = .array ⟨k, a, code fm, fm, a.shape.length, a.shape.map Int.ofNat⟩

theorem plainToField_inv {k : PyStr} {v : PlainVal} {f : Field} (h : plainToField k v = .ok f) :
    FieldFor k f v := by
  have hd : ∀ fm c, dmapFormatTypes fm = some c → c = (code fm : Int) := by
    intro fm c h; cases fm <;> cases h <;> rfl
  cases v with
  | scalar ty v =>
    simp only [plainToField] at h
    cases hf : formatConversion ty with
    | none => rw [hf] at h; cases h
    | some fm =>
      rw [hf] at h
      simp only at h
      cases hc : dmapFormatTypes fm with
      | none => rw [hc] at h; cases h
      | some c =>
        rw [hc] at h
        cases h
        rw [hd _ _ hc]
        exact ⟨fm, (hasFormat_iff _ _).2 hf, rfl⟩
  | arr a =>
    simp only [plainToField] at h
    cases hf : formatConversion (.np a.dtype) with
    | none => rw [hf] at h; cases h
    | some fm =>
      rw [hf] at h
      simp only at h
      cases hc : dmapFormatTypes fm with
      | none => rw [hc] at h; cases h
      | some c =>
        rw [hc] at h
        cases h
        rw [hd _ _ hc]
        exact ⟨fm, (hasFormat_iff _ _).2 hf, rfl⟩

theorem npIntCast_in {cfg : NpCfg} {s : Bool} {k : Nat} {v : Int}
    (h : (if s then (-((256 ^ k : Nat) : Int) / 2) else 0) ≤ v ∧
      v < (if s then ((256 ^ k : Nat) : Int) / 2 else ((256 ^ k : Nat) : Int))) :
    npIntCast cfg s k v = .ok v := by
  unfold npIntCast
  simp only
  rw [if_pos h]

theorem fieldToPlain_plain (cfg : NpCfg) {k : PyStr} {v : PlainVal} (hc : Convertible v) {f : Field}
    (h : plainToField k v = .ok f) : fieldToPlain cfg f = .ok (castPlain v) := by
  have hi := plainToField_inv h
  cases v with
  | arr a => obtain ⟨fm, _, rfl⟩ := hi; rfl
  | scalar ty v =>
    obtain ⟨fm, hf, rfl⟩ := hi
    obtain ⟨_, hv⟩ := hc
    simp only [fieldToPlain, castPlain]
    cases hf <;> cases hv <;> first
      | rfl
      | (rename_i hb
         simp only [castVal, castTy, castNum]
         rw [quiet32_of_not hb])
      | (simp only [castVal, castTy, castNum]
         rw [npIntCast_in]
         · rfl
         · simp; omega)

/-- **C31** Converting a dictionary whose values have DMAP types to DMAP structures and back gives the same
names in the same order with the same values (after the documented casts). -/
theorem C31_dict_dmap_dict (cfg : NpCfg) {ps : List PlainRec} (h : ∀ d ∈ ps, ∀ p ∈ d, Convertible p.2) :
    ∃ rs, dict2dmap ps = .ok rs ∧
      dmap2dict cfg rs = .ok (ps.map fun d => d.map fun p => (p.1, castPlain p.2)) := by
  have hrec : ∀ d : PlainRec, (∀ p ∈ d, Convertible p.2) →
      ∃ r, plainToRec d = .ok r ∧ recToPlain cfg r = .ok (d.map fun p => (p.1, castPlain p.2)) := by
    intro d
    induction d with
    | nil => intro _; exact ⟨[], rfl, rfl⟩
    | cons p d ih =>
      intro h
      obtain ⟨k, v⟩ := p
      obtain ⟨f, h1⟩ := plainToField_ok (k := k) (h (k, v) (by simp))
      obtain ⟨r, h2, h3⟩ := ih fun q hq => h q (List.mem_cons_of_mem _ hq)
      refine ⟨(k, f) :: r, ?_, ?_⟩
      · simp only [plainToRec]; rw [h1, h2]; rfl
      · simp only [recToPlain]; rw [fieldToPlain_plain cfg (h (k, v) (by simp)) h1, h3]; rfl
  induction ps with
  | nil => exact ⟨[], rfl, rfl⟩
  | cons d ps ih =>
    obtain ⟨r, h1, h2⟩ := hrec d (h d (by simp))
    obtain ⟨rs, h3, h4⟩ := ih fun d hd => h d (List.mem_cons_of_mem _ hd)
    refine ⟨r :: rs, ?_, ?_⟩
    · simp only [dict2dmap]; rw [h1, h3]; rfl
    · simp only [dmap2dict]; rw [h2, h4]; rfl

/-- A plain dictionary with several types of values. -/
def samplePlain : PlainRec :=
  [(py! "a", .scalar (.np .int32) (.int (-5))), (py! "b", .scalar .str (.str (py! "x"))),
   (py! "c", .scalar (.np .int8) (.int (-128))), (py! "d", .scalar .float (.f64 0x3FB999999999999A#64)),
   (py! "e", .arr ⟨.int64, [1], [[1, 0, 0, 0, 0, 0, 0, 0]]⟩)]

example := C31_dict_dmap_dict numpy2 (ps := [samplePlain]) (by
  intro d hd p hp
  rw [List.mem_singleton.1 hd] at hp
  simp only [samplePlain, List.mem_cons, List.not_mem_nil, or_false] at hp
  rcases hp with rfl | rfl | rfl | rfl | rfl
  · exact ⟨⟨_, .int32⟩, .int32 (by decide) (by decide)⟩
  · exact ⟨⟨_, .str⟩, .str⟩
  · exact ⟨⟨_, .int8⟩, .int8 (by decide) (by decide)⟩
  · exact ⟨⟨_, .float⟩, .float⟩
  · exact ⟨_, .int64⟩)

/-- A plain dictionary that can be written. -/
def samplePlain0 : PlainRec :=
  [(py! "a", .scalar (.np .int32) (.int (-5))), (py! "d", .scalar .float (.f64 0x3FB999999999999A#64)),
   (py! "e", .arr ⟨.int64, [1], [[1, 0, 0, 0, 0, 0, 0, 0]]⟩)]

/-- **C31** A value without DMAP type (anything that is not in the list of `C32_accepted_types`, e.g. a
bool or complex array) makes `dict2dmap` raise `KeyError`. -/
theorem C31_unknown_type {ps : List PlainRec} {d : PlainRec} (hd : d ∈ ps) {p : PyStr × PlainVal} (hp : p ∈ d)
    (h : NoFormat p.2) :
    dict2dmap ps = .error .keyError := by
  have hfield : ∀ k v e, plainToField k v = .error e → e = .keyError := by
    intro k v e h
    cases v <;> simp only [plainToField] at h <;> (repeat' split at h) <;> cases h <;> rfl
  have hrecE : ∀ (d : PlainRec) e, plainToRec d = .error e → e = .keyError := by
    intro d
    induction d with
    | nil => intro e h; cases h
    | cons q d ih =>
      intro e h
      obtain ⟨k, v⟩ := q
      simp only [plainToRec] at h
      cases h1 : plainToField k v with
      | error e' => rw [h1] at h; cases h; exact hfield _ _ _ h1
      | ok f =>
        cases h2 : plainToRec d with
        | error e' => rw [h1, h2] at h; cases h; exact ih _ h2
        | ok r => rw [h1, h2] at h; cases h
  have hrec : ∀ d : PlainRec, p ∈ d → plainToRec d = .error .keyError := by
    intro d
    induction d with
    | nil => intro h; cases h
    | cons q d ih =>
      intro hm
      obtain ⟨k, v⟩ := q
      simp only [plainToRec]
      cases h1 : plainToField k v with
      | error e' => rw [hfield _ _ _ h1]; rfl
      | ok f =>
        rcases List.mem_cons.1 hm with rfl | hm
        · exfalso
          have := plainToField_inv h1
          cases v with
          | scalar ty v => obtain ⟨fm, h2, _⟩ := this; exact h ⟨fm, h2⟩
          | arr a => obtain ⟨fm, h2, _⟩ := this; exact h ⟨fm, h2⟩
        · rw [ih hm]; rfl
  induction ps with
  | nil => cases hd
  | cons d' ps ih =>
    simp only [dict2dmap]
    cases h1 : plainToRec d' with
    | error e => rw [hrecE _ _ h1]; rfl
    | ok r =>
      rcases List.mem_cons.1 hd with rfl | hd
      · rw [hrec _ hp] at h1; cases h1
      · rw [ih hd]; rfl

example : dict2dmap [samplePlain, [(py! "z", .arr ⟨.longlong, [1], [[1, 0, 0, 0, 0, 0, 0, 0]]⟩)]] = .error .keyError :=
  C31_unknown_type (d := [(py! "z", .arr ⟨.longlong, [1], [[1, 0, 0, 0, 0, 0, 0, 0]]⟩)]) (by simp)
    (List.mem_singleton.2 rfl) (by simp only [NoFormat]; rw [C32_accepted_types]; decide)

/-- The array types a reader produces that `dict2dmap` does not accept. -/
def NoLong (r : Rec) : Prop := ∀ k a, (k, Field.array a) ∈ r → a.fmt ≠ .q ∧ a.fmt ≠ .Q

/-- What a conversion to a dictionary and back keeps of a field: everything, except that a char scalar
read as 128..255 is shown as the signed number with the same byte. -/
def Kept : Field → Field → Prop
  | .scalar s, .scalar s' => s'.name = s.name ∧ s'.dataType = s.dataType ∧ s'.fmt = s.fmt ∧
      (s'.value = s.value ∨
        s.fmt = .c ∧ ∃ n : Nat, 128 ≤ n ∧ n < 256 ∧ s.value = .int n ∧ s'.value = .int (n - 256))
  | .array a, .array a' => a' = a
  | _, _ => False

theorem fieldToPlain_back (cfg : NpCfg) {mr size : Nat} {k : PyStr} {f : Field} {v : PlainVal}
    (h : fieldToPlain cfg f = .ok v)
    (hs : ∀ s, f = .scalar s → k = s.name ∧ ∃ vb, ValEnc s.fmt s.value vb ∧ s.dataType = code s.fmt)
    (ha : ∀ a, f = .array a → k = a.name ∧ a.fmt ≠ .q ∧ a.fmt ≠ .Q ∧ ∃ bs, ArrayEnc mr size presented a bs) :
    ∃ f', plainToField k v = .ok f' ∧ Kept f f' := by
  cases f with
  | other => cases h
  | array a =>
    obtain ⟨hk, hq, hQ, bs, henc⟩ := ha a rfl
    cases h
    obtain ⟨nm, val, dt, fm, dim, shp⟩ := a
    have hdt := henc.dtype
    have hn := henc.numeric
    have hcode := henc.code
    have hrank := henc.rank
    have hshape := henc.shape
    obtain ⟨vdt, vsh, vc⟩ := val
    simp only at hdt hn hcode hq hQ hk hrank hshape
    subst hk hdt hcode hrank hshape
    cases fm <;> first
      | exact absurd rfl hq
      | exact absurd rfl hQ
      | (cases hn; done)
      | exact ⟨_, rfl, rfl⟩
  | scalar s =>
    obtain ⟨hk, vb, henc, hcode⟩ := hs s rfl
    obtain ⟨nm, val, dt, fm⟩ := s
    simp only at henc hcode hk
    subst hk hcode
    have hcast : ∀ (sg : Bool) (n : Nat) (x y : Int),
        ((if sg then (-((256 ^ n : Nat) : Int) / 2) else 0) ≤ x ∧
          x < (if sg then ((256 ^ n : Nat) : Int) / 2 else ((256 ^ n : Nat) : Int))) →
        npIntCast cfg sg n x = .ok y → y = x := by
      intro sg n x y h1 h2
      rw [npIntCast_in h1] at h2
      cases h2; rfl
    simp only [fieldToPlain] at h
    cases henc with
    | str | f64 =>
      cases h
      exact ⟨_, rfl, rfl, rfl, rfl, .inl rfl⟩
    | f32 =>
      cases h
      exact ⟨_, rfl, rfl, rfl, rfl, .inl (by simp only [quiet32_idem])⟩
    | i32 =>
      cases h
      exact ⟨_, rfl, rfl, rfl, rfl, .inl rfl⟩
    | char hc =>
      simp only [castVal] at h
      cases hn : npIntCast cfg true 1 _ with
      | error e => rw [hn] at h; cases h
      | ok y =>
        rw [hn] at h; cases h
        refine ⟨_, rfl, rfl, rfl, rfl, ?_⟩
        unfold npIntCast toSigned at hn
        simp only at hn
        repeat' split at hn
        all_goals first | (cases hn; done) | skip
        · cases hn; exact .inl rfl
        all_goals
          injection hn with hn
          first
            | (refine .inl (congrArg PyVal.int ?_); omega)
            | exact .inr ⟨rfl, _, by omega, by omega, rfl, congrArg PyVal.int (by omega)⟩
    | i16 h1 h2 | i64 h1 h2 =>
      simp only [castVal] at h
      cases hn : npIntCast cfg true _ _ with
      | error e => rw [hn] at h; cases h
      | ok y =>
        have hy := hcast _ _ _ _ (by simp; omega) hn
        rw [hn] at h; cases h
        exact ⟨_, rfl, rfl, rfl, rfl, .inl (by rw [hy])⟩
    | u8 h1 | u16 h1 | u32 h1 | u64 h1 =>
      simp only [castVal] at h
      cases hn : npIntCast cfg false _ _ with
      | error e => rw [hn] at h; cases h
      | ok y =>
        have hy := hcast _ _ _ _ (by simp; omega) hn
        rw [hn] at h; cases h
        exact ⟨_, rfl, rfl, rfl, rfl, .inl (by rw [hy])⟩

/-- **C31** Converting the records a reader produced to dictionaries and back restores them (same names and
order, types, dimensions, cells and values), provided there is no 64-bit integer array. -/
theorem C31_dmap_dict_dmap_partial (cfg : NpCfg) {bs : Bytes} (hneg : ¬ NegSlist bs) {rs : List Rec}
    {ds : List PlainRec} (h : readFile cfg bs = .ok (rs, ds)) (hl : ∀ r ∈ rs, NoLong r) :
    ∃ rs', dict2dmap ds = .ok rs' ∧ Pairs (Pairs fun p q => q.1 = p.1 ∧ Kept p.2 q.2) rs rs' := by
  obtain ⟨bl, hf, rfl, hne, hds⟩ := readFile_sound hneg h
  clear hne
  have hback : ∀ b ∈ bl, ∃ size, ∀ p ∈ b.record,
      (∀ s, p.2 = .scalar s → p.1 = s.name ∧ ∃ vb, ValEnc s.fmt s.value vb ∧ s.dataType = code s.fmt) ∧
      (∀ a, p.2 = .array a → p.1 = a.name ∧ ∃ bs, ArrayEnc cfg.maxDims size presented a bs) := by
    intro b hb
    obtain ⟨bb, hbb⟩ := seqEnc_mem hf hb
    obtain ⟨sb, ab, hs, ha, _⟩ := hbb.bytes
    refine ⟨bb.length, fun p hp => ?_⟩
    have hp := Dict.mem_ofList hp
    rcases List.mem_append.1 hp with hp | hp
    · obtain ⟨s, hsm, rfl⟩ := List.mem_map.1 hp
      refine ⟨?_, (fun a ha => by cases ha)⟩
      intro s' hs'
      cases hs'
      obtain ⟨b', hb'⟩ := seqEnc_mem hs hsm
      obtain ⟨vb, hv, _⟩ := hb'.bytes
      exact ⟨rfl, vb, hv, hb'.code⟩
    · obtain ⟨a, ham, rfl⟩ := List.mem_map.1 hp
      refine ⟨(fun s hs => by cases hs), ?_⟩
      intro a' ha'
      cases ha'
      obtain ⟨b', hb'⟩ := seqEnc_mem ha ham
      exact ⟨rfl, b', hb'⟩
  clear h hf hneg
  have hrec : ∀ (size : Nat) (r : Rec) (d : PlainRec), recToPlain cfg r = .ok d → NoLong r →
      (∀ p ∈ r, (∀ s, p.2 = .scalar s → p.1 = s.name ∧ ∃ vb, ValEnc s.fmt s.value vb ∧ s.dataType = code s.fmt) ∧
        (∀ a, p.2 = .array a → p.1 = a.name ∧ ∃ bs, ArrayEnc cfg.maxDims size presented a bs)) →
      ∃ r', plainToRec d = .ok r' ∧ Pairs (fun p q => q.1 = p.1 ∧ Kept p.2 q.2) r r' := by
    intro size r
    induction r with
    | nil => intro d h _ _; cases h; exact ⟨[], rfl, .nil⟩
    | cons p r ih =>
      intro d h hn hp
      obtain ⟨k, f⟩ := p
      simp only [recToPlain] at h
      cases h1 : fieldToPlain cfg f with
      | error e => rw [h1] at h; cases h
      | ok v =>
        cases h2 : recToPlain cfg r with
        | error e => rw [h1, h2] at h; cases h
        | ok d' =>
          rw [h1, h2] at h
          cases h
          obtain ⟨hs, ha⟩ := hp (k, f) (by simp)
          obtain ⟨f', h3, h4⟩ := fieldToPlain_back cfg (mr := cfg.maxDims) (size := size) (k := k) h1 hs
            (fun a hfa => by
              obtain ⟨e1, e2⟩ := ha a hfa
              subst hfa
              exact ⟨e1, (hn k a (by simp)).1, (hn k a (by simp)).2, e2⟩)
          obtain ⟨r', h5, h6⟩ := ih d' h2 (fun k a hm => hn k a (List.mem_cons_of_mem _ hm))
            fun p hm => hp p (List.mem_cons_of_mem _ hm)
          refine ⟨(k, f') :: r', ?_, .cons ⟨rfl, h4⟩ h6⟩
          simp only [plainToRec]; rw [h3, h5]; rfl
  induction bl generalizing ds with
  | nil => cases hds; exact ⟨[], rfl, .nil⟩
  | cons b bl ih =>
    simp only [List.map_cons, dmap2dict] at hds
    cases h1 : recToPlain cfg b.record with
    | error e => rw [h1] at hds; cases hds
    | ok d =>
      cases h2 : dmap2dict cfg (bl.map Block.record) with
      | error e => rw [h1, h2] at hds; cases hds
      | ok ds' =>
        rw [h1, h2] at hds
        cases hds
        obtain ⟨size, hsz⟩ := hback b (by simp)
        obtain ⟨r', h3, h4⟩ := hrec size _ _ h1 (hl _ (by simp)) hsz
        obtain ⟨rs', h5, h6⟩ := ih (fun r hr => hl r (List.mem_cons_of_mem _ hr)) h2
          (fun b hb => hback b (List.mem_cons_of_mem _ hb))
        refine ⟨r' :: rs', ?_, .cons h4 h6⟩
        simp only [dict2dmap]; rw [h3, h5]; rfl

example : ∃ rs ds, readFile numpy2 Sample.bytes2 = .ok (rs, ds) ∧ ¬ NegSlist Sample.bytes2 ∧ (∀ r ∈ rs, NoLong r) ∧ rs ≠ [] := by
  refine ⟨[Sample.record2], [Sample.record2].map plainRec, by decide +kernel,
    Sample.not_negSlist (by decide +kernel), ?_, by decide⟩
  intro r hr k a hm
  rw [List.mem_singleton.1 hr] at hm
  simp only [Sample.record2, fieldsOf, List.map_cons, List.map_nil, List.mem_append, List.mem_singleton,
    Prod.mk.injEq, Field.array.injEq, reduceCtorEq, and_false, false_or] at hm
  rw [hm.2]
  decide

/-- **C31 fails** for 64-bit integer arrays: the reader presents them with the NumPy types `longlong` and
`ulonglong`, which have no entry in `FORMAT_CONVERSION`, so converting back raises `KeyError`. -/
theorem C31_long_violation (cfg : NpCfg) {bs : Bytes} (hneg : ¬ NegSlist bs) {rs : List Rec}
    {ds : List PlainRec} (h : readFile cfg bs = .ok (rs, ds)) {r : Rec} (hr : r ∈ rs) {k : PyStr} {a : DmapArray}
    (ha : (k, Field.array a) ∈ r) (hq : a.fmt = .q ∨ a.fmt = .Q) : dict2dmap ds = .error .keyError := by
  obtain ⟨bl, hf, rfl, _, hds⟩ := readFile_sound hneg h
  obtain ⟨b, hb, rfl⟩ := List.mem_map.1 hr
  have hdt : a.value.dtype = presented a.fmt := by
    obtain ⟨bb, hbb⟩ := seqEnc_mem hf hb
    obtain ⟨sb, ab, _, hab, _⟩ := hbb.bytes
    rcases List.mem_append.1 (Dict.mem_ofList ha) with hp | hp
    · obtain ⟨s, _, hs⟩ := List.mem_map.1 hp; cases hs
    · obtain ⟨a', ham, ha'⟩ := List.mem_map.1 hp
      cases ha'
      obtain ⟨b', hb'⟩ := seqEnc_mem hab ham
      exact hb'.dtype
  have hrec : ∀ (r : Rec) (d : PlainRec), recToPlain cfg r = .ok d → (k, Field.array a) ∈ r →
      (k, PlainVal.arr a.value) ∈ d := by
    intro r
    induction r with
    | nil => intro d _ h; cases h
    | cons p r ih =>
      intro d h hm
      obtain ⟨k', f⟩ := p
      simp only [recToPlain] at h
      cases h1 : fieldToPlain cfg f with
      | error e => rw [h1] at h; cases h
      | ok v =>
        cases h2 : recToPlain cfg r with
        | error e => rw [h1, h2] at h; cases h
        | ok d' =>
          rw [h1, h2] at h
          cases h
          rcases List.mem_cons.1 hm with hm | hm
          · cases hm; cases h1; exact List.mem_cons_self ..
          · exact List.mem_cons_of_mem _ (ih _ h2 hm)
  have hlist : ∀ (rs : List Rec) (ds : List PlainRec), dmap2dict cfg rs = .ok ds → b.record ∈ rs →
      ∃ d ∈ ds, recToPlain cfg b.record = .ok d := by
    intro rs
    induction rs with
    | nil => intro ds _ h; cases h
    | cons r rs ih =>
      intro ds h hm
      simp only [dmap2dict] at h
      cases h1 : recToPlain cfg r with
      | error e => rw [h1] at h; cases h
      | ok d =>
        cases h2 : dmap2dict cfg rs with
        | error e => rw [h1, h2] at h; cases h
        | ok ds' =>
          rw [h1, h2] at h
          cases h
          rcases List.mem_cons.1 hm with hm | hm
          · exact ⟨d, by simp, by rw [hm]; exact h1⟩
          · obtain ⟨d', hd', e⟩ := ih _ h2 hm
            exact ⟨d', List.mem_cons_of_mem _ hd', e⟩
  obtain ⟨d, hd, hdr⟩ := hlist _ _ hds hr
  refine C31_unknown_type hd (hrec _ _ hdr ha) ?_
  simp only [NoFormat]
  rw [C32_accepted_types, hdt]
  rcases hq with hq | hq <;> rw [hq] <;> decide

/-- The sample record has a 64-bit array: written, read back and converted it raises `KeyError`. -/
example : (match writeThenRead numpy2 [Sample.record] with
    | .ok (_, ds) => dict2dmap ds | .error e => .error e) = .error .keyError := by decide +kernel

/-! ## C33 -/

/-- A scalar value as it is stored: the single-precision types are rounded to single precision (large numbers become
infinite), signalling NaNs become quiet. -/
def storedVal : PyTy → PyVal → PyVal
  | .float, .f64 b => .f32 (f64ToF32 b)
  | .np .float32, .f64 b => .f32 (f64ToF32 b)
  | .float, .f32 b => .f32 (quiet32 b)
  | .np .float32, .f32 b => .f32 (quiet32 b)
  | .np .float64, .f32 b => .f64 (f32ToF64 b)
  | _, v => v

/-- The array type shown by a reader: 64-bit integers come back under their C name. -/
def shownDtype : DType → DType
  | .int64 => .longlong
  | .uint64 => .ulonglong
  | d => d

/-- A plain value after writing and reading. -/
def shownPlain : PlainVal → PlainVal
  | .scalar ty v => .scalar (castTy ty) (storedVal ty v)
  | .arr a => .arr { a with dtype := shownDtype a.dtype }

/-- The field with its value as it is stored. -/
def storedField : Field → Field
  | .scalar s => .scalar { s with value := storedVal (shownTy s.fmt) s.value }
  | f => f

/-- The record with its values as they are stored. -/
def storedRec (r : Rec) : Rec := r.map fun p => (p.1, storedField p.2)

/-- The caller's list of plain dictionaries. -/
def plainInput (ps : List PlainRec) : WInput := ⟨true, ps.map fun d => d.map fun p => (p.1, .plain p.2)⟩

/-- `DmapRead(DmapWrite(ps).write_dmap_stream(), True).read_records()` for plain dictionaries. -/
def writePlainThenRead (cfg : NpCfg) (ps : List PlainRec) : Except Err (List PlainRec) :=
  match Writer.new (plainInput ps) [] with
  | .error e => .error e
  | .ok w =>
    match (w.writeStream noRecords).1 with
    | .error e => .error e
    | .ok bs =>
      match readFile cfg bs with
      | .error e => .error e
      | .ok (_, ds) => .ok ds

theorem scalarValueBytes_stored (rn : Nat) (s : DmapScalar) :
    scalarValueBytes rn { s with value := storedVal (shownTy s.fmt) s.value } = scalarValueBytes rn s := by
  obtain ⟨nm, v, dt, fm⟩ := s
  have hf : ∀ b, scalarValueBytes rn ⟨nm, storedVal .float (.f64 b), dt, .f⟩ =
      scalarValueBytes rn ⟨nm, .f64 b, dt, .f⟩ := by
    intro b
    simp only [storedVal, scalarValueBytes, quiet32_of_not (f64ToF32_not b)]
  have hg : ∀ b, scalarValueBytes rn ⟨nm, storedVal .float (.f32 b), dt, .f⟩ =
      scalarValueBytes rn ⟨nm, .f32 b, dt, .f⟩ := by
    intro b
    simp only [storedVal, scalarValueBytes, quiet32_idem]
  cases fm <;> cases v
  case f.f32 => exact hg _
  case f.f64 => exact hf _
  all_goals rfl

theorem scalarToBytes_stored (rn : Nat) (s : DmapScalar) :
    scalarToBytes rn { s with value := storedVal (shownTy s.fmt) s.value } = scalarToBytes rn s := by
  simp only [scalarToBytes]
  rw [scalarValueBytes_stored]

theorem encodeFields_stored (rn : Nat) (r : Rec) :
    encodeFields rn (storedRec r) = ((encodeFields rn r).1, storedRec (encodeFields rn r).2) := by
  induction r with
  | nil => rfl
  | cons p r ih =>
    obtain ⟨k, f⟩ := p
    have e : storedRec ((k, f) :: r) = (k, storedField f) :: storedRec r := rfl
    rw [e]
    cases f with
    | other => rfl
    | scalar s =>
      simp only [storedField, encodeFields]
      rw [scalarToBytes_stored, ih]
      cases scalarToBytes rn s with
      | error e => rfl
      | ok bs =>
        rcases encodeFields rn r with ⟨_ | _, _⟩ <;> rfl
    | array a =>
      simp only [storedField, encodeFields]
      rw [ih]
      rcases arrayToBytes rn a with ⟨_ | _, _⟩
      · rfl
      · rcases encodeFields rn r with ⟨_ | _, _⟩ <;> rfl

theorem recordToBytes_stored (rn : Nat) (buf : Bytes) (r : Rec) :
    recordToBytes rn buf (storedRec r) =
      ((recordToBytes rn buf r).1, (recordToBytes rn buf r).2.1, storedRec (recordToBytes rn buf r).2.2) := by
  unfold recordToBytes
  rw [encodeFields_stored]
  rcases encodeFields rn r with ⟨_ | enc, _⟩
  · rfl
  · simp only
    rcases appendInts buf _ with ⟨_ | _, _⟩ <;> rfl

theorem recordsToBytes_stored (k rn : Nat) (buf : Bytes) (rs : List Rec) :
    recordsToBytes k rn buf (rs.map storedRec) =
      ((recordsToBytes k rn buf rs).1, (recordsToBytes k rn buf rs).2.1, (recordsToBytes k rn buf rs).2.2.1,
        (recordsToBytes k rn buf rs).2.2.2.map storedRec) := by
  induction rs generalizing k rn buf with
  | nil => rfl
  | cons r rs ih =>
    simp only [List.map_cons, recordsToBytes]
    rw [recordToBytes_stored]
    rcases recordToBytes k buf r with ⟨_ | _, b, r'⟩
    · rfl
    · simp only
      rw [ih]
      rcases recordsToBytes (k + 1) k b rs with ⟨_ | _, _, _, _⟩ <;> rfl

theorem writeStream_stored (rs : List Rec) :
    (Writer.writeStream ⟨[], true, rs.map storedRec, [], 0⟩ noRecords).1 =
      (Writer.writeStream ⟨[], true, rs, [], 0⟩ noRecords).1 := by
  cases rs with
  | nil => rfl
  | cons r rs =>
    simp only [Writer.writeStream, Writer.isEmptyList, List.map_cons, List.isEmpty_cons, Bool.and_false,
      Bool.false_eq_true, if_false, Writer.emptyRecordCheck, Writer.recordsToBytes]
    rw [← List.map_cons, recordsToBytes_stored]
    rcases recordsToBytes 0 0 [] (r :: rs) with ⟨_ | _, _, _, _⟩ <;> rfl

theorem asPlainRecs_plainInput (ps : List PlainRec) :
    asPlainRecs (ps.map fun d => d.map fun p => (p.1, InVal.plain p.2)) = .ok ps := by
  have hrec : ∀ d : PlainRec, asPlainRec (d.map fun p => (p.1, InVal.plain p.2)) = .ok d := by
    intro d
    induction d with
    | nil => rfl
    | cons p d ih => simp only [List.map_cons, asPlainRec]; rw [ih]; rfl
  induction ps with
  | nil => rfl
  | cons d ps ih => simp only [List.map_cons, asPlainRecs]; rw [hrec, ih]; rfl

theorem plainToRec_shown {d : PlainRec} {r : Rec} (h : plainToRec d = .ok r) :
    plainRec (storedRec r) = d.map fun p => (p.1, shownPlain p.2) := by
  induction d generalizing r with
  | nil => cases h; rfl
  | cons p d ih =>
    obtain ⟨k, v⟩ := p
    simp only [plainToRec] at h
    cases h1 : plainToField k v with
    | error e => rw [h1] at h; cases h
    | ok f =>
      cases h2 : plainToRec d with
      | error e => rw [h1, h2] at h; cases h
      | ok r' =>
        rw [h1, h2] at h
        cases h
        have hi := plainToField_inv h1
        have := ih h2
        simp only [plainRec, storedRec, List.map_cons, List.cons.injEq, Prod.mk.injEq, true_and]
        refine ⟨?_, this⟩
        cases v with
        | scalar ty v =>
          obtain ⟨fm, hf, rfl⟩ := hi
          cases hf <;> first | rfl | (cases v <;> rfl)
        | arr a =>
          obtain ⟨fm, hf, rfl⟩ := hi
          obtain ⟨dt, sh, cs⟩ := a
          simp only at hf
          generalize hty : PyTy.np dt = ty at hf
          cases hf <;> cases hty <;> rfl

theorem dict2dmap_shown {ps : List PlainRec} {rs : List Rec} (h : dict2dmap ps = .ok rs) :
    (rs.map storedRec).map plainRec = ps.map fun d => d.map fun p => (p.1, shownPlain p.2) := by
  induction ps generalizing rs with
  | nil => cases h; rfl
  | cons d ps ih =>
    simp only [dict2dmap] at h
    cases h1 : plainToRec d with
    | error e => rw [h1] at h; cases h
    | ok r =>
      cases h2 : dict2dmap ps with
      | error e => rw [h1, h2] at h; cases h
      | ok rs' =>
        rw [h1, h2] at h
        cases h
        simp only [List.map_cons, plainToRec_shown h1, ih h2]

/-- **C33** Writing plain dictionaries with DMAP types and reading the bytes back gives the same names in the
same order with the same values, shown with the documented types; single-precision values are rounded
to single precision (`storedVal`) and 64-bit arrays are shown under their C type names.  Proved for records
whose stored form is encodable; without it the exceptions of C13 to C15 apply. -/
theorem C33_plain_roundtrip_partial (cfg : NpCfg) {ps : List PlainRec} (hne : ps ≠ []) {rs : List Rec}
    (h : dict2dmap ps = .ok rs) (he : ∀ r ∈ rs, Encodable cfg.maxDims (storedRec r)) :
    writePlainThenRead cfg ps = .ok (ps.map fun d => d.map fun p => (p.1, shownPlain p.2)) := by
  have hnew : Writer.new (plainInput ps) [] = .ok ⟨[], true, rs, [], 0⟩ := by
    cases ps with
    | nil => exact absurd rfl hne
    | cons d ps =>
      have hd : d ≠ [] := by
        rintro rfl
        simp only [dict2dmap, plainToRec] at h
        cases h2 : dict2dmap ps with
        | error e => rw [h2] at h; cases h
        | ok rs' =>
          rw [h2] at h
          cases h
          obtain ⟨ss, as, h3, h4, _⟩ := he [] (List.mem_cons_self ..)
          cases ss with
          | nil => exact h4 rfl
          | cons s ss => cases h3
      obtain ⟨q, d', rfl⟩ := List.exists_cons_of_ne_nil hd
      have hp := asPlainRecs_plainInput ((q :: d') :: ps)
      simp only [plainInput, Writer.new, checkDmapDict, List.map_cons] at hp ⊢
      rw [hp]
      simp only [bind, Except.bind]
      rw [h]
      rfl
  have hrs : rs ≠ [] := by
    rintro rfl
    have := dict2dmap_shown h
    simp at this
    exact hne this
  have he' : ∀ r ∈ rs.map storedRec, Encodable cfg.maxDims r := by
    intro r hr
    obtain ⟨r0, h0, rfl⟩ := List.mem_map.1 hr
    exact he r0 h0
  obtain ⟨bs, h1, h2⟩ := writeBytes_ok (recs := rs.map storedRec) (by simpa using hrs) he'
  have h3 := readFile_written (recs := rs.map storedRec) (by simpa using hrs) he' h2
  unfold writeBytes at h1
  rw [writerNew_dmapInput] at h1
  simp only at h1
  rw [writeStream_stored] at h1
  unfold writePlainThenRead
  rw [hnew]
  simp only
  rw [h1]
  simp only
  rw [h3, dict2dmap_shown h]

/-- 0.1 (a Python float) is written in single precision; the 64-bit array comes back as `longlong`. -/
example : writePlainThenRead numpy2 [samplePlain0] = .ok
    [[(py! "a", .scalar .int (.int (-5))), (py! "d", .scalar .float (.f32 0x3DCCCCCD#32)),
      (py! "e", .arr ⟨.longlong, [1], [[1, 0, 0, 0, 0, 0, 0, 0]]⟩)]] := by
  refine C33_plain_roundtrip_partial numpy2 (by decide) (rs := _) rfl ?_
  intro r hr
  rw [List.mem_singleton.1 hr]
  refine ⟨[⟨py! "a", .int (-5), 3, .i⟩, ⟨py! "d", .f32 0x3DCCCCCD#32, 4, .f⟩],
    [⟨py! "e", ⟨.int64, [1], [[1, 0, 0, 0, 0, 0, 0, 0]]⟩, 10, .q, 1, [1]⟩], by decide +kernel, by decide, by decide,
    by decide, ?_, ?_, by decide⟩
  · intro s hs
    simp only [List.mem_cons, List.not_mem_nil, or_false] at hs
    rcases hs with rfl | rfl
    · exact ⟨⟨by decide, by decide⟩, rfl, .i32 (by decide) (by decide)⟩
    · exact ⟨⟨by decide, by decide⟩, rfl, .f32 (by decide)⟩
  · intro a ha
    rw [List.mem_singleton.1 ha]
    exact ⟨⟨by decide, by decide⟩, rfl, rfl, rfl, by decide, by decide, rfl, .inl (by decide),
        by decide, by decide, nofun, by decide, by decide⟩

end Verif
