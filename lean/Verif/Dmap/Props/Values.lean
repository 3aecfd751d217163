import Verif.Dmap.Lemmas.Double
import Verif.Dmap.Props.Stream
import Verif.Dmap.Props.Texts
import Verif.Dmap.Props.Text
/-!
# C73: integers given for scalars
-/
namespace Verif
open Spec Ieee Bor

/-- The digits of an integer, with a sign if it is negative. -/
def numeral (v : Int) : PyStr := if v < 0 then '-' :: digitsOf v.natAbs else digitsOf v.natAbs

theorem decText_int (v : Int) : decText v = numeral v := by
  cases v with
  | ofNat n =>
    have : ¬ (Int.ofNat n < 0) := by simp
    rw [numeral, if_neg this]
    exact decText_nat n
  | negSucc n =>
    rw [numeral, if_pos (Int.negSucc_lt_zero n)]
    exact congrArg ('-' :: ·) (decText_nat (n + 1))

/-- The field as it is stored: an integer written with the format of a text becomes its digits, one written as a double the
nearest one, one written as a float the nearest to that one. -/
inductive StoredAs : Field → Field → Prop
  | text {s : DmapScalar} {v : Int} (hf : s.fmt = .s) (hv : s.value = .int v) :
    StoredAs (.scalar s) (.scalar { s with value := .str (numeral v) })
  | single {s : DmapScalar} {v : Int} {b : BitVec 64} {y : Rat} {c : BitVec 32} (hf : s.fmt = .f) (hv : s.value = .int v)
    (hb : Nearest64 v b) (hy : IsF64 b y) (hc : InRange32 y → Nearest32 y c)
    (hi : ¬ InRange32 y → c = if 0 < v then 0x7F800000#32 else 0xFF800000#32)
    (h1 : v.natAbs < 2 ^ 53 → Nearest32 v c) (h0 : v.natAbs < 2 ^ 24 → IsF32 c v) :
    StoredAs (.scalar s) (.scalar { s with value := .f32 c })
  | double {s : DmapScalar} {v : Int} {b : BitVec 64} (hf : s.fmt = .d) (hv : s.value = .int v) (hb : Nearest64 v b)
    (h0 : v.natAbs < 2 ^ 53 → IsF64 b v) : StoredAs (.scalar s) (.scalar { s with value := .f64 b })
  | same {f : Field} (h : ∀ s v, f = .scalar s → s.value = .int v → s.fmt ≠ .s ∧ (s.fmt = .f ∨ s.fmt = .d → ¬ InRange64 v)) :
    StoredAs f f

theorem ofRat_small {f : Ieee.Fmt} (v : Int) (h : v.natAbs < 2 ^ (f.mant + 1)) (h1 : f.mant ≤ f.unit) (h2 : f.unit + 2 < f.top) :
    ∃ m, f.ofRat (v : Rat) = .num (decide (v < 0)) m ∧ m < f.top * 2 ^ f.mant ∧ signed (decide (v < 0)) (f.abs m) = (v : Rat) := by
  obtain ⟨b, g1, g2, -⟩ := ofAbs_rep (f := f) (m := v.natAbs) (j := 0) (k := f.mant + 1) (Nat.zero_le _) h (Nat.le_of_lt h) h1
    (by omega) (decide (v < 0))
  have hz : (v.natAbs : Rat) / 2 ^ 0 = v.natAbs := by grind
  rw [hz] at g1 g2
  have hb : b < f.top * 2 ^ f.mant := by
    unfold Fmt.ofAbs at g1
    dsimp only at g1
    split at g1
    · next hlt => cases g1; exact hlt
    · cases g1
  refine ⟨b, ?_, hb, ?_⟩
  · rw [← g1]
    unfold Fmt.ofRat
    by_cases hv : v < 0
    · have hr : (v : Rat) < 0 := Rat.intCast_lt_intCast.2 hv
      rw [if_pos hr, decide_eq_true hv]
      congr 1
      rw [← Rat.intCast_neg, ← Rat.intCast_natCast]
      congr 1
      omega
    · have hr : ¬ (v : Rat) < 0 := fun h => hv (Rat.intCast_lt_intCast.1 h)
      rw [if_neg hr, decide_eq_false hv]
      congr 1
      rw [← Rat.intCast_natCast]
      congr 1
      omega
  · rw [g2, ← Rat.intCast_natCast]
    by_cases hv : v < 0
    · rw [decide_eq_true hv]
      simp only [signed, if_true]
      rw [← Rat.intCast_neg]
      congr 1
      omega
    · rw [decide_eq_false hv]
      simp only [signed, Bool.false_eq_true, if_false]
      congr 1
      omega

theorem intToF64_small {v : Int} (h : v.natAbs < 2 ^ 53) : ∃ b, intToF64 v = some b ∧ IsF64 b v := by
  obtain ⟨m, h1, h2, h3⟩ := ofRat_small (f := b64) v h (by decide) (by decide)
  refine ⟨_, by unfold intToF64; rw [h1], ?_⟩
  rw [isF64_iff, BitVec.toNat_ofNat, Nat.mod_eq_of_lt, ofBits_bits h2]
  · show some _ = some _
    rw [h3]
  · have : m < 2047 * 2 ^ 52 := h2
    simp only [Fmt.bits, b64]
    split <;> omega

/-- Small integers are float32 numbers. -/
theorem isF32_small {v : Int} (h : v.natAbs < 2 ^ 24) : ∃ b, IsF32 b v := by
  obtain ⟨m, -, h2, h3⟩ := ofRat_small (f := b32) v h (by decide) (by decide)
  refine ⟨BitVec.ofNat 32 (b32.bits (.num (decide (v < 0)) m)), ?_⟩
  rw [isF32_iff, BitVec.toNat_ofNat, Nat.mod_eq_of_lt, ofBits_bits h2]
  · show some _ = some _
    rw [h3]
  · have : m < 255 * 2 ^ 23 := h2
    simp only [Fmt.bits, b32]
    split <;> omega

theorem nearest_small {v : Int} (h : v.natAbs < 2 ^ 24) {c : BitVec 32} (hc : Nearest32 v c) : IsF32 c v := by
  obtain ⟨b, hb⟩ := isF32_small h
  obtain ⟨y, hy, hn⟩ := hc
  have := (hn b v hb).1
  rw [Rat.sub_self] at this
  have e : y = (v : Rat) := by
    unfold Rat.abs at this
    split at this <;> grind
  rw [← e]
  exact hy

theorem inRange_small {v : Int} (h : v.natAbs < 2 ^ 53) : InRange32 v := by
  have h1 : (v : Rat) < ((2 ^ 53 : Int) : Rat) := Rat.intCast_lt_intCast.2 (by omega)
  have h2 : ((-2 ^ 53 : Int) : Rat) < (v : Rat) := Rat.intCast_lt_intCast.2 (by omega)
  have e1 : ((2 ^ 53 : Int) : Rat) < 2 ^ 128 - 2 ^ 103 := by decide +kernel
  have e2 : ((-2 ^ 53 : Int) : Rat) = -((2 ^ 53 : Int) : Rat) := by decide +kernel
  rw [e2] at h2
  unfold InRange32
  generalize ((2 ^ 53 : Int) : Rat) = a at *
  generalize (2 ^ 128 - 2 ^ 103 : Rat) = b at *
  unfold Rat.abs
  split <;> grind

/-- What is nearest to a number and not zero has its sign. -/
theorem sign_of_nearest {v : Int} {b : BitVec 64} {y : Rat} (h : Nearest64 v b) (hy : IsF64 b y) (hr : ¬ InRange32 y) :
    0 < y ↔ 0 < v := by
  obtain ⟨z, hz, hn⟩ := h
  have e := (isF64_iff _ _).1 hz
  rw [(isF64_iff _ _).1 hy] at e
  cases e
  have h0 := (hn 0#64 0 ⟨by unfold f64Finite; decide +kernel, by decide +kernel⟩).1
  have hy0 : y ≠ 0 := by
    rintro rfl
    exact hr (by unfold InRange32; decide +kernel)
  have hv : 0 < v ↔ (0 : Rat) < v := ⟨fun h => Rat.intCast_lt_intCast.2 h, fun h => Rat.intCast_lt_intCast.1 h⟩
  rw [hv]
  unfold Rat.abs at h0
  split at h0 <;> split at h0 <;> grind

/-- Every scalar is stored as some field, and gives the same bytes. -/
theorem stored_exists (f : Field) : ∃ g, StoredAs f g ∧ (∀ s, f = .scalar s → ∃ t, g = .scalar t ∧
    ∀ rn, scalarToBytes rn t = scalarToBytes rn s) ∧ ((∀ s, f ≠ .scalar s) → g = f) := by
  cases f with
  | array a => exact ⟨_, .same nofun, nofun, fun _ => rfl⟩
  | other => exact ⟨_, .same nofun, nofun, fun _ => rfl⟩
  | scalar s =>
    obtain ⟨nm, val, dt, fm⟩ := s
    have same : (∀ v, val = .int v → fm ≠ .s ∧ (fm = .f ∨ fm = .d → ¬ InRange64 v)) →
        ∃ g, StoredAs (.scalar ⟨nm, val, dt, fm⟩) g ∧ (∀ s, Field.scalar ⟨nm, val, dt, fm⟩ = .scalar s → ∃ t, g = .scalar t ∧
          ∀ rn, scalarToBytes rn t = scalarToBytes rn s) ∧ ((∀ s, Field.scalar ⟨nm, val, dt, fm⟩ ≠ .scalar s) → g = .scalar ⟨nm, val, dt, fm⟩) := by
      intro h
      refine ⟨_, .same ?_, fun s e => ⟨s, e, fun _ => rfl⟩, fun _ => rfl⟩
      intro s v e hv
      cases e
      exact h v hv
    have diff : ∀ val', StoredAs (.scalar ⟨nm, val, dt, fm⟩) (.scalar ⟨nm, val', dt, fm⟩) →
        (∀ rn, scalarValueBytes rn ⟨nm, val', dt, fm⟩ = scalarValueBytes rn ⟨nm, val, dt, fm⟩) →
        ∃ g, StoredAs (.scalar ⟨nm, val, dt, fm⟩) g ∧ (∀ s, Field.scalar ⟨nm, val, dt, fm⟩ = .scalar s → ∃ t, g = .scalar t ∧
          ∀ rn, scalarToBytes rn t = scalarToBytes rn s) ∧ ((∀ s, Field.scalar ⟨nm, val, dt, fm⟩ ≠ .scalar s) → g = .scalar ⟨nm, val, dt, fm⟩) := by
      intro val' hs hb
      refine ⟨_, hs, ?_, fun h => absurd rfl (h _)⟩
      intro s e
      cases e
      refine ⟨_, rfl, fun rn => ?_⟩
      simp only [scalarToBytes]
      rw [hb]
    cases val with
    | f32 b => exact same nofun
    | f64 b => exact same nofun
    | str t => exact same nofun
    | int v =>
      by_cases hs : fm = .s
      · subst hs
        refine diff (.str (numeral v)) (StoredAs.text (s := ⟨nm, .int v, dt, .s⟩) rfl rfl) fun rn => ?_
        simp only [scalarValueBytes, decText_int]
      · by_cases hb : InRange64 v
        · obtain ⟨b, h1, h2⟩ := intToF64_nearest hb
          have h3 : v.natAbs < 2 ^ 53 → IsF64 b v := by
            intro h
            obtain ⟨b', e1, e2⟩ := intToF64_small h
            rw [h1] at e1
            cases e1
            exact e2
          obtain ⟨y, hy, hn⟩ := h2
          by_cases hf : fm = .f
          · subst hf
            have hnan := isF64_not_nan hy
            have n1 : InRange32 y → Nearest32 y (f64ToF32 b) := by
              intro h
              rw [f64ToF32_ieee b hnan]
              exact narrowOf_eq hy h
            have n2 : v.natAbs < 2 ^ 53 → Nearest32 v (f64ToF32 b) := by
              intro h
              rw [f64ToF32_ieee b hnan]
              exact narrowOf_eq (h3 h) (inRange_small h)
            refine diff (.f32 (f64ToF32 b)) (StoredAs.single (s := ⟨nm, .int v, dt, .f⟩) rfl rfl ⟨y, hy, hn⟩ hy n1 ?_ n2
              fun h0 => nearest_small h0 (n2 (by omega))) fun rn => ?_
            · intro h
              rw [f64ToF32_infinite hy h]
              have := sign_of_nearest ⟨y, hy, hn⟩ hy h
              simp only [this]
            · simp only [scalarValueBytes, h1, quiet32_of_not (f64ToF32_not b)]
          · by_cases hd : fm = .d
            · subst hd
              refine diff (.f64 b) (StoredAs.double (s := ⟨nm, .int v, dt, .d⟩) rfl rfl ⟨y, hy, hn⟩ h3) fun rn => ?_
              simp only [scalarValueBytes, h1]
            · refine same fun w _ => ⟨hs, ?_⟩
              rintro (rfl | rfl)
              · exact absurd rfl hf
              · exact absurd rfl hd
        · refine same fun w e => ?_
          cases e
          exact ⟨hs, fun _ => hb⟩

theorem written_same {rn : Nat} {r : Rec} : ∃ r', Pairs (fun p q => q.1 = p.1 ∧ StoredAs p.2 q.2) r r' ∧
    (∀ data, Written rn r' data → Written rn r data) ∧ (scalarsOf r').length = (scalarsOf r).length ∧
      arraysOf r' = arraysOf r := by
  induction r with
  | nil => exact ⟨[], .nil, fun _ h => h, rfl, rfl⟩
  | cons p r ih =>
    obtain ⟨k, f⟩ := p
    obtain ⟨r', h1, h2, h3, h4⟩ := ih
    obtain ⟨g, g1, g2, g3⟩ := stored_exists f
    refine ⟨(k, g) :: r', .cons ⟨rfl, g1⟩ h1, ?_, ?_⟩
    · intro data hw
      cases f with
      | other => rw [g3 nofun] at hw; cases hw
      | array a =>
        rw [g3 nofun] at hw
        cases hw with
        | array e1 e2 => exact .array e1 (h2 _ e2)
      | scalar s =>
        obtain ⟨t, rfl, ht⟩ := g2 s rfl
        cases hw with
        | scalar e1 e2 => exact .scalar (by rw [← ht]; exact e1) (h2 _ e2)
    · cases f with
      | other => rw [g3 nofun]; exact ⟨h3, h4⟩
      | array a =>
        rw [g3 nofun]
        exact ⟨h3, congrArg (a :: ·) h4⟩
      | scalar s =>
        obtain ⟨t, rfl, ht⟩ := g2 s rfl
        exact ⟨congrArg (· + 1) h3, h4⟩

theorem blockBytes_same {r r' : Rec} {data : Bytes} (h1 : (scalarsOf r').length = (scalarsOf r).length)
    (h2 : arraysOf r' = arraysOf r) : blockBytes r' data = blockBytes r data := by
  unfold blockBytes
  rw [h1, h2]

theorem writtenList_same {k : Nat} {recs : List Rec} :
    ∃ recs', Pairs (Pairs fun p q => q.1 = p.1 ∧ StoredAs p.2 q.2) recs recs' ∧
      ∀ bs, WrittenList k recs' bs → WrittenList k recs bs := by
  induction recs generalizing k with
  | nil => exact ⟨[], .nil, fun _ h => h⟩
  | cons r recs ih =>
    obtain ⟨r', h1, h2, h3, h4⟩ := written_same (rn := k) (r := r)
    obtain ⟨recs', g1, g2⟩ := ih (k := k + 1)
    refine ⟨r' :: recs', .cons h1 g1, ?_⟩
    intro bs hw
    cases hw with
    | cons e1 e2 e3 e4 e5 =>
      rw [blockBytes_same h3 h4]
      exact .cons (h2 _ e1) e2 (by rw [← h3]; exact e3) (by rw [← h4]; exact e4) (g2 _ e5)

/-- **C73** Integers given for scalars of other types are written, without an exception, as the stored fields: reading gives
those.  Floating point fields hold the nearest number, which is the integer itself below 2^24 or 2^53; text fields hold the
digits.  Partial: what is read is not always the integer (see the violation), and for records whose stored form is not
encodable nothing is said. -/
theorem C73_numbers_partial (cfg : NpCfg) {recs : List Rec} (hne : recs ≠ []) :
    ∃ recs', Pairs (Pairs fun p q => q.1 = p.1 ∧ StoredAs p.2 q.2) recs recs' ∧
      ((∀ r ∈ recs', Encodable cfg.maxDims r) →
        writeThenRead cfg recs = .ok (recs'.map presentRec, recs'.map plainRec)) := by
  obtain ⟨recs', h1, h2⟩ := writtenList_same (k := 0) (recs := recs)
  refine ⟨recs', h1, fun he => ?_⟩
  have hne' : recs' ≠ [] := by
    rintro rfl
    cases h1
    exact hne rfl
  have := C01_roundtrip cfg hne' he
  obtain ⟨bs, hb, -⟩ := writeBytes_ok hne' he
  have hw := writeBytes_iff.2 ⟨hne, h2 _ (writeBytes_iff.1 hb).2⟩
  unfold writeThenRead at this ⊢
  rw [hb] at this
  rw [hw]
  exact this

/-- Record of the example: an integer for each of the three types and an array. -/
def mistyped : Rec := [(py! "a", .scalar ⟨py! "a", .int 16777217, 4, .f⟩), (py! "b", .scalar ⟨py! "b", .int (-7), 9, .s⟩),
  (py! "c", .scalar ⟨py! "c", .int 16777217, 8, .d⟩), (py! "e", .array ⟨py! "e", ⟨.int16, [1], [[1, 0]]⟩, 2, .h, 1, [1]⟩)]

/-- The same as it is stored. -/
def mistypedStored : Rec := [(py! "a", .scalar ⟨py! "a", .f32 0x4B800000#32, 4, .f⟩),
      (py! "b", .scalar ⟨py! "b", .str (py! "-7"), 9, .s⟩), (py! "c", .scalar ⟨py! "c", .f64 0x4170000010000000#64, 8, .d⟩),
      (py! "e", .array ⟨py! "e", ⟨.int16, [1], [[1, 0]]⟩, 2, .h, 1, [1]⟩)]

example := C73_numbers_partial numpy2 (recs := [mistyped]) (by simp)

/-- **C73** violated: 2^24 + 1 written as a float is read as 2^24, and -7 written as a text is read as the text "-7". -/
theorem C73_violation (cfg : NpCfg) (hcfg : 1 ≤ cfg.maxDims) : ∃ r, writeThenRead cfg [mistyped] =
    .ok ([r], [[(py! "a", .scalar .float (.f32 0x4B800000#32)), (py! "b", .scalar .str (.str (py! "-7"))),
      (py! "c", .scalar (.np .float64) (.f64 0x4170000010000000#64)), (py! "e", .arr ⟨.int16, [1], [[1, 0]]⟩)]]) ∧
    IsF32 0x4B800000#32 16777216 ∧ IsF64 0x4170000010000000#64 16777217 := by
  have hs : Encodable cfg.maxDims mistypedStored := by
    refine ⟨[⟨py! "a", .f32 0x4B800000#32, 4, .f⟩, ⟨py! "b", .str (py! "-7"), 9, .s⟩, ⟨py! "c", .f64 0x4170000010000000#64, 8, .d⟩],
      [⟨py! "e", ⟨.int16, [1], [[1, 0]]⟩, 2, .h, 1, [1]⟩], rfl, by simp, by simp, by decide, ?_, ?_, by decide⟩
    · intro s hs
      simp only [List.mem_cons, List.not_mem_nil, or_false] at hs
      rcases hs with rfl | rfl | rfl
      · exact ⟨(⟨by decide, by decide⟩ : PlainText (py! "a")), rfl, .f32 (by unfold IsSNaN; decide)⟩
      · exact ⟨(⟨by decide, by decide⟩ : PlainText (py! "b")), rfl, .str ⟨by decide, by decide⟩⟩
      · exact ⟨(⟨by decide, by decide⟩ : PlainText (py! "c")), rfl, .f64⟩
    · intro a ha
      rw [List.mem_singleton.1 ha]
      exact ⟨⟨by decide, by decide⟩, rfl, rfl, rfl, by decide, hcfg, rfl, .inl (by decide),
        (by decide : ∀ n ∈ [1], n < 53), nofun, nofun, by decide, by decide⟩
  have hr := C01_roundtrip cfg (recs := [mistypedStored]) (by simp) fun r hr => by rw [List.mem_singleton.1 hr]; exact hs
  have he : writeBytes [mistyped] = writeBytes [mistypedStored] := by decide +kernel
  refine ⟨presentRec mistypedStored, ?_, ⟨by unfold f32Finite; decide +kernel, by decide +kernel⟩, ⟨by unfold f64Finite; decide +kernel, by decide +kernel⟩⟩
  unfold writeThenRead at hr ⊢
  rw [he]
  exact hr

/-- The integers that fit a type. -/
def Fits : Fmt → Int → Prop
  | .h, v => -2 ^ 15 ≤ v ∧ v < 2 ^ 15
  | .i, v => -2 ^ 31 ≤ v ∧ v < 2 ^ 31
  | .q, v => -2 ^ 63 ≤ v ∧ v < 2 ^ 63
  | .B, v => 0 ≤ v ∧ v < 2 ^ 8
  | .H, v => 0 ≤ v ∧ v < 2 ^ 16
  | .I, v => 0 ≤ v ∧ v < 2 ^ 32
  | .Q, v => 0 ≤ v ∧ v < 2 ^ 64
  | _, _ => False

/-- The integer types. -/
def integerFmts : List Fmt := [.h, .i, .q, .B, .H, .I, .Q]

theorem packSigned_fits {k : Nat} {v : Int} {b : Bytes} (h : packSigned k v = .ok b) : signedOk k v := by
  unfold packSigned at h
  split at h
  · assumption
  · cases h

theorem packUnsigned_fits {k : Nat} {v : Int} {b : Bytes} (h : packUnsigned k v = .ok b) : 0 ≤ v ∧ v < (256 ^ k : Nat) := by
  unfold packUnsigned at h
  split at h
  · assumption
  · cases h

theorem valueBytes_fits {rn : Nat} {s : DmapScalar} {b : Bytes} (hf : s.fmt ∈ integerFmts) (h : scalarValueBytes rn s = .ok b) :
    ∃ v, s.value = .int v ∧ Fits s.fmt v := by
  obtain ⟨nm, val, dt, fm⟩ := s
  simp only [integerFmts, List.mem_cons, List.not_mem_nil, or_false] at hf
  cases val with
  | int v =>
    refine ⟨v, rfl, ?_⟩
    rcases hf with rfl | rfl | rfl | rfl | rfl | rfl | rfl <;> simp only [scalarValueBytes] at h <;> unfold Fits <;>
      first
        | (have := packSigned_fits h; unfold signedOk at this; omega)
        | (have := packUnsigned_fits h; omega)
  | f32 c => rcases hf with rfl | rfl | rfl | rfl | rfl | rfl | rfl <;> cases h
  | f64 c => rcases hf with rfl | rfl | rfl | rfl | rfl | rfl | rfl <;> cases h
  | str t => rcases hf with rfl | rfl | rfl | rfl | rfl | rfl | rfl <;> cases h

/-- **C73** Nothing but an integer that fits is written for a scalar of an integer type: any other value, anywhere in the
records, makes the write fail.  (With C01: what is written is read back unchanged.) -/
theorem C73_integers {recs : List Rec} {bs : Bytes} (h : writeBytes recs = .ok bs) {r : Rec} (hr : r ∈ recs) {k : PyStr}
    {s : DmapScalar} (hs : (k, Field.scalar s) ∈ r) (hf : s.fmt ∈ integerFmts) : ∃ v, s.value = .int v ∧ Fits s.fmt v := by
  have hl := (writeBytes_inv h).2
  have key : ∀ (rn : Nat) (r : Rec) (data : Bytes), Written rn r data → (k, Field.scalar s) ∈ r →
      ∃ v, s.value = .int v ∧ Fits s.fmt v := by
    intro rn r data hw
    induction hw with
    | nil => intro hg; cases hg
    | scalar h1 _ ih =>
      intro hg
      rcases List.mem_cons.1 hg with e | hg
      · cases e
        obtain ⟨tb, vb, -, h2, -⟩ := scalarToBytes_inv h1
        exact valueBytes_fits hf h2
      · exact ih hg
    | array _ _ ih =>
      intro hg
      rcases List.mem_cons.1 hg with e | hg
      · cases e
      · exact ih hg
  clear h
  generalize 0 = n at hl
  induction hl with
  | nil => cases hr
  | cons h1 _ _ _ _ ih =>
    rcases List.mem_cons.1 hr with rfl | hr
    · exact key _ _ _ h1 hs
    · exact ih hr

/-- The sample record is written, and has a short. -/
example : ∃ bs, writeBytes [Sample.record2] = .ok bs ∧ ∃ k s, (k, Field.scalar s) ∈ Sample.record2 ∧ s.fmt ∈ integerFmts :=
  ⟨_, rfl, _, _, List.mem_cons_self, by decide⟩

/-- **C73** Integers that no floating point number is close to are refused for both floating point types. -/
theorem C73_too_large {recs : List Rec} {r : Rec} (hr : r ∈ recs) {k : PyStr} {s : DmapScalar} (hs : (k, Field.scalar s) ∈ r)
    (hf : s.fmt = .f ∨ s.fmt = .d) {v : Int} (hv : s.value = .int v) (hl : ¬ InRange64 v) : ∃ e, writeBytes recs = .error e := by
  cases hw : writeBytes recs with
  | error e => exact ⟨e, rfl⟩
  | ok bs =>
    exfalso
    have hl' := (writeBytes_inv hw).2
    have key : ∀ (rn : Nat) (r : Rec) (data : Bytes), Written rn r data → (k, Field.scalar s) ∈ r → False := by
      intro rn r data hw
      induction hw with
      | nil => intro hg; cases hg
      | scalar h1 _ ih =>
        intro hg
        rcases List.mem_cons.1 hg with e | hg
        · cases e
          obtain ⟨tb, vb, -, h2, -⟩ := scalarToBytes_inv h1
          obtain ⟨nm, val, dt, fm⟩ := s
          dsimp only at hv hf
          subst hv
          rcases hf with rfl | rfl <;> simp only [scalarValueBytes, intToF64_none hl] at h2 <;> cases h2
        · exact ih hg
      | array _ _ ih =>
        intro hg
        rcases List.mem_cons.1 hg with e | hg
        · cases e
        · exact ih hg
    clear hw
    generalize 0 = n at hl'
    induction hl' with
    | nil => cases hr
    | cons h1 _ _ _ _ ih =>
      rcases List.mem_cons.1 hr with rfl | hr
      · exact key _ _ _ h1 hs
      · exact ih hr

set_option exponentiation.threshold 1100 in
example : ∃ e, writeBytes [[(py! "a", .scalar ⟨py! "a", .int (-(2 ^ 1024 - 2 ^ 970)), 8, .d⟩)]] = .error e :=
  C73_too_large (List.mem_singleton.2 rfl) (List.mem_singleton.2 rfl) (.inr rfl) rfl (by unfold InRange64; decide +kernel)

end Verif
