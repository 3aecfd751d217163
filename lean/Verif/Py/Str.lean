/-!
# Python strings and bytes

`bytearray`/`bytes` is `List UInt8`.  `str` is `List Char`: a sequence of
Unicode scalar values.  Python strings may also contain lone surrogates; those
are not modelled (they can only make `.encode('utf-8')` raise).
-/
namespace Verif

/-- Python `bytes` / `bytearray`. -/
abbrev Bytes := List UInt8

/-- Python `str`. -/
abbrev PyStr := List Char

/-- `py! "abc"` is the Python string literal as a list of characters. -/
syntax (name := pyLit) "py! " str : term

macro_rules
  | `(py! $s:str) => do
    let cs := s.getString.toList
    let elems ← cs.mapM fun c => `($(Lean.quote c))
    `(([$(elems.toArray),*] : List Char))

/-- UTF-8 encoding of one code point: the trusted behaviour of
`str.encode('utf-8')` (used in /repo/pydarnio/dmap/dmap.py:1086, 1089, 1095,
1101, 1143, 1146). -/
def utf8EncodeChar (c : Char) : Bytes :=
  let n := c.toNat
  if n < 0x80 then [UInt8.ofNat n]
  else if n < 0x800 then [UInt8.ofNat (0xC0 + n / 64), UInt8.ofNat (0x80 + n % 64)]
  else if n < 0x10000 then
    [UInt8.ofNat (0xE0 + n / 4096), UInt8.ofNat (0x80 + n / 64 % 64),
     UInt8.ofNat (0x80 + n % 64)]
  else
    [UInt8.ofNat (0xF0 + n / 262144), UInt8.ofNat (0x80 + n / 4096 % 64),
     UInt8.ofNat (0x80 + n / 64 % 64), UInt8.ofNat (0x80 + n % 64)]

/-- `str.encode('utf-8')`. -/
def utf8Encode (s : PyStr) : Bytes := s.flatMap utf8EncodeChar

/-- Is `b` a UTF-8 continuation byte? -/
def isCont (b : UInt8) : Bool := 0x80 ≤ b.toNat && b.toNat < 0xC0

/-- Strict `bytes.decode('utf-8')`; `none` is `UnicodeDecodeError`
(used in /repo/pydarnio/dmap/dmap.py:716). -/
def utf8Decode : Bytes → Option PyStr
  | [] => some []
  | b0 :: r0 =>
    let n0 := b0.toNat
    if n0 < 0x80 then (utf8Decode r0).map (Char.ofNat n0 :: ·)
    else match r0 with
      | [] => none
      | b1 :: r1 =>
        if ¬ isCont b1 then none
        else if 0xC2 ≤ n0 ∧ n0 < 0xE0 then
          (utf8Decode r1).map (Char.ofNat ((n0 - 0xC0) * 64 + (b1.toNat - 0x80)) :: ·)
        else match r1 with
          | [] => none
          | b2 :: r2 =>
            if ¬ isCont b2 then none
            else if 0xE0 ≤ n0 ∧ n0 < 0xF0 then
              let n := (n0 - 0xE0) * 4096 + (b1.toNat - 0x80) * 64 + (b2.toNat - 0x80)
              if 0x800 ≤ n ∧ ¬ (0xD800 ≤ n ∧ n < 0xE000) then
                (utf8Decode r2).map (Char.ofNat n :: ·)
              else none
            else match r2 with
              | [] => none
              | b3 :: r3 =>
                if ¬ isCont b3 then none
                else if 0xF0 ≤ n0 ∧ n0 < 0xF8 then
                  let n := (n0 - 0xF0) * 262144 + (b1.toNat - 0x80) * 4096
                    + (b2.toNat - 0x80) * 64 + (b3.toNat - 0x80)
                  if 0x10000 ≤ n ∧ n < 0x110000 then
                    (utf8Decode r3).map (Char.ofNat n :: ·)
                  else none
                else none

theorem Char.valid_range (c : Char) :
    c.toNat < 0xD800 ∨ (0xE000 ≤ c.toNat ∧ c.toNat < 0x110000) := by
  have := c.valid
  simp only [UInt32.isValidChar, Nat.isValidChar] at this
  unfold Char.toNat
  omega

theorem toNat_ofNat_lt {n : Nat} (h : n < 256) : (UInt8.ofNat n).toNat = n := by
  simp [UInt8.toNat_ofNat']; omega

theorem utf8Decode_encodeChar_append (c : Char) (r : Bytes) :
    utf8Decode (utf8EncodeChar c ++ r) = (utf8Decode r).map (c :: ·) := by
  have hv := Char.valid_range c
  have hc : Char.ofNat c.toNat = c := Char.ofNat_toNat c
  generalize hn : c.toNat = n at *
  unfold utf8EncodeChar
  rw [hn]
  simp only
  by_cases h1 : n < 0x80
  · have e : (UInt8.ofNat n).toNat = n := toNat_ofNat_lt (by omega)
    rw [if_pos h1]
    generalize UInt8.ofNat n = b at *
    simp only [List.cons_append, List.nil_append]
    rw [utf8Decode.eq_def]
    simp only [e, if_pos h1, hc]
  by_cases h2 : n < 0x800
  · have e0 := toNat_ofNat_lt (n := 0xC0 + n / 64) (by omega)
    have e1 := toNat_ofNat_lt (n := 0x80 + n % 64) (by omega)
    have e2 : (0xC0 + n / 64 - 0xC0) * 64 + (0x80 + n % 64 - 0x80) = n := by omega
    rw [if_neg h1, if_pos h2]
    generalize UInt8.ofNat (0xC0 + n / 64) = b0 at *
    generalize UInt8.ofNat (0x80 + n % 64) = b1 at *
    simp only [List.cons_append, List.nil_append]
    rw [utf8Decode.eq_def]
    have c1 : isCont b1 = true := by simp [isCont, e1]; omega
    simp only [e0, e1, c1, e2, hc, not_true, if_false]
    rw [if_neg (by omega), if_pos (by omega)]
  by_cases h3 : n < 0x10000
  · have e0 := toNat_ofNat_lt (n := 0xE0 + n / 4096) (by omega)
    have e1 := toNat_ofNat_lt (n := 0x80 + n / 64 % 64) (by omega)
    have e2 := toNat_ofNat_lt (n := 0x80 + n % 64) (by omega)
    have e3 : (0xE0 + n / 4096 - 0xE0) * 4096 + (0x80 + n / 64 % 64 - 0x80) * 64
        + (0x80 + n % 64 - 0x80) = n := by omega
    rw [if_neg h1, if_neg h2, if_pos h3]
    generalize UInt8.ofNat (0xE0 + n / 4096) = b0 at *
    generalize UInt8.ofNat (0x80 + n / 64 % 64) = b1 at *
    generalize UInt8.ofNat (0x80 + n % 64) = b2 at *
    simp only [List.cons_append, List.nil_append]
    rw [utf8Decode.eq_def]
    have c1 : isCont b1 = true := by simp [isCont, e1]; omega
    have c2 : isCont b2 = true := by simp [isCont, e2]; omega
    simp only [e0, e1, e2, c1, c2, e3, hc, not_true, if_false]
    rw [if_neg (by omega), if_neg (by omega), if_pos (by omega), if_pos (by omega)]
  · have e0 := toNat_ofNat_lt (n := 0xF0 + n / 262144) (by omega)
    have e1 := toNat_ofNat_lt (n := 0x80 + n / 4096 % 64) (by omega)
    have e2 := toNat_ofNat_lt (n := 0x80 + n / 64 % 64) (by omega)
    have e3 := toNat_ofNat_lt (n := 0x80 + n % 64) (by omega)
    have e4 : (0xF0 + n / 262144 - 0xF0) * 262144 + (0x80 + n / 4096 % 64 - 0x80) * 4096
        + (0x80 + n / 64 % 64 - 0x80) * 64 + (0x80 + n % 64 - 0x80) = n := by omega
    rw [if_neg h1, if_neg h2, if_neg h3]
    generalize UInt8.ofNat (0xF0 + n / 262144) = b0 at *
    generalize UInt8.ofNat (0x80 + n / 4096 % 64) = b1 at *
    generalize UInt8.ofNat (0x80 + n / 64 % 64) = b2 at *
    generalize UInt8.ofNat (0x80 + n % 64) = b3 at *
    simp only [List.cons_append, List.nil_append]
    rw [utf8Decode.eq_def]
    have c1 : isCont b1 = true := by simp [isCont, e1]; omega
    have c2 : isCont b2 = true := by simp [isCont, e2]; omega
    have c3 : isCont b3 = true := by simp [isCont, e3]; omega
    simp only [e0, e1, e2, e3, c1, c2, c3, e4, hc, not_true, if_false]
    rw [if_neg (by omega), if_neg (by omega), if_neg (by omega), if_pos (by omega),
      if_pos (by omega)]

/-- Decoding an encoded string gives the string back. -/
theorem utf8Decode_encode (s : PyStr) : utf8Decode (utf8Encode s) = some s := by
  induction s with
  | nil => simp [utf8Encode, utf8Decode]
  | cons c s ih =>
    have : utf8Encode (c :: s) = utf8EncodeChar c ++ utf8Encode s := by simp [utf8Encode]
    rw [this, utf8Decode_encodeChar_append, ih]; rfl

theorem toNat_charOfNat {n : Nat} (h : n < 0xD800 ∨ (0xE000 ≤ n ∧ n < 0x110000)) :
    (Char.ofNat n).toNat = n := by
  have hv : n.isValidChar := by simp only [Nat.isValidChar]; omega
  simp [Char.ofNat, hv, Char.ofNatAux, Char.toNat]

theorem uint8_ofNat_eq {b : UInt8} {n : Nat} (h : b.toNat = n) : UInt8.ofNat n = b := by
  subst h; simp

theorem isCont_iff {b : UInt8} : isCont b = true ↔ 0x80 ≤ b.toNat ∧ b.toNat < 0xC0 := by
  simp [isCont]

/-- A byte string that decodes is the encoding of the result (UTF-8 is canonical). -/
theorem utf8Encode_decode {bs : Bytes} {s : PyStr} (h : utf8Decode bs = some s) :
    utf8Encode s = bs := by
  fun_induction utf8Decode bs generalizing s
  case case1 => cases h; rfl
  case case2 b0 r0 n0 h0 ih =>
    obtain ⟨t, ht, rfl⟩ := Option.map_eq_some_iff.1 h
    have hn : (Char.ofNat n0).toNat = n0 := toNat_charOfNat (by omega)
    have : utf8EncodeChar (Char.ofNat n0) = [b0] := by
      unfold utf8EncodeChar
      rw [hn]
      simp only [if_pos h0, n0]
      simp
    simp [utf8Encode, this, ← ih ht]
  case case5 b0 n0 h0 b1 r1 h1 h2 ih =>
    obtain ⟨t, ht, rfl⟩ := Option.map_eq_some_iff.1 h
    have h1 := isCont_iff.1 (Decidable.not_not.1 h1)
    have e : b0.toNat = n0 := rfl
    generalize hN : (n0 - 0xC0) * 64 + (b1.toNat - 0x80) = n
    have hn := toNat_charOfNat (n := n) (by omega)
    have : utf8EncodeChar (Char.ofNat n) = [b0, b1] := by
      unfold utf8EncodeChar
      rw [hn]
      simp only
      rw [if_neg (by omega), if_pos (by omega), uint8_ofNat_eq (b := b0) (by omega),
        uint8_ofNat_eq (b := b1) (by omega)]
    simp [utf8Encode, this, ← ih ht]
  case case8 b0 n0 h0 b1 h1 h2 b2 r2 h3 h4 n h5 ih =>
    obtain ⟨t, ht, rfl⟩ := Option.map_eq_some_iff.1 h
    have h1 := isCont_iff.1 (Decidable.not_not.1 h1)
    have h3 := isCont_iff.1 (Decidable.not_not.1 h3)
    have e : b0.toNat = n0 := rfl
    have hN : (n0 - 0xE0) * 4096 + (b1.toNat - 0x80) * 64 + (b2.toNat - 0x80) = n := rfl
    have hn := toNat_charOfNat (n := n) (by omega)
    have : utf8EncodeChar (Char.ofNat n) = [b0, b1, b2] := by
      unfold utf8EncodeChar
      rw [hn]
      simp only
      rw [if_neg (by omega), if_neg (by omega), if_pos (by omega),
        uint8_ofNat_eq (b := b0) (by omega),
        uint8_ofNat_eq (b := b1) (by omega), uint8_ofNat_eq (b := b2) (by omega)]
    simp [utf8Encode, this, ← ih ht]
  case case12 b0 n0 h0 b1 h1 h2 b2 h3 h4 b3 r3 h5 h6 n h7 ih =>
    obtain ⟨t, ht, rfl⟩ := Option.map_eq_some_iff.1 h
    have h1 := isCont_iff.1 (Decidable.not_not.1 h1)
    have h3 := isCont_iff.1 (Decidable.not_not.1 h3)
    have h5 := isCont_iff.1 (Decidable.not_not.1 h5)
    have e : b0.toNat = n0 := rfl
    have hN : (n0 - 0xF0) * 262144 + (b1.toNat - 0x80) * 4096
                    + (b2.toNat - 0x80) * 64 + (b3.toNat - 0x80) = n := rfl
    have hn := toNat_charOfNat (n := n) (by omega)
    have : utf8EncodeChar (Char.ofNat n) = [b0, b1, b2, b3] := by
      unfold utf8EncodeChar
      rw [hn]
      simp only
      rw [if_neg (by omega), if_neg (by omega), if_neg (by omega),
        uint8_ofNat_eq (b := b0) (by omega), uint8_ofNat_eq (b := b1) (by omega),
        uint8_ofNat_eq (b := b2) (by omega), uint8_ofNat_eq (b := b3) (by omega)]
    simp [utf8Encode, this, ← ih ht]
  all_goals simp at h

end Verif
