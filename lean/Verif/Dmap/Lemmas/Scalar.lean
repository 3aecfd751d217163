import Verif.Dmap.Lemmas.Exact
import Verif.Dmap.Spec
/-!
# Exactness of strings and scalars
-/
namespace Verif
open Spec

theorem pyIndex_iff {buf : Bytes} {c : Int} {b : UInt8} (h0 : 0 ≤ c) :
    pyIndex buf c = some b ↔ At buf c [b] := by
  unfold pyIndex
  rw [if_pos h0, at_iff, List.getElem?_eq_some_iff]
  simp only [List.length_singleton]
  constructor
  · rintro ⟨h, rfl⟩
    exact ⟨h0, by omega, take_one_drop h⟩
  · rintro ⟨_, h1, h2⟩
    have hlt : c.toNat < buf.length := by omega
    rw [take_one_drop hlt] at h2
    exact ⟨hlt, by simpa using h2⟩

theorem scanNul_iff {buf : Bytes} {c : Int} (h0 : 0 ≤ c) (fuel k n : Nat) :
    scanNul buf c fuel k = some n ↔
      ∃ bs : Bytes, n = k + bs.length ∧ bs.length < fuel ∧ (0 : UInt8) ∉ bs ∧
        At buf (c + k) (bs ++ [0]) := by
  induction fuel generalizing k with
  | zero => simp [scanNul]
  | succ fuel ih =>
    unfold scanNul
    cases hp : pyIndex buf (c + k) with
    | none =>
      simp only [reduceCtorEq, false_iff]
      rintro ⟨bs, _, _, _, hat⟩
      cases bs with
      | nil => rw [(pyIndex_iff (by omega)).2 hat] at hp; simp at hp
      | cons x xs =>
        have : At buf (c + k) [x] := by
          have := hat; rw [show (x :: xs ++ [0] : Bytes) = [x] ++ (xs ++ [0]) by simp, at_append] at this
          exact this.1
        rw [(pyIndex_iff (by omega)).2 this] at hp; simp at hp
    | some b =>
      have hat := (pyIndex_iff (by omega)).1 hp
      have hb := hat.bounds
      simp only [List.length_singleton] at hb
      simp only
      by_cases hb0 : b = 0
      · subst hb0
        rw [if_neg (by simp; omega)]
        constructor
        · intro h; injection h with h; subst h
          exact ⟨[], by simp, by simp, by simp, by simpa using hat⟩
        · rintro ⟨bs, rfl, _, hn, hat2⟩
          cases bs with
          | nil => simp
          | cons x xs =>
            rw [show (x :: xs ++ [0] : Bytes) = [x] ++ (xs ++ [0]) by simp, at_append] at hat2
            have := at_unique hat hat2.1 (by simp)
            simp at this hn; exact absurd this hn.1
      · rw [if_pos (Or.inl hb0), ih]
        constructor
        · rintro ⟨bs, rfl, hl, hn, hat2⟩
          refine ⟨b :: bs, by simp; omega, by simp; omega, by simp [hn, Ne.symm hb0], ?_⟩
          rw [show (b :: bs ++ [0] : Bytes) = [b] ++ (bs ++ [0]) by simp, at_append]
          refine ⟨hat, ?_⟩
          rw [show c + k + (([b] : Bytes).length : Int) = c + ((k + 1 : Nat) : Int) by simp; omega]
          exact hat2
        · rintro ⟨bs, rfl, hl, hn, hat2⟩
          cases bs with
          | nil =>
            have := at_unique hat hat2 (by simp)
            simp at this; exact absurd this hb0
          | cons x xs =>
            rw [show (x :: xs ++ [0] : Bytes) = [x] ++ (xs ++ [0]) by simp, at_append] at hat2
            refine ⟨xs, by simp; omega, by simp at hl; omega, ?_, ?_⟩
            · simp at hn; exact hn.2
            · rw [show c + ((k + 1 : Nat) : Int) = c + k + (([x] : Bytes).length : Int) by simp; omega]
              exact hat2.2

theorem zero_mem_utf8EncodeChar {ch : Char} : (0 : UInt8) ∈ utf8EncodeChar ch ↔ ch = Char.ofNat 0 := by
  have hv := Char.valid_range ch
  constructor
  · intro h
    unfold utf8EncodeChar at h
    have key : ∀ n : Nat, n < 256 → (0 : UInt8) = UInt8.ofNat n → n = 0 := by
      intro n hn h
      have := congrArg UInt8.toNat h
      rw [toNat_ofNat_lt hn] at this
      simpa using this.symm
    simp only at h
    split at h
    · simp only [List.mem_singleton] at h
      have := key _ (by omega) h
      apply Char.ext; apply UInt32.toNat_inj.1
      simpa using this
    · split at h
      · simp only [List.mem_cons, List.not_mem_nil, or_false] at h
        rcases h with h | h <;> (have := key _ (by omega) h; omega)
      · split at h
        · simp only [List.mem_cons, List.not_mem_nil, or_false] at h
          rcases h with h | h | h <;> (have := key _ (by omega) h; omega)
        · simp only [List.mem_cons, List.not_mem_nil, or_false] at h
          rcases h with h | h | h | h <;> (have := key _ (by omega) h; omega)
  · rintro rfl; decide

theorem zero_mem_utf8Encode {s : PyStr} : (0 : UInt8) ∈ utf8Encode s ↔ ¬ NulFree s := by
  unfold utf8Encode NulFree
  simp only [List.mem_flatMap, zero_mem_utf8EncodeChar, Decidable.not_not]
  constructor
  · rintro ⟨c, h, rfl⟩; exact h
  · intro h; exact ⟨_, h, rfl⟩

theorem readDataS_exact {buf : Bytes} (rn : Nat) :
    Exact buf (readDataS buf rn) (fun s bs => NulFree s ∧ bs = encStr s) := by
  intro c s c' h0 h1
  have hdef : readDataS buf rn c = (id (α := Except Err PyStr × Int) <|
      if c ≥ buf.length then (.error .cursorError, c)
      else match scanNul buf c ((buf.length - c).toNat + 1) 0 with
        | none => (.error .indexError, c)
        | some n =>
          if c + n > buf.length then (.error (.mismatchByte rn), c)
          else match unpackFrom buf n c with
            | none => (.error .structError, c)
            | some bs => match utf8Decode bs with
              | none => (.error .unicodeDecodeError, c + n + 1)
              | some s => (.ok s, c + n + 1)) := by
    show Rd.bind _ _ c = _
    unfold Rd.bind readPre
    simp only [id]
    by_cases h2 : c ≥ buf.length
    · simp [h2]
    · have h3 : ¬ ((buf.length : Int) - c < (1 : Nat)) := by omega
      simp only [h2, h3, if_false]
      show Rd.bind _ _ c = _
      unfold Rd.bind Rd.cursor
      simp only
      cases scanNul buf c ((buf.length - c).toNat + 1) 0 with
      | none => rfl
      | some n =>
        show Rd.bind _ _ c = _
        unfold Rd.bind bytesCheck
        by_cases h4 : c + (n : Int) > buf.length
        · simp [h4, Rd.raise]
        · simp only [h4, if_false, Rd.pure]
          cases unpackFrom buf n c with
          | none => rfl
          | some bs =>
            show Rd.bind _ _ c = _
            unfold Rd.bind Rd.setCursor
            simp only
            cases utf8Decode bs <;> rfl
  rw [hdef]
  simp only [id]
  have hun : ∀ bs : Bytes, At buf c bs → unpackFrom buf bs.length c = some bs := by
    intro bs hat
    have hb := hat.bounds
    rw [at_iff] at hat
    unfold unpackFrom
    rw [if_neg (by omega), if_neg (by omega), hat.2.2]
  constructor
  · intro h
    split at h
    · simp at h
    · cases hs : scanNul buf c ((buf.length - c).toNat + 1) 0 with
      | none => rw [hs] at h; simp at h
      | some n =>
        rw [hs] at h
        simp only at h
        obtain ⟨bs, hn, hl, h0', hat⟩ := (scanNul_iff h0 _ _ _).1 hs
        simp only [Nat.zero_add] at hn
        subst hn
        have hat' : At buf c (bs ++ [0]) := by simpa using hat
        have hb := hat'.bounds
        simp only [List.length_append, List.length_singleton] at hb
        rw [if_neg (by omega), hun bs (at_append.1 hat').1] at h
        simp only at h
        cases hd : utf8Decode bs with
        | none => rw [hd] at h; simp at h
        | some t =>
          rw [hd] at h
          simp only [Prod.mk.injEq, Except.ok.injEq] at h
          obtain ⟨rfl, rfl⟩ := h
          have he := utf8Encode_decode hd
          subst he
          refine ⟨encStr t, ⟨?_, rfl⟩, hat', by simp [encStr]; omega⟩
          rw [zero_mem_utf8Encode] at h0'
          exact Decidable.not_not.1 h0'
  · rintro ⟨bs, ⟨hn, rfl⟩, hat, rfl⟩
    have hb := hat.bounds
    unfold encStr at hat hb
    simp only [List.length_append, List.length_singleton] at hb
    have hs : scanNul buf c ((buf.length - c).toNat + 1) 0 = some (utf8Encode s).length := by
      rw [scanNul_iff h0]
      refine ⟨utf8Encode s, by simp, by omega, ?_, by simpa using hat⟩
      rw [zero_mem_utf8Encode]
      exact fun h => h hn
    rw [hs]
    simp only
    rw [if_neg (by omega), if_neg (by omega), hun _ (at_append.1 hat).1]
    simp only [utf8Decode_encode]
    simp [encStr]; omega

theorem natLE_one {n : Nat} (h : n < 256) : natLE 1 n = [UInt8.ofNat n] := by
  simp [natLE, Nat.mod_eq_of_lt h]

/-- Value of a scalar of a known format. -/
theorem readData_exact {buf : Bytes} (rn : Nat) {fmt : Fmt} (hf : fmt ≠ .dmap) :
    Exact buf (readData buf rn fmt (cellSize fmt)) (ValEnc fmt) := by
  have num : ∀ (g : Fmt) (k : Nat), 0 < k → (∀ v bs, ValEnc g v bs ↔
        bs.length = k ∧ v = decodeNum g bs) →
      Exact buf (do let bs ← readDataN buf k; return decodeNum g bs) (ValEnc g) := by
    intro g k hk hv
    have h := Exact.bind (buf := buf) (readDataN_exact (n := k) hk)
      (f := fun bs => (Pure.pure (decodeNum g bs) : Rd PyVal)) (fun a _ => Exact.pure _)
    refine Exact.congr h (fun x bs _ => ?_)
    rw [hv]
    constructor
    · rintro ⟨a, b1, b2, ⟨rfl, hl⟩, ⟨rfl, rfl⟩, rfl⟩; simp [hl]
    · rintro ⟨hl, rfl⟩; exact ⟨bs, bs, [], ⟨rfl, hl⟩, ⟨rfl, rfl⟩, by simp⟩
  have uns : ∀ (bs : Bytes) (k : Nat), bs.length = k → natLE k (leNat bs) = bs := by
    intro bs k h; rw [← h]; exact natLE_leNat bs
  have sg : ∀ (bs : Bytes) (k : Nat), bs.length = k → intLE k (toSigned k (leNat bs)) = bs := by
    intro bs k h; rw [← h]; exact intLE_toSigned bs
  cases fmt with
  | dmap => exact absurd rfl hf
  | c =>
    have h := Exact.bind (buf := buf) readDataC_exact
      (f := fun (n : Nat) => (Pure.pure (.int n) : Rd PyVal)) (fun a _ => Exact.pure _)
    refine Exact.congr h (fun x bs _ => ?_)
    constructor
    · rintro ⟨a, b1, b2, ⟨ha, rfl⟩, ⟨rfl, rfl⟩, rfl⟩; simpa using ValEnc.char ha
    · intro h; cases h with
      | char hn => exact ⟨_, _, [], ⟨hn, rfl⟩, ⟨rfl, rfl⟩, by simp⟩
  | s =>
    have h := Exact.bind (buf := buf) (readDataS_exact rn)
      (f := fun n => (Pure.pure (.str n) : Rd PyVal)) (fun a _ => Exact.pure _)
    refine Exact.congr h (fun x bs _ => ?_)
    constructor
    · rintro ⟨a, b1, b2, ⟨ha, rfl⟩, ⟨rfl, rfl⟩, rfl⟩; simpa using ValEnc.str ha
    · intro h; cases h with
      | str hn => exact ⟨_, _, [], ⟨hn, rfl⟩, ⟨rfl, rfl⟩, by simp⟩
  | f =>
    refine num .f 4 (by omega) (fun v bs => ⟨?_, ?_⟩)
    · intro h; cases h with
      | @f32 b =>
        refine ⟨by simp, ?_⟩
        have := b.isLt
        simp only [decodeNum, leNat_natLE, PyVal.f32.injEq]
        rw [Nat.mod_eq_of_lt (by omega)]; simp
    · rintro ⟨hl, rfl⟩
      have h := ValEnc.f32 (b := BitVec.ofNat 32 (leNat bs))
      have hlt := leNat_lt' hl
      rw [BitVec.toNat_ofNat, Nat.mod_eq_of_lt (by omega), uns bs 4 hl] at h
      exact h
  | d =>
    refine num .d 8 (by omega) (fun v bs => ⟨?_, ?_⟩)
    · intro h; cases h with
      | @f64 b =>
        refine ⟨by simp, ?_⟩
        have := b.isLt
        simp only [decodeNum, leNat_natLE, PyVal.f64.injEq]
        rw [Nat.mod_eq_of_lt (by omega)]; simp
    · rintro ⟨hl, rfl⟩
      have h := ValEnc.f64 (b := BitVec.ofNat 64 (leNat bs))
      have hlt := leNat_lt' hl
      rw [BitVec.toNat_ofNat, Nat.mod_eq_of_lt (by omega), uns bs 8 hl] at h
      exact h
  | h =>
    refine num .h 2 (by omega) (fun v bs => ⟨?_, ?_⟩)
    · intro h; cases h with
      | @i16 v h1 h2 =>
        have ho : signedOk 2 v := by unfold signedOk; omega
        simp [decodeNum, toSigned_intLE ho]
    · rintro ⟨hl, rfl⟩
      have ho := toSigned_ok (leNat_lt' hl) (by decide)
      unfold signedOk at ho
      have h := ValEnc.i16 (v := toSigned 2 (leNat bs)) (by omega) (by omega)
      rw [sg bs 2 hl] at h; exact h
  | i =>
    refine num .i 4 (by omega) (fun v bs => ⟨?_, ?_⟩)
    · intro h; cases h with
      | @i32 v h1 h2 =>
        have ho : signedOk 4 v := by unfold signedOk; omega
        simp [decodeNum, toSigned_intLE ho]
    · rintro ⟨hl, rfl⟩
      have ho := toSigned_ok (leNat_lt' hl) (by decide)
      unfold signedOk at ho
      have h := ValEnc.i32 (v := toSigned 4 (leNat bs)) (by omega) (by omega)
      rw [sg bs 4 hl] at h; exact h
  | q =>
    refine num .q 8 (by omega) (fun v bs => ⟨?_, ?_⟩)
    · intro h; cases h with
      | @i64 v h1 h2 =>
        have ho : signedOk 8 v := by unfold signedOk; omega
        simp [decodeNum, toSigned_intLE ho]
    · rintro ⟨hl, rfl⟩
      have ho := toSigned_ok (leNat_lt' hl) (by decide)
      unfold signedOk at ho
      have h := ValEnc.i64 (v := toSigned 8 (leNat bs)) (by omega) (by omega)
      rw [sg bs 8 hl] at h; exact h
  | B =>
    refine num .B 1 (by omega) (fun v bs => ⟨?_, ?_⟩)
    · intro h; cases h with
      | u8 h1 => simp [decodeNum, leNat_natLE]; omega
    · rintro ⟨hl, rfl⟩
      have h := ValEnc.u8 (n := leNat bs) (by have := leNat_lt' hl; omega)
      rw [uns bs 1 hl] at h; exact h
  | H =>
    refine num .H 2 (by omega) (fun v bs => ⟨?_, ?_⟩)
    · intro h; cases h with
      | u16 h1 => simp [decodeNum, leNat_natLE]; omega
    · rintro ⟨hl, rfl⟩
      have h := ValEnc.u16 (n := leNat bs) (by have := leNat_lt' hl; omega)
      rw [uns bs 2 hl] at h; exact h
  | I =>
    refine num .I 4 (by omega) (fun v bs => ⟨?_, ?_⟩)
    · intro h; cases h with
      | u32 h1 => simp [decodeNum, leNat_natLE]; omega
    · rintro ⟨hl, rfl⟩
      have h := ValEnc.u32 (n := leNat bs) (by have := leNat_lt' hl; omega)
      rw [uns bs 4 hl] at h; exact h
  | Q =>
    refine num .Q 8 (by omega) (fun v bs => ⟨?_, ?_⟩)
    · intro h; cases h with
      | u64 h1 => simp [decodeNum, leNat_natLE]; omega
    · rintro ⟨hl, rfl⟩
      have h := ValEnc.u64 (n := leNat bs) (by have := leNat_lt' hl; omega)
      rw [uns bs 8 hl] at h; exact h

/-- The reader's type table is the specification's. -/
theorem lookup_iff {n : Nat} {p : Fmt × Nat} :
    dmapDataTypes.lookup n = some p ↔ n = code p.1 ∧ p.2 = cellSize p.1 := by
  obtain ⟨fm, sz⟩ := p
  constructor
  · intro h
    simp only [dmapDataTypes, List.lookup] at h
    repeat' split at h
    all_goals first
      | (simp only [Option.some.injEq, Prod.mk.injEq] at h
         obtain ⟨rfl, rfl⟩ := h
         rename_i hh; simp at hh; simp [code, cellSize, hh])
      | simp at h
  · rintro ⟨rfl, h⟩
    simp only at h; subst h
    cases fm <;> rfl

theorem checkDataType_exact {buf : Bytes} (rn n : Nat) (name : PyStr) :
    Exact buf (checkDataType rn n name)
      (fun p bs => (n = code p.1 ∧ p.2 = cellSize p.1) ∧ bs = []) := by
  unfold checkDataType
  cases h : dmapDataTypes.lookup n with
  | some p =>
    refine Exact.congr (Exact.pure p) (fun a bs _ => ?_)
    rw [← lookup_iff, h]
    simp only [Option.some.injEq]
    exact ⟨fun ⟨h1, h2⟩ => ⟨h1.symm, h2⟩, fun ⟨h1, h2⟩ => ⟨h1.symm, h2⟩⟩
  | none =>
    refine Exact.congr (Exact.raise _) (fun a bs _ => ?_)
    rw [← lookup_iff, h]; simp

theorem code_lt (fm : Fmt) : code fm < 256 := by cases fm <;> decide

theorem code_inj {x y : Fmt} (h : code x = code y) : x = y := by
  cases x <;> cases y <;> first | rfl | (exact absurd h (by decide))

theorem readScalar_exact {buf : Bytes} (rn : Nat) :
    Exact buf (readScalar buf rn) ScalarEnc := by
  have h := Exact.bind (buf := buf) (readDataS_exact rn)
    (f := fun name => readDataC buf >>= fun n => checkDataType rn n name >>= fun p =>
      (if p.1 = .dmap then Rd.raise .dmapDataError
       else readData buf rn p.1 p.2 >>= fun v =>
        Pure.pure ({ name := name, value := v, dataType := n, fmt := p.1 } : DmapScalar)))
    (fun name _ => Exact.bind readDataC_exact fun n _ =>
      Exact.bind (checkDataType_exact rn n name) fun p hp =>
        Exact.guard (fun hne => Exact.bind (by
          obtain ⟨bs, ⟨_, h2⟩, _⟩ := hp
          rw [h2]; exact readData_exact rn hne) fun v _ => Exact.pure _))
  have he : readScalar buf rn = (readDataS buf rn >>= fun name => readDataC buf >>= fun n =>
      checkDataType rn n name >>= fun p =>
      (if p.1 = .dmap then Rd.raise .dmapDataError
       else readData buf rn p.1 p.2 >>= fun v =>
        Pure.pure ({ name := name, value := v, dataType := n, fmt := p.1 } : DmapScalar))) := by
    unfold readScalar
    congr 1; funext name; congr 1; funext n; congr 1; funext p
    obtain ⟨fm, sz⟩ := p
    simp only [ne_eq, ite_not]
  rw [he]
  refine Exact.congr h (fun s bs _ => ?_)
  constructor
  · rintro ⟨name, b1, b2, ⟨hn, rfl⟩, ⟨n, b3, b4, ⟨hlt, rfl⟩, ⟨p, b5, b6, ⟨⟨rfl, hp⟩, rfl⟩,
      ⟨hne, v, b7, b8, hv, ⟨rfl, rfl⟩, rfl⟩, rfl⟩, rfl⟩, rfl⟩
    exact ⟨hn, rfl, b7, hv, by simp⟩
  · rintro ⟨hn, hc, vb, hv, rfl⟩
    have hne : s.fmt ≠ .dmap := by intro h0; rw [h0] at hv; cases hv
    refine ⟨s.name, encStr s.name, _, ⟨hn, rfl⟩, ⟨code s.fmt, [UInt8.ofNat (code s.fmt)], vb, ⟨code_lt _, rfl⟩,
      ⟨(s.fmt, cellSize s.fmt), [], vb, ⟨⟨rfl, rfl⟩, rfl⟩, ⟨hne, s.value, vb, [], hv, ⟨?_, rfl⟩, by simp⟩, by simp⟩,
        rfl⟩, by simp⟩
    obtain ⟨nm, v, dt, fm⟩ := s
    simp only at hc
    simp [hc]

end Verif
