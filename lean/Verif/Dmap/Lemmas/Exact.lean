import Verif.Dmap.Model.Reader
/-!
# Exact reading steps

`Exact buf m R`: started inside the buffer, `m` returns `a` exactly when the
bytes at the cursor are some `bs` with `R a bs`, and then moves the cursor over
them.  The lemmas compose such descriptions; they give both the round trip and
the inversion of the reader.
-/
namespace Verif

/-- The bytes of `buf` from position `c` on begin with `bs`. -/
def At (buf : Bytes) (c : Int) (bs : Bytes) : Prop :=
  ∃ pre suf, buf = pre ++ bs ++ suf ∧ c = (pre.length : Int)

theorem At.bounds {buf bs : Bytes} {c : Int} (h : At buf c bs) :
    0 ≤ c ∧ c + bs.length ≤ buf.length := by
  obtain ⟨pre, suf, rfl, rfl⟩ := h
  simp; omega

theorem at_nil {buf : Bytes} {c : Int} : At buf c [] ↔ 0 ≤ c ∧ c ≤ buf.length := by
  constructor
  · intro h; have := h.bounds; simp at this; exact this
  · intro ⟨h0, h1⟩
    refine ⟨buf.take c.toNat, buf.drop c.toNat, by simp, ?_⟩
    simp only [List.length_take]; omega

theorem at_iff {buf bs : Bytes} {c : Int} :
    At buf c bs ↔ 0 ≤ c ∧ c + bs.length ≤ buf.length ∧ (buf.drop c.toNat).take bs.length = bs := by
  constructor
  · intro h
    refine ⟨h.bounds.1, h.bounds.2, ?_⟩
    obtain ⟨pre, suf, rfl, rfl⟩ := h
    simp [List.append_assoc]
  · intro ⟨h0, h1, h2⟩
    refine ⟨buf.take c.toNat, buf.drop (c.toNat + bs.length), ?_, ?_⟩
    · conv => rhs; rw [← h2]
      rw [List.append_assoc]
      rw [← List.drop_drop]
      have : ((buf.drop c.toNat).take bs.length).length = bs.length := by rw [h2]
      rw [this, List.take_append_drop, List.take_append_drop]
    · simp only [List.length_take]; omega

theorem at_append {buf b1 b2 : Bytes} {c : Int} :
    At buf c (b1 ++ b2) ↔ At buf c b1 ∧ At buf (c + b1.length) b2 := by
  constructor
  · rintro ⟨pre, suf, rfl, rfl⟩
    exact ⟨⟨pre, b2 ++ suf, by simp, rfl⟩, ⟨pre ++ b1, suf, by simp, by simp⟩⟩
  · rintro ⟨h1, h2⟩
    rw [at_iff] at h1 h2 ⊢
    obtain ⟨h10, h11, h12⟩ := h1
    obtain ⟨h20, h21, h22⟩ := h2
    refine ⟨h10, by simp; omega, ?_⟩
    rw [List.length_append, List.take_add, h12, List.drop_drop]
    have : c.toNat + b1.length = (c + b1.length).toNat := by omega
    rw [this, h22]

theorem at_unique {buf b1 b2 : Bytes} {c : Int} (h1 : At buf c b1) (h2 : At buf c b2)
    (hl : b1.length = b2.length) : b1 = b2 := by
  rw [at_iff] at h1 h2
  rw [← h1.2.2, ← h2.2.2, hl]

theorem at_zero_full {buf bs : Bytes} (h : At buf 0 bs) (hl : bs.length = buf.length) : bs = buf := by
  rw [at_iff] at h
  have := h.2.2
  simpa [hl] using this.symm

theorem at_self (buf : Bytes) : At buf 0 buf := ⟨[], [], by simp, rfl⟩

/-- `m`, started inside the buffer, returns `a` iff bytes described by `R a` are at
the cursor. -/
def Exact {α : Type} (buf : Bytes) (m : Rd α) (R : α → Bytes → Prop) : Prop :=
  ∀ (c : Int) (a : α) (c' : Int), 0 ≤ c → c ≤ buf.length →
    (m c = (.ok a, c') ↔ ∃ bs, R a bs ∧ At buf c bs ∧ c' = c + bs.length)

namespace Exact
variable {α β : Type} {buf : Bytes}

theorem congr {m : Rd α} {R R' : α → Bytes → Prop} (h : Exact buf m R)
    (hR : ∀ a bs, bs.length ≤ buf.length → (R a bs ↔ R' a bs)) : Exact buf m R' := by
  intro c a c' h0 h1
  rw [h c a c' h0 h1]
  constructor
  · rintro ⟨bs, h2, h3, h4⟩
    exact ⟨bs, (hR _ _ (by have := h3.bounds; omega)).1 h2, h3, h4⟩
  · rintro ⟨bs, h2, h3, h4⟩
    exact ⟨bs, (hR _ _ (by have := h3.bounds; omega)).2 h2, h3, h4⟩

theorem pure (a : α) : Exact buf (Pure.pure a : Rd α) (fun b bs => b = a ∧ bs = []) := by
  intro c b c' h0 h1
  show (Except.ok a, c) = (Except.ok b, c') ↔ _
  constructor
  · intro h
    injection h with h h'
    injection h with h
    subst h; subst h'
    exact ⟨[], ⟨rfl, rfl⟩, at_nil.2 ⟨h0, h1⟩, by simp⟩
  · rintro ⟨bs, ⟨rfl, rfl⟩, _, h⟩
    simp at h; subst h; rfl

theorem raise (e : Err) : Exact buf (Rd.raise e : Rd α) (fun _ _ => False) := by
  intro c b c' _ _
  simp [Rd.raise]

theorem bind {m : Rd α} {f : α → Rd β} {R : α → Bytes → Prop} {S : α → β → Bytes → Prop}
    (hm : Exact buf m R) (hf : ∀ a, (∃ bs, R a bs) → Exact buf (f a) (S a)) :
    Exact buf (m >>= f) (fun b bs => ∃ a b1 b2, R a b1 ∧ S a b b2 ∧ bs = b1 ++ b2) := by
  intro c b c' h0 h1
  have hdef : (m >>= f) c = match m c with
    | (.ok a, c') => f a c'
    | (.error e, c') => (.error e, c') := rfl
  rw [hdef]
  constructor
  · intro h
    cases hmc : m c with
    | mk r c1 =>
      rw [hmc] at h
      cases r with
      | error e => simp at h
      | ok a =>
        obtain ⟨b1, hR, hat, hc1⟩ := (hm c a c1 h0 h1).1 hmc
        have hb := hat.bounds
        obtain ⟨b2, hS, hat2, hc2⟩ := (hf a ⟨b1, hR⟩ c1 b c' (by omega) (by omega)).1 h
        refine ⟨b1 ++ b2, ⟨a, b1, b2, hR, hS, rfl⟩, ?_, ?_⟩
        · rw [at_append]; exact ⟨hat, hc1 ▸ hat2⟩
        · simp; omega
  · rintro ⟨bs, ⟨a, b1, b2, hR, hS, rfl⟩, hat, hc⟩
    rw [at_append] at hat
    have hb := hat.1.bounds
    have e1 := (hm c a (c + b1.length) h0 h1).2 ⟨b1, hR, hat.1, rfl⟩
    rw [e1]
    refine (hf a ⟨b1, hR⟩ _ b c' (by omega) (by omega)).2 ⟨b2, hS, hat.2, ?_⟩
    simp at hc; omega

/-- A check that raises. -/
theorem guard {p : Prop} [Decidable p] {e : Err} {m : Rd α} {R : α → Bytes → Prop}
    (h : ¬ p → Exact buf m R) :
    Exact buf (if p then Rd.raise e else m) (fun a bs => ¬ p ∧ R a bs) := by
  split
  · intro c a c' _ _
    simp [Rd.raise, *]
  · rename_i hp
    exact (h hp).congr (fun a bs _ => by simp [hp])

end Exact

theorem zeroNegativeCheck_exact {buf : Bytes} (rn : Nat) (x : Int) :
    Exact buf (zeroNegativeCheck rn x) (fun _ bs => 0 < x ∧ bs = []) := by
  have h := Exact.guard (buf := buf) (p := x = 0) (e := .zeroByte rn)
    (fun _ => Exact.guard (p := x < 0) (e := .negativeByte rn) (fun _ => Exact.pure ()))
  refine Exact.congr h (fun a bs _ => ?_)
  constructor
  · rintro ⟨h1, h2, _, h3⟩; exact ⟨by omega, h3⟩
  · rintro ⟨h1, h3⟩; exact ⟨by omega, by omega, rfl, h3⟩

theorem bytesCheck_exact {buf : Bytes} (rn : Nat) (x b : Int) :
    Exact buf (bytesCheck rn x b) (fun _ bs => x ≤ b ∧ bs = []) := by
  have h := Exact.guard (buf := buf) (p := x > b) (e := .mismatchByte rn) (fun _ => Exact.pure ())
  refine Exact.congr h (fun a bs _ => ?_)
  constructor
  · rintro ⟨h1, _, h3⟩; exact ⟨by omega, h3⟩
  · rintro ⟨h1, h3⟩; exact ⟨by omega, rfl, h3⟩

/-- `read_data` of a fixed-size value. -/
theorem readDataN_exact {buf : Bytes} {n : Nat} (hn : 0 < n) :
    Exact buf (readDataN buf n) (fun a bs => a = bs ∧ bs.length = n) := by
  intro c a c' h0 h1
  have hdef : readDataN buf n c = (id (α := Except Err Bytes × Int) <|
      if c ≥ buf.length then (.error .cursorError, c)
      else if (buf.length : Int) - c < n then (.error .cursorError, c)
      else match unpackFrom buf n c with
        | none => (.error (unpackErr c), c)
        | some bs => (.ok bs, c + n)) := by
    show Rd.bind _ _ c = _
    unfold Rd.bind readPre
    simp only [id]
    by_cases h2 : c ≥ buf.length
    · simp [h2]
    · by_cases h3 : (buf.length : Int) - c < n
      · simp [h2, h3]
      · simp only [h2, h3, if_false]
        show Rd.bind _ _ c = _
        unfold Rd.bind Rd.cursor
        simp only
        cases unpackFrom buf n c <;> rfl
  rw [hdef]
  simp only [id]
  unfold unpackFrom
  constructor
  · intro h
    split at h
    · simp at h
    · split at h
      · simp at h
      · rw [if_neg (by omega)] at h
        simp only [Prod.mk.injEq, Except.ok.injEq] at h
        obtain ⟨rfl, rfl⟩ := h
        have hl : ((buf.drop c.toNat).take n).length = n := by
          simp only [List.length_take, List.length_drop]; omega
        refine ⟨_, ⟨rfl, hl⟩, ?_, ?_⟩
        · rw [at_iff]; refine ⟨h0, by omega, by rw [hl]⟩
        · omega
  · rintro ⟨bs, ⟨rfl, hl⟩, hat, rfl⟩
    have hb := hat.bounds
    rw [if_neg (by omega), if_neg (by omega), if_neg (by omega)]
    rw [at_iff] at hat
    have h2 := hat.2.2
    rw [hl] at h2
    rw [if_neg (by omega), h2, hl]

theorem leNat_lt' {bs : Bytes} {k : Nat} (h : bs.length = k) : leNat bs < 256 ^ k := by
  rw [← h]; exact leNat_lt bs

theorem readInt_exact {buf : Bytes} :
    Exact buf (readInt buf) (fun x bs => signedOk 4 x ∧ bs = intLE 4 x) := by
  have h := Exact.bind (buf := buf) (readDataN_exact (n := 4) (by omega))
    (f := fun bs => (Pure.pure (toSigned 4 (leNat bs)) : Rd Int)) (fun a _ => Exact.pure _)
  refine Exact.congr h (fun x bs _ => ?_)
  constructor
  · rintro ⟨a, b1, b2, ⟨rfl, hl⟩, ⟨rfl, rfl⟩, rfl⟩
    refine ⟨toSigned_ok (leNat_lt' hl) (by decide), ?_⟩
    have := intLE_toSigned a
    rw [hl] at this
    simp [this]
  · rintro ⟨h1, rfl⟩
    exact ⟨_, _, [], ⟨rfl, by simp⟩, ⟨(toSigned_intLE h1).symm, rfl⟩, by simp⟩

theorem take_one_drop {buf : Bytes} {k : Nat} (h : k < buf.length) :
    (buf.drop k).take 1 = [buf[k]] := by
  rw [List.drop_eq_getElem_cons h]; rfl

theorem readDataC_exact {buf : Bytes} :
    Exact buf (readDataC buf) (fun x bs => x < 256 ∧ bs = [UInt8.ofNat x]) := by
  intro c a c' h0 h1
  have hdef : readDataC buf c = (id (α := Except Err Nat × Int) <|
      if c ≥ buf.length then (.error .cursorError, c)
      else match pyIndex buf c with
        | none => (.error .indexError, c)
        | some b => (.ok b.toNat, c + 1)) := by
    show Rd.bind _ _ c = _
    unfold Rd.bind readPre
    simp only [id]
    by_cases h2 : c ≥ buf.length
    · simp [h2]
    · have h3 : ¬ ((buf.length : Int) - c < (1 : Nat)) := by omega
      simp only [h2, h3, if_false]
      show Rd.bind _ _ c = _
      unfold Rd.bind Rd.cursor
      simp only
      cases pyIndex buf c <;> rfl
  rw [hdef]
  simp only [id]
  unfold pyIndex
  rw [if_pos h0]
  constructor
  · intro h
    split at h
    · simp at h
    · rename_i hc
      rw [List.getElem?_eq_getElem (by omega)] at h
      simp only [Prod.mk.injEq, Except.ok.injEq] at h
      obtain ⟨rfl, rfl⟩ := h
      refine ⟨[buf[c.toNat]'(by omega)], ⟨UInt8.toNat_lt _, by simp⟩, ?_, by simp⟩
      rw [at_iff]
      refine ⟨h0, by simp; omega, ?_⟩
      simp only [List.length_singleton]
      rw [take_one_drop (by omega)]
  · rintro ⟨bs, ⟨ha, rfl⟩, hat, rfl⟩
    rw [at_iff] at hat
    obtain ⟨_, hb, ht⟩ := hat
    simp only [List.length_singleton] at hb ht
    have hlt : c.toNat < buf.length := by omega
    rw [if_neg (by omega), List.getElem?_eq_getElem hlt]
    rw [take_one_drop hlt] at ht
    simp only [List.cons.injEq, and_true] at ht
    have hn : buf[c.toNat].toNat = a := by rw [ht, toNat_ofNat_lt ha]
    simp [hn]

end Verif
