import Verif.Dmap.SpecWriteMessages
import Verif.Dmap.Lemmas.WriteErrors
import Verif.Dmap.Lemmas.Written
import Verif.Dmap.Lemmas.Messages
/-!
# The writer with texts
-/
namespace Verif
open Spec

/-- An exception without its text. -/
def untoldX {α : Type} : Except Exc α → Except Err α
  | .ok a => .ok a
  | .error e => .error e.err

/-- An exception of Python itself. -/
def Untexted (e : Exc) : Prop := e.text = none ∧ className e.err = none

theorem chrEncode_plain {v : Int} {e : Err} (h : chrEncode v = .error e) : className e = none := by
  cases chrEncode_err (rn := 0) h <;> first | rfl | (exfalso; unfold chrEncode at h; (repeat' split at h) <;> cases h)

theorem packSigned_plain {k : Nat} {v : Int} {e : Err} (h : packSigned k v = .error e) : className e = none := by
  unfold packSigned at h
  (repeat' split at h) <;> cases h <;> rfl

theorem packUnsigned_plain {k : Nat} {v : Int} {e : Err} (h : packUnsigned k v = .error e) : className e = none := by
  unfold packUnsigned at h
  (repeat' split at h) <;> cases h <;> rfl

theorem typeByte_plain {v : Int} {e : Err} (h : typeByte v = .error e) : className e = none := by
  unfold typeByte at h
  cases hc : chrEncode v with
  | error e' => rw [hc] at h; cases h; exact chrEncode_plain hc
  | ok b =>
    rw [hc] at h
    simp only [Bind.bind, Except.bind] at h
    split at h <;> cases h
    rfl

theorem scalarValueBytes_plain {rn : Nat} {s : DmapScalar} {e : Err} (h : scalarValueBytes rn s = .error e)
    (hn : ¬ (s.fmt = .c ∧ ∃ x, s.value = .str x)) : className e = none := by
  unfold scalarValueBytes at h
  split at h
  all_goals first
    | (cases h; done)
    | (cases h; rfl; done)
    | exact chrEncode_plain h
    | exact packSigned_plain h
    | exact packUnsigned_plain h
    | (split at h <;> cases h; rfl)
    | (exfalso; apply hn; constructor; assumption; constructor; assumption)

theorem packShape_plain {l : List Int} {e : Err} (h : packShape l = .error e) : className e = none := by
  induction l with
  | nil => cases h
  | cons x l ih =>
    simp only [packShape] at h
    cases h1 : packSigned 4 x with
    | error e' => rw [h1] at h; cases h; exact packSigned_plain h1
    | ok b =>
      cases h2 : packShape l with
      | error e' => rw [h1, h2] at h; cases h; exact ih h2
      | ok bs => rw [h1, h2] at h; cases h

theorem appendInts_plain {l : List Int} {buf buf' : Bytes} {e : Err} (h : appendInts buf l = (.error e, buf')) : className e = none := by
  induction l generalizing buf with
  | nil => cases h
  | cons v l ih =>
    simp only [appendInts, appendInt] at h
    split at h
    · rename_i h1
      split at h1
      · rename_i h2; cases h1; cases h; exact packSigned_plain h2
      · cases h1
    · exact ih h

theorem untoldX_plainly {α : Type} (x : Except Err α) : untoldX (plainly x) = x := by cases x <;> rfl

/-- A scalar with and without texts. -/
theorem scalarToBytesM_spec (sh : Shown) (fn k : PyStr) (rn : Nat) (s : DmapScalar) :
    untoldX (scalarToBytesM sh rn s) = scalarToBytes rn s ∧
      ∀ e, scalarToBytesM sh rn s = .error e → Untexted e ∨
        className e.err ≠ none ∧ ∃ t, e.text = some t ∧ SaysWhy sh fn rn (k, .scalar s) t := by
  unfold scalarToBytesM scalarToBytes
  cases h1 : typeByte s.dataType with
  | error e' =>
    refine ⟨rfl, fun e he => ?_⟩
    cases he
    exact .inl ⟨rfl, typeByte_plain h1⟩
  | ok tb =>
    by_cases hc : s.fmt = .c ∧ ∃ x, s.value = .str x
    · obtain ⟨hf, x, hx⟩ := hc
      have hv : scalarValueBytes rn s = .error (.dmapCharError s.name rn) := by
        unfold scalarValueBytes
        rw [hf, hx]
      have hm : scalarValueBytesM sh rn s = .error ⟨.dmapCharError s.name rn, some (charErrorText sh s.name rn)⟩ := by
        unfold scalarValueBytesM
        rw [hf, hx]
      rw [hv, hm]
      refine ⟨rfl, fun e he => ?_⟩
      cases he
      refine .inr ⟨by simp [className], _, rfl, ?_⟩
      have := SaysWhy.charScalar (sh := sh) (fn := fn) (n := rn) (k := k) hf hx
      simpa [fillIn, charErrorText] using this
    · have hm : scalarValueBytesM sh rn s = plainly (scalarValueBytes rn s) := by
        unfold scalarValueBytesM
        split
        · rename_i h1 h2
          exact absurd ⟨h1, _, h2⟩ hc
        · rfl
      rw [hm]
      cases h2 : scalarValueBytes rn s with
      | error e' =>
        refine ⟨rfl, fun e he => ?_⟩
        cases he
        exact .inl ⟨rfl, scalarValueBytes_plain h2 hc⟩
      | ok vb => exact ⟨rfl, nofun⟩

theorem arrayTypeCheckM_spec (sh : Shown) (fn k : PyStr) (rn : Nat) (a : DmapArray) :
    untoldX (arrayTypeCheckM sh fn rn a) = arrayTypeCheck rn a ∧
      ∀ e, arrayTypeCheckM sh fn rn a = .error e → Untexted e ∨
        className e.err ≠ none ∧ ∃ t, e.text = some t ∧ SaysWhy sh fn rn (k, .array a) t := by
  have hp : ∀ (x : Except Err Unit), (∀ e, x = .error e → className e = none) → untoldX (plainly x) = x ∧
      ∀ e, plainly x = .error e → Untexted e ∨ className e.err ≠ none ∧ ∃ t, e.text = some t ∧ SaysWhy sh fn rn (k, .array a) t := by
    intro x hx
    refine ⟨untoldX_plainly x, fun e he => ?_⟩
    cases x with
    | ok u => cases he
    | error e' =>
      cases he
      exact .inl ⟨rfl, hx _ rfl⟩
  have hok := hp (.ok ()) nofun
  have hix := hp (.error .indexError) (fun e h => by cases h; rfl)
  unfold arrayTypeCheckM arrayTypeCheck
  cases hf : a.fmt
  case c =>
    cases hs : a.value.shape with
    | nil => exact hix
    | cons d ds =>
      cases d with
      | zero => exact hix
      | succ d =>
        cases ds with
        | cons _ _ => exact hok
        | nil =>
          cases hd : a.value.dtype
          case other m b =>
            cases b with
            | false => exact hok
            | true =>
              refine ⟨rfl, fun e he => ?_⟩
              cases he
              refine .inr ⟨by simp [className], _, rfl, ?_⟩
              have := SaysWhy.charArray (sh := sh) (fn := fn) (n := rn) (k := k) hf hd
              simpa [fillIn, charErrorText] using this
          all_goals exact hok
  case s =>
    refine ⟨rfl, fun e he => ?_⟩
    cases he
    refine .inr ⟨by simp [className], _, rfl, ?_⟩
    have := SaysWhy.strings (sh := sh) (fn := fn) (n := rn) (k := k) hf
    simpa [fillIn, stringArrayText, dataText] using this
  all_goals exact hok

/-- An array with and without texts. -/
theorem arrayToBytesM_spec (sh : Shown) (fn k : PyStr) (rn : Nat) (a : DmapArray) :
    untold (arrayToBytesM sh fn rn a) = arrayToBytes rn a ∧
      ∀ e a', arrayToBytesM sh fn rn a = (.error e, a') → Untexted e ∨
        className e.err ≠ none ∧ ∃ t, e.text = some t ∧ SaysWhy sh fn rn (k, .array a) t := by
  obtain ⟨h1, h2⟩ := arrayTypeCheckM_spec sh fn k rn a
  unfold arrayToBytesM
  cases hc : arrayTypeCheckM sh fn rn a with
  | error e =>
    rw [hc] at h1
    unfold arrayToBytes
    rw [← h1]
    refine ⟨rfl, fun e' a' he => ?_⟩
    cases he
    exact h2 e hc
  | ok u =>
    rw [hc] at h1
    have hr : arrayToBytes rn a = ((arrayToBytes rn a).1, (arrayToBytes rn a).2) := rfl
    generalize (arrayToBytes rn a).1 = res at hr
    generalize (arrayToBytes rn a).2 = a1 at hr
    simp only [hr]
    cases res with
    | ok b => exact ⟨rfl, fun e a' he => nomatch (Prod.mk.inj he).1⟩
    | error e' =>
      refine ⟨rfl, fun e a' he => ?_⟩
      obtain ⟨he, -⟩ := Prod.mk.inj he
      cases he
      refine .inl ⟨rfl, ?_⟩
      unfold arrayToBytes at hr
      rw [← h1] at hr
      simp only [untoldX] at hr
      split at hr
      · rename_i h1; cases hr; exact typeByte_plain h1
      · split at hr
        · rename_i h1; cases hr; exact packSigned_plain h1
        · split at hr
          · rename_i h1; cases hr; exact packShape_plain h1
          · cases hr

/-- The first field that cannot be written, and its text. -/
def SaysFirst (sh : Shown) (fn : PyStr) (rn : Nat) (r : Rec) (e : Exc) : Prop :=
  className e.err ≠ none ∧ ∃ pre p post b t, r = pre ++ p :: post ∧ Written rn pre b ∧ e.text = some t ∧ SaysWhy sh fn rn p t

theorem encodeFieldsM_spec (sh : Shown) (fn : PyStr) (rn : Nat) (r : Rec) :
    untold (encodeFieldsM sh fn rn r) = encodeFields rn r ∧
      ∀ e r', encodeFieldsM sh fn rn r = (.error e, r') → Untexted e ∨ SaysFirst sh fn rn r e := by
  induction r with
  | nil => exact ⟨rfl, nofun⟩
  | cons p r ih =>
    obtain ⟨k, f⟩ := p
    obtain ⟨i1, i2⟩ := ih
    cases f with
    | other =>
      refine ⟨rfl, fun e r' he => ?_⟩
      cases he
      refine .inr ⟨by simp [className], [], _, r, [], _, rfl, .nil, rfl, ?_⟩
      have := SaysWhy.other (sh := sh) (fn := fn) (n := rn) (k := k)
      simpa [fillIn, typeErrorText] using this
    | scalar s =>
      obtain ⟨h1, h2⟩ := scalarToBytesM_spec sh fn k rn s
      simp only [encodeFieldsM, encodeFields]
      rw [← h1, ← i1]
      cases hs : scalarToBytesM sh rn s with
      | error e =>
        refine ⟨rfl, fun e' r' he => ?_⟩
        cases he
        rcases h2 e hs with h | ⟨hc, t, ht, hw⟩
        · exact .inl h
        · exact .inr ⟨hc, [], _, r, [], t, rfl, .nil, ht, hw⟩
      | ok b =>
        simp only [untoldX]
        rcases hr : encodeFieldsM sh fn rn r with ⟨res, r1⟩
        cases res with
        | ok enc => exact ⟨rfl, nofun⟩
        | error e =>
          refine ⟨rfl, fun e' r' he => ?_⟩
          cases he
          rcases i2 e r1 hr with h | ⟨hc, pre, p, post, b', t, hp, hw, ht, hs'⟩
          · exact .inl h
          · refine .inr ⟨hc, (k, .scalar s) :: pre, p, post, _, t, by rw [hp]; rfl, .scalar (b := b) ?_ hw, ht, hs'⟩
            rw [← h1, hs]
            rfl
    | array a =>
      obtain ⟨h1, h2⟩ := arrayToBytesM_spec sh fn k rn a
      simp only [encodeFieldsM, encodeFields]
      rw [← h1, ← i1]
      rcases hs : arrayToBytesM sh fn rn a with ⟨res, a'⟩
      cases res with
      | error e =>
        refine ⟨rfl, fun e' r' he => ?_⟩
        cases he
        rcases h2 e _ hs with h | ⟨hc, t, ht, hw⟩
        · exact .inl h
        · exact .inr ⟨hc, [], _, r, [], t, rfl, .nil, ht, hw⟩
      | ok b =>
        simp only [untold]
        rcases hr : encodeFieldsM sh fn rn r with ⟨res, r1⟩
        cases res with
        | ok enc => exact ⟨rfl, nofun⟩
        | error e =>
          refine ⟨rfl, fun e' r' he => ?_⟩
          cases he
          rcases i2 e r1 hr with h | ⟨hc, pre, p, post, b', t, hp, hw, ht, hs'⟩
          · exact .inl h
          · refine .inr ⟨hc, (k, .array a) :: pre, p, post, _, t, by rw [hp]; rfl, .array (b := b) ?_ hw, ht, hs'⟩
            rw [hs] at h1
            have h1 : (.ok b, a') = arrayToBytes rn a := h1
            rw [← h1, arrayToBytes_left_ok h1.symm]

theorem recordToBytesM_spec (sh : Shown) (fn : PyStr) (rn : Nat) (buf : Bytes) (r : Rec) :
    untold (recordToBytesM sh fn rn buf r) = recordToBytes rn buf r ∧
      ∀ e x, recordToBytesM sh fn rn buf r = (.error e, x) → Untexted e ∨ SaysFirst sh fn rn r e := by
  obtain ⟨h1, h2⟩ := encodeFieldsM_spec sh fn rn r
  unfold recordToBytesM recordToBytes
  rw [← h1]
  rcases hr : encodeFieldsM sh fn rn r with ⟨res, r1⟩
  cases res with
  | error e =>
    refine ⟨rfl, fun e' x he => ?_⟩
    cases he
    exact h2 _ _ hr
  | ok enc =>
    simp only [untold]
    rcases ha : appendInts buf [encodingIdentifier, enc.data.length + 16, enc.numScalars, enc.numArrays] with ⟨res, b⟩
    cases res with
    | ok u => exact ⟨rfl, nofun⟩
    | error e =>
      refine ⟨rfl, fun e' x he => ?_⟩
      cases he
      exact .inl ⟨rfl, appendInts_plain ha⟩

theorem recordsToBytesM_spec (sh : Shown) (fn : PyStr) (rs : List Rec) : ∀ k rn buf,
    untold (recordsToBytesM sh fn k rn buf rs) = recordsToBytes k rn buf rs ∧
      ∀ e b n l, recordsToBytesM sh fn k rn buf rs = (.error e, b, n, l) →
        Untexted e ∨ ∃ good bad rest, rs = good ++ bad :: rest ∧ n = k + good.length ∧ SaysFirst sh fn n bad e := by
  induction rs with
  | nil => exact fun _ _ _ => ⟨rfl, nofun⟩
  | cons r rs ih =>
    intro k rn buf
    obtain ⟨h1, h2⟩ := recordToBytesM_spec sh fn k buf r
    simp only [recordsToBytesM, recordsToBytes]
    rw [← h1]
    rcases hr : recordToBytesM sh fn k buf r with ⟨res, b1, r1⟩
    cases res with
    | error e =>
      refine ⟨rfl, fun e' b n l he => ?_⟩
      cases he
      rcases h2 _ _ hr with h | h
      · exact .inl h
      · exact .inr ⟨[], r, rs, rfl, rfl, h⟩
    | ok u =>
      simp only [untold]
      obtain ⟨i1, i2⟩ := ih (k + 1) k b1
      rw [← i1]
      rcases hs : recordsToBytesM sh fn (k + 1) k b1 rs with ⟨res, b2, n2, l2⟩
      cases res with
      | ok u => exact ⟨rfl, nofun⟩
      | error e =>
        refine ⟨rfl, fun e' b n l he => ?_⟩
        cases he
        rcases i2 _ _ _ _ hs with h | ⟨good, bad, rest, e1, e2, e3⟩
        · exact .inl h
        · exact .inr ⟨r :: good, bad, rest, by rw [e1]; rfl, by show n2 = _; rw [e2, List.length_cons]; omega, e3⟩

end Verif
