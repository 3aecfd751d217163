import Verif.Borealis.Lemmas.ConvertSuccess
/-!
# Lemmas on the header of converted records
-/
namespace Verif.Bor
open Verif

theorem signedOk2 {n : Int} (h : Is16 n) : signedOk 2 n := by unfold Is16 at h; unfold signedOk; omega

/-- A number of the record. -/
theorem source_i16 {cfg : NpCfg} {ops : Ops} {s : Source} {l : List Entry} {d : PlainRec} {k k' : PyStr} {n : Int}
    (h : dictOf l = .ok d) (hk : Dict.get? l k = some (s.i16 cfg ops k')) (hn : IsInt (Dict.get? s.fields k') n)
    (h16 : Is16 n) : intField d k = some n := by
  obtain ⟨t, hn, ht⟩ := hn
  obtain ⟨m, h1, h2⟩ := entry_i16 h hk
  rw [bind_of_ok (field_iff.2 hn), npI16_int ht, wrapInt_eq (signedOk2 h16)] at h1
  cases h1
  exact h2

theorem source_status {cfg : NpCfg} {ops : Ops} {s : Source} {l : List Entry} {d : PlainRec} {k k' : PyStr}
    (h : dictOf l = .ok d) (hk : Dict.get? l k = some (s.status cfg ops k')) :
    (∀ n, IsInt (Dict.get? s.fields k') n → Is16 n → intField d k = some n) ∧
    (Dict.get? s.fields k' = none → intField d k = some 0) := by
  obtain ⟨m, h1, h2⟩ := entry_i16 h hk
  constructor
  · rintro n ⟨t, hn, ht⟩ h16
    rw [hn] at h1
    simp only [npI16_int ht, wrapInt_eq (signedOk2 h16)] at h1
    cases h1
    exact h2
  · intro hn
    rw [hn] at h1
    simp only [pyIntTo_eq cfg (k := 2) (n := 0) rfl (by unfold signedOk; omega)] at h1
    cases h1
    exact h2

theorem flt_of {v : Option Val} {e : Elt} (h : IsFloat v e) : ∃ w, v = some w ∧ w.flt = .ok e := by
  rcases h with h | h
  · exact ⟨_, h, rfl⟩
  · exact ⟨_, h, rfl⟩

theorem source_fl16 {g : Elt → BitVec 16} {s : Source} {l : List Entry} {d : PlainRec} {k k' : PyStr} {e : Elt}
    (h : dictOf l = .ok d) (hk : Dict.get? l k = some (s.fl16 g k')) (he : IsFloat (Dict.get? s.fields k') e) :
    intField d k = some (g e).toInt := by
  obtain ⟨w, hw, hf⟩ := flt_of he
  obtain ⟨m, h1, h2⟩ := entry_i16 h hk
  rw [bind_of_ok (field_iff.2 hw), bind_of_ok hf] at h1
  cases h1
  exact h2

theorem source_round {cfg : NpCfg} {ops : Ops} {s : Source} {l : List Entry} {d : PlainRec} {k k' : PyStr} {e : Elt}
    {n : Int} (h : dictOf l = .ok d) (hk : Dict.get? l k = some (s.round16 cfg ops k'))
    (he : IsFloat (Dict.get? s.fields k') e) (hn : ops.round e = .ok n) (h16 : Is16 n) : intField d k = some n := by
  obtain ⟨w, hw, hf⟩ := flt_of he
  obtain ⟨m, h1, h2⟩ := entry_i16 h hk
  rw [bind_of_ok (field_iff.2 hw), bind_of_ok hf, bind_of_ok hn, pyIntTo_eq cfg rfl (signedOk2 h16)] at h1
  cases h1
  exact h2

theorem elems_ok {v : Val} {l : List Elt} (h : v.elems = .ok l) : ∃ a n, v = .arr a ∧ a.shape = [n] ∧ a.data = l := by
  unfold Val.elems at h
  split at h
  · rename_i a
    split at h
    · rename_i n hs
      cases h
      exact ⟨a, n, rfl, hs, rfl⟩
    · cases h
  · cases h

theorem at_ok {α : Type} {l : List α} {i : Nat} {x : α} (h : at_ l i = .ok x) : l[i]? = some x := by
  unfold at_ at h
  split at h
  · rename_i y hy; cases h; exact hy
  · cases h

theorem first_ok {r : Rec} {k : PyStr} {e : Elt}
    (h : (do at_ (← (← field r k).elems) 0 : Except Err Elt) = .ok e) : IsFirst (Dict.get? r k) e := by
  obtain ⟨v, h1, h⟩ := bind_ok h
  obtain ⟨l, h2, h⟩ := bind_ok h
  obtain ⟨a, n, rfl, h3, rfl⟩ := elems_ok h2
  exact ⟨a, n, field_iff.1 h1, h3, at_ok h⟩

theorem date_ok {ops : Ops} {s : Source} {x : Date} (h : s.date ops = .ok x) :
    ∃ e, IsFirst (Dict.get? s.fields (py! "sqn_timestamps")) e ∧ ops.utc e = .ok x := by
  unfold Source.date at h
  obtain ⟨v, h1, h⟩ := bind_ok h
  obtain ⟨l, h2, h⟩ := bind_ok h
  obtain ⟨a, n, rfl, h4, rfl⟩ := elems_ok h2
  obtain ⟨e, h3, h⟩ := bind_ok h
  exact ⟨e, ⟨a, n, field_iff.1 h1, h4, at_ok h3⟩, h⟩

/-- A part of the date. -/
theorem source_date {ops : Ops} {s : Source} {l : List Entry} {d : PlainRec} {k : PyStr} {x : Date}
    (hx : s.date ops = .ok x) {g : Date → BitVec 16} (h : dictOf l = .ok d)
    (hk : Dict.get? l k = some (i16 (do .ok (g (← s.date ops)).toInt))) : intField d k = some (g x).toInt := by
  obtain ⟨m, h1, h2⟩ := entry_i16 h hk
  rw [bind_of_ok hx] at h1
  cases h1
  exact h2

theorem rowMajor_eq {s idx : List Nat} : Spec.rowMajor s idx = if inBounds s idx then some (ravel s idx) else none := by
  induction s generalizing idx with
  | nil => cases idx <;> rfl
  | cons n s ih =>
    cases idx with
    | nil => rfl
    | cons i idx =>
      simp only [Spec.rowMajor, ih, inBounds, ravel]
      by_cases hi : i < n
      · by_cases hb : inBounds s idx
        · have : Spec.prod s = prod s := prod_eq s
          simp [hi, hb, this]
        · simp [hi, hb]
      · simp [hi]

theorem table_ok {ops : Ops} {s : Source} {l : List Entry} {d : PlainRec} {k k' : PyStr} (h : dictOf l = .ok d)
    (hk : Dict.get? l k = some (do asI16 ops (← field s.fields k'))) :
    SameTable (Dict.get? s.fields k') (arrField d k) := by
  obtain ⟨v, h1, h2⟩ := entry_get h hk
  obtain ⟨w, h3, h1⟩ := bind_ok h1
  obtain ⟨a, h4, h1⟩ := bind_ok h1
  cases w <;> cases h4
  cases h1
  refine ⟨a, _, field_iff.1 h3, (by simp only [arrField, h2, arr16]; rfl), rfl, fun idx n hn h16 => ?_⟩
  unfold NdArr.get? at hn
  split at hn
  · rename_i hb
    unfold i16At signedAt Spec.elementAt
    simp only [rowMajor_eq, hb, if_true, Option.bind_some, List.getElem?_map, hn, Option.map_some, eltI16,
      wrapInt_eq (signedOk2 h16), toSigned_intLE (signedOk2 h16)]
  · cases hn

theorem get?_append {α : Type} (l l' : Dict PyStr α) (k : PyStr) :
    Dict.get? (l ++ l') k = (Dict.get? l k).or (Dict.get? l' k) := by
  induction l with
  | nil => rfl
  | cons p l ih =>
    obtain ⟨k', v⟩ := p
    simp only [List.cons_append, Dict.get?]
    split
    · rfl
    · exact ih

/-! ## Antennas -/

theorem antennaBits_test {ops : Ops} {l : List Elt} {i : Nat} {e : Elt} (h : l[i]? = some e) :
    (antennaBits ops l).testBit i = ops.isOn e := by
  induction l generalizing i with
  | nil => simp at h
  | cons x l ih =>
    cases i with
    | zero =>
      simp only [List.getElem?_cons_zero, Option.some.injEq] at h
      subst h
      unfold antennaBits
      rw [Nat.testBit_zero]
      by_cases hx : ops.isOn x <;> simp [hx]
    | succ i =>
      simp only [List.getElem?_cons_succ] at h
      rw [← ih h, antennaBits, Nat.testBit_succ]
      congr 1
      split <;> omega

theorem antennaBits_lt {ops : Ops} {l : List Elt} : antennaBits ops l < 2 ^ l.length := by
  induction l with
  | nil => simp [antennaBits]
  | cons x l ih =>
    unfold antennaBits
    rw [List.length_cons, Nat.pow_succ]
    split <;> omega

theorem ofInt_wrap (n : Nat) : BitVec.ofInt 16 (wrapInt 2 n) = BitVec.ofNat 16 n := by
  apply BitVec.eq_of_toNat_eq
  rw [BitVec.toNat_ofInt, BitVec.toNat_ofNat]
  unfold wrapInt toSigned
  simp only [Nat.reducePow]
  omega

end Verif.Bor
