import Verif.Borealis.Lemmas.Convert
import Verif.Borealis.SpecConvert
/-!
# Lemmas on `__convert_bfiq_record`
-/
namespace Verif.Bor
open Verif

theorem ints_numbers (l : List Nat) :
    Val.dimsOf.ints (l.map fun n => Elt.int (Int.ofNat n)) = .ok (l.map Int.ofNat) := by
  induction l with
  | nil => rfl
  | cons n l ih => simp only [List.map_cons, Val.dimsOf.ints, ih]; rw [if_pos (show 0 ≤ Int.ofNat n from Int.natCast_nonneg n)]; rfl

theorem toShape_nats (l : List Nat) : toShape (l.map Int.ofNat) = .ok l := by
  induction l with
  | nil => rfl
  | cons n l ih => simp [toShape, ih, bind, Except.bind]

theorem numbers_dims (l : List Nat) : (numbers l).dimsOf = .ok l := by
  unfold numbers Val.dimsOf
  simp only [ints_numbers, bind, Except.bind]
  exact toShape_nats l

theorem wrapInt_ok (k : Nat) (n : Int) (hk : 256 ^ k % 2 = 0) : signedOk k (wrapInt k n) := by
  unfold wrapInt
  have hp := pow256_pos k
  have hm := Int.emod_lt_of_pos n (b := ((256 ^ k : Nat) : Int)) (by omega)
  have hm0 := Int.emod_nonneg n (b := ((256 ^ k : Nat) : Int)) (by omega)
  exact toSigned_ok (by omega) hk

theorem wrapInt_eq {k : Nat} {n : Int} (h : signedOk k n) : wrapInt k n = n := by
  have := toSigned_intLE h
  unfold intLE at this
  rw [leNat_natLE] at this
  unfold wrapInt
  have hp := pow256_pos k
  have hm := Int.emod_lt_of_pos n (b := ((256 ^ k : Nat) : Int)) (by omega)
  have hm0 := Int.emod_nonneg n (b := ((256 ^ k : Nat) : Int)) (by omega)
  rwa [Nat.mod_eq_of_lt (by omega)] at this

theorem pyIntTo_eq (cfg : NpCfg) {k : Nat} {n : Int} (hk : 256 ^ k % 2 = 0) (h : signedOk k n) :
    pyIntTo cfg k n = .ok n := by
  have hc : npIntCast cfg true k n = .ok n := by
    unfold npIntCast
    unfold signedOk at h
    rw [if_pos]
    simp only [if_true]
    generalize 256 ^ k = M at *
    omega
  unfold pyIntTo
  rw [hc]

theorem pyIntTo_ok {cfg : NpCfg} {k : Nat} {n v : Int} (hk : 256 ^ k % 2 = 0) (h : pyIntTo cfg k n = .ok v) :
    signedOk k v := by
  by_cases hs : signedOk k n
  · rw [pyIntTo_eq cfg hk hs] at h
    cases h
    exact hs
  · unfold pyIntTo npIntCast at h
    have hn : ¬ (-((256 ^ k : Nat) : Int) / 2 ≤ n ∧ n < ((256 ^ k : Nat) : Int) / 2) := by
      unfold signedOk at hs
      generalize 256 ^ k = M at *
      omega
    simp only [if_true] at h
    rw [if_neg hn] at h
    by_cases hw : cfg.intWraps = true
    · rw [if_pos hw] at h
      cases h
      exact wrapInt_ok k n hk
    · rw [if_neg hw] at h
      cases h

/-- What is needed to convert a bfiq record. -/
theorem convertBfiq_ok {cfg : NpCfg} {ops : Ops} {s : Source} {recs : List PlainRec} {a : NdArr} {norm : Val}
    {beams : List Elt} {na nq ns : Nat} (hr : BfiqRec s.fields a norm beams na nq ns)
    (h : convertBfiq cfg ops s = .ok recs) :
    ∃ rev order, Dict.get? s.fields (py! "antenna_arrays_order") = some (.arr order) ∧ order.shape = [na] ∧
      (∃ t, Dict.get? s.fields (py! "borealis_git_hash") = some t ∧ ∃ u, t.text = .ok u ∧ revisions u = .ok rev) ∧
      mapE (fun p => iqdatRecord cfg ops s rev ⟨a.ty, [na, nq, beams.length, ns], a.data⟩ norm ns nq order p.2 p.1)
        (enumFrom 0 beams) = .ok recs := by
  unfold convertBfiq at h
  obtain ⟨v, h1, h⟩ := bind_ok h
  rw [field_iff, hr.dims] at h1
  cases h1
  rw [numbers_dims] at h
  obtain ⟨dims, h1, h⟩ := bind_ok h
  cases h1
  obtain ⟨v, h1, h⟩ := bind_ok h
  rw [field_iff, hr.data] at h1
  cases h1
  obtain ⟨v, h1, h⟩ := bind_ok h
  rw [Val.reshape, if_pos (by rw [hr.size]; simp [prod])] at h1
  cases h1
  obtain ⟨v, h1, h⟩ := bind_ok h
  cases h1
  obtain ⟨v, h1, h⟩ := bind_ok h
  rw [field_iff, hr.norm] at h1
  cases h1
  obtain ⟨t, ht, h⟩ := bind_ok h
  obtain ⟨u, hu, h⟩ := bind_ok h
  obtain ⟨rev, hrev, h⟩ := bind_ok h
  obtain ⟨v, h1, h⟩ := bind_ok h
  obtain ⟨o, ho, hos⟩ := hr.order
  rw [field_iff, ho] at h1
  cases h1
  obtain ⟨v, h1, h⟩ := bind_ok h
  cases h1
  obtain ⟨v, h1, h⟩ := bind_ok h
  obtain ⟨v, h1, h⟩ := bind_ok h
  rw [field_iff, hr.samps] at h1
  cases h1
  obtain ⟨v, h1, h⟩ := bind_ok h
  cases h1
  obtain ⟨v, h1, h⟩ := bind_ok h
  obtain ⟨be, hbe, hbs, hbd⟩ := hr.beams
  rw [field_iff, hbe] at h1
  cases h1
  obtain ⟨v, h1, h⟩ := bind_ok h
  rw [Val.elems, hbs] at h1
  cases h1
  obtain ⟨v, h1, h⟩ := bind_ok h
  rw [field_iff, hr.seqs] at h1
  cases h1
  obtain ⟨v, h1, h⟩ := bind_ok h
  cases h1
  rw [hbd] at h
  exact ⟨rev, o, ho, hos, ⟨t, field_iff.1 ht, u, hu, hrev⟩, h⟩

end Verif.Bor

namespace Verif.Bor
open Verif

theorem elementAt_vec {dt : DType} {n : Nat} {l : List Bytes} {i : Nat} {x : Bytes} (hl : l.length = n)
    (h : l[i]? = some x) : Spec.elementAt ⟨dt, [n], l⟩ [i] = some x := by
  have hi : i < l.length := by
    obtain ⟨hi, _⟩ := List.getElem?_eq_some_iff.1 h
    exact hi
  have : Spec.rowMajor [n] [i] = some i := by simp [Spec.rowMajor, Spec.prod, hl ▸ hi]
  simp only [Spec.elementAt, this, Option.bind_some, h]

theorem i16At_vec {n : Nat} {l : List Int} {i : Nat} {v : Int} (hl : l.length = n) (h : l[i]? = some v)
    (hv : signedOk 2 v) : i16At ⟨.int16, [n], l.map (intLE 2)⟩ [i] = some v := by
  unfold i16At signedAt
  simp only [if_true]
  rw [elementAt_vec (x := intLE 2 v) (by simpa using hl) (by simp [h])]
  simp [toSigned_intLE hv]

theorem i32At_vec {n : Nat} {l : List Int} {i : Nat} {v : Int} (hl : l.length = n) (h : l[i]? = some v)
    (hv : signedOk 4 v) : i32At ⟨.int32, [n], l.map (intLE 4)⟩ [i] = some v := by
  unfold i32At signedAt
  simp only [if_true]
  rw [elementAt_vec (x := intLE 4 v) (by simpa using hl) (by simp [h])]
  simp [toSigned_intLE hv]

theorem i32_ok {x : Except Err Int} {v : PlainVal} (h : i32 x = .ok v) :
    ∃ n, x = .ok n ∧ v = .scalar (.np .int32) (.int n) := by
  obtain ⟨n, h1, h⟩ := bind_ok h
  cases h
  exact ⟨n, h1, rfl⟩

theorem i16_ok {x : Except Err Int} {v : PlainVal} (h : i16 x = .ok v) :
    ∃ n, x = .ok n ∧ v = .scalar (.np .int16) (.int n) := by
  obtain ⟨n, h1, h⟩ := bind_ok h
  cases h
  exact ⟨n, h1, rfl⟩

theorem i8_ok {x : Except Err Int} {v : PlainVal} (h : i8 x = .ok v) :
    ∃ n, x = .ok n ∧ v = .scalar (.np .int8) (.int n) := by
  obtain ⟨n, h1, h⟩ := bind_ok h
  cases h
  exact ⟨n, h1, rfl⟩

theorem f32_ok {x : Except Err (BitVec 32)} {v : PlainVal} (h : f32 x = .ok v) :
    ∃ n, x = .ok n ∧ v = .scalar (.np .float32) (.f32 n) := by
  obtain ⟨n, h1, h⟩ := bind_ok h
  cases h
  exact ⟨n, h1, rfl⟩

theorem text_ok {x : Except Err PyStr} {v : PlainVal} (h : text x = .ok v) :
    ∃ n, x = .ok n ∧ v = .scalar .str (.str n) := by
  obtain ⟨n, h1, h⟩ := bind_ok h
  cases h
  exact ⟨n, h1, rfl⟩

/-- An int32 entry. -/
theorem entry_i32 {l : List Entry} {d : PlainRec} (h : dictOf l = .ok d) {k : PyStr} {x : Except Err Int}
    (hk : Dict.get? l k = some (i32 x)) : ∃ n, x = .ok n ∧ intField d k = some n := by
  obtain ⟨v, h1, h2⟩ := entry_get h hk
  obtain ⟨n, h3, rfl⟩ := i32_ok h1
  exact ⟨n, h3, by simp [intField, h2]⟩

/-- An int8 entry. -/
theorem entry_i8 {l : List Entry} {d : PlainRec} (h : dictOf l = .ok d) {k : PyStr} {x : Except Err Int}
    (hk : Dict.get? l k = some (i8 x)) : ∃ n, x = .ok n ∧ intField d k = some n := by
  obtain ⟨v, h1, h2⟩ := entry_get h hk
  obtain ⟨n, h3, rfl⟩ := i8_ok h1
  exact ⟨n, h3, by simp [intField, h2]⟩

/-- An int16 entry. -/
theorem entry_i16 {l : List Entry} {d : PlainRec} (h : dictOf l = .ok d) {k : PyStr} {x : Except Err Int}
    (hk : Dict.get? l k = some (i16 x)) : ∃ n, x = .ok n ∧ intField d k = some n := by
  obtain ⟨v, h1, h2⟩ := entry_get h hk
  obtain ⟨n, h3, rfl⟩ := i16_ok h1
  exact ⟨n, h3, by simp [intField, h2]⟩

/-- A float32 entry. -/
theorem entry_f32 {l : List Entry} {d : PlainRec} (h : dictOf l = .ok d) {k : PyStr} {x : Except Err (BitVec 32)}
    (hk : Dict.get? l k = some (f32 x)) : ∃ n, x = .ok n ∧ f32Field d k = some n := by
  obtain ⟨v, h1, h2⟩ := entry_get h hk
  obtain ⟨n, h3, rfl⟩ := f32_ok h1
  exact ⟨n, h3, by simp [f32Field, h2]⟩

/-- A text entry. -/
theorem entry_text {l : List Entry} {d : PlainRec} (h : dictOf l = .ok d) {k : PyStr} {x : Except Err PyStr}
    (hk : Dict.get? l k = some (text x)) : ∃ n, x = .ok n ∧ textField d k = some n := by
  obtain ⟨v, h1, h2⟩ := entry_get h hk
  obtain ⟨n, h3, rfl⟩ := text_ok h1
  exact ⟨n, h3, by simp [textField, h2]⟩

/-- An array entry. -/
theorem entry_arr {l : List Entry} {d : PlainRec} (h : dictOf l = .ok d) {k : PyStr} {a : Verif.NdArr}
    (hk : Dict.get? l k = some (.ok (.arr a))) : arrField d k = some a := by
  simp [arrField, entry_ok h hk]

theorem signedOk4 {n : Nat} (h : n < 2 ^ 31) : signedOk 4 (n : Int) := by unfold signedOk; omega

end Verif.Bor
