import Verif.Dmap.Lemmas.File
/-!
# Which exceptions the reader raises
-/
namespace Verif
open Spec

/-- Started at a cursor in `I`, `m` raises only exceptions in `P` and otherwise stops at a
cursor in `J`. -/
def Safe {α : Type} (I J : Int → Prop) (P : Err → Prop) (m : Rd α) : Prop :=
  ∀ c, I c → (∀ e c', m c = (.error e, c') → P e) ∧ (∀ a c', m c = (.ok a, c') → J c')

namespace Safe
variable {α β : Type} {I J K : Int → Prop} {P : Err → Prop}

theorem pure (a : α) : Safe I I P (Pure.pure a : Rd α) := by
  intro c hc
  constructor
  · intro e c' h
    have : (Except.ok a, c) = (Except.error e, c') := h
    simp at this
  · intro b c' h
    rw [rd_pure_ok] at h; rw [h.2]; exact hc

theorem raise {e : Err} (h : P e) : Safe I J P (Rd.raise e : Rd α) := by
  intro c _
  constructor
  · intro e' c' h'
    simp only [Rd.raise, Prod.mk.injEq, Except.error.injEq] at h'
    rw [← h'.1]; exact h
  · intro a c' h'; simp [Rd.raise] at h'

theorem bind {m : Rd α} {f : α → Rd β} (hm : Safe I J P m)
    (hf : ∀ a, Safe J K P (f a)) : Safe I K P (m >>= f) := by
  intro c hc
  have hdef : (m >>= f) c = match m c with
    | (.ok a, c') => f a c'
    | (.error e, c') => (.error e, c') := rfl
  rw [hdef]
  cases hmc : m c with
  | mk r c1 =>
    cases r with
    | error e =>
      constructor
      · intro e' c' h
        simp only [Prod.mk.injEq, Except.error.injEq] at h
        rw [← h.1]; exact (hm c hc).1 e c1 hmc
      · intro a c' h; simp at h
    | ok a => exact hf a c1 ((hm c hc).2 a c1 hmc)

/-- The value read may be used in the rest. -/
theorem bind' {m : Rd α} {f : α → Rd β} (hm : Safe I J P m)
    (hf : ∀ c a c1, I c → m c = (.ok a, c1) →
      (∀ e c', f a c1 = (.error e, c') → P e) ∧ (∀ b c', f a c1 = (.ok b, c') → K c')) :
    Safe I K P (m >>= f) := by
  intro c hc
  have hdef : (m >>= f) c = match m c with
    | (.ok a, c') => f a c'
    | (.error e, c') => (.error e, c') := rfl
  rw [hdef]
  cases hmc : m c with
  | mk r c1 =>
    cases r with
    | error e =>
      constructor
      · intro e' c' h
        simp only [Prod.mk.injEq, Except.error.injEq] at h
        rw [← h.1]; exact (hm c hc).1 e c1 hmc
      · intro a c' h; simp at h
    | ok a => exact hf c a c1 hc hmc

theorem ite {p : Prop} [Decidable p] {m m' : Rd α} (h : p → Safe I J P m) (h' : ¬ p → Safe I J P m') :
    Safe I J P (if p then m else m') := by
  split
  · exact h ‹_›
  · exact h' ‹_›

theorem mono {m : Rd α} {P' : Err → Prop} (h : Safe I J P m) (hP : ∀ e, P e → P' e) : Safe I J P' m :=
  fun c hc => ⟨fun e c' he => hP e ((h c hc).1 e c' he), (h c hc).2⟩

theorem weaken {m : Rd α} {I' J' : Int → Prop} (h : Safe I J P m) (hI : ∀ c, I' c → I c)
    (hJ : ∀ c, J c → J' c) : Safe I' J' P m :=
  fun c hc => ⟨(h c (hI c hc)).1, fun a c' he => hJ c' ((h c (hI c hc)).2 a c' he)⟩

theorem cursor : Safe I I P Rd.cursor := by
  intro c hc
  exact ⟨fun e c' h => by simp [Rd.cursor] at h, fun a c' h => by rw [rd_cursor_ok] at h; rw [h.2]; exact hc⟩

theorem lift {x : Except Err α} (h : ∀ e, x = .error e → P e) : Safe I I P (Rd.lift x) := by
  intro c hc
  simp only [Rd.lift, Prod.mk.injEq]
  exact ⟨fun e c' h' => h e h'.1, fun a c' h' => h'.2 ▸ hc⟩

end Safe

theorem zeroNegativeCheck_safe {I : Int → Prop} {P : Err → Prop} (hP : ∀ e, Documented e → P e) (rn : Nat) (x : Int) :
    Safe I I P (zeroNegativeCheck rn x) := by
  unfold zeroNegativeCheck
  exact .ite (fun _ => .raise (hP _ (.zero rn))) fun _ =>
    .ite (fun _ => .raise (hP _ (.negative rn))) fun _ => Safe.pure ()

theorem bytesCheck_safe {I : Int → Prop} {P : Err → Prop} (hP : ∀ e, Documented e → P e) (rn : Nat) (x b : Int) :
    Safe I I P (bytesCheck rn x b) := by
  unfold bytesCheck
  exact .ite (fun _ => .raise (hP _ (.mismatch rn))) fun _ => Safe.pure ()

theorem checkDataType_safe {I : Int → Prop} {P : Err → Prop} (hP : ∀ e, Documented e → P e) (rn n : Nat) (name : PyStr) :
    Safe I I P (checkDataType rn n name) := by
  unfold checkDataType
  cases dmapDataTypes.lookup n with
  | some p => exact Safe.pure p
  | none => exact .raise (hP _ (.dataType _ _ _))

theorem readPre_safe {I : Int → Prop} {P : Err → Prop} (hP : ∀ e, Documented e → P e) (buf : Bytes) (n : Nat) :
    Safe I (fun c => I c ∧ c < buf.length ∧ c + n ≤ buf.length) P (readPre buf n) := by
  intro c hc
  unfold readPre
  split
  · exact ⟨fun e c' h => by
      simp only [Prod.mk.injEq, Except.error.injEq] at h; rw [← h.1]; exact hP _ .cursor,
      fun a c' h => by simp at h⟩
  · split
    · exact ⟨fun e c' h => by
        simp only [Prod.mk.injEq, Except.error.injEq] at h; rw [← h.1]; exact hP _ .cursor,
        fun a c' h => by simp at h⟩
    · refine ⟨fun e c' h => by simp at h, fun a c' h => ?_⟩
      simp only [Prod.mk.injEq] at h
      rw [← h.2]; exact ⟨hc, by omega, by omega⟩

/-- Any exception of the reader. -/
inductive AnyReadErr : Err → Prop
  | doc {e : Err} : Documented e → AnyReadErr e
  | index : AnyReadErr .indexError
  | unicode : AnyReadErr .unicodeDecodeError
  | value : AnyReadErr .valueError
  | overflow : AnyReadErr .overflowError
  | struct : AnyReadErr .structError

/-- Exceptions of the reader when the cursor is inside the file. -/
inductive PlainReadErr : Err → Prop
  | doc {e : Err} : Documented e → PlainReadErr e
  | index : PlainReadErr .indexError
  | unicode : PlainReadErr .unicodeDecodeError
  | value : PlainReadErr .valueError

/-- Cursor inside the buffer or at its end. -/
def Inside (buf : Bytes) (c : Int) : Prop := 0 ≤ c ∧ c ≤ buf.length

section general

theorem readDataC_any (buf : Bytes) : Safe (fun _ => True) (fun _ => True) AnyReadErr (readDataC buf) := by
  unfold readDataC
  refine .bind (readPre_safe (fun _ => .doc) buf 1) fun _ => .bind .cursor fun c => ?_
  cases pyIndex buf c with
  | none => exact .raise .index
  | some b => exact .bind (J := fun _ => True) (fun c _ => ⟨fun e c' h => by simp [Rd.setCursor] at h, fun _ _ _ => trivial⟩) fun _ => .pure _

theorem readDataN_any (buf : Bytes) (n : Nat) : Safe (fun _ => True) (fun _ => True) AnyReadErr (readDataN buf n) := by
  unfold readDataN
  refine .bind (readPre_safe (fun _ => .doc) buf n) fun _ => .bind .cursor fun c => ?_
  cases unpackFrom buf n c with
  | none => exact .raise (by unfold unpackErr; split <;> first | exact .overflow | exact .struct)
  | some b => exact .bind (J := fun _ => True) (fun c _ => ⟨fun e c' h => by simp [Rd.setCursor] at h, fun _ _ _ => trivial⟩) fun _ => .pure _

theorem readDataS_any (buf : Bytes) (rn : Nat) : Safe (fun _ => True) (fun _ => True) AnyReadErr (readDataS buf rn) := by
  unfold readDataS
  refine .bind (readPre_safe (fun _ => .doc) buf 1) fun _ => .bind .cursor fun c => ?_
  cases scanNul buf c ((buf.length - c).toNat + 1) 0 with
  | none => exact .raise .index
  | some n =>
    refine .bind (bytesCheck_safe (fun _ => .doc) _ _ _) fun _ => ?_
    cases unpackFrom buf n c with
    | none => exact .raise .struct
    | some b =>
      refine .bind (J := fun _ => True) (fun c _ => ⟨fun e c' h => by simp [Rd.setCursor] at h, fun _ _ _ => trivial⟩) fun _ => ?_
      cases utf8Decode b with
      | none => exact .raise .unicode
      | some s => exact .pure _

theorem readInt_any (buf : Bytes) : Safe (fun _ => True) (fun _ => True) AnyReadErr (readInt buf) :=
  .bind (readDataN_any buf 4) fun _ => .pure _

theorem readData_any (buf : Bytes) (rn : Nat) (fm : Fmt) (n : Nat) :
    Safe (fun _ => True) (fun _ => True) AnyReadErr (readData buf rn fm n) := by
  unfold readData
  split
  · exact .bind (readDataC_any buf) fun _ => .pure _
  · exact .bind (readDataS_any buf rn) fun _ => .pure _
  · exact .bind (readDataN_any buf n) fun _ => .pure _

theorem readScalar_any (buf : Bytes) (rn : Nat) :
    Safe (fun _ => True) (fun _ => True) AnyReadErr (readScalar buf rn) := by
  unfold readScalar
  exact .bind (readDataS_any buf rn) fun _ => .bind (readDataC_any buf) fun _ =>
    .bind (checkDataType_safe (fun _ => .doc) _ _ _) fun _ =>
    .ite (fun _ => .bind (readData_any _ _ _ _) fun _ => .pure _) fun _ => .raise (.doc .data)

theorem npFrombuffer_err {buf : Bytes} {sz : Nat} {count off : Int} {e : Err}
    (h : npFrombuffer buf sz count off = .error e) :
    e = .valueError ∨ (e = .overflowError ∧ count < -2 ^ 63) := by
  unfold npFrombuffer at h
  simp only at h
  repeat' split at h
  all_goals simp at h
  all_goals first | exact .inr ⟨h.symm, by assumption⟩ | exact .inl h.symm

theorem npReshape_err {cfg : NpCfg} {sz n : Nat} {sh : List Int} {e : Err}
    (h : npReshape cfg sz n sh = .error e) : e = .valueError := by
  unfold npReshape npShape at h
  simp only at h
  repeat' split at h
  all_goals simp at h
  all_goals exact h.symm

theorem readNumericalArray_any (cfg : NpCfg) (buf : Bytes) (sh : List Int) (fm : Fmt) (t : Int) (sz : Nat) :
    Safe (fun _ => True) (fun _ => True) AnyReadErr (readNumericalArray cfg buf sh fm t sz) := by
  unfold readNumericalArray
  exact .bind .cursor fun c => .bind (.lift fun e h => (npFrombuffer_err h).elim (· ▸ .value) (·.1 ▸ .overflow)) fun cells =>
    .bind (J := fun _ => True) (fun c _ => ⟨fun e c' h => by simp [Rd.setCursor] at h, fun _ _ _ => trivial⟩) fun _ =>
    .bind (.lift fun e h => npReshape_err h ▸ .value) fun _ => .pure _

theorem readInts_any (buf : Bytes) (n : Nat) :
    Safe (fun _ => True) (fun _ => True) AnyReadErr (readInts buf n) := by
  induction n with
  | zero => exact Safe.pure []
  | succ n ih => exact .bind (readInt_any buf) fun _ => .bind ih fun _ => .pure _

theorem readHead_any (buf : Bytes) (rn : Nat) (n : Int) :
    Safe (fun _ => True) (fun _ => True) AnyReadErr (readHead buf rn n) :=
  .bind (readDataS_any buf rn) fun _ => .bind (readDataC_any buf) fun _ =>
    .bind (checkDataType_safe (fun _ => .doc) _ _ _) fun _ => .bind (readInt_any buf) fun _ =>
    .bind (bytesCheck_safe (fun _ => .doc) _ _ _) fun _ =>
    .bind (zeroNegativeCheck_safe (fun _ => .doc) _ _) fun _ =>
    .bind (readInts_any buf _) fun _ => .pure _

theorem readArray_any (cfg : NpCfg) (buf : Bytes) (rn : Nat) (n : Int) :
    Safe (fun _ => True) (fun _ => True) AnyReadErr (readArray cfg buf rn n) := by
  rw [readArray_eq]
  refine .bind (readHead_any buf rn n) fun h => ?_
  unfold readTail
  exact .ite (fun _ => .raise (.doc .data)) fun _ => .ite (fun _ => .raise (.doc .data)) fun _ =>
    .bind (bytesCheck_safe (fun _ => .doc) _ _ _) fun _ =>
    .bind (bytesCheck_safe (fun _ => .doc) _ _ _) fun _ =>
    .ite (fun _ => .raise (.doc .data)) fun _ => .ite (fun _ => .raise (.doc .data)) fun _ =>
    .bind (readNumericalArray_any _ _ _ _ _ _) fun _ => .pure _

theorem readScalars_any (buf : Bytes) (rn n : Nat) (r : Rec) :
    Safe (fun _ => True) (fun _ => True) AnyReadErr (readScalars buf rn n r) := by
  induction n generalizing r with
  | zero => exact Safe.pure r
  | succ n ih => exact .bind (readScalar_any buf rn) fun _ => ih _

theorem readArrays_any (cfg : NpCfg) (buf : Bytes) (rn : Nat) (k : Int) (n : Nat) (r : Rec) :
    Safe (fun _ => True) (fun _ => True) AnyReadErr (readArrays cfg buf rn k n r) := by
  induction n generalizing r with
  | zero => exact Safe.pure r
  | succ n ih => exact .bind (readArray_any cfg buf rn k) fun _ => ih _

theorem readRecord_any (cfg : NpCfg) (buf : Bytes) (rn : Nat) :
    Safe (fun _ => True) (fun _ => True) AnyReadErr (readRecord cfg buf rn) := by
  unfold readRecord
  exact .bind .cursor fun _ =>
    .bind (J := fun _ => True) (fun c _ => ⟨fun e c' h => by simp [Rd.setCursor] at h, fun _ _ _ => trivial⟩) fun _ =>
    .bind (readInt_any buf) fun _ => .bind .cursor fun _ =>
    .bind (bytesCheck_safe (fun _ => .doc) _ _ _) fun _ =>
    .bind (zeroNegativeCheck_safe (fun _ => .doc) _ _) fun _ =>
    .bind (readInt_any buf) fun _ => .bind (readInt_any buf) fun _ =>
    .bind (zeroNegativeCheck_safe (fun _ => .doc) _ _) fun _ =>
    .bind (zeroNegativeCheck_safe (fun _ => .doc) _ _) fun _ =>
    .bind (bytesCheck_safe (fun _ => .doc) _ _ _) fun _ =>
    .bind (readScalars_any buf rn _ _) fun _ => .bind (readArrays_any cfg buf rn _ _ _) fun _ =>
    .bind .cursor fun _ => .ite (fun _ => .raise (.doc .cursor)) fun _ => .pure _

end general

section inside
variable {buf : Bytes}

/-- A step that tests the cursor first raises within the file only what its exact
description leaves open. -/
theorem readDataN_in (n : Nat) (hn : 0 < n) :
    Safe (0 ≤ ·) (Inside buf) PlainReadErr (readDataN buf n) := by
  unfold readDataN
  refine .bind (readPre_safe (I := (0 ≤ ·)) (fun _ => .doc) buf n) fun _ => ?_
  refine .bind' .cursor fun _ _ a hc h => ?_
  rw [rd_cursor_ok] at h
  obtain ⟨rfl, rfl⟩ := h
  have hu : unpackFrom buf n a = some ((buf.drop a.toNat).take n) := by
    unfold unpackFrom
    rw [if_neg (by omega), if_neg (by omega)]
  rw [hu]
  refine Safe.bind (I := fun x => x = a) (J := Inside buf) (K := Inside buf)
    (fun c _ => ⟨fun e c' h => by simp [Rd.setCursor] at h, fun _ c' h => ?_⟩) (fun _ => .pure _) a rfl
  rw [rd_setCursor_ok] at h; rw [h]; exact ⟨by omega, by omega⟩

theorem readInt_in : Safe (0 ≤ ·) (Inside buf) PlainReadErr (readInt buf) :=
  .bind (readDataN_in 4 (by omega)) fun _ => .pure _

theorem readDataC_in : Safe (0 ≤ ·) (Inside buf) PlainReadErr (readDataC buf) := by
  unfold readDataC
  refine .bind (readPre_safe (I := (0 ≤ ·)) (fun _ => .doc) buf 1) fun _ => ?_
  refine .bind' .cursor fun _ _ a hc h => ?_
  rw [rd_cursor_ok] at h
  obtain ⟨rfl, rfl⟩ := h
  have hlt : a.toNat < buf.length := by omega
  have hu : pyIndex buf a = some buf[a.toNat] := by
    unfold pyIndex
    rw [if_pos hc.1, List.getElem?_eq_getElem hlt]
  rw [hu]
  refine Safe.bind (I := fun x => x = a) (J := Inside buf) (K := Inside buf)
    (fun c _ => ⟨fun e c' h => by simp [Rd.setCursor] at h, fun _ c' h => ?_⟩) (fun _ => .pure _) a rfl
  rw [rd_setCursor_ok] at h; rw [h]; exact ⟨by omega, by omega⟩

theorem readDataS_in (rn : Nat) : Safe (0 ≤ ·) (Inside buf) PlainReadErr (readDataS buf rn) := by
  unfold readDataS
  refine .bind (readPre_safe (I := (0 ≤ ·)) (fun _ => .doc) buf 1) fun _ => ?_
  refine .bind' .cursor fun _ _ a hc h => ?_
  rw [rd_cursor_ok] at h
  obtain ⟨rfl, rfl⟩ := h
  cases hs : scanNul buf a ((buf.length - a).toNat + 1) 0 with
  | none =>
    exact ⟨fun e c' h => by simp [Rd.raise] at h; rw [← h.1]; exact .index, fun b c' h => by simp [Rd.raise] at h⟩
  | some n =>
    obtain ⟨bs, hn, _, _, hat⟩ := (scanNul_iff hc.1 _ _ _).1 hs
    have hb := hat.bounds
    simp only [List.length_append, List.length_singleton] at hb
    have hu : unpackFrom buf n a = some ((buf.drop a.toNat).take n) := by
      unfold unpackFrom
      rw [if_neg (by omega), if_neg (by omega)]
    refine Safe.bind (I := fun x => x = a) (J := fun x => x = a) (K := Inside buf) (bytesCheck_safe (fun _ => .doc) _ _ _) (fun _ => ?_) a rfl
    rw [hu]
    refine .bind (J := Inside buf) (fun c _ => ⟨fun e c' h => by simp [Rd.setCursor] at h, fun _ c' h => ?_⟩) fun _ => ?_
    · rw [rd_setCursor_ok] at h; rw [h]; exact ⟨by omega, by omega⟩
    · cases utf8Decode ((buf.drop a.toNat).take n) with
      | none => exact .raise .unicode
      | some s => exact .pure _

theorem readData_in (rn : Nat) {fm : Fmt} {n : Nat} (hf : fm ≠ .dmap) (hn : n = cellSize fm) :
    Safe (0 ≤ ·) (Inside buf) PlainReadErr (readData buf rn fm n) := by
  have : 0 < n := by rw [hn]; cases fm <;> first | (exact absurd rfl hf) | decide
  unfold readData
  split
  · exact .bind readDataC_in fun _ => .pure _
  · exact .bind (readDataS_in rn) fun _ => .pure _
  · exact .bind (readDataN_in n this) fun _ => .pure _

theorem nn_of_inside {P : Err → Prop} {J : Int → Prop} {α : Type} {m : Rd α} (h : Safe (0 ≤ ·) J P m) :
    Safe (Inside buf) J P m := h.weaken (fun _ hc => hc.1) (fun _ hc => hc)

theorem readScalar_in (rn : Nat) : Safe (Inside buf) (Inside buf) PlainReadErr (readScalar buf rn) := by
  unfold readScalar
  refine .bind (nn_of_inside (readDataS_in rn)) fun _ => .bind (nn_of_inside readDataC_in) fun n => ?_
  refine .bind' (checkDataType_safe (fun _ => .doc) _ _ _) fun c p c1 hc h => ?_
  have hp : p.2 = cellSize p.1 ∧ c1 = c := by
    unfold checkDataType at h
    cases hl : dmapDataTypes.lookup n with
    | none => rw [hl] at h; simp [Rd.raise] at h
    | some q =>
      rw [hl] at h
      simp only [Rd.pure, Prod.mk.injEq, Except.ok.injEq] at h
      rw [← h.1]
      exact ⟨(lookup_iff.1 hl).2, h.2.symm⟩
  obtain ⟨hp, rfl⟩ := hp
  obtain ⟨fm, sz⟩ := p
  exact Safe.ite (I := Inside buf) (fun hf => .bind (nn_of_inside (readData_in rn hf hp)) fun _ => .pure _)
    (fun _ => .raise (.doc .data)) c1 hc

theorem readInts_in (n : Nat) : Safe (Inside buf) (Inside buf) PlainReadErr (readInts buf n) := by
  induction n with
  | zero => exact Safe.pure []
  | succ n ih => exact .bind (nn_of_inside readInt_in) fun _ => .bind ih fun _ => .pure _

theorem readHead_in (rn : Nat) (n : Int) : Safe (Inside buf) (Inside buf) PlainReadErr (readHead buf rn n) :=
  .bind (nn_of_inside (readDataS_in rn)) fun _ => .bind (nn_of_inside readDataC_in) fun _ =>
    .bind (checkDataType_safe (fun _ => .doc) _ _ _) fun _ => .bind (nn_of_inside readInt_in) fun _ =>
    .bind (bytesCheck_safe (fun _ => .doc) _ _ _) fun _ =>
    .bind (zeroNegativeCheck_safe (fun _ => .doc) _ _) fun _ =>
    .bind (readInts_in _) fun _ => .pure _

theorem prodInt_nonneg {l : List Int} (h : ∀ x ∈ l, 0 ≤ x) : 0 ≤ prodInt l := by
  rw [← eq_map_ofNat h, prodInt_ofNat]
  omega

theorem readTail_err (cfg : NpCfg) (rn : Nat) (n : Int) (h : ArrHead) (hh : h.name = slist → ∀ x ∈ h.dims, 0 ≤ x) :
    Safe (fun _ => True) (fun _ => True) PlainReadErr (readTail cfg buf rn n h) := by
  unfold readTail readNumericalArray
  have hp : ¬((if h.dim > 1 then h.dims.reverse else h.dims).any (fun x => decide (x ≤ 0)) = true ∧ h.name ≠ slist) →
      0 ≤ prodInt (if h.dim > 1 then h.dims.reverse else h.dims) := by
    intro hn
    refine prodInt_nonneg fun x hx => ?_
    by_cases hs : h.name = slist
    · exact hh hs x (by split at hx <;> simpa using hx)
    · by_cases hx0 : x ≤ 0
      · exact absurd ⟨List.any_eq_true.2 ⟨x, hx, by simpa using hx0⟩, hs⟩ hn
      · omega
  exact .ite (fun _ => .raise (.doc .data)) fun hn => .ite (fun _ => .raise (.doc .data)) fun _ =>
    .bind (bytesCheck_safe (fun _ => .doc) _ _ _) fun _ =>
    .bind (bytesCheck_safe (fun _ => .doc) _ _ _) fun _ =>
    .ite (fun _ => .raise (.doc .data)) fun _ => .ite (fun _ => .raise (.doc .data)) fun _ =>
    .bind (.bind .cursor fun c => .bind (.lift fun e h => (npFrombuffer_err h).elim (· ▸ .value)
      (fun ho => absurd ho.2 (by have := hp hn; omega))) fun cells =>
    .bind (J := fun _ => True) (fun c _ => ⟨fun e c' h => by simp [Rd.setCursor] at h, fun _ _ _ => trivial⟩) fun _ =>
    .bind (.lift fun e h => npReshape_err h ▸ .value) fun _ => .pure _) fun _ => .pure _

theorem readArray_in (hneg : ¬ NegSlist buf) (cfg : NpCfg) (rn n : Nat) (hn : n < 2 ^ 31) :
    Safe (Inside buf) (Inside buf) PlainReadErr (readArray cfg buf rn n) := by
  intro c hc
  constructor
  · have h1 : Safe (Inside buf) (fun _ => True) PlainReadErr (readArray cfg buf rn n) := by
      rw [readArray_eq]
      refine .bind' (readHead_in rn n) fun c1 h c2 hc1 hr => ?_
      obtain ⟨b, ⟨-, -, -, -, -, -, -, hs, hb⟩, ⟨pre, suf, hbuf, -⟩, -⟩ := (readHead_exact rn n c1 h c2 hc1.1 hc1.2).1 hr
      refine readTail_err cfg rn n h (fun hn x hx => ?_) c2 trivial
      rcases Int.lt_or_le x 0 with hx0 | hx0
      · have hsx := hs x hx
        unfold signedOk at hsx
        refine absurd ⟨pre, suf, UInt8.ofNat (code h.fmt), h.dims, ?_, x, hx, ?_, hx0⟩ hneg
        · rw [hbuf, hb, hn]; rfl
        · omega
      · exact hx0
    exact (h1 c hc).1
  · intro a c' h
    obtain ⟨b, _, hat, rfl⟩ := (readArray_exact rn n hn c a c' hc.1 hc.2 (readArray_nonneg hneg hc.1 hc.2 h)).1 h
    have := hat.bounds
    exact ⟨by omega, by omega⟩

theorem readScalars_in (rn n : Nat) (r : Rec) :
    Safe (Inside buf) (Inside buf) PlainReadErr (readScalars buf rn n r) := by
  induction n generalizing r with
  | zero => exact Safe.pure r
  | succ n ih => exact .bind (readScalar_in rn) fun _ => ih _

theorem readArrays_in (hneg : ¬ NegSlist buf) (cfg : NpCfg) (rn k : Nat) (hk : k < 2 ^ 31) (n : Nat) (r : Rec) :
    Safe (Inside buf) (Inside buf) PlainReadErr (readArrays cfg buf rn k n r) := by
  induction n generalizing r with
  | zero => exact Safe.pure r
  | succ n ih => exact .bind (readArray_in hneg cfg rn k hk) fun _ => ih _

theorem readRecord_in (hneg : ¬ NegSlist buf) (cfg : NpCfg) (rn : Nat) :
    Safe (Inside buf) (fun _ => True) PlainReadErr (readRecord cfg buf rn) := by
  unfold readRecord
  refine .bind' .cursor fun _ _ c0 hc h => ?_
  rw [rd_cursor_ok] at h
  obtain ⟨rfl, rfl⟩ := h
  have h0 : 0 ≤ c0 + 4 := by have := hc.1; omega
  refine Safe.bind' (I := fun x => x = c0) (J := fun x => x = c0 + 4) (K := fun _ => True)
    (fun c _ => ⟨fun e c' h => by simp [Rd.setCursor] at h, fun _ _ h => rd_setCursor_ok.1 h⟩)
    (fun c _ c1 hc h => ?_) c0 rfl
  rw [rd_setCursor_ok] at h
  subst h
  · refine Safe.bind' (I := (0 ≤ ·)) (K := fun _ => True) readInt_in (fun c n c1 hc0 h => ?_) (c0 + 4) h0
    have hin := (readInt_in (buf := buf) c hc0).2 n c1 h
    have hn : n < 2 ^ 31 := by
      have := (readInt_ok hc0).1 h
      have := this.1; unfold signedOk at this; omega
    refine Safe.bind (I := Inside buf) (J := Inside buf) (K := fun _ => True) .cursor (fun c2 => ?_) c1 hin
    refine .bind (bytesCheck_safe (fun _ => .doc) _ _ _) fun _ => ?_
    refine .bind' (zeroNegativeCheck_safe (fun _ => .doc) _ _) fun c3 _ c4 hc3 h3 => ?_
    rw [zeroNegativeCheck_ok] at h3
    obtain ⟨hpos, rfl⟩ := h3
    obtain ⟨m, rfl⟩ : ∃ m : Nat, n = m := ⟨n.toNat, by omega⟩
    have := Safe.bind (I := Inside buf) (K := fun _ => True) (P := PlainReadErr) (nn_of_inside (buf := buf) (readInt_in (buf := buf))) (f := fun numScalars => do
      let numArrays ← readInt buf
      zeroNegativeCheck rn numScalars
      zeroNegativeCheck rn numArrays
      bytesCheck rn (numScalars + numArrays) m
      let r ← readScalars buf rn numScalars.toNat []
      let r ← readArrays cfg buf rn m numArrays.toNat r
      let c' ← Rd.cursor
      if c' - c0 ≠ m then Rd.raise .cursorError else return r) fun _ => .bind (nn_of_inside readInt_in) fun _ =>
      .bind (zeroNegativeCheck_safe (fun _ => .doc) _ _) fun _ =>
      .bind (zeroNegativeCheck_safe (fun _ => .doc) _ _) fun _ =>
      .bind (bytesCheck_safe (fun _ => .doc) _ _ _) fun _ =>
      .bind (readScalars_in rn _ _) fun _ => .bind (readArrays_in hneg cfg rn m (by omega) _ _) fun _ =>
      .bind (J := fun _ => True) (Safe.cursor.weaken (fun _ h => h) (fun _ _ => trivial)) fun _ => .ite (fun _ => .raise (.doc .cursor)) fun _ => .pure _
    exact this c4 hc3

end inside

/-- Exceptions of the reading loop. -/
theorem readLoop_err (cfg : NpCfg) (fuel : Nat) (r r' : Reader) (e : Err)
    (hf : (r.buf.length - r.cursor).toNat ≤ fuel) (h : r.readLoop cfg fuel = (.error e, r')) :
    AnyReadErr e := by
  induction fuel generalizing r with
  | zero => rw [readLoop_stop _ _ _ (by omega)] at h; simp at h
  | succ fuel ih =>
    by_cases hc : r.cursor < r.buf.length
    · rw [readLoop_step _ _ _ hc] at h
      cases hr : readRecord cfg r.buf r.recNum r.cursor with
      | mk res c =>
        rw [hr] at h
        cases res with
        | error e' =>
          simp only [Prod.mk.injEq, Except.error.injEq] at h
          rw [← h.1]
          exact (readRecord_any cfg r.buf r.recNum r.cursor trivial).1 _ _ hr
        | ok rec =>
          have := readRecord_lt hr
          exact ih _ (by simp only; omega) h
    · rw [readLoop_stop _ _ _ hc] at h; simp at h

end Verif
