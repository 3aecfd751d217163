import Verif.Borealis.Model.Convert
import Verif.Borealis.Lemmas.Nd
/-!
# Lemmas on the conversion of records
-/
namespace Verif.Bor
open Verif

theorem bind_ok {ε α β : Type} {x : Except ε α} {g : α → Except ε β} {b : β}
    (h : (x >>= g) = .ok b) : ∃ a, x = .ok a ∧ g a = .ok b := by
  cases x with
  | error e => cases h
  | ok a => exact ⟨a, rfl, h⟩

theorem bind_of_ok {α β : Type} {x : Except Err α} {a : α} (h : x = .ok a) (g : α → Except Err β) :
    (x >>= g) = g a := by rw [h]; rfl

theorem field_iff {α : Type} {d : Dict PyStr α} {k : PyStr} {v : α} :
    field d k = .ok v ↔ d.get? k = some v := by
  unfold field
  cases d.get? k <;> simp

theorem field_eq {α : Type} {d : Dict PyStr α} {k : PyStr} {v : α} (h : d.get? k = some v) :
    field d k = .ok v := field_iff.2 h

theorem mapE_ok {α β : Type} {g : α → Except Err β} {l : List α} {ys : List β} :
    mapE g l = .ok ys ↔ l.map g = ys.map .ok := by
  induction l generalizing ys with
  | nil => cases ys <;> simp [mapE]
  | cons x l ih =>
    constructor
    · intro h
      obtain ⟨y, h1, h⟩ := bind_ok h
      obtain ⟨ys', h2, h⟩ := bind_ok h
      cases h
      simp [h1, ih.1 h2]
    · intro h
      cases ys with
      | nil => simp at h
      | cons y ys =>
        simp only [List.map_cons, List.cons.injEq] at h
        simp only [mapE, h.1, ih.2 h.2]
        rfl

theorem mapE_length {α β : Type} {g : α → Except Err β} {l : List α} {ys : List β}
    (h : mapE g l = .ok ys) : ys.length = l.length := by
  have := congrArg List.length (mapE_ok.1 h)
  simpa using this.symm

theorem mapE_get {α β : Type} {g : α → Except Err β} {l : List α} {ys : List β}
    (h : mapE g l = .ok ys) {i : Nat} {x : α} (hx : l[i]? = some x) :
    ∃ y, ys[i]? = some y ∧ g x = .ok y := by
  have := congrArg (·[i]?) (mapE_ok.1 h)
  simp only [List.getElem?_map, hx, Option.map_some] at this
  cases hy : ys[i]? with
  | none => simp [hy] at this
  | some y => exact ⟨y, rfl, by simpa [hy] using this⟩

theorem mapE_mem {α β : Type} {g : α → Except Err β} {l : List α} {ys : List β}
    (h : mapE g l = .ok ys) {y : β} (hy : y ∈ ys) : ∃ x ∈ l, g x = .ok y := by
  have : Except.ok y ∈ l.map g := by rw [mapE_ok.1 h]; exact List.mem_map_of_mem hy
  simpa [List.mem_map] using this

theorem mapE_exists {α β : Type} {g : α → Except Err β} {l : List α}
    (h : ∀ x ∈ l, ∃ y, g x = .ok y) : ∃ ys, mapE g l = .ok ys := by
  induction l with
  | nil => exact ⟨[], rfl⟩
  | cons x l ih =>
    obtain ⟨y, hy⟩ := h x (by simp)
    obtain ⟨ys, hys⟩ := ih fun x hx => h x (List.mem_cons_of_mem _ hx)
    exact ⟨y :: ys, by simp only [mapE, hy, hys]; rfl⟩

theorem enumFrom_get {α : Type} (l : List α) (i j : Nat) :
    (enumFrom i l)[j]? = l[j]?.map fun x => (i + j, x) := by
  induction l generalizing i j with
  | nil => simp [enumFrom]
  | cons x l ih =>
    cases j with
    | zero => simp [enumFrom]
    | succ j => simp [enumFrom, ih, Nat.add_comm, Nat.add_left_comm]

theorem enumFrom_length {α : Type} (l : List α) (i : Nat) : (enumFrom i l).length = l.length := by
  induction l generalizing i with
  | nil => rfl
  | cons x l ih => simp [enumFrom, ih]

theorem enumFrom_mem {α : Type} {l : List α} {i : Nat} {p : Nat × α} (h : p ∈ enumFrom i l) :
    ∃ j, p.1 = i + j ∧ l[j]? = some p.2 := by
  obtain ⟨j, hj⟩ := List.mem_iff_getElem?.1 h
  rw [enumFrom_get] at hj
  cases hx : l[j]? with
  | none => simp [hx] at hj
  | some x =>
    simp only [hx, Option.map_some, Option.some.injEq] at hj
    subst hj
    exact ⟨j, rfl, hx⟩

/-! ## Dictionary displays -/

theorem dictOf_ok {l : List Entry} {d : PlainRec} :
    dictOf l = .ok d ↔ l = d.map fun p => (p.1, Except.ok p.2) := by
  induction l generalizing d with
  | nil => cases d <;> simp [dictOf]
  | cons e l ih =>
    obtain ⟨k, x⟩ := e
    constructor
    · intro h
      obtain ⟨v, h1, h⟩ := bind_ok h
      obtain ⟨d', h2, h⟩ := bind_ok h
      cases h
      rw [ih.1 h2, h1]
      rfl
    · intro h
      cases d with
      | nil => simp at h
      | cons p d =>
        simp only [List.map_cons, List.cons.injEq, Prod.mk.injEq] at h
        simp only [dictOf, h.1.2, ih.2 h.2]
        simp only [bind, Except.bind, h.1.1]

theorem get?_map_ok (d : PlainRec) (k : PyStr) :
    Dict.get? (d.map fun p => (p.1, (Except.ok p.2 : Except Err PlainVal))) k = (Dict.get? d k).map .ok := by
  induction d with
  | nil => rfl
  | cons p d ih =>
    obtain ⟨k', v⟩ := p
    simp only [List.map_cons, Dict.get?]
    split
    · rfl
    · exact ih

theorem entry_get {l : List Entry} {d : PlainRec} (h : dictOf l = .ok d) {k : PyStr} {x : Except Err PlainVal}
    (hk : Dict.get? l k = some x) : ∃ v, x = .ok v ∧ Dict.get? d k = some v := by
  rw [dictOf_ok.1 h, get?_map_ok] at hk
  cases hv : Dict.get? d k with
  | none => simp [hv] at hk
  | some v => exact ⟨v, by simpa [hv] using hk.symm, rfl⟩

theorem entry_ok {l : List Entry} {d : PlainRec} (h : dictOf l = .ok d) {k : PyStr} {v : PlainVal}
    (hk : Dict.get? l k = some (.ok v)) : Dict.get? d k = some v := by
  obtain ⟨v', h1, h2⟩ := entry_get h hk
  cases h1
  exact h2

theorem dictOf_exists {l : List Entry} (h : ∀ e ∈ l, ∃ v, e.2 = .ok v) : ∃ d, dictOf l = .ok d := by
  induction l with
  | nil => exact ⟨[], rfl⟩
  | cons e l ih =>
    obtain ⟨k, x⟩ := e
    obtain ⟨v, hv⟩ := h (k, x) (by simp)
    obtain ⟨d, hd⟩ := ih fun e he => h e (List.mem_cons_of_mem _ he)
    simp only at hv
    exact ⟨(k, v) :: d, by simp only [dictOf, hv, hd]; rfl⟩

/-! ## Samples -/

theorem length_flatMap_const {α : Type} (g : Nat → List α) (n : Nat) (hg : ∀ i, (g i).length = n) (l : List Nat) :
    (l.flatMap g).length = l.length * n := by
  induction l with
  | nil => simp
  | cons a l ih => simp [List.flatMap_cons, hg, ih, Nat.add_mul, Nat.add_comm]

theorem range_get {n i : Nat} (h : i < n) : (List.range n)[i]? = some i := by
  rw [List.getElem?_eq_getElem (by simpa using h)]
  simp

/-- The elements of `l` as pairs, one after the other. -/
theorem pairs_get {α β : Type} (f g : α → β) (l : List α) (i : Nat) (e : α) (h : l[i]? = some e) :
    (l.flatMap fun e => [f e, g e])[2 * i]? = some (f e) ∧
    (l.flatMap fun e => [f e, g e])[2 * i + 1]? = some (g e) := by
  induction l generalizing i with
  | nil => simp at h
  | cons a l ih =>
    cases i with
    | zero =>
      simp only [List.getElem?_cons_zero, Option.some.injEq] at h
      subst h
      simp [List.flatMap_cons]
    | succ i =>
      simp only [List.getElem?_cons_succ] at h
      have := ih i h
      simp only [List.flatMap_cons, Nat.mul_add, List.cons_append, List.nil_append]
      exact ⟨by simpa using this.1, by simpa using this.2⟩

theorem pairs_length {α β : Type} (f g : α → β) (l : List α) :
    (l.flatMap fun e => [f e, g e]).length = 2 * l.length := by
  induction l with
  | nil => rfl
  | cons a l ih => simp [List.flatMap_cons, ih]; omega

/-- The indices of the samples of one beam. -/
def beamIdx (na ns b nq : Nat) : List (List Nat) :=
  (List.range nq).flatMap fun i => (List.range na).flatMap fun x => (List.range ns).map fun s => [x, i, b, s]

theorem beamIdx_get {na ns b nq i x t : Nat} (hi : i < nq) (hx : x < na) (ht : t < ns) :
    (beamIdx na ns b nq)[i * (na * ns) + (x * ns + t)]? = some [x, i, b, t] := by
  have hxt : x * ns + t < na * ns := by
    calc x * ns + t < x * ns + ns := by omega
      _ = (x + 1) * ns := by rw [Nat.add_mul, Nat.one_mul]
      _ ≤ na * ns := Nat.mul_le_mul_right _ hx
  unfold beamIdx
  rw [flatMap_getElem? _ (na * ns) _ _ _ _ hxt, range_get hi, Option.bind_some,
    flatMap_getElem? _ ns _ _ _ _ ht, range_get hx, Option.bind_some, List.getElem?_map, range_get ht]
  · rfl
  · intro x; simp
  · intro i
    rw [length_flatMap_const _ ns]
    · simp
    · intro x; simp

theorem beamIdx_length (na ns b nq : Nat) : (beamIdx na ns b nq).length = nq * (na * ns) := by
  unfold beamIdx
  rw [length_flatMap_const _ (na * ns)]
  · simp
  · intro i
    rw [length_flatMap_const _ ns]
    · simp
    · intro x; simp

theorem beamSamples_ok {a : NdArr} {b nq : Nat} {l : List Elt} (h : beamSamples a b nq = .ok l) :
    ∃ na nq' nb ns, a.shape = [na, nq', nb, ns] ∧ b < nb ∧ l.length = nq * (na * ns) ∧
      ∀ i x t, i < nq → x < na → t < ns →
        l[i * (na * ns) + (x * ns + t)]? = a.get? [x, i, b, t] ∧ (a.get? [x, i, b, t]).isSome := by
  unfold beamSamples at h
  split at h
  · rename_i na nq' nb ns hs
    split at h
    · rename_i hb
      refine ⟨na, nq', nb, ns, hs, hb.1, ?_, ?_⟩
      · rw [mapE_length h]; exact beamIdx_length na ns b nq
      · intro i x t hi hx ht
        obtain ⟨y, h1, h2⟩ := mapE_get h (beamIdx_get (b := b) hi hx ht)
        rw [h1]
        split at h2
        · rename_i e he
          cases h2
          exact ⟨he.symm, by simp [he]⟩
        · cases h2
    · cases h
  · cases h

end Verif.Bor
