import Verif.Borealis.Model.Restructure
/-!
# Lemmas on arrays
-/
namespace Verif.Bor

theorem length_indices (s : List Nat) : (indices s).length = prod s := by
  induction s with
  | nil => rfl
  | cons d ds ih =>
    have key : ∀ l : List Nat, (l.flatMap fun i => (indices ds).map (i :: ·)).length = l.length * prod ds := by
      intro l
      induction l with
      | nil => simp
      | cons a l ihl => simp [List.flatMap_cons, ih, ihl, Nat.add_mul, Nat.add_comm]
    simpa [indices, prod] using key (List.range d)

theorem inBounds_length {s idx : List Nat} (h : inBounds s idx = true) : idx.length = s.length := by
  induction s generalizing idx with
  | nil => cases idx <;> simp_all [inBounds]
  | cons d ds ih =>
    cases idx with
    | nil => simp [inBounds] at h
    | cons i is =>
      simp only [inBounds, Bool.and_eq_true, decide_eq_true_eq] at h
      simp [ih h.2]

theorem inBounds_cons {d i : Nat} {ds is : List Nat} :
    inBounds (d :: ds) (i :: is) = true ↔ i < d ∧ inBounds ds is = true := by
  simp [inBounds]

theorem ravel_lt {s idx : List Nat} (h : inBounds s idx = true) : ravel s idx < prod s := by
  induction s generalizing idx with
  | nil => cases idx <;> simp [ravel, prod]
  | cons d ds ih =>
    cases idx with
    | nil => simp [inBounds] at h
    | cons i is =>
      rw [inBounds_cons] at h
      have h2 := ih h.2
      simp only [ravel, prod]
      calc i * prod ds + ravel ds is < i * prod ds + prod ds := by omega
        _ = (i + 1) * prod ds := by rw [Nat.add_mul, Nat.one_mul]
        _ ≤ d * prod ds := Nat.mul_le_mul_right _ h.1

theorem mem_indices {s idx : List Nat} : idx ∈ indices s ↔ inBounds s idx = true := by
  induction s generalizing idx with
  | nil => cases idx <;> simp [indices, inBounds]
  | cons d ds ih =>
    simp only [indices, List.mem_flatMap, List.mem_range, List.mem_map]
    constructor
    · rintro ⟨i, hi, is, his, rfl⟩
      exact inBounds_cons.2 ⟨hi, ih.1 his⟩
    · intro h
      cases idx with
      | nil => simp [inBounds] at h
      | cons i is =>
        rw [inBounds_cons] at h
        exact ⟨i, h.1, is, ih.2 h.2, rfl⟩

theorem flatMap_getElem? {α : Type} (g : Nat → List α) (n : Nat) (hg : ∀ i, (g i).length = n)
    (l : List Nat) (i j : Nat) (hj : j < n) :
    (l.flatMap g)[i * n + j]? = l[i]?.bind fun x => (g x)[j]? := by
  induction l generalizing i with
  | nil => simp
  | cons a l ih =>
    rw [List.flatMap_cons]
    cases i with
    | zero =>
      rw [Nat.zero_mul, Nat.zero_add, List.getElem?_append_left (by rw [hg]; exact hj)]
      simp
    | succ i =>
      rw [List.getElem?_append_right (by rw [hg, Nat.add_mul]; omega)]
      have : (i + 1) * n + j - (g a).length = i * n + j := by rw [hg, Nat.add_mul]; omega
      rw [this, ih]
      simp

/-- Position and index belong together. -/
theorem indices_ravel {s idx : List Nat} (h : inBounds s idx = true) :
    (indices s)[ravel s idx]? = some idx := by
  induction s generalizing idx with
  | nil => cases idx <;> simp_all [indices, ravel, inBounds]
  | cons d ds ih =>
    cases idx with
    | nil => simp [inBounds] at h
    | cons i is =>
      rw [inBounds_cons] at h
      simp only [indices, ravel]
      rw [flatMap_getElem? _ (prod ds) (fun i => by simp [length_indices]) _ _ _ (ravel_lt h.2)]
      simp [List.getElem?_range h.1, ih h.2]

namespace NdArr

@[simp] theorem shape_ofFn (t s f) : (ofFn t s f).shape = s := rfl
@[simp] theorem ty_ofFn (t s f) : (ofFn t s f).ty = t := rfl

theorem wf_ofFn (t s f) : (ofFn t s f).WF := by simp [WF, ofFn, length_indices]

theorem get?_ofFn {t s f idx} (h : inBounds s idx = true) : (ofFn t s f).get? idx = some (f idx) := by
  simp only [get?, ofFn, h, if_true]
  rw [List.getElem?_map, indices_ravel h]
  rfl

theorem get_ofFn {t s f idx} (h : inBounds s idx = true) : (ofFn t s f).get idx = f idx := by
  rw [get, get?_ofFn h]; rfl

theorem get?_eq_some_get {a : NdArr} (hw : a.WF) {idx} (h : inBounds a.shape idx = true) :
    a.get? idx = some (a.get idx) := by
  have hl : ravel a.shape idx < a.data.length := by rw [hw]; exact ravel_lt h
  simp [get, get?, h, List.getElem?_eq_getElem hl]

theorem data_getElem? {a : NdArr} (hw : a.WF) {idx} (h : inBounds a.shape idx = true) :
    a.data[ravel a.shape idx]? = some (a.get idx) := by
  rw [← get?_eq_some_get hw h]; simp [get?, h]

/-- The elements of an array are the elements at its indices. -/
theorem data_eq {a : NdArr} (hw : a.WF) : a.data = (indices a.shape).map a.get := by
  have key : ∀ (s : List Nat) (l : List Elt), l.length = prod s →
      l = (indices s).map fun idx => (l[ravel s idx]?).getD (.int 0) := by
    intro s
    induction s with
    | nil =>
      intro l hl
      match l, hl with
      | [x], _ => simp [indices, ravel]
    | cons d ds ih =>
      intro l hl
      induction d generalizing l with
      | zero =>
        simp only [prod, Nat.zero_mul] at hl
        simp [indices, List.length_eq_zero_iff.1 hl]
      | succ d ihd =>
        simp only [prod, Nat.add_mul, Nat.one_mul] at hl
        have h1 : (l.take (prod ds)).length = prod ds := by rw [List.length_take]; omega
        have h2 : (l.drop (prod ds)).length = prod (d :: ds) := by
          rw [List.length_drop, prod]; omega
        have e1 := ih _ h1
        have e2 := ihd _ h2
        rw [indices, List.range_succ_eq_map, List.flatMap_cons, List.map_append, List.flatMap_map]
        conv => lhs; rw [← List.take_append_drop (prod ds) l]
        congr 1
        · conv => lhs; rw [e1]
          rw [List.map_map]
          apply List.map_congr_left
          intro idx hidx
          have hb := ravel_lt (mem_indices.1 hidx)
          simp [ravel, hb]
        · conv => lhs; rw [e2]
          rw [indices, List.map_flatMap, List.map_flatMap]
          congr 1
          funext i
          rw [List.map_map, List.map_map]
          apply List.map_congr_left
          intro idx hidx
          simp only [Function.comp, ravel, List.getElem?_drop]
          congr 2
          rw [Nat.succ_mul]; omega
  have := key a.shape a.data hw
  refine this.trans ?_
  apply List.map_congr_left
  intro idx hidx
  rw [mem_indices] at hidx
  simp only [get, get?, hidx, if_true]

/-- Arrays with the same type, shape and elements are equal. -/
theorem ext_get {a b : NdArr} (ha : a.WF) (hb : b.WF) (ht : a.ty = b.ty) (hs : a.shape = b.shape)
    (h : ∀ idx, inBounds a.shape idx = true → a.get idx = b.get idx) : a = b := by
  have hd : a.data = b.data := by
    rw [data_eq ha, data_eq hb, ← hs]
    exact List.map_congr_left fun idx hidx => h idx (mem_indices.1 hidx)
  cases a; cases b; simp_all

end NdArr

end Verif.Bor
