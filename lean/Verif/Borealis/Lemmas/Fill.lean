import Verif.Borealis.Lemmas.Nd
/-!
# Lemmas on filling an array record by record
-/
namespace Verif.Bor

/-- The shape of a value fits in the part of an array that belongs to one record: as many
dimensions, none of them larger, none of them zero (or everything empty). -/
def Fits (s M : List Nat) : Prop :=
  slicedShape ((s.filter (· ≠ 0)).map Int.ofNat) M = some s ∧
    ∀ idx, inBounds s idx = true → inBounds M idx = true

theorem slicedShape_le : ∀ {s M : List Nat}, s.length = M.length →
    (∀ i (h : i < s.length) (h' : i < M.length), s[i] ≤ M[i]) →
    slicedShape (s.map Int.ofNat) M = some s
  | [], [], _, _ => rfl
  | [], _ :: _, h, _ => by simp at h
  | _ :: _, [], h, _ => by simp at h
  | d :: ds, m :: ms, h, hle => by
    have h0 : d ≤ m := hle 0 (by simp) (by simp)
    have ih := slicedShape_le (s := ds) (M := ms) (by simpa using h)
      (fun i h1 h2 => hle (i + 1) (by simpa using h1) (by simpa using h2))
    simp only [List.map_cons, slicedShape, ih, Option.map_some, sliceLen]
    simp [Nat.min_eq_left h0]

theorem inBounds_le : ∀ {s M : List Nat}, s.length = M.length →
    (∀ i (h : i < s.length) (h' : i < M.length), s[i] ≤ M[i]) →
    ∀ idx, inBounds s idx = true → inBounds M idx = true
  | [], [], _, _, idx, h => h
  | [], _ :: _, h, _, _, _ => by simp at h
  | _ :: _, [], h, _, _, _ => by simp at h
  | d :: ds, m :: ms, h, hle, idx, hb => by
    cases idx with
    | nil => simp [inBounds] at hb
    | cons i is =>
      rw [inBounds_cons] at hb ⊢
      have h0 : d ≤ m := hle 0 (by simp) (by simp)
      exact ⟨by omega, inBounds_le (s := ds) (M := ms) (by simpa using h)
        (fun i h1 h2 => hle (i + 1) (by simpa using h1) (by simpa using h2)) _ hb.2⟩

theorem fits_of_le {s M : List Nat} (h : s.length = M.length)
    (hle : ∀ i (h : i < s.length) (h' : i < M.length), s[i] ≤ M[i]) (hp : ∀ d ∈ s, d ≠ 0) :
    Fits s M := by
  refine ⟨?_, inBounds_le h hle⟩
  rw [List.filter_eq_self.2 (fun d hd => by simpa using hp d hd)]
  exact slicedShape_le h hle

theorem fits_empty : Fits [0] [0] := ⟨by decide, fun _ h => h⟩

theorem fits_nil : Fits [] [] := ⟨rfl, fun _ h => h⟩

theorem stripOnes_self (s : List Nat) : stripOnes s.length s = s := by
  cases s with
  | nil => rfl
  | cons d ds =>
    by_cases h : d = 1
    · subst h
      simp only [stripOnes, List.length_cons]
      rw [if_neg (by omega)]
    · rw [stripOnes.eq_def]
      split
      · rename_i heq
        simp only [List.cons.injEq] at heq
        exact absurd heq.1 h
      · rfl

theorem fitsRev_self (s : List Nat) : fitsRev s s = true := by
  induction s with
  | nil => rfl
  | cons d ds ih => simp [fitsRev, ih]

theorem broadcasts_self (s : List Nat) : broadcasts s s = true := by
  simp [broadcasts, stripOnes_self, fitsRev_self]

theorem inBounds_append {s t i j : List Nat} (hs : s.length = i.length) :
    inBounds (s ++ t) (i ++ j) = (inBounds s i && inBounds t j) := by
  induction s generalizing i with
  | nil =>
    cases i with
    | nil => simp [inBounds]
    | cons _ _ => simp at hs
  | cons d ds ih =>
    cases i with
    | nil => simp at hs
    | cons x xs =>
      simp only [List.cons_append, inBounds, ih (by simpa using hs), Bool.and_assoc]

theorem inBounds_reverse {s idx : List Nat} (h : inBounds s idx = true) :
    inBounds s.reverse idx.reverse = true := by
  induction s generalizing idx with
  | nil => cases idx <;> simp_all [inBounds]
  | cons d ds ih =>
    cases idx with
    | nil => simp [inBounds] at h
    | cons i is =>
      rw [inBounds_cons] at h
      rw [List.reverse_cons, List.reverse_cons, inBounds_append (by simp [inBounds_length h.2])]
      simp [ih h.2, inBounds, h.1]

theorem bidxRev_self {s idx : List Nat} (h : inBounds s idx = true) : bidxRev s idx = idx := by
  induction s generalizing idx with
  | nil => cases idx <;> simp_all [inBounds, bidxRev]
  | cons d ds ih =>
    cases idx with
    | nil => simp [inBounds] at h
    | cons i is =>
      rw [inBounds_cons] at h
      simp only [bidxRev, ih h.2]
      split <;> congr 1 <;> omega

theorem bidx_self {s idx : List Nat} (h : inBounds s idx = true) : bidx s idx = idx := by
  rw [bidx, bidxRev_self (inBounds_reverse h), List.reverse_reverse]

theorem assign_fits {t : Ty} {a b : NdArr} {N : Nat} {M : List Nat} {i : Nat}
    (hs : a.shape = N :: M) (hi : i < N) (hf : Fits b.shape M) :
    ∃ a', assign t a i (b.shape.filter (· ≠ 0)) b = .ok a' ∧ a'.shape = N :: M ∧ a'.ty = a.ty ∧
      a'.WF ∧ ∀ j is, inBounds (N :: M) (j :: is) = true →
        a'.get (j :: is) =
          if j = i ∧ inBounds b.shape is = true then storeAs t b.ty (b.get is)
          else a.get (j :: is) := by
  refine ⟨.ofFn a.ty (N :: M) fun idx =>
      match idx with
      | [] => a.get idx
      | j :: is =>
        if j = i ∧ inBounds b.shape is = true then storeAs t b.ty (b.get (bidx b.shape is))
        else a.get idx, ?_, rfl, rfl, NdArr.wf_ofFn .., ?_⟩
  · unfold assign
    rw [hs]
    simp only [hi, if_true, hf.1, broadcasts_self]
    rfl
  intro j is hb
  rw [NdArr.get_ofFn hb]
  simp only
  by_cases hc : j = i ∧ inBounds b.shape is = true
  · rw [if_pos hc, if_pos hc, bidx_self hc.2]
  · rw [if_neg hc, if_neg hc]

theorem field_ok {α : Type} {d : Dict PyStr α} {k : PyStr} {v : α} (h : d.get? k = some v) :
    field d k = .ok v := by rw [field, h]

/-- What `fillField` needs to know of the value of a record: `b` is the value as an array, and
its shape fits. -/
def FillOK (k : PyStr) (isA : Bool) (M : List Nat) (b : Rec → NdArr) (r : Rec) : Prop :=
  ∃ v, r.get? k = some v ∧ v.asArr = b r ∧
    sliceDims isA v = .ok (b r).shape ∧ Fits (b r).shape M

theorem fillField_ok {t : Ty} {k : PyStr} {isA : Bool} {N : Nat} {M : List Nat} {b : Rec → NdArr}
    {rs : Records} : ∀ {a : NdArr} {i : Nat}, a.shape = N :: M → a.WF → i + rs.length ≤ N →
    (∀ p ∈ rs, FillOK k isA M b p.2) →
    ∃ a', fillField t k isA i a rs = .ok a' ∧ a'.shape = N :: M ∧ a'.ty = a.ty ∧ a'.WF ∧
      (∀ j (h : j < rs.length) is, inBounds M is = true →
        a'.get ((i + j) :: is) =
          if inBounds (b rs[j].2).shape is = true then
            storeAs t (b rs[j].2).ty ((b rs[j].2).get is)
          else a.get ((i + j) :: is)) ∧
      (∀ j is, inBounds (N :: M) (j :: is) = true → j < i → a'.get (j :: is) = a.get (j :: is)) := by
  induction rs with
  | nil =>
    intro a i hs hw _ _
    exact ⟨a, rfl, hs, rfl, hw, fun j h => absurd h (by simp), fun _ _ _ _ => rfl⟩
  | cons p rs ih =>
    intro a i hs hw hN hok
    obtain ⟨n, r⟩ := p
    obtain ⟨v, hv, hb, hsh, hf⟩ := hok (n, r) (List.mem_cons_self ..)
    simp only [List.length_cons] at hN
    obtain ⟨a1, h1, hs1, ht1, hw1, hg1⟩ := assign_fits (t := t) hs (show i < N by omega) hf
    obtain ⟨a', h', hs', ht', hw', hA, hB⟩ := ih (a := a1) (i := i + 1) hs1 hw1 (by omega)
      (fun q hq => hok q (List.mem_cons_of_mem _ hq))
    refine ⟨a', ?_, hs', by rw [ht', ht1], hw', ?_, ?_⟩
    · simp only at hsh hb
      simp only [fillField, field_ok hv, hsh, hb, bind, Except.bind, h1]
      exact h'
    · intro j hj is his
      cases j with
      | zero =>
        have hbd : inBounds (N :: M) (i :: is) = true := inBounds_cons.2 ⟨by omega, his⟩
        rw [Nat.add_zero, hB i is hbd (by omega), hg1 i is hbd]
        simp
      | succ j =>
        have hbd : inBounds (N :: M) ((i + (j + 1)) :: is) = true :=
          inBounds_cons.2 ⟨by simp only [List.length_cons] at hj; omega, his⟩
        have e : i + (j + 1) = i + 1 + j := by omega
        have hne : ¬(i + 1 + j = i ∧ inBounds (b r).shape is = true) := fun h => by omega
        rw [e] at hbd ⊢
        rw [hA j (by simpa using hj) is his, hg1 _ _ hbd, if_neg hne]
        simp
    · intro j is hbd hj
      rw [hB j is hbd (by omega), hg1 j is hbd, if_neg (fun h => by omega)]

end Verif.Bor
