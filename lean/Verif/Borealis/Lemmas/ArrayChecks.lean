import Verif.Borealis.Lemmas.Checks
/-!
# Lemmas about the checks of array files
-/
namespace Verif.Bor
open Verif

theorem field_of_holds {r : Rec} {k : PyStr} {v : Val} (h : Holds r k v) : field r k = .ok v := by
  unfold field
  rw [show Dict.get? r k = some v from h]

theorem Holds.uniq {r : Rec} {k : PyStr} {v v' : Val} (h : Holds r k v) (h' : Holds r k v') : v = v' :=
  Option.some.inj (h.symm.trans h')

theorem anyArr_outcome {r : Rec} {l : TyTable} (h : AllIn l r) :
    ∃ p, anyArr r l = .ok p ∧
      (p.1 = true ↔ ∃ k v, Listed l k ∧ Holds r k v ∧ v.isArr = true) ∧
      (p.2 = true ↔ ∀ k v, Listed l k → Holds r k v → v.isArr = true) := by
  induction l with
  | nil =>
    refine ⟨_, rfl, ?_, ?_⟩
    · simp [Listed]
    · simp [Listed]
  | cons q l ih =>
    obtain ⟨k, t⟩ := q
    obtain ⟨⟨v, hv⟩, hl⟩ := h.cons
    simp only at hv
    obtain ⟨p, hp, h1, h2⟩ := ih hl
    refine ⟨(v.isArr || p.1, v.isArr && p.2), ?_, ?_, ?_⟩
    · simp [anyArr, field_of_holds hv, hp, bind, Except.bind]
    · simp only [Bool.or_eq_true, h1]
      constructor
      · rintro (h | ⟨k', v', ⟨t', hm⟩, hh⟩)
        · exact ⟨k, v, ⟨t, by simp⟩, hv, h⟩
        · exact ⟨k', v', ⟨t', by simp [hm]⟩, hh⟩
      · rintro ⟨k', v', ⟨t', hm⟩, hh, ha⟩
        rcases List.mem_cons.1 hm with heq | hm
        · cases heq
          rw [hv.uniq hh]
          exact .inl ha
        · exact .inr ⟨k', v', ⟨t', hm⟩, hh, ha⟩
    · simp only [Bool.and_eq_true, h2]
      constructor
      · rintro ⟨ha, h⟩ k' v' ⟨t', hm⟩ hh
        rcases List.mem_cons.1 hm with heq | hm
        · cases heq
          rw [← hv.uniq hh]
          exact ha
        · exact h k' v' ⟨t', hm⟩ hh
      · intro h
        exact ⟨h k v ⟨t, by simp⟩ hv, fun k' v' ⟨t', hm⟩ hh => h k' v' ⟨t', by simp [hm]⟩ hh⟩

theorem wrongArrayDsets_outcome {r : Rec} {l : TyTable}
    (h : ∀ k, Listed l k → ∃ a, Holds r k (.arr a)) :
    ∃ w, wrongArrayDsets r l = .ok w ∧
      ∀ k t, (k, t) ∈ w ↔ (k, t) ∈ l ∧ ∃ a, Holds r k (.arr a) ∧ a.ty ≠ t ∧ a.ty ≠ .npStr := by
  induction l with
  | nil => exact ⟨[], rfl, by simp⟩
  | cons q l ih =>
    obtain ⟨k, t⟩ := q
    obtain ⟨a, ha⟩ := h k ⟨t, by simp⟩
    obtain ⟨w, hw, hmem⟩ := ih fun k' ⟨t', hm⟩ => h k' ⟨t', by simp [hm]⟩
    refine ⟨(if a.ty ≠ t ∧ a.ty ≠ .npStr then (k, t) :: w else w), ?_, ?_⟩
    · simp [wrongArrayDsets, field_of_holds ha, hw, Val.dtype?, bind, Except.bind]
    · intro k' t'
      have hiff : (k', t') ∈ (if a.ty ≠ t ∧ a.ty ≠ .npStr then (k, t) :: w else w) ↔
          ((k', t') = (k, t) ∧ a.ty ≠ t ∧ a.ty ≠ .npStr) ∨ (k', t') ∈ w := by
        by_cases h0 : a.ty ≠ t ∧ a.ty ≠ .npStr
        · simp [h0]
        · rw [if_neg h0]
          constructor
          · exact .inr
          · rintro (⟨_, h⟩ | h)
            · exact absurd h h0
            · exact h
      rw [hiff, hmem]
      constructor
      · rintro (⟨heq, hne⟩ | ⟨hm, hx⟩)
        · cases heq
          exact ⟨by simp, a, ha, hne⟩
        · exact ⟨by simp [hm], hx⟩
      · rintro ⟨hm, a', hh, hx⟩
        rcases List.mem_cons.1 hm with heq | hm
        · cases heq
          have := ha.uniq hh
          cases this
          exact .inl ⟨rfl, hx⟩
        · exact .inr ⟨hm, a', hh, hx⟩

/-- Outcome of the type and number-of-records checks of an array file. -/
inductive ArrOutcome (attrs dsets : TyTable) (unshared : List PyStr) (r : Rec) : Except Err Unit → Prop
  | arrayAttr (h : ∃ k v, Listed attrs k ∧ Holds r k v ∧ v.isArr = true) :
      ArrOutcome attrs dsets unshared r (.error .structure)
  | python (h : ∃ k t v, (k, t) ∈ attrs ∧ Holds r k v ∧ IsPython v ∧ ¬ IsScalar t v)
      (h' : ¬ ∃ k v, Listed attrs k ∧ Holds r k v ∧ v.isArr = true) :
      ArrOutcome attrs dsets unshared r (.error .attributeError)
  | scalarDset (h : ∃ k v, Listed dsets k ∧ Holds r k v ∧ ¬ v.isArr = true) :
      ArrOutcome attrs dsets unshared r (.error .structure)
  | types (fs : List (PyStr × Ty)) (hk : ¬ WrongKind attrs dsets r)
      (hp : ¬ ∃ k t v, (k, t) ∈ attrs ∧ Holds r k v ∧ IsPython v ∧ ¬ IsScalar t v)
      (hw : ∃ k t, Wrong ArrayAccepted attrs dsets r k t)
      (hf : ∀ k t, (k, t) ∈ fs ↔ Wrong ArrayAccepted attrs dsets r k t) :
      ArrOutcome attrs dsets unshared r (.error (.dataFormatType fs))
  | records (shapes : List (PyStr × List Nat)) (hk : ¬ WrongKind attrs dsets r)
      (h : ∀ k t, ¬ Wrong ArrayAccepted attrs dsets r k t)
      (hr : ¬ ∃ n, ∀ k ∈ unshared, ∃ v, Holds r k v ∧ HasRecords n v) :
      ArrOutcome attrs dsets unshared r (.error (.numberOfRecords shapes))
  | ok (hk : ¬ WrongKind attrs dsets r) (h : ∀ k t, ¬ Wrong ArrayAccepted attrs dsets r k t)
      (hr : ∃ n, ∀ k ∈ unshared, ∃ v, Holds r k v ∧ HasRecords n v) :
      ArrOutcome attrs dsets unshared r (.ok ())

theorem shapesOf_outcome {r : Rec} {ks : List PyStr} (h : ∀ k ∈ ks, ∃ a, Holds r k (.arr a)) :
    ∃ l, shapesOf r ks = .ok l ∧ l.map Prod.fst = ks ∧
      ∀ p ∈ l, ∃ a, Holds r p.1 (.arr a) ∧ p.2 = a.shape := by
  induction ks with
  | nil => exact ⟨[], rfl, rfl, by simp⟩
  | cons k ks ih =>
    obtain ⟨a, ha⟩ := h k (by simp)
    obtain ⟨l, hl, h1, h2⟩ := ih fun k' hk' => h k' (by simp [hk'])
    refine ⟨(k, a.shape) :: l, ?_, by simp [h1], ?_⟩
    · simp [shapesOf, field_of_holds ha, hl, Val.shape?, bind, Except.bind]
    · intro p hp
      rcases List.mem_cons.1 hp with rfl | hp
      · exact ⟨a, ha, rfl⟩
      · exact h2 p hp

theorem numRecords_outcome {r : Rec} {ks : List PyStr} (h : ∀ k ∈ ks, ∃ a, Holds r k (.arr a)) :
    ((∃ n, ∀ k ∈ ks, ∃ v, Holds r k v ∧ HasRecords n v) ∧ numRecordsCheck ks r = .ok ()) ∨
    ((¬ ∃ n, ∀ k ∈ ks, ∃ v, Holds r k v ∧ HasRecords n v) ∧
      ∃ shapes, numRecordsCheck ks r = .error (.numberOfRecords shapes)) := by
  obtain ⟨l, hl, h1, h2⟩ := shapesOf_outcome h
  unfold numRecordsCheck
  rw [hl]
  cases l with
  | nil =>
    left
    have : ks = [] := by simpa using h1.symm
    subst this
    exact ⟨⟨0, by simp⟩, rfl⟩
  | cons p l =>
    obtain ⟨k0, s0⟩ := p
    show (_ ∧ (if ((k0, s0) :: l).all (fun p => p.2.head? == s0.head? && p.2.head?.isSome) then
      (.ok () : Except Err Unit) else .error (.numberOfRecords ((k0, s0) :: l))) = .ok ()) ∨ (_ ∧
      ∃ shapes, (if ((k0, s0) :: l).all (fun p => p.2.head? == s0.head? && p.2.head?.isSome) then
      (.ok () : Except Err Unit) else .error (.numberOfRecords ((k0, s0) :: l))) = .error (.numberOfRecords shapes))
    by_cases hall : ((k0, s0) :: l).all (fun p => p.2.head? == s0.head? && p.2.head?.isSome) = true
    · left
      rw [if_pos hall]
      refine ⟨?_, rfl⟩
      rw [List.all_eq_true] at hall
      have h0 := hall (k0, s0) (by simp)
      simp only [Bool.and_eq_true, beq_iff_eq] at h0
      obtain ⟨n, hn⟩ := Option.isSome_iff_exists.1 h0.2
      refine ⟨n, fun k hk => ?_⟩
      rw [← h1] at hk
      obtain ⟨p, hp, rfl⟩ := List.mem_map.1 hk
      obtain ⟨a, ha, hs⟩ := h2 p hp
      have hp' := hall p hp
      simp only [Bool.and_eq_true, beq_iff_eq] at hp'
      refine ⟨_, ha, ?_⟩
      have hh : a.shape.head? = some n := by rw [← hs, hp'.1, hn]
      cases hsh : a.shape with
      | nil => rw [hsh] at hh; cases hh
      | cons m ds =>
        rw [hsh] at hh
        cases hh
        exact ⟨ds, hsh⟩
    · right
      rw [if_neg hall]
      refine ⟨?_, _, rfl⟩
      rintro ⟨n, hn⟩
      apply hall
      rw [List.all_eq_true]
      have key : ∀ p ∈ (k0, s0) :: l, p.2.head? = some n := by
        intro p hp
        obtain ⟨a, ha, hs⟩ := h2 p hp
        obtain ⟨v, hv, hr⟩ := hn p.1 (by rw [← h1]; exact List.mem_map.2 ⟨p, hp, rfl⟩)
        have := ha.uniq hv
        subst this
        obtain ⟨ds, hd⟩ := hr
        rw [hs, hd]
        rfl
      intro p hp
      have e0 := key (k0, s0) (by simp)
      have e1 := key p hp
      simp only at e0
      simp [e0, e1]

theorem ppoHack_mem {r : Rec} {l : List (PyStr × Ty)} {k : PyStr} {t : Ty} :
    (k, t) ∈ ppoHack r l ↔ (k, t) ∈ l ∧
      ¬ (k = py! "pulse_phase_offset" ∧ ∃ a, Holds r k (.arr a) ∧ a.ty = .i64 ∧ a.shape = [2]) := by
  unfold ppoHack
  split
  · rename_i a ha
    by_cases h : a.ty = .i64 ∧ a.shape = [2]
    · rw [if_pos h]
      simp only [List.mem_filter, ne_eq, decide_not, Bool.not_eq_true', decide_eq_false_iff_not]
      constructor
      · rintro ⟨hm, hk⟩; exact ⟨hm, fun h' => hk h'.1⟩
      · rintro ⟨hm, hk⟩
        refine ⟨hm, fun h' => hk ⟨h', a, ?_, h⟩⟩
        subst h'
        exact ha
    · rw [if_neg h]
      constructor
      · intro hm
        refine ⟨hm, ?_⟩
        rintro ⟨rfl, a', ha', h'⟩
        have := Option.some.inj (ha'.symm.trans ha)
        cases this
        exact h h'
      · exact fun h => h.1
  all_goals
    rename_i ha
    constructor
    · intro hm
      refine ⟨hm, ?_⟩
      rintro ⟨rfl, a', ha', h'⟩
      have := ha'.symm.trans ha
      cases this
    · exact fun h => h.1

theorem isArr_iff {v : Val} : v.isArr = true ↔ ∃ a, v = .arr a := by
  cases v <;> simp [Val.isArr]

theorem arrayTypes_outcome {attrs dsets : TyTable} {unshared : List PyStr} {r : Rec}
    (hu : ∀ k ∈ unshared, Listed dsets k) (hm : ∀ k, ¬ Missing attrs dsets r k) :
    ArrOutcome attrs dsets unshared r
      (do arrayTypesCheck attrs dsets r; numRecordsCheck unshared r) := by
  obtain ⟨ha, hd⟩ := allIn_of hm
  obtain ⟨p, hp, hp1, -⟩ := anyArr_outcome ha
  obtain ⟨q, hq, -, hq2⟩ := anyArr_outcome hd
  unfold arrayTypesCheck
  rw [hp, hq]
  simp only [bind, Except.bind]
  cases hb : p.1 with
  | true =>
    simp only [if_true]
    exact .arrayAttr (hp1.1 hb)
  | false =>
    have hna : ¬ ∃ k v, Listed attrs k ∧ Holds r k v ∧ v.isArr = true := by
      intro h; rw [hp1.2 h] at hb; cases hb
    simp only [Bool.false_eq_true, if_false]
    rcases wrongAttrs_outcome ha with ⟨h1, hpy⟩ | ⟨hn1, w1, h1, hw1⟩
    · rw [h1]
      exact .python hpy hna
    · rw [h1]
      simp only
      cases hb2 : q.2 with
      | false =>
        simp only [Bool.not_false, if_true]
        refine .scalarDset ?_
        apply Classical.byContradiction
        intro hn
        have : q.2 = true := hq2.2 fun k v h1 h2 => Classical.byContradiction fun h3 => hn ⟨k, v, h1, h2, h3⟩
        rw [this] at hb2
        cases hb2
      | true =>
        simp only [Bool.not_true, Bool.false_eq_true, if_false]
        have hall := hq2.1 hb2
        have harr : ∀ k, Listed dsets k → ∃ a, Holds r k (.arr a) := by
          rintro k ⟨t, hk⟩
          obtain ⟨v, hv⟩ := hd (k, t) hk
          obtain ⟨a, rfl⟩ := isArr_iff.1 (hall k v ⟨t, hk⟩ hv)
          exact ⟨a, hv⟩
        have hkind : ¬ WrongKind attrs dsets r := by
          rintro (h | ⟨k, v, h1, h2, h3⟩)
          · exact hna h
          · exact h3 (hall k v h1 h2)
        obtain ⟨w2, h2, hw2⟩ := wrongArrayDsets_outcome harr
        rw [h2]
        simp only
        have hmem : ∀ k t, (k, t) ∈ ppoHack r (w1 ++ w2) ↔ Wrong ArrayAccepted attrs dsets r k t := by
          intro k t
          rw [ppoHack_mem, List.mem_append, hw1, hw2]
          constructor
          · rintro ⟨h | ⟨h, a, ha, h1, h2⟩, hn⟩
            · exact .inl h
            · refine .inr ⟨h, _, ha, ?_⟩
              rintro (h' | h' | ⟨h', h3, h4⟩)
              · exact h1 h'
              · exact h2 h'
              · exact hn ⟨h', a, ha, h3, h4⟩
          · rintro (h | ⟨h, v, hv, hok⟩)
            · refine ⟨.inl h, ?_⟩
              rintro ⟨_, a, ha, _⟩
              exact hna ⟨k, _, ⟨t, h.1⟩, ha, rfl⟩
            · obtain ⟨a, ha⟩ := harr k ⟨t, h⟩
              have := ha.uniq hv
              subst this
              simp only [ArrayAccepted, not_or] at hok
              refine ⟨.inr ⟨h, a, ha, hok.1, hok.2.1⟩, ?_⟩
              rintro ⟨h1, a', ha', h2, h3⟩
              have := ha.uniq ha'
              cases this
              exact hok.2.2 ⟨h1, h2, h3⟩
        by_cases hl : (ppoHack r (w1 ++ w2)).length > 0
        · rw [if_pos hl]
          refine .types _ hkind hn1 ?_ hmem
          obtain ⟨⟨k, t⟩, hk⟩ := pos_iff_exists.1 hl
          exact ⟨k, t, (hmem k t).1 hk⟩
        · rw [if_neg hl]
          have hok : ∀ k t, ¬ Wrong ArrayAccepted attrs dsets r k t := fun k t hk =>
            hl (pos_iff_exists.2 ⟨_, (hmem k t).2 hk⟩)
          rcases numRecords_outcome fun k hk => harr k (hu k hk) with ⟨hr, he⟩ | ⟨hr, shapes, he⟩
          · rw [he]; exact .ok hkind hok hr
          · rw [he]; exact .records shapes hkind hok hr

theorem checkArrays_outcome {attrs dsets : TyTable} {unshared : List PyStr} (g : GoodTables attrs dsets)
    (hu : ∀ k ∈ unshared, Listed dsets k) (r : Rec) :
    FieldsOutcome attrs dsets r (ArrOutcome attrs dsets unshared r)
      (checkArrays attrs dsets unshared r) :=
  fields_outcome g r _ _ fun h _ => arrayTypes_outcome hu h

end Verif.Bor
