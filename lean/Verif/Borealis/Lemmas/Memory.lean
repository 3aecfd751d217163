import Verif.Borealis.Model.Memory
import Verif.Borealis.Lemmas.Keys
/-!
# The objects of restructured records
-/
namespace Verif.Bor

/-! ## Without the objects it is the restructuring -/

/-- Drop the objects of a result. -/
def Except.plain {α β : Type} (g : α → β) : Except Err α → Except Err β
  | .error e => .error e
  | .ok x => .ok (g x)

theorem plain_bind {α β γ δ : Type} {x : Except Err α} {g : α → Except Err β} {p : α → γ} {q : β → δ} {g' : γ → Except Err δ}
    (h : ∀ a, g' (p a) = Except.plain q (g a)) :
    (Except.plain p x >>= g') = Except.plain q (x >>= g) := by
  cases x with
  | error e => rfl
  | ok a => exact h a

theorem plain_bind_same {α β δ : Type} {x : Except Err α} {g : α → Except Err β} {q : β → δ} {g' : α → Except Err δ}
    (h : ∀ a, g' a = Except.plain q (g a)) : (x >>= g') = Except.plain q (x >>= g) := by
  cases x with
  | error e => rfl
  | ok a => exact h a

theorem plain_set (r : HRec) (k : PyStr) (p : Val × Obj) : HRec.plain (Dict.set r k p) = Dict.set (HRec.plain r) k p.1 := by
  induction r with
  | nil => rfl
  | cons q r ih =>
    obtain ⟨k', v, o⟩ := q
    simp only [Dict.set, HRec.plain, List.map_cons] at ih ⊢
    split
    · rfl
    · simp only [List.map_cons, ih]

theorem get?_plain (r : HRec) (k : PyStr) : Dict.get? (HRec.plain r) k = (Dict.get? r k).map Prod.fst := by
  induction r with
  | nil => rfl
  | cons q r ih =>
    obtain ⟨k', v, o⟩ := q
    simp only [Dict.get?, HRec.plain, List.map_cons] at ih ⊢
    split
    · rfl
    · exact ih

theorem plain_update (d e : HRec) : HRec.plain (update d e) = update (HRec.plain d) (HRec.plain e) := by
  unfold update
  induction e generalizing d with
  | nil => rfl
  | cons q e ih =>
    simp only [List.foldl_cons, HRec.plain, List.map_cons] at ih ⊢
    rw [ih]
    have := plain_set d q.1 q.2
    simp only [HRec.plain] at this
    rw [this]

theorem field_plain (r : HRec) (k : PyStr) : field (HRec.plain r) k = Except.plain Prod.fst (field r k) := by
  unfold field
  rw [get?_plain]
  cases Dict.get? r k <;> rfl

theorem forFieldsH_plain {α : Type} (g : PyStr → α → Except Err Val) (h : PyStr → Obj) (l : List (PyStr × α)) :
    forFields g l = Except.plain HRec.plain (forFieldsH g h l) := by
  induction l with
  | nil => rfl
  | cons p l ih =>
    obtain ⟨k, x⟩ := p
    simp only [forFields, forFieldsH]
    refine plain_bind_same fun v => ?_
    rw [ih]
    exact plain_bind fun r => rfl

theorem mapFieldsOfH_plain (g : Val → Except Err Val) (h : PyStr → Obj → Obj) (ks : List PyStr) (r : HRec) :
    mapFieldsOf g (HRec.plain r) ks = Except.plain HRec.plain (mapFieldsOfH g h r ks) := by
  induction ks generalizing r with
  | nil => rfl
  | cons k ks ih =>
    simp only [mapFieldsOf, mapFieldsOfH]
    rw [field_plain]
    refine plain_bind fun p => ?_
    refine plain_bind_same fun v => ?_
    rw [← ih, plain_set]

theorem mapRecordsH_plain {g : PyStr → HRec → Except Err HRec} {g' : Rec → Except Err Rec}
    (h : ∀ n r, g' (HRec.plain r) = Except.plain HRec.plain (g n r)) (rs : HRecords) :
    mapRecords g' (HRecords.plain rs) = Except.plain HRecords.plain (mapRecordsH g rs) := by
  induction rs with
  | nil => rfl
  | cons p rs ih =>
    obtain ⟨n, r⟩ := p
    show mapRecords g' ((n, HRec.plain r) :: HRecords.plain rs) = _
    simp only [mapRecords, mapRecordsH]
    rw [h n]
    refine plain_bind fun r' => ?_
    rw [ih]
    exact plain_bind fun rs' => rfl

theorem plain_deepcopy (rs : HRecords) : HRecords.plain (deepcopyH rs) = HRecords.plain rs := by
  simp [HRecords.plain, HRec.plain, deepcopyH, Function.comp_def]

theorem siteRecordH_plain (f : Format) (id : PyStr → Nat) (arrs : Rec) (i : Nat) :
    siteRecord f arrs i = Except.plain HRec.plain (siteRecordH f id arrs i) := by
  unfold siteRecord siteRecordH
  rw [forFieldsH_plain _ (fun k => .given (id k))]
  refine plain_bind fun a => ?_
  rw [forFieldsH_plain _ (.made i)]
  refine plain_bind fun b => ?_
  rw [forFieldsH_plain _ (fun k => if (f.single.get? k).isSome then .made i k else .row (id k) i k)]
  refine plain_bind fun c => ?_
  simp only [Except.plain, plain_update]
  rfl

theorem siteRowsH_plain (tkey : Elt → Except Err PyStr) (f : Format) (id : PyStr → Nat) (arrs : Rec) (ts : NdArr) (l : List Nat) :
    siteRows tkey f arrs ts l = Except.plain HRecords.plain (siteRowsH tkey f id arrs ts l) := by
  induction l with
  | nil => rfl
  | cons i l ih =>
    simp only [siteRows, siteRowsH]
    refine plain_bind_same fun key => ?_
    rw [siteRecordH_plain f id]
    refine plain_bind fun r => ?_
    rw [ih]
    exact plain_bind fun rs => rfl

theorem plain_setRec (d : HRecords) (n : PyStr) (r : HRec) :
    HRecords.plain (Dict.set d n r) = Dict.set (HRecords.plain d) n (HRec.plain r) := by
  induction d with
  | nil => rfl
  | cons q d ih =>
    obtain ⟨k', r'⟩ := q
    simp only [Dict.set, HRecords.plain, List.map_cons] at ih ⊢
    split
    · rfl
    · simp only [List.map_cons, ih]

theorem plain_ofList (l : HRecords) : HRecords.plain (Dict.ofList l) = Dict.ofList (HRecords.plain l) := by
  have : ∀ (l d : HRecords), HRecords.plain (l.foldl (fun d p => Dict.set d p.1 p.2) d) =
      (HRecords.plain l).foldl (fun d p => Dict.set d p.1 p.2) (HRecords.plain d) := by
    intro l
    induction l with
    | nil => intro d; rfl
    | cons q l ih =>
      intro d
      simp only [List.foldl_cons]
      rw [ih, plain_setRec]
      rfl
  exact this l []

theorem arrayToSiteH_plain (tkey : Elt → Except Err PyStr) (f : Format) (id : PyStr → Nat) (arrs : Rec) :
    arrayToSite tkey f arrs = Except.plain HRecords.plain (arrayToSiteH tkey f id arrs) := by
  unfold arrayToSite arrayToSiteH
  split
  · refine plain_bind_same fun v => ?_
    cases v with
    | arr ts =>
      dsimp only
      cases ts.shape with
      | nil => rfl
      | cons n s =>
        dsimp only
        rw [siteRowsH_plain tkey f id]
        refine plain_bind fun l => ?_
        rw [← mapRecordsH_plain (g' := flattenRec f) (fun n r => mapFieldsOfH_plain _ _ _ r), plain_deepcopy, plain_ofList]
    | _ => rfl
  · rfl

theorem reshapeRecH_plain (f : Format) (r : HRec) : reshapeRec f (HRec.plain r) = Except.plain HRec.plain (reshapeRecH f r) := by
  unfold reshapeRec reshapeRecH
  cases f.reshape with
  | none => rfl
  | some x =>
    dsimp only
    rw [field_plain]
    refine plain_bind fun d => ?_
    refine plain_bind_same fun dims => ?_
    exact mapFieldsOfH_plain _ _ _ _

theorem stackRecordsH_plain (f : Format) (hs : HRecords) :
    stackRecords f (HRecords.plain hs) = Except.plain HRec.plain (stackRecordsH f hs) := by
  unfold stackRecords stackRecordsH
  have h1 : firstRec (HRecords.plain hs) = Except.plain HRec.plain (firstRecH hs) := by
    cases hs <;> rfl
  rw [h1]
  refine plain_bind fun first => ?_
  have h2 : (fun k (_ : Unit) => field (HRec.plain first) k) = fun k (_ : Unit) => (do .ok (← field first k).1) := by
    funext k _
    rw [field_plain]
    cases field first k <;> rfl
  rw [h2, forFieldsH_plain _ (fun k => ((Dict.get? first k).map Prod.snd).getD (.made 0 k))]
  refine plain_bind fun a => ?_
  rw [forFieldsH_plain _ (.made 0)]
  refine plain_bind fun b => ?_
  rw [forFieldsH_plain _ (.made 0)]
  refine plain_bind fun c => ?_
  simp only [Except.plain, plain_update]
  rfl

theorem siteToArrayH_plain (f : Format) (id : PyStr → PyStr → Nat) (rs : Records) :
    siteToArray f rs = Except.plain HRec.plain (siteToArrayH f id rs) := by
  unfold siteToArray siteToArrayH
  split
  · have : rs = HRecords.plain (deepcopyH (rs.map fun p => (p.1, p.2.map fun q => (q.1, (q.2, Obj.given (id p.1 q.1)))))) := by
      rw [plain_deepcopy]
      simp [HRecords.plain, HRec.plain, Function.comp_def]
    have e : mapRecords (reshapeRec f) rs = Except.plain HRecords.plain (mapRecordsH (fun _ r => reshapeRecH f r)
        (deepcopyH (rs.map fun p => (p.1, p.2.map fun q => (q.1, (q.2, Obj.given (id p.1 q.1))))))) := by
      rw [← mapRecordsH_plain (g' := reshapeRec f) (fun n r => reshapeRecH_plain f r), ← this]
    rw [e]
    exact plain_bind fun hs => stackRecordsH_plain f hs
  · rfl

/-! ## Which objects there are -/

theorem bindE_ok {α β : Type} {x : Except Err α} {g : α → Except Err β} {b : β} : (x >>= g) = .ok b ↔ ∃ a, x = .ok a ∧ g a = .ok b := by
  cases x with
  | error e => simp [bind, Except.bind]
  | ok a => simp [bind, Except.bind]

theorem forFieldsH_obj {α : Type} {g : PyStr → α → Except Err Val} {h : PyStr → Obj} : ∀ {l : List (PyStr × α)} {r : HRec},
    forFieldsH g h l = .ok r → ∀ q ∈ r, q.2.2 = h q.1 ∧ q.1 ∈ l.map Prod.fst
  | [], r, e => by cases e; simp
  | (k, x) :: l, r, e => by
    simp only [forFieldsH, bindE_ok] at e
    obtain ⟨v, -, r', hr, e⟩ := e
    cases e
    intro q hq
    rcases List.mem_cons.1 hq with rfl | hq
    · exact ⟨rfl, by simp⟩
    · have := forFieldsH_obj hr q hq
      exact ⟨this.1, by simp [this.2]⟩

theorem mem_update {α : Type} {d e : Dict PyStr α} {q : PyStr × α} (h : q ∈ update d e) : q ∈ d ∨ q ∈ e := by
  unfold update at h
  induction e generalizing d with
  | nil => exact .inl h
  | cons p e ih =>
    rcases ih h with h | h
    · rcases Dict.mem_set h with h | rfl
      · exact .inl h
      · exact .inr (by simp)
    · exact .inr (by simp [h])

/-- What holds field `k` of row `i`. -/
def HeldBy (f : Format) (id : PyStr → Nat) (i : Nat) (k : PyStr) (o : Obj) : Prop :=
  (o = .given (id k) ∧ k ∈ f.shared) ∨ ((o = .made i k ∨ o = .row (id k) i k) ∧ (k ∈ f.genSite.keys ∨ k ∈ f.dimsSite.keys))

theorem siteRecordH_obj {f : Format} {id : PyStr → Nat} {arrs : Rec} {i : Nat} {r : HRec} (h : siteRecordH f id arrs i = .ok r) :
    ∀ q ∈ r, HeldBy f id i q.1 q.2.2 := by
  simp only [siteRecordH, bindE_ok] at h
  obtain ⟨a, ha, b, hb, c, hc, e⟩ := h
  cases e
  intro q hq
  rcases mem_update hq with hq | hq
  · rcases mem_update hq with hq | hq
    · rcases mem_update hq with hq | hq
      · simp at hq
      · obtain ⟨e, hk⟩ := forFieldsH_obj ha q hq
        simp only [List.map_map, List.mem_map, Function.comp_apply] at hk
        obtain ⟨k, hk, e'⟩ := hk
        exact .inl ⟨e, e' ▸ hk⟩
    · obtain ⟨e, hk⟩ := forFieldsH_obj hb q hq
      exact .inr ⟨.inl e, .inl hk⟩
  · obtain ⟨e, hk⟩ := forFieldsH_obj hc q hq
    split at e
    · exact .inr ⟨.inl e, .inr hk⟩
    · exact .inr ⟨.inr e, .inr hk⟩

theorem siteRowsH_obj {tkey : Elt → Except Err PyStr} {f : Format} {id : PyStr → Nat} {arrs : Rec} {ts : NdArr} :
    ∀ {l : List Nat} {out : List (PyStr × HRec)}, siteRowsH tkey f id arrs ts l = .ok out →
      ∀ p ∈ out, ∃ i, rowKey tkey ts i = .ok p.1 ∧ ∀ q ∈ p.2, HeldBy f id i q.1 q.2.2
  | [], out, h => by cases h; simp
  | i :: l, out, h => by
    simp only [siteRowsH, bindE_ok] at h
    obtain ⟨key, hk, r, hr, out', ho, e⟩ := h
    cases e
    intro p hp
    rcases List.mem_cons.1 hp with rfl | hp
    · exact ⟨i, hk, siteRecordH_obj hr⟩
    · exact siteRowsH_obj ho p hp

theorem mapFieldsOfH_obj {g : Val → Except Err Val} {h : PyStr → Obj → Obj} {P : PyStr → Obj → Prop}
    : ∀ {ks : List PyStr} {r r' : HRec}, (∀ k ∈ ks, ∀ o, P k o → P k (h k o)) → mapFieldsOfH g h r ks = .ok r' →
      (∀ q ∈ r, P q.1 q.2.2) → ∀ q ∈ r', P q.1 q.2.2
  | [], r, r', _, e, hr => by cases e; exact hr
  | k :: ks, r, r', hP, e, hr => by
    simp only [mapFieldsOfH, bindE_ok] at e
    obtain ⟨p, hp, v, -, e⟩ := e
    refine mapFieldsOfH_obj (fun k' hk' => hP k' (by simp [hk'])) e fun q hq => ?_
    rcases Dict.mem_set hq with hq | rfl
    · exact hr q hq
    · have : (k, p) ∈ r := by
        unfold field at hp
        split at hp
        · rename_i x hx
          cases hp
          exact Dict.mem_of_get? hx
        · cases hp
      exact hP k (by simp) _ (hr _ this)

theorem mapRecordsH_mem {g : PyStr → HRec → Except Err HRec} : ∀ {rs out : HRecords}, mapRecordsH g rs = .ok out →
    ∀ p ∈ out, ∃ r, (p.1, r) ∈ rs ∧ g p.1 r = .ok p.2
  | [], out, h => by cases h; simp
  | (n, r) :: rs, out, h => by
    simp only [mapRecordsH, bindE_ok] at h
    obtain ⟨r', hr, rs', hrs, e⟩ := h
    cases e
    intro p hp
    rcases List.mem_cons.1 hp with rfl | hp
    · exact ⟨r, by simp, hr⟩
    · obtain ⟨r0, h1, h2⟩ := mapRecordsH_mem hrs p hp
      exact ⟨r0, by simp [h1], h2⟩

/-- What holds field `k` of the record named `n`, which is row `i`. -/
def HeldAs (f : Format) (id : PyStr → Nat) (n : PyStr) (i : Nat) (k : PyStr) (o : Obj) : Prop :=
  (∃ o', o = .copy o' ∧ HeldBy f id i k o') ∨ (o = .flat n k ∧ k ∈ f.flatten)

theorem arrayToSiteH_obj {tkey : Elt → Except Err PyStr} {f : Format} {id : PyStr → Nat} {arrs : Rec} {hs : HRecords}
    (h : arrayToSiteH tkey f id arrs = .ok hs) :
    ∃ ts, ∀ p ∈ hs, ∃ i, rowKey tkey ts i = .ok p.1 ∧ ∀ q ∈ p.2, HeldAs f id p.1 i q.1 q.2.2 := by
  unfold arrayToSiteH at h
  split at h
  · rw [bindE_ok] at h
    obtain ⟨v, -, h⟩ := h
    cases v with
    | arr ts =>
      dsimp only at h
      cases hsh : ts.shape with
      | nil => rw [hsh] at h; cases h
      | cons n s =>
        rw [hsh] at h
        dsimp only at h
        rw [bindE_ok] at h
        obtain ⟨l, hl, h⟩ := h
        refine ⟨ts, fun p hp => ?_⟩
        obtain ⟨r, hr, hg⟩ := mapRecordsH_mem h p hp
        simp only [deepcopyH, List.mem_map, Prod.mk.injEq] at hr
        obtain ⟨p0, hp0, e1, e2⟩ := hr
        obtain ⟨i, hi, hq⟩ := siteRowsH_obj hl p0 (Dict.mem_ofList hp0)
        refine ⟨i, e1 ▸ hi, ?_⟩
        refine mapFieldsOfH_obj (P := HeldAs f id p.1 i) (fun k hk o _ => .inr ⟨rfl, hk⟩) hg ?_
        intro q hq'
        rw [← e2, List.mem_map] at hq'
        obtain ⟨q0, hq0, rfl⟩ := hq'
        exact .inl ⟨_, rfl, hq q0 hq0⟩
    | _ => cases h
  · cases h

theorem reshapeRecH_obj {f : Format} {P : PyStr → Obj → Prop} {r r' : HRec} (h : reshapeRecH f r = .ok r')
    (hr : ∀ q ∈ r, P q.1 q.2.2) : ∀ q ∈ r', P q.1 q.2.2 := by
  unfold reshapeRecH at h
  cases hf : f.reshape with
  | none => rw [hf] at h; cases h; exact hr
  | some x =>
    rw [hf] at h
    simp only [bindE_ok] at h
    obtain ⟨d, -, dims, -, h⟩ := h
    exact mapFieldsOfH_obj (fun _ _ _ ho => ho) h hr

theorem siteToArrayH_obj {f : Format} {id : PyStr → PyStr → Nat} {rs : Records} {a : HRec} (h : siteToArrayH f id rs = .ok a) :
    ∃ n, ∀ q ∈ a, (q.2.2 = .copy (.given (id n q.1)) ∧ q.1 ∈ f.shared ∧ rs.head?.map Prod.fst = some n) ∨ q.2.2 = .made 0 q.1 := by
  unfold siteToArrayH at h
  split at h
  · simp only [bindE_ok] at h
    obtain ⟨hs, hm, h⟩ := h
    unfold stackRecordsH at h
    simp only [bindE_ok] at h
    obtain ⟨first, hf, a', ha, b, hb, c, hc, e⟩ := h
    cases e
    cases rs with
    | nil => cases hm; cases hf
    | cons p rs =>
      simp only [List.map_cons, deepcopyH, mapRecordsH, bindE_ok] at hm
      obtain ⟨r', hr', rs', -, e⟩ := hm
      cases e
      cases hf
      refine ⟨p.1, fun q hq => ?_⟩
      have hfirst := reshapeRecH_obj (P := fun k o => o = .copy (.given (id p.1 k))) hr' (by
        intro q hq
        simp only [List.mem_map] at hq
        obtain ⟨q1, ⟨q0, -, rfl⟩, rfl⟩ := hq
        rfl)
      rcases mem_update hq with hq | hq
      · rcases mem_update hq with hq | hq
        · rcases mem_update hq with hq | hq
          · simp at hq
          · obtain ⟨e, hk⟩ := forFieldsH_obj ha q hq
            simp only [List.map_map, List.mem_map, Function.comp_apply] at hk
            obtain ⟨k, hk, e'⟩ := hk
            cases hg : Dict.get? r' q.1 with
            | none => rw [hg] at e; exact .inr e
            | some x =>
              rw [hg] at e
              exact .inl ⟨e.trans (hfirst _ (Dict.mem_of_get? hg)), e' ▸ hk, rfl⟩
        · exact .inr (forFieldsH_obj hb q hq).1
      · exact .inr (forFieldsH_obj hc q hq).1
  · cases h

end Verif.Bor
