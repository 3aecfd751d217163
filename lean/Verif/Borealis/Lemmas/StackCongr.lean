import Verif.Borealis.Lemmas.PpoCongr
/-!
# Restructuring looks only at some fields of the records
-/
namespace Verif.Bor
open Verif

/-- The field a dimension is made of. -/
def DimA.source : DimA → PyStr
  | .maxSeqs => py! "num_sequences"
  | .maxBeams => py! "beam_nums"
  | .maxPpo => py! "pulse_phase_offset"
  | .maxLen f | .firstElem f _ | .firstShape f _ => f

/-- The fields a generated field is made of. -/
def GenA.sources : GenA → List PyStr
  | .lens f => [f]
  | .const _ _ => []

/-- The fields of records that restructuring looks at. -/
def Format.sources (f : Format) : List PyStr :=
  f.shared ++ f.dimsArray.map Prod.fst ++ (f.dimsArray.flatMap fun p => p.2.map DimA.source) ++
    (f.genArray.flatMap fun p => p.2.sources) ++
    match f.reshape with
    | none => []
    | some (d, ks) => d :: ks

/-- The records have the same values of some fields. -/
def AgreeOn (S : List PyStr) (r r' : Rec) : Prop := ∀ k ∈ S, r.get? k = r'.get? k

theorem AgreeOn.field {S : List PyStr} {r r' : Rec} (h : AgreeOn S r r') {k : PyStr} (hk : k ∈ S) :
    Bor.field r k = Bor.field r' k := by
  unfold Bor.field
  rw [h k hk]

theorem AgreeOn.set {S : List PyStr} {r r' : Rec} (h : AgreeOn S r r') (k : PyStr) (v : Val) :
    AgreeOn S (r.set k v) (r'.set k v) := by
  intro k' hk'
  by_cases e : k = k'
  · subst e; rw [Dict.get?_set_self, Dict.get?_set_self]
  · rw [Dict.get?_set_ne _ e, Dict.get?_set_ne _ e, h k' hk']

/-- Equal exceptions, or related results. -/
def RelOr {α β : Type} (R : α → β → Prop) : Except Err α → Except Err β → Prop
  | .ok x, .ok y => R x y
  | .error e, .error e' => e = e'
  | _, _ => False

theorem mapFieldsOf_agree {S : List PyStr} {g : Val → Except Err Val} : ∀ {ks : List PyStr} {r r' : Rec},
    AgreeOn S r r' → (∀ k ∈ ks, k ∈ S) → RelOr (AgreeOn S) (mapFieldsOf g r ks) (mapFieldsOf g r' ks)
  | [], _, _, h, _ => h
  | k :: ks, r, r', h, hk => by
    rw [mapFieldsOf, mapFieldsOf, h.field (hk k (List.mem_cons_self ..))]
    cases Bor.field r' k with
    | error e => rfl
    | ok v =>
      show RelOr _ (g v >>= _) (g v >>= _)
      cases g v with
      | error e => rfl
      | ok v' => exact mapFieldsOf_agree (h.set k v') fun k hk' => hk k (List.mem_cons_of_mem _ hk')

theorem reshapeRec_agree {S : List PyStr} {f : Format} {r r' : Rec} (h : AgreeOn S r r')
    (hs : ∀ d ks, f.reshape = some (d, ks) → d ∈ S ∧ ∀ k ∈ ks, k ∈ S) :
    RelOr (AgreeOn S) (reshapeRec f r) (reshapeRec f r') := by
  unfold reshapeRec
  cases hr : f.reshape with
  | none => exact h
  | some p =>
    obtain ⟨d, ks⟩ := p
    obtain ⟨h1, h2⟩ := hs d ks hr
    simp only
    rw [h.field h1]
    cases Bor.field r' d with
    | error e => rfl
    | ok v =>
      show RelOr _ (v.dimsOf >>= _) (v.dimsOf >>= _)
      cases v.dimsOf with
      | error e => rfl
      | ok dims => exact mapFieldsOf_agree h h2

theorem mapRecords_agree {S : List PyStr} {g : Rec → Except Err Rec} {rs rs' : Records} (h : AllRec (AgreeOn S) rs rs')
    (hg : ∀ r r', AgreeOn S r r' → RelOr (AgreeOn S) (g r) (g r')) :
    RelOr (AllRec (AgreeOn S)) (mapRecords g rs) (mapRecords g rs') := by
  induction h with
  | nil => exact .nil
  | @cons n r r' rs rs' hr _ ih =>
    rw [mapRecords, mapRecords]
    have := hg r r' hr
    revert this
    cases g r <;> cases g r' <;> intro this <;> first | exact this.elim | skip
    · exact this
    · revert ih
      cases mapRecords g rs <;> cases mapRecords g rs' <;> intro ih <;> first | exact ih.elim | skip
      · exact ih
      · exact .cons this ih

theorem findMaxSequences_agree {S : List PyStr} {rs rs' : Records} (h : AllRec (AgreeOn S) rs rs')
    (hk : py! "num_sequences" ∈ S) : ∀ m, findMaxSequences.go m rs = findMaxSequences.go m rs' := by
  induction h with
  | nil => intro; rfl
  | cons hr _ ih =>
    intro m
    rw [findMaxSequences.go, findMaxSequences.go, hr.field hk]
    congr 1; funext v
    congr 1; funext n
    exact ih _

theorem findMaxLen_agree {S : List PyStr} {f : PyStr} {rs rs' : Records} (h : AllRec (AgreeOn S) rs rs')
    (hk : f ∈ S) : ∀ m, findMaxLen.go f m rs = findMaxLen.go f m rs' := by
  induction h with
  | nil => intro; rfl
  | cons hr _ ih =>
    intro m
    rw [findMaxLen.go, findMaxLen.go, hr.field hk]
    congr 1; funext v
    congr 1; funext n
    exact ih _

theorem maxPpoShape_agree {S : List PyStr} {rs rs' : Records} (h : AllRec (AgreeOn S) rs rs')
    (hk : py! "pulse_phase_offset" ∈ S) : ∀ m, maxPpoShape m rs = maxPpoShape m rs' := by
  induction h with
  | nil => intro; rfl
  | cons hr _ ih =>
    intro m
    rw [maxPpoShape, maxPpoShape, hr.field hk]
    congr 1; funext v
    congr 1; funext s
    split
    · exact ih _
    · rfl

theorem firstRec_agree {S : List PyStr} {rs rs' : Records} (h : AllRec (AgreeOn S) rs rs') :
    RelOr (AgreeOn S) (firstRec rs) (firstRec rs') := by
  cases h with
  | nil => rfl
  | cons hr _ => exact hr

theorem first_field_agree {S : List PyStr} {rs rs' : Records} (h : AllRec (AgreeOn S) rs rs') {k : PyStr} (hk : k ∈ S)
    {β : Type} (g : Val → Except Err β) :
    (firstRec rs >>= fun first => Bor.field first k >>= g) = (firstRec rs' >>= fun first => Bor.field first k >>= g) := by
  cases h with
  | nil => rfl
  | cons hr _ =>
    show (Bor.field _ k >>= g) = (Bor.field _ k >>= g)
    rw [hr.field hk]

theorem evalDimA_agree {S : List PyStr} {rs rs' : Records} (h : AllRec (AgreeOn S) rs rs') {d : DimA} (hk : d.source ∈ S) :
    evalDimA rs d = evalDimA rs' d := by
  cases d with
  | maxSeqs => rw [evalDimA, evalDimA, findMaxSequences, findMaxSequences, findMaxSequences_agree h hk]
  | maxBeams => rw [evalDimA, evalDimA, findMaxLen, findMaxLen, findMaxLen_agree (f := py! "beam_nums") h hk]
  | maxLen f => rw [evalDimA, evalDimA, findMaxLen, findMaxLen, findMaxLen_agree (f := f) h hk]
  | maxPpo =>
    rw [evalDimA, evalDimA]
    congr 1
    unfold findMaxPpo
    cases h with
    | nil => rfl
    | cons hr hrs =>
      have h' := AllRec.cons hr hrs (n := ‹_›)
      have hk' : py! "pulse_phase_offset" ∈ S := hk
      simp only [firstRec]
      show (Bor.field _ _ >>= _) = (Bor.field _ _ >>= _)
      rw [hr.field hk']
      congr 1; funext v
      congr 1; funext s
      rcases s with _ | ⟨_ | n, s⟩
      · rfl
      · rfl
      · exact maxPpoShape_agree h' hk _
  | firstElem f i =>
    rw [evalDimA, evalDimA]
    exact first_field_agree h hk fun v => do .ok [← v.elemInt i]
  | firstShape f i =>
    rw [evalDimA, evalDimA]
    exact first_field_agree h hk fun v => do .ok [Int.ofNat (← v.shapeAt i)]

theorem evalDims_agree {S : List PyStr} {rs rs' : Records} (h : AllRec (AgreeOn S) rs rs') :
    ∀ {ds : List DimA}, (∀ d ∈ ds, d.source ∈ S) → evalDims rs ds = evalDims rs' ds
  | [], _ => rfl
  | d :: ds, hk => by
    rw [evalDims, evalDims, evalDimA_agree h (hk d (List.mem_cons_self ..)),
      evalDims_agree h fun d hd => hk d (List.mem_cons_of_mem _ hd)]

theorem stackRecords_agree {f : Format} {rs rs' : Records} (h : AllRec (AgreeOn f.sources) rs rs') :
    stackRecords f rs = stackRecords f rs' := by
  have hgen : forFields (fun _ g => evalGenA rs g) f.genArray = forFields (fun _ g => evalGenA rs' g) f.genArray := by
    refine forFields_congr fun p hp => ?_
    cases hg : p.2 with
    | const => rfl
    | lens k =>
      have hk : k ∈ f.sources := by
        unfold Format.sources
        simp only [List.mem_append, List.mem_flatMap]
        exact .inl (.inr ⟨p, hp, by rw [hg]; exact List.mem_singleton.2 rfl⟩)
      simp only [evalGenA]
      rw [lensOf_congr (h.imp fun _ _ _ _ hr => hr k hk)]
  have hlen := h.length
  unfold stackRecords
  rw [hgen]
  cases h with
  | nil => rfl
  | @cons n r r' rs0 rs0' hr hrs =>
    have h := AllRec.cons hr hrs (n := n)
    show (do
      let shared ← forFields (fun k (_ : Unit) => Bor.field r k) (f.shared.map fun k => (k, ()))
      let spec ← forFields (fun _ g => evalGenA ((n, r') :: rs0') g) f.genArray
      let un ← forFields (fun k dims => buildField f ((n, r) :: rs0) r k dims) f.dimsArray
      Except.ok (update (update (update [] shared) spec) un)) = (do
      let shared ← forFields (fun k (_ : Unit) => Bor.field r' k) (f.shared.map fun k => (k, ()))
      let spec ← forFields (fun _ g => evalGenA ((n, r') :: rs0') g) f.genArray
      let un ← forFields (fun k dims => buildField f ((n, r') :: rs0') r' k dims) f.dimsArray
      Except.ok (update (update (update [] shared) spec) un))
    have hsh : forFields (fun k (_ : Unit) => Bor.field r k) (f.shared.map fun k => (k, ())) =
        forFields (fun k (_ : Unit) => Bor.field r' k) (f.shared.map fun k => (k, ())) := by
      refine forFields_congr fun p hp => ?_
      obtain ⟨k, hk, rfl⟩ := List.mem_map.1 hp
      exact hr.field (by unfold Format.sources; simp [hk])
    have hun : forFields (fun k dims => buildField f ((n, r) :: rs0) r k dims) f.dimsArray =
        forFields (fun k dims => buildField f ((n, r') :: rs0') r' k dims) f.dimsArray := by
      refine forFields_congr fun p hp => ?_
      have hk : p.1 ∈ f.sources := by
        unfold Format.sources
        simp only [List.mem_append, List.mem_map]
        exact .inl (.inl (.inl (.inr ⟨p, hp, rfl⟩)))
      have hd : ∀ d ∈ p.2, d.source ∈ f.sources := by
        intro d hd
        unfold Format.sources
        simp only [List.mem_append, List.mem_flatMap]
        exact .inl (.inl (.inr ⟨p, hp, List.mem_map.2 ⟨d, hd, rfl⟩⟩))
      unfold buildField
      rw [evalDims_agree h hd, hr.field hk, hlen]
      congr 1; funext ds
      congr 1; funext shape
      congr 1; funext ty
      congr 1; funext e
      congr 1; funext v
      rw [fillField_congr (h.imp fun _ _ _ _ hr => hr p.1 hk)]
    rw [hsh, hun]

/-- Restructuring looks only at the fields of `Format.sources`. -/
theorem siteToArray_agree {f : Format} {rs rs' : Records} (h : AllRec (AgreeOn f.sources) rs rs') :
    siteToArray f rs = siteToArray f rs' := by
  have hr := mapRecords_agree h (g := reshapeRec f) fun r r' h => reshapeRec_agree h (by
    intro d ks hd
    unfold Format.sources
    rw [hd]
    exact ⟨List.mem_append_right _ (List.mem_cons_self ..), fun k hk => List.mem_append_right _ (List.mem_cons_of_mem _ hk)⟩)
  unfold siteToArray
  split
  · revert hr
    cases mapRecords (reshapeRec f) rs <;> cases mapRecords (reshapeRec f) rs' <;> intro hr <;> first | exact hr.elim | skip
    · rw [show _ = _ from hr]
    · exact stackRecords_agree hr
  · rfl

end Verif.Bor
