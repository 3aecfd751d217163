import Verif.Borealis.Lemmas.Memory
import Verif.Borealis.Props.Restructure
/-!
# C75: the arrays of restructured data are the caller's own
-/
namespace Verif.Bor

/-- Writing into the object writes into an object that was given to the restructuring. -/
def OfCaller (o : Obj) : Prop := ∃ x, o.memory = .given x

/-- Writing into one writes into the other. -/
def SameMemory (o o' : Obj) : Prop := o.memory = o'.memory

/-- The field `k` of the record `n` is held by `o`. -/
def HeldIn (hs : HRecords) (n k : PyStr) (o : Obj) : Prop := ∃ r v, Dict.get? hs n = some r ∧ Dict.get? r k = some (v, o)

/-- **C75** The records made from arrays (by any restructuring that succeeds, of any format) hold none of the caller's objects and
none that uses the memory of one, so changing a record changes no array given; and two fields, of one record or of two, use the same
memory only if both are shared fields whose values were one object of the caller's.

Partial: the shared fields are the same object in all records (see `C75_violation`). -/
theorem C75_records_partial (tkey : Elt → Except Err PyStr) (f : Format) (id : PyStr → Nat) (arrs : Rec) (out : Records)
    (h : arrayToSite tkey f arrs = .ok out) :
    ∃ hs, arrayToSiteH tkey f id arrs = .ok hs ∧ hs.plain = out ∧
      (∀ n k o, HeldIn hs n k o → ¬ OfCaller o) ∧
      ∀ n k o n' k' o', HeldIn hs n k o → HeldIn hs n' k' o' → SameMemory o o' → (n, k) ≠ (n', k') →
        k ∈ f.shared ∧ k' ∈ f.shared ∧ id k = id k' := by
  rw [arrayToSiteH_plain tkey f id] at h
  cases hh : arrayToSiteH tkey f id arrs with
  | error e => rw [hh] at h; cases h
  | ok hs =>
    rw [hh] at h
    cases h
    obtain ⟨ts, ho⟩ := arrayToSiteH_obj hh
    refine ⟨hs, rfl, rfl, ?_, ?_⟩
    · rintro n k o ⟨r, v, hr, hk⟩ ⟨x, hx⟩
      obtain ⟨i, -, hq⟩ := ho _ (Dict.mem_of_get? hr)
      rcases hq _ (Dict.mem_of_get? hk) with ⟨o', e, -⟩ | ⟨e, -⟩
      · dsimp only at e
        subst e
        cases hx
      · dsimp only at e
        subst e
        cases hx
    · rintro n k o n' k' o' ⟨r, v, hr, hk⟩ ⟨r', v', hr', hk'⟩ hm hne
      obtain ⟨i, hi, hq⟩ := ho _ (Dict.mem_of_get? hr)
      obtain ⟨i', hi', hq'⟩ := ho _ (Dict.mem_of_get? hr')
      have same : i = i' → n = n' := by
        intro e
        subst e
        exact Except.ok.inj (hi.symm.trans hi')
      have a := hq _ (Dict.mem_of_get? hk)
      have b := hq' _ (Dict.mem_of_get? hk')
      dsimp only at a b
      rcases a with ⟨p, rfl, a⟩ | ⟨rfl, -⟩
      · rcases b with ⟨p', rfl, b⟩ | ⟨rfl, -⟩
        · have e : p = p' := by
            simpa [SameMemory, Obj.memory] using hm
          subst e
          rcases a with ⟨rfl, a⟩ | ⟨rfl | rfl, -⟩
          · rcases b with ⟨e, b⟩ | ⟨e | e, -⟩
            · exact ⟨a, b, Obj.given.inj e⟩
            · cases e
            · cases e
          · rcases b with ⟨e, b⟩ | ⟨e | e, -⟩
            · cases e
            · injection e with e1 e2
              exact absurd (by rw [same e1, e2]) hne
            · cases e
          · rcases b with ⟨e, b⟩ | ⟨e | e, -⟩
            · cases e
            · cases e
            · injection e with e1 e2 e3
              exact absurd (by rw [same e2, e3]) hne
        · cases hm
      · rcases b with ⟨p', rfl, b⟩ | ⟨rfl, -⟩
        · cases hm
        · injection hm with e1 e2
          exact absurd (by rw [e1, e2]) hne

/-- **C75** The same of the arrays made from records: none is the caller's or uses the memory of one, and two use the same memory only
if both are shared fields whose values were one object in the first record. -/
theorem C75_arrays (f : Format) (id : PyStr → PyStr → Nat) (rs : Records) (arrs : Rec) (h : siteToArray f rs = .ok arrs) :
    ∃ hs, siteToArrayH f id rs = .ok hs ∧ hs.plain = arrs ∧
      (∀ k v o, Dict.get? hs k = some (v, o) → ¬ OfCaller o) ∧
      ∀ k v o k' v' o', Dict.get? hs k = some (v, o) → Dict.get? hs k' = some (v', o') → SameMemory o o' → k ≠ k' →
        k ∈ f.shared ∧ k' ∈ f.shared ∧ ∃ n, rs.head?.map Prod.fst = some n ∧ id n k = id n k' := by
  rw [siteToArrayH_plain f id] at h
  cases hh : siteToArrayH f id rs with
  | error e => rw [hh] at h; cases h
  | ok hs =>
    rw [hh] at h
    cases h
    obtain ⟨n, ho⟩ := siteToArrayH_obj hh
    refine ⟨hs, rfl, rfl, ?_, ?_⟩
    · rintro k v o hk ⟨x, hx⟩
      rcases ho _ (Dict.mem_of_get? hk) with ⟨e, -⟩ | e
      · dsimp only at e
        subst e
        cases hx
      · dsimp only at e
        subst e
        cases hx
    · intro k v o k' v' o' hk hk' hm hne
      have a := ho _ (Dict.mem_of_get? hk)
      have b := ho _ (Dict.mem_of_get? hk')
      dsimp only at a b
      rcases a with ⟨rfl, a, a'⟩ | rfl
      · rcases b with ⟨rfl, b, -⟩ | rfl
        · have e : id n k = id n k' := by simpa [SameMemory, Obj.memory] using hm
          exact ⟨a, b, n, a', e⟩
        · cases hm
      · rcases b with ⟨rfl, b, -⟩ | rfl
        · cases hm
        · injection hm with _ e
          exact absurd e hne

/-- A field that is shared and nothing else. -/
theorem pulses_shared (v : Version) (t : FType) (ht : t ≠ .rawrf) : py! "pulses" ∈ (formatOf v t).shared ∧
    py! "pulses" ∉ (formatOf v t).genSite.keys ∧ py! "pulses" ∉ (formatOf v t).dimsSite.keys ∧
    py! "pulses" ∉ (formatOf v t).flatten := by
  cases v <;> cases t <;> first | exact absurd rfl ht | decide +kernel

/-- **C75** (violation) The table of pulses is one object in all records made from arrays, of every version and type: writing into
`pulses` of one record changes all of them. -/
theorem C75_violation (v : Version) (t : FType) (ht : t ≠ .rawrf) (tkey : Elt → Except Err PyStr) (id : PyStr → Nat) (arrs : Rec)
    (hs : HRecords) (h : arrayToSiteH tkey (formatOf v t) id arrs = .ok hs) (n n' : PyStr) (o o' : Obj)
    (ho : HeldIn hs n (py! "pulses") o) (ho' : HeldIn hs n' (py! "pulses") o') : o = o' ∧ SameMemory o o' := by
  obtain ⟨_, h2, h3, h4⟩ := pulses_shared v t ht
  obtain ⟨ts, hobj⟩ := arrayToSiteH_obj h
  have key : ∀ n o, HeldIn hs n (py! "pulses") o → o = .copy (.given (id (py! "pulses"))) := by
    rintro n o ⟨r, v, hr, hk⟩
    obtain ⟨i, -, hq⟩ := hobj _ (Dict.mem_of_get? hr)
    have a := hq _ (Dict.mem_of_get? hk)
    dsimp only at a
    rcases a with ⟨p, rfl, ⟨rfl, -⟩ | ⟨-, b | b⟩⟩ | ⟨-, b⟩
    · rfl
    · exact absurd b h2
    · exact absurd b h3
    · exact absurd b h4
  have := (key n o ho).trans (key n' o' ho').symm
  exact ⟨this, congrArg Obj.memory this⟩

/-- Every field its own object. -/
def ownId (k : PyStr) : Nat := k.foldl (fun n c => n * 1114112 + c.toNat) 0

/-- The objects that hold a field of the records made from the two records. -/
def objectsOf (v : Version) (t : FType) (o : Ppo) (k : PyStr) : Except Err (List (Option Obj)) := do
  let arrs ← siteToArray (formatOf v t) (twoRecords v t o)
  let hs ← arrayToSiteH sampleKey (formatOf v t) ownId arrs
  .ok (hs.map fun p => (Dict.get? p.2 k).map Prod.snd)

/-- There are such records: both hold the one copy of the table of pulses; flattened data and rows are their
own. -/
example : objectsOf .v06 .bfiq .perSeq (py! "pulses") =
      .ok [some (.copy (.given (ownId (py! "pulses")))), some (.copy (.given (ownId (py! "pulses"))))] ∧
    objectsOf .v06 .bfiq .perSeq (py! "data") =
      .ok [some (.flat (List.replicate 5 '0') (py! "data")), some (.flat (List.replicate 9 '0') (py! "data"))] ∧
    objectsOf .v06 .bfiq .perSeq (py! "beam_azms") =
      .ok [some (.copy (.row (ownId (py! "beam_azms")) 0 (py! "beam_azms"))),
        some (.copy (.row (ownId (py! "beam_azms")) 1 (py! "beam_azms")))] ∧
    objectsOf .v06 .bfiq .perSeq (py! "data_dimensions") =
      .ok [some (.copy (.made 0 (py! "data_dimensions"))), some (.copy (.made 1 (py! "data_dimensions")))] := by
  decide +kernel

/-- The objects that hold fields of the arrays made from the two records. -/
def arrayObjects (v : Version) (t : FType) (o : Ppo) (ks : List PyStr) : Except Err (List (Option Obj)) := do
  let hs ← siteToArrayH (formatOf v t) (fun n k => ownId (n ++ k)) (twoRecords v t o)
  .ok (ks.map fun k => (Dict.get? hs k).map Prod.snd)

/-- The table of pulses is the copy of that of the first record. -/
example : arrayObjects .v06 .bfiq .perSeq [py! "pulses", py! "data", py! "num_sequences"] =
    .ok [some (.copy (.given (ownId (List.replicate 5 '0' ++ py! "pulses")))), some (.made 0 (py! "data")),
      some (.made 0 (py! "num_sequences"))] := by
  decide +kernel

end Verif.Bor
