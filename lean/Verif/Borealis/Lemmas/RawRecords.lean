import Verif.Borealis.SpecRestructure
import Verif.Borealis.Model.FileRestructure
import Verif.Borealis.Lemmas.Files
/-!
# The dictionaries of a file and what a reader makes of them
-/
namespace Verif.Bor
open Verif

/-! ## Dictionaries -/

theorem get?_mapValues {α β : Type} (f : α → β) (d : Dict PyStr α) (k : PyStr) :
    Dict.get? (d.map fun p => (p.1, f p.2)) k = (d.get? k).map f := by
  induction d with
  | nil => rfl
  | cons p d ih =>
    obtain ⟨k', v⟩ := p
    simp only [List.map_cons, Dict.get?]
    by_cases h : k' = k
    · rw [if_pos h, if_pos h]; rfl
    · rw [if_neg h, if_neg h]; exact ih

theorem keys_mapValues {α β : Type} (f : α → β) (d : Dict PyStr α) :
    Dict.keys (d.map fun p => (p.1, f p.2)) = d.keys := by
  unfold Dict.keys
  rw [List.map_map]
  rfl

theorem get?_filterKeys {α : Type} (P : PyStr → Prop) [DecidablePred P] (d : Dict PyStr α) (k : PyStr) :
    Dict.get? (d.filter fun p => P p.1) k = if P k then d.get? k else none := by
  induction d with
  | nil => simp [Dict.get?]
  | cons p d ih =>
    obtain ⟨k', v⟩ := p
    by_cases hk : k' = k
    · subst hk
      by_cases hp : P k'
      · rw [List.filter_cons_of_pos (by simpa using hp)]
        simp [Dict.get?, hp]
      · rw [List.filter_cons_of_neg (by simpa using hp), ih]
        simp [hp]
    · by_cases hp : P k'
      · rw [List.filter_cons_of_pos (by simpa using hp)]
        simp only [Dict.get?, if_neg hk]
        exact ih
      · rw [List.filter_cons_of_neg (by simpa using hp), ih]
        simp only [Dict.get?, if_neg hk]

theorem nodup_filterKeys {α : Type} (P : PyStr × α → Bool) {d : Dict PyStr α} (h : d.NodupKeys) :
    Dict.NodupKeys (d.filter P) := by
  unfold Dict.NodupKeys Dict.keys at *
  exact h.sublist (List.Sublist.map _ List.filter_sublist)

theorem nodup_mapValues {α β : Type} (f : α → β) {d : Dict PyStr α} (h : d.NodupKeys) :
    Dict.NodupKeys (d.map fun p => (p.1, f p.2)) := by
  unfold Dict.NodupKeys
  rw [keys_mapValues]
  exact h

/-! ## Reading a group -/

theorem readAttrs_get {l : Dict PyStr Attr} {r : Rec} (h : readAttrs l = .ok r) (hn : l.NodupKeys) :
    r.NodupKeys ∧ (∀ k ∈ r.keys, k ∈ l.keys) ∧ ∀ k, k ∉ defaultAttrs →
      (l.get? k = none → r.get? k = none) ∧
      ∀ a, l.get? k = some a → ∃ v, readAttr a = .ok v ∧ r.get? k = some v := by
  induction l generalizing r with
  | nil =>
    cases h
    exact ⟨List.nodup_nil, by simp, fun k _ => ⟨fun _ => rfl, fun a ha => by cases ha⟩⟩
  | cons p l ih =>
    obtain ⟨k0, a0⟩ := p
    have hn' := List.nodup_cons.1 hn
    rw [readAttrs] at h
    split at h
    · rename_i hd
      obtain ⟨i1, i2, i3⟩ := ih h hn'.2
      refine ⟨i1, fun k hk => List.mem_cons_of_mem _ (i2 k hk), fun k hk => ?_⟩
      have hne : k0 ≠ k := fun e => hk (e ▸ hd)
      have hg : Dict.get? ((k0, a0) :: l) k = Dict.get? l k := by
        show (if k0 = k then some a0 else Dict.get? l k) = _
        rw [if_neg hne]
      rw [hg]
      exact i3 k hk
    · obtain ⟨v0, hv0, h⟩ := bind_ok h
      obtain ⟨r0, hr0, h⟩ := bind_ok h
      cases h
      obtain ⟨i1, i2, i3⟩ := ih hr0 hn'.2
      refine ⟨List.nodup_cons.2 ⟨fun c => hn'.1 (i2 _ c), i1⟩, fun k hk => ?_, fun k hk => ?_⟩
      · rcases List.mem_cons.1 hk with rfl | hk
        · exact List.mem_cons_self ..
        · exact List.mem_cons_of_mem _ (i2 k hk)
      · simp only [Dict.get?]
        by_cases he : k0 = k
        · rw [if_pos he, if_pos he]
          exact ⟨(fun c => by cases c), fun a ha => by cases ha; exact ⟨v0, hv0, rfl⟩⟩
        · rw [if_neg he, if_neg he]
          exact i3 k hk

theorem readDsets_get {l : Dict PyStr Dset} {r : Rec} (h : readDsets l = .ok r) :
    r.keys = l.keys ∧ ∀ k,
      (l.get? k = none → r.get? k = none) ∧
      ∀ d, l.get? k = some d → ∃ v, readDset d = .ok v ∧ r.get? k = some v := by
  induction l generalizing r with
  | nil =>
    cases h
    exact ⟨rfl, fun k => ⟨fun _ => rfl, fun a ha => by cases ha⟩⟩
  | cons p l ih =>
    obtain ⟨k0, a0⟩ := p
    rw [readDsets] at h
    obtain ⟨v0, hv0, h⟩ := bind_ok h
    obtain ⟨r0, hr0, h⟩ := bind_ok h
    cases h
    obtain ⟨i2, i3⟩ := ih hr0
    refine ⟨by simp [i2], fun k => ?_⟩
    simp only [Dict.get?]
    by_cases he : k0 = k
    · rw [if_pos he, if_pos he]
      exact ⟨(fun c => by cases c), fun a ha => by cases ha; exact ⟨v0, hv0, rfl⟩⟩
    · rw [if_neg he, if_neg he]
      exact i3 k

/-- The value of a field of a group: of the attribute if there is one, else of the dataset. -/
theorem readGroup_get {g : Group} {r : Rec} (h : readGroup g = .ok r) (hn : g.attrs.NodupKeys) {k : PyStr}
    (hk : k ∉ defaultAttrs) :
    (∀ a, g.attrs.get? k = some a → ∃ v, readAttr a = .ok v ∧ r.get? k = some v) ∧
    (g.attrs.get? k = none → ∀ d, g.dsets.get? k = some d → ∃ v, readDset d = .ok v ∧ r.get? k = some v) ∧
    (g.attrs.get? k = none → g.dsets.get? k = none → r.get? k = none) := by
  unfold readGroup at h
  obtain ⟨rd, hrd, h⟩ := bind_ok h
  obtain ⟨ra, hra, h⟩ := bind_ok h
  cases h
  obtain ⟨i1, -, i3⟩ := readAttrs_get hra hn
  obtain ⟨-, j3⟩ := readDsets_get hrd
  rw [get?_update i1]
  refine ⟨fun a ha => ?_, fun ha d hd => ?_, fun ha hd => ?_⟩
  · obtain ⟨v, h1, h2⟩ := (i3 k hk).2 a ha
    exact ⟨v, h1, by rw [h2]; rfl⟩
  · obtain ⟨v, h1, h2⟩ := (j3 k).2 d hd
    exact ⟨v, h1, by rw [(i3 k hk).1 ha, h2]; rfl⟩
  · rw [(i3 k hk).1 ha, (j3 k).1 hd]; rfl

/-! ## The dictionary of a group -/

theorem boolCheck_ok {attrs : Dict PyStr Attr} {ks : List PyStr} (h : ∀ k ∈ ks, k ∈ attrs.keys) :
    boolCheck attrs ks = .ok () := by
  induction ks with
  | nil => rfl
  | cons k ks ih =>
    obtain ⟨a, ha⟩ := Dict.mem_keys_iff.1 (h k (by simp))
    rw [boolCheck, field_iff.2 ha]
    exact ih fun k hk => h k (by simp [hk])

theorem rawRecord_get {fmt : Format} {g : Group} {w : Rec} (h : rawRecord fmt g = .ok w) (hn : g.attrs.NodupKeys)
    {k : PyStr} (hk : k ∉ defaultAttrs) :
    w.get? k = ((g.attrs.get? k).map rawAttr).or ((g.dsets.get? k).map rawDset) := by
  unfold rawRecord at h
  obtain ⟨-, -, h⟩ := bind_ok h
  cases h
  have hk' : k ∉ [py! "CLASS", py! "TITLE", py! "VERSION"] := by
    intro c
    apply hk
    simp only [List.mem_cons, List.not_mem_nil, or_false] at c
    unfold defaultAttrs
    rcases c with rfl | rfl | rfl <;> simp
  rw [get?_update, get?_mapValues, get?_mapValues]
  · rw [get?_filterKeys (fun k => k ∉ [py! "CLASS", py! "TITLE", py! "VERSION"]), if_pos hk']
  · exact nodup_mapValues rawAttr (nodup_filterKeys _ hn)

theorem Dset.all_ok {d : Dset} {a : NdArr} (h : d.all = .ok a) : a = d.arr ∧ d.arr.shape ≠ [] := by
  unfold Dset.all at h
  split at h
  · cases h
  · rename_i hs
    cases h
    exact ⟨rfl, hs⟩

theorem rawDset_arr {d : Dset} (h : d.arr.shape ≠ []) : rawDset d = .arr d.arr := by
  unfold rawDset
  split
  · rename_i h1 _
    exact absurd h1 h
  · rfl

/-- How the dictionary of a group and the record of a reader are related. -/
structure RawOf (S D : TyTable) (g : Group) (w r : Rec) : Prop where
  single : ∀ k ty, S.get? k = some ty → ty ≠ .str → w.get? k = r.get? k
  array : ∀ k ty, D.get? k = some ty → ty ≠ .npStr → w.get? k = r.get? k
  text : ∀ k, S.get? k = some .str → ∀ v, r.get? k = some v → ∃ b s, g.attrs.get? k = some (.bytes b) ∧
    utf8Decode b = some s ∧ v = .py .str (.str s) ∧ w.get? k = some (.np .npBytes (.bytes b))
  texts : ∀ k, D.get? k = some .npStr → ∀ v, r.get? k = some v → ∃ d n a, g.dsets.get? k = some d ∧
    d.itemsize = some n ∧ d.arr.shape ≠ [] ∧ viewText n d.arr = .ok a ∧ v = .arr a ∧ k ∈ w.keys
  dset : ∀ k ty, D.get? k = some ty → ty ≠ .npStr → ∀ a, r.get? k = some (.arr a) →
    g.attrs.get? k = none ∧ ∃ d, g.dsets.get? k = some d ∧ d.arr = a
  attr : ∀ k ty, S.get? k = some ty → ty ≠ .str → ∀ v, r.get? k = some v → g.attrs.get? k = some (.value v)

theorem rawOf {S D : TyTable} {fmt : Format} {g : Group} {w r : Rec} (hp : PlainGroup S D g)
    (hS : ∀ k ∈ S.keys, k ∉ defaultAttrs) (hD : ∀ k ∈ D.keys, k ∉ defaultAttrs)
    (hr : readGroup g = .ok r) (hw : rawRecord fmt g = .ok w) : RawOf S D g w r := by
  have hS' : ∀ {k ty}, S.get? k = some ty → k ∉ defaultAttrs := fun h => hS _ (Dict.mem_keys_iff.2 ⟨_, h⟩)
  have hD' : ∀ {k ty}, D.get? k = some ty → k ∉ defaultAttrs := fun h => hD _ (Dict.mem_keys_iff.2 ⟨_, h⟩)
  have hSd : ∀ {k ty}, S.get? k = some ty → g.dsets.get? k = none := fun h =>
    Dict.get?_eq_none_iff.2 (hp.scalar _ (Dict.mem_keys_iff.2 ⟨_, h⟩))
  have hDa : ∀ {k ty}, D.get? k = some ty → g.attrs.get? k = none := fun h =>
    Dict.get?_eq_none_iff.2 (hp.array _ (Dict.mem_keys_iff.2 ⟨_, h⟩))
  have single : ∀ k ty, S.get? k = some ty → ty ≠ .str →
      (w.get? k = none ∧ r.get? k = none) ∨ ∃ v, g.attrs.get? k = some (.value v) ∧ w.get? k = some v ∧ r.get? k = some v := by
    intro k ty hk hty
    rw [rawRecord_get hw hp.nodupA (hS' hk), hSd hk]
    obtain ⟨h1, h2, h3⟩ := readGroup_get hr hp.nodupA (hS' hk)
    cases ha : g.attrs.get? k with
    | none => exact .inl ⟨rfl, h3 ha (hSd hk)⟩
    | some a =>
      obtain ⟨v, rfl⟩ := hp.value k ty hk hty a ha
      obtain ⟨v', h4, h5⟩ := h1 _ ha
      cases h4
      exact .inr ⟨v, rfl, rfl, h5⟩
  have array : ∀ k ty, D.get? k = some ty → ty ≠ .npStr →
      (w.get? k = none ∧ r.get? k = none) ∨
        ∃ d, g.dsets.get? k = some d ∧ w.get? k = some (.arr d.arr) ∧ r.get? k = some (.arr d.arr) := by
    intro k ty hk hty
    rw [rawRecord_get hw hp.nodupA (hD' hk), hDa hk]
    obtain ⟨h1, h2, h3⟩ := readGroup_get hr hp.nodupA (hD' hk)
    cases hd : g.dsets.get? k with
    | none => exact .inl ⟨rfl, h3 (hDa hk) hd⟩
    | some d =>
      right
      obtain ⟨v, h4, h5⟩ := h2 (hDa hk) d hd
      have hi : d.itemsize = none := by
        cases hi : d.itemsize with
        | none => rfl
        | some n =>
          exfalso
          have := (hp.texts k d (Dict.mem_keys_iff.2 ⟨_, hk⟩) hd).1 (by rw [hi]; rfl)
          rw [hk] at this
          exact hty (Option.some.inj this)
      unfold readDset at h4
      obtain ⟨a, ha, h4⟩ := bind_ok h4
      obtain ⟨rfl, hs⟩ := Dset.all_ok ha
      rw [hi] at h4
      cases h4
      exact ⟨d, rfl, by show some (rawDset d) = _; rw [rawDset_arr hs], h5⟩
  refine ⟨?_, ?_, ?_, ?_, ?_, ?_⟩
  · intro k ty hk hty
    rcases single k ty hk hty with ⟨h1, h2⟩ | ⟨v, -, h1, h2⟩ <;> rw [h1, h2]
  · intro k ty hk hty
    rcases array k ty hk hty with ⟨h1, h2⟩ | ⟨v, -, h1, h2⟩ <;> rw [h1, h2]
  · intro k hk v hv
    rw [rawRecord_get hw hp.nodupA (hS' hk), hSd hk]
    obtain ⟨h1, h2, h3⟩ := readGroup_get hr hp.nodupA (hS' hk)
    cases ha : g.attrs.get? k with
    | none => rw [h3 ha (hSd hk)] at hv; cases hv
    | some a =>
      obtain ⟨b, rfl⟩ := hp.text k hk a ha
      obtain ⟨v', h4, h5⟩ := h1 _ ha
      rw [h5] at hv
      cases hv
      unfold readAttr at h4
      obtain ⟨s, hs, h4⟩ := bind_ok h4
      cases h4
      refine ⟨b, s, rfl, ?_, rfl, rfl⟩
      unfold decodeUtf8 at hs
      split at hs
      · cases hs; assumption
      · cases hs
  · intro k hk v hv
    obtain ⟨h1, h2, h3⟩ := readGroup_get hr hp.nodupA (hD' hk)
    cases hd : g.dsets.get? k with
    | none => rw [h3 (hDa hk) hd] at hv; cases hv
    | some d =>
      obtain ⟨v', h4, h5⟩ := h2 (hDa hk) d hd
      rw [h5] at hv
      cases hv
      have hi := (hp.texts k d (Dict.mem_keys_iff.2 ⟨_, hk⟩) hd).2 hk
      unfold readDset at h4
      obtain ⟨a, ha, h4⟩ := bind_ok h4
      obtain ⟨rfl, hs⟩ := Dset.all_ok ha
      cases hi' : d.itemsize with
      | none => rw [hi'] at hi; cases hi
      | some n =>
        rw [hi'] at h4
        obtain ⟨a, h6, h4⟩ := bind_ok h4
        cases h4
        refine ⟨d, n, a, rfl, hi', hs, h6, rfl, Dict.mem_keys_iff.2 ⟨rawDset d, ?_⟩⟩
        rw [rawRecord_get hw hp.nodupA (hD' hk), hDa hk, hd]
        rfl
  · intro k ty hk hty a ha
    rcases array k ty hk hty with ⟨h1, h2⟩ | ⟨d, hd, h1, h2⟩
    · rw [h2] at ha; cases ha
    · rw [h2] at ha; cases ha
      exact ⟨hDa hk, d, hd, rfl⟩
  · intro k ty hk hty v hv
    rcases single k ty hk hty with ⟨h1, h2⟩ | ⟨v', hd, h1, h2⟩
    · rw [h2] at hv; cases hv
    · rw [h2] at hv; cases hv
      exact hd

/-! ## ASCII -/

theorem decodeAscii_ok {b : Bytes} (h : AsciiBytes b) : ∃ s, decodeAscii b = .ok s ∧ utf8Decode b = some s := by
  have key : ∀ b : Bytes, AsciiBytes b → ∃ s, decodeAscii b = .ok s ∧ asciiBytes s = .ok b := by
    intro b
    induction b with
    | nil => exact fun _ => ⟨[], rfl, rfl⟩
    | cons x b ih =>
      intro h
      obtain ⟨s, h1, h2⟩ := ih fun y hy => h y (by simp [hy])
      have hx : x.toNat < 128 := h x (by simp)
      have hc : (Char.ofNat x.toNat).toNat = x.toNat := by
        rw [Char.ofNat, dif_pos (show x.toNat.isValidChar from .inl (by omega))]
        rfl
      refine ⟨Char.ofNat x.toNat :: s, ?_, ?_⟩
      · rw [decodeAscii, if_pos hx, h1]; rfl
      · rw [asciiBytes, hc, if_pos hx, h2]
        show Except.ok (UInt8.ofNat x.toNat :: b) = _
        rw [UInt8.ofNat_toNat]
  obtain ⟨s, h1, h2⟩ := key b h
  obtain ⟨rfl, -⟩ := asciiBytes_ok h2
  exact ⟨s, h1, utf8Decode_encode s⟩

end Verif.Bor
