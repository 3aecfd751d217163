import Verif.Borealis.Lemmas.RoundTrip
/-!
# When the writers succeed
-/
namespace Verif.Bor
open Verif

/-- No compression, or one that h5py knows. -/
def FilterOK (h : H5Cfg) (comp : Option PyStr) : Prop := ∀ c, comp = some c → h.hasFilter c = true

theorem storeAttr_ok {v : Val} {t : Ty} (ht : IsScalar t v) (h1 : t ≠ .npStr ∧ t ≠ .npBytes ∧ t ≠ .pyInt ∧ t ≠ .pyFloat)
    (h2 : t.isOther = false) (ha : ∀ t e, v = .py t e → t = .str ∧ ∃ s, e = .str s ∧ AsciiText s) :
    ∃ a, storeAttr v = .ok a := by
  cases v with
  | py t' e =>
    obtain ⟨rfl, s, rfl, hs⟩ := ha t' e rfl
    exact ⟨_, by rw [storeAttr, asciiBytes_of hs]; rfl⟩
  | np t' e =>
    cases ht
    obtain ⟨h3, h4, _⟩ := h1
    cases t with
    | npStr => exact absurd rfl h3
    | npBytes => exact absurd rfl h4
    | other n => cases h2
    | _ => exact ⟨_, rfl⟩
  | arr a => cases ht

theorem compressionCheck_ok {h : H5Cfg} {comp : Option PyStr} (hc : FilterOK h comp) {shape : List Nat}
    (hs : shape ≠ []) : compressionCheck h comp shape = .ok () := by
  unfold compressionCheck
  cases comp with
  | none => rfl
  | some c => simp [hs, hc c rfl]

theorem storeDset_ok {h : H5Cfg} {comp : Option PyStr} (hc : FilterOK h comp) {a : NdArr} (hk : KeptArray a)
    (ht : a.ty.isOther = false) : ∃ d, storeDset h comp (.arr a) = .ok d := by
  unfold storeDset
  simp only
  split
  · rename_i heq; rw [heq] at ht; cases ht
  · rename_i heq
    obtain ⟨b, hb⟩ := textBytes_of (w := h.width a) (l := a.data) fun e he => by
      obtain ⟨s, hs, _⟩ := hk.text heq e he
      exact ⟨s, hs⟩
    have : ∃ x, viewBytes (h.width a) a = .ok x ∧ x.shape ≠ [] := by
      unfold viewBytes
      split
      · rename_i h0; exact absurd h0 hk.rank
      · rw [hb]
        exact ⟨_, rfl, mapLast_ne_nil hk.rank⟩
    obtain ⟨x, hx, hx'⟩ := this
    rw [hx]
    exact ⟨_, by show (compressionCheck h comp x.shape >>= fun _ => _) = _; rw [compressionCheck_ok hc hx']; rfl⟩
  · rw [compressionCheck_ok hc hk.rank]
    exact ⟨_, rfl⟩

theorem writeFields_succeeds {h : H5Cfg} {comp : Option PyStr} (hc : FilterOK h comp) {attrs dsets : TyTable}
    (hp : Plain attrs) {taken : List PyStr} {g : Group} {r : Rec} (hn : r.NodupKeys) (hk : KeptRec dsets r)
    (ha : AsciiRec r) (hs : ∀ k t v, (k, t) ∈ attrs → Holds r k v → IsScalar t v)
    (hd : ∀ k, k ∈ r.keys → k ∉ attrs.keys → Listed dsets k)
    (ht : ∀ k a, k ∈ dsets.keys → Holds r k (.arr a) → a.ty.isOther = false)
    (hf : ∀ k, k ∈ r.keys → k ∉ attrs.keys → k ∉ taken ∧ k ∉ g.dsets.keys) :
    (writeFields h comp attrs taken g r).1 = .ok () := by
  refine writeFields_ok hn (fun k v hm hka => ?_) fun k v hm hka => ?_
  · obtain ⟨t, htm⟩ := listed_iff.2 hka
    have hv : Holds r k v := Dict.get?_of_mem hn hm
    exact storeAttr_ok (hs k t v htm hv) (hp.types k t htm) (hp.known k t htm)
      fun t e he => ha k t e (by rw [← he]; exact hv)
  · have hv : Holds r k v := Dict.get?_of_mem hn hm
    have hkr : k ∈ r.keys := Dict.mem_keys_iff.2 ⟨v, hv⟩
    obtain ⟨h1, h2⟩ := hk k v hv
    obtain ⟨a, rfl⟩ := h2 (hd k hkr hka)
    exact ⟨storeDset_ok hc h1 (ht k a (listed_iff.1 (hd k hkr hka)) hv), hf k hkr hka⟩

theorem conforms_ty {attrs dsets : TyTable} {r : Rec} (hc : Conforms (fun _ => IsNumpy) attrs dsets r)
    (hk : ∀ k ty, (k, ty) ∈ dsets → ty.isOther = false) (k : PyStr) (a : NdArr) (hm : k ∈ dsets.keys)
    (hv : Holds r k (.arr a)) : a.ty.isOther = false := by
  obtain ⟨t, ht⟩ := listed_iff.2 hm
  have : a.ty = t := Classical.byContradiction fun hne => hc.typed k t (.inr ⟨ht, _, hv, hne⟩)
  rw [this]
  exact hk k t ht

theorem arrayConforms_ty {attrs dsets : TyTable} {r : Rec} (hc : Conforms ArrayAccepted attrs dsets r)
    (hk : ∀ k ty, (k, ty) ∈ dsets → ty.isOther = false) (k : PyStr) (a : NdArr) (hm : k ∈ dsets.keys)
    (hv : Holds r k (.arr a)) : a.ty.isOther = false := by
  obtain ⟨t, ht⟩ := listed_iff.2 hm
  have : ArrayAccepted k t (.arr a) := Classical.byContradiction fun hne => hc.typed k t (.inr ⟨ht, _, hv, hne⟩)
  rcases this with h | h | h
  · rw [h]; exact hk k t ht
  · rw [h]; rfl
  · rw [h.2.1]; rfl

theorem writing_fst {fs : FSys} {p : PyStr} {w : H5 → Except Err Unit × H5} {f : H5}
    (ho : fs.openA p = .ok f) : writing fs p w = ((w f).1, fs.put p (.h5 (w f).2)) := by
  unfold writing
  rw [ho]

/-- Records are written. -/
theorem site_written {h : H5Cfg} {fs : FSys} {p : PyStr} {rs : Records} {comp : Option PyStr} {v : Version}
    {t : FType} {f : H5} (ho : fs.openA p = .ok f) (ht : t ≠ .rawrf) (hc : FilterOK h comp)
    (hv : FirstOfVersion v rs) (hn : rs.NodupKeys)
    (hrec : ∀ n r, rs.get? n = some r → r.NodupKeys ∧ KeptRec (formatOf v t).siteArrayTypes r ∧ AsciiRec r ∧
      Conforms (fun _ => IsNumpy) (formatOf v t).siteSingleTypes (formatOf v t).siteArrayTypes r)
    (hnames : ∀ n ∈ rs.keys, PlainName n ∧ n ∉ f.keys) :
    (siteWrite h fs p (.records rs) t.name comp).1 = .ok () := by
  have hchk : siteWriteCheck (.records rs) t.name = .ok (formatOf v t, rs) :=
    siteWriteCheck_of ht hv fun n r hm =>
      (checkRecord_ok_iff (C34_site_tables v t ht) r).2 (hrec n r (Dict.get?_of_mem hn hm)).2.2.2
  unfold siteWrite
  rw [hchk]
  simp only
  rw [writing_fst ho]
  refine writeRecords_ok hn hnames fun n r hm => ?_
  obtain ⟨h1, h2, h3, h4⟩ := hrec n r (Dict.get?_of_mem hn hm)
  refine writeFields_succeeds hc (plain_site v t ht) h1 h2 h3 (fun k ty v hm hv => conforms_scalar h4 hm hv)
    (fun k hk ha => conforms_dset h4 hk ha) (conforms_ty h4 (dsets_known v t ht).1) fun k _ _ => ⟨by simp, ?_⟩
  simp [Group.new]

/-- Arrays are written. -/
theorem array_written {h : H5Cfg} {fs : FSys} {p : PyStr} {r : Rec} {comp : Option PyStr} {v : Version}
    {t : FType} (hnew : fs.at p = none) (ht : t ≠ .rawrf) (hc : FilterOK h comp) (hv : OfVersion v r)
    (hn : r.NodupKeys) (hk : KeptRec (formatOf v t).arrayArrayTypes r) (ha : AsciiRec r)
    (hchk : checkArrays (formatOf v t).arraySingleTypes (formatOf v t).arrayArrayTypes (formatOf v t).unshared r =
      .ok ()) :
    (arrayWrite h fs p (.arrays r) t.name comp).1 = .ok () := by
  obtain ⟨good, hu⟩ := C34_array_tables v t ht
  have conf := ((checkArrays_ok_iff good hu r).1 hchk).1
  unfold arrayWrite
  rw [arrayWriteCheck_of ht hv hchk]
  simp only
  rw [writing_fst (f := .new) (by unfold FSys.openA; rw [hnew])]
  refine writeFields_succeeds hc (plain_array v t ht) hn hk ha (fun k ty v hm hv => conforms_scalar conf hm hv)
    (fun k hk ha => conforms_dset conf hk ha) (arrayConforms_ty conf (dsets_known v t ht).2) fun k _ _ => ⟨?_, ?_⟩
  · simp [H5.new]
  · simp [H5.new, Group.new]

end Verif.Bor
