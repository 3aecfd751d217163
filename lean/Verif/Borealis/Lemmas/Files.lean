import Verif.Borealis.Lemmas.Hdf5Groups
import Verif.Borealis.Model.Objects
import Verif.Borealis.Props.Formats
import Verif.Borealis.Props.Checks
/-!
# Files of records and of arrays
-/
namespace Verif.Bor
open Verif

/-! ## Sorting -/

theorem strLt_iff (s t : PyStr) : strLt s t = true ↔ s < t := by
  induction s generalizing t with
  | nil =>
    cases t with
    | nil => simp [strLt]
    | cons d t => simp [strLt]
  | cons c s ih =>
    cases t with
    | nil => simp [strLt]
    | cons d t =>
      rw [List.cons_lt_cons_iff, strLt]
      by_cases h : c = d
      · subst h
        simp [ih]
      · have : c < d ↔ c.toNat < d.toNat := by
          rw [Char.lt_def, UInt32.lt_iff_toNat_lt]; rfl
        simp [h, this]

theorem insertStr_perm (s : PyStr) (l : List PyStr) : (insertStr s l).Perm (s :: l) := by
  induction l with
  | nil => exact .refl _
  | cons t l ih =>
    unfold insertStr
    split
    · exact (ih.cons t).trans (.swap s t l)
    · exact .refl _

theorem sortStrs_perm (l : List PyStr) : (sortStrs l).Perm l := by
  induction l with
  | nil => exact .refl _
  | cons s l ih => exact (insertStr_perm s _).trans (ih.cons s)

theorem str_asymm {s t : PyStr} (h : s < t) : ¬ t < s := List.lt_asymm h

theorem str_le_trans {s t u : PyStr} (h1 : ¬ t < s) (h2 : ¬ u < t) : ¬ u < s :=
  List.not_lt.2 (List.le_trans (List.not_lt.1 h1) (List.not_lt.1 h2))

theorem insertStr_sorted {s : PyStr} {l : List PyStr} (h : l.Pairwise fun s t => ¬ t < s) :
    (insertStr s l).Pairwise fun s t => ¬ t < s := by
  induction l with
  | nil => exact List.pairwise_singleton _ _
  | cons t l ih =>
    obtain ⟨h1, h2⟩ := List.pairwise_cons.1 h
    unfold insertStr
    split
    · rename_i hlt
      rw [strLt_iff] at hlt
      refine List.pairwise_cons.2 ⟨fun u hu => ?_, ih h2⟩
      rcases List.mem_cons.1 ((insertStr_perm s l).mem_iff.1 hu) with rfl | hu
      · exact str_asymm hlt
      · exact h1 u hu
    · rename_i hlt
      rw [strLt_iff] at hlt
      refine List.pairwise_cons.2 ⟨fun u hu => ?_, h⟩
      rcases List.mem_cons.1 hu with rfl | hu
      · exact hlt
      · exact str_le_trans hlt (h1 u hu)

theorem sortStrs_sorted (l : List PyStr) : (sortStrs l).Pairwise fun s t => ¬ t < s := by
  induction l with
  | nil => exact .nil
  | cons s l ih => exact insertStr_sorted ih

theorem sortStrs_names (l : List PyStr) : SortedNames l (sortStrs l) := ⟨sortStrs_perm l, sortStrs_sorted l⟩

/-! ## Writing records -/

theorem mem_H5keys {f : H5} {n : PyStr} : n ∈ f.keys ↔ n ∈ f.groups.keys ∨ n ∈ f.root.dsets.keys := by
  simp [H5.keys]

/-- What a successful `writeRecords` does. -/
structure WrittenRecords (h : H5Cfg) (comp : Option PyStr) (fmt : Format) (f : H5) (rs : Records) (f' : H5) :
    Prop where
  root : f'.root = f.root
  groups : ∃ gs : Dict PyStr Group, f'.groups = f.groups ++ gs ∧ gs.keys = rs.keys ∧
    ∀ n r, (n, r) ∈ rs → ∃ g, (n, g) ∈ gs ∧ writeFields h comp fmt.siteSingleTypes [] .new r = (.ok (), g)
  fresh : ∀ n ∈ rs.keys, n ∉ f.keys
  nodup : rs.NodupKeys

theorem writeRecords_written {h : H5Cfg} {comp : Option PyStr} {fmt : Format} {f f' : H5} {rs : Records}
    (hw : writeRecords h comp fmt f rs = (.ok (), f')) : WrittenRecords h comp fmt f rs f' := by
  induction rs generalizing f with
  | nil =>
    cases hw
    exact ⟨rfl, ⟨[], by simp, rfl, by simp⟩, by simp, List.nodup_nil⟩
  | cons p rs ih =>
    obtain ⟨n, r⟩ := p
    rw [writeRecords] at hw
    split at hw
    · cases hw
    · split at hw
      · cases hw
      · rename_i hk
        split at hw
        · cases hw
        · rename_i g hg
          have w := ih hw
          obtain ⟨gs, h1, h2, h3⟩ := w.groups
          refine ⟨w.root, ⟨(n, g) :: gs, by rw [h1]; simp, by simp [h2], ?_⟩, ?_, ?_⟩
          · intro n' r' hm
            rcases List.mem_cons.1 hm with he | hm
            · cases he; exact ⟨g, by simp, hg⟩
            · obtain ⟨g', h4, h5⟩ := h3 n' r' hm
              exact ⟨g', by simp [h4], h5⟩
          · intro n' hm
            rcases List.mem_cons.1 hm with rfl | hm
            · exact hk
            · intro c
              refine w.fresh n' hm ?_
              rcases mem_H5keys.1 c with c | c
              · exact mem_H5keys.2 (.inl (by simp [c]))
              · exact mem_H5keys.2 (.inr c)
          · refine List.nodup_cons.2 ⟨fun c => ?_, w.nodup⟩
            exact w.fresh n c (mem_H5keys.2 (.inl (by simp)))

theorem plainName_iff {n : PyStr} : plainName n = true ↔ PlainName n := by
  unfold plainName PlainName
  simp [and_assoc]

/-- When `writeRecords` succeeds. -/
theorem writeRecords_ok {h : H5Cfg} {comp : Option PyStr} {fmt : Format} {f : H5} {rs : Records}
    (hn : rs.NodupKeys) (hp : ∀ n ∈ rs.keys, PlainName n ∧ n ∉ f.keys)
    (hw : ∀ n r, (n, r) ∈ rs → (writeFields h comp fmt.siteSingleTypes [] .new r).1 = .ok ()) :
    (writeRecords h comp fmt f rs).1 = .ok () := by
  induction rs generalizing f with
  | nil => rfl
  | cons p rs ih =>
    obtain ⟨n, r⟩ := p
    obtain ⟨h1, h2⟩ := hp n (by simp)
    have hn' := List.nodup_cons.1 hn
    have hw0 := hw n r (by simp)
    rw [writeRecords, plainName_iff.2 h1]
    rw [if_neg (by simp), if_neg h2]
    cases hg : writeFields h comp fmt.siteSingleTypes [] .new r with
    | mk res g =>
      rw [hg] at hw0
      cases hw0
      refine ih hn'.2 (fun n' hm => ?_) fun n' r' hm => hw n' r' (by simp [hm])
      obtain ⟨h3, h4⟩ := hp n' (by simp [hm])
      refine ⟨h3, fun c => ?_⟩
      rcases mem_H5keys.1 c with c | c
      · have : n' ∈ f.groups.keys ∨ n' = n := by simpa using c
        rcases this with c | rfl
        · exact h4 (mem_H5keys.2 (.inl c))
        · exact hn'.1 hm
      · exact h4 (mem_H5keys.2 (.inr c))

/-! ## Reading records -/

theorem readNames_back {f : H5} {P : PyStr → Rec → Prop} {ns : List PyStr}
    (h : ∀ n ∈ ns, ∃ g r, f.groups.get? n = some g ∧ readGroup g = .ok r ∧ P n r) :
    ∃ rs, readNames f ns = .ok rs ∧ rs.keys = ns ∧ ∀ n r, (n, r) ∈ rs → P n r := by
  induction ns with
  | nil => exact ⟨[], rfl, rfl, by simp⟩
  | cons n ns ih =>
    obtain ⟨g, r, h1, h2, h3⟩ := h n (by simp)
    obtain ⟨rs, h4, h5, h6⟩ := ih fun n hn => h n (by simp [hn])
    refine ⟨(n, r) :: rs, ?_, by simp [h5], ?_⟩
    · rw [readNames, h1]
      show (readGroup g >>= fun r => readNames f ns >>= fun rs => Except.ok ((n, r) :: rs)) = _
      rw [h2, h4]; rfl
    · intro n' r' hm
      rcases List.mem_cons.1 hm with he | hm
      · cases he; exact h3
      · exact h6 n' r' hm

theorem ppoSiteFix_id {rs : Records} (h : ∀ n r, (n, r) ∈ rs → PpoLikePulses r) : ppoSiteFix rs = .ok rs := by
  induction rs with
  | nil => rfl
  | cons p rs ih =>
    obtain ⟨n, r⟩ := p
    have h1 : ppoSiteFix1 r = .ok r := by
      unfold ppoSiteFix1
      cases hg : Dict.get? r (py! "pulse_phase_offset") with
      | none => rfl
      | some v =>
        obtain ⟨p, s, hp, h2, h3⟩ := h n r (by simp) v hg
        simp only [h2, field_iff.2 hp, h3, bind, Except.bind]
        rw [if_neg (by simp)]
    rw [ppoSiteFix, h1, ih fun n r hm => h n r (by simp [hm])]
    rfl

theorem ppoArrayFix_id {r : Rec} (h : PpoNoPair r) : ppoArrayFix r = .ok r := by
  unfold ppoArrayFix
  cases hg : Dict.get? r (py! "pulse_phase_offset") with
  | none => rfl
  | some v =>
    obtain ⟨s, h1, h2⟩ := h v hg
    simp only [h1, bind, Except.bind]
    rw [if_neg h2]

/-! ## Checks -/

theorem checkRecords_ok_iff {attrs dsets : TyTable} {rs : Records} :
    checkRecords attrs dsets rs = .ok () ↔ ∀ n r, (n, r) ∈ rs → checkRecord attrs dsets r = .ok () := by
  have key : ∀ b, collectBad attrs dsets rs = .ok b →
      ((b.missing = [] ∧ b.extra = [] ∧ b.types = []) ↔
        ∀ n r, (n, r) ∈ rs → checkRecord attrs dsets r = .ok ()) := by
    induction rs with
    | nil => intro b h; cases h; simp
    | cons p rs ih =>
      obtain ⟨n, r⟩ := p
      intro b h
      rw [collectBad] at h
      have no : ∀ e, checkRecord attrs dsets r = .error e →
          ¬ ∀ n' r', (n', r') ∈ (n, r) :: rs → checkRecord attrs dsets r' = .ok () := by
        intro e he hall
        rw [hall n r (by simp)] at he
        cases he
      split at h
      · rename_i hc
        rw [ih b h]
        constructor
        · intro hall n' r' hm
          rcases List.mem_cons.1 hm with he | hm
          · cases he; exact hc
          · exact hall n' r' hm
        · exact fun hall n' r' hm => hall n' r' (by simp [hm])
      · rename_i fs hc
        obtain ⟨b', _, h⟩ := bind_ok h
        cases h
        exact ⟨fun c => by simp at c, fun hall => absurd hall (no _ hc)⟩
      · rename_i fs hc
        obtain ⟨b', _, h⟩ := bind_ok h
        cases h
        exact ⟨fun c => by simp at c, fun hall => absurd hall (no _ hc)⟩
      · rename_i fs hc
        obtain ⟨b', _, h⟩ := bind_ok h
        cases h
        exact ⟨fun c => by simp at c, fun hall => absurd hall (no _ hc)⟩
      · cases h
  have good : (∀ n r, (n, r) ∈ rs → checkRecord attrs dsets r = .ok ()) →
      ∃ b, collectBad attrs dsets rs = .ok b := by
    intro h
    obtain ⟨b, hb, _⟩ := collectBad_ok (attrs := attrs) (dsets := dsets) (rs := rs)
      fun n r e hm he => by rw [h n r hm] at he; cases he
    exact ⟨b, hb⟩
  constructor
  · intro h
    obtain ⟨b, hb, h⟩ := bind_ok h
    split at h
    · rename_i hc; exact (key b hb).1 hc
    · cases h
  · intro h
    obtain ⟨b, hb⟩ := good h
    unfold checkRecords
    rw [hb]
    exact if_pos ((key b hb).2 h)

theorem conforms_same {ok : PyStr → Ty → Val → Prop} {attrs dsets : TyTable} {r r' : Rec}
    (h : SameFields r r') (hc : Conforms ok attrs dsets r) : Conforms ok attrs dsets r' := by
  refine ⟨fun k hk => hc.complete k ⟨hk.1, fun ⟨v, hv⟩ => hk.2 ⟨v, (h k v).1 hv⟩⟩,
    fun k hk => hc.known k ⟨?_, hk.2⟩, fun k t hk => hc.typed k t ?_⟩
  · obtain ⟨v, hv⟩ := hk.1
    exact ⟨v, (h k v).2 hv⟩
  · rcases hk with ⟨h1, v, hv, h2⟩ | ⟨h1, v, hv, h2⟩
    · exact .inl ⟨h1, v, (h k v).2 hv, h2⟩
    · exact .inr ⟨h1, v, (h k v).2 hv, h2⟩

theorem ppoLikePulses_same {r r' : Rec} (h : SameFields r r') (hp : PpoLikePulses r) : PpoLikePulses r' := by
  intro v hv
  obtain ⟨p, s, h1, h2⟩ := hp v ((h _ _).2 hv)
  exact ⟨p, s, (h _ _).1 h1, h2⟩

theorem ppoNoPair_same {r r' : Rec} (h : SameFields r r') (hp : PpoNoPair r) : PpoNoPair r' :=
  fun v hv => hp v ((h _ _).2 hv)

/-! ## File types and formats -/

theorem parseFType_iff {s : PyStr} {t : FType} : parseFType s = some t ↔ s = t.name := by
  unfold parseFType FType.all
  constructor
  · intro h
    exact (by simpa using List.find?_some h : t.name = s).symm
  · rintro rfl
    cases t <;> decide

theorem tables_ok {v : Version} {t : FType} (h : t ≠ .rawrf) : tables (formatOf v t) = .ok () := by
  cases v <;> cases t <;> first | exact absurd rfl h | decide +kernel

/-- The single-element tables can be stored in attributes. -/
theorem plain_site (v : Version) (t : FType) (h : t ≠ .rawrf) : Plain (formatOf v t).siteSingleTypes := by
  have h1 : (∀ k ∈ (formatOf v t).siteSingleTypes.keys, k ∉ defaultAttrs) ∧
      (∀ p ∈ (formatOf v t).siteSingleTypes, p.2 ≠ .npStr ∧ p.2 ≠ .npBytes ∧ p.2 ≠ .pyInt ∧ p.2 ≠ .pyFloat) ∧
      ∀ p ∈ (formatOf v t).siteSingleTypes, p.2.isOther = false := by
    cases v <;> cases t <;> first | exact absurd rfl h | decide +kernel
  exact ⟨h1.1, fun k ty hm => h1.2.1 (k, ty) hm, fun k ty hm => h1.2.2 (k, ty) hm⟩

theorem plain_array (v : Version) (t : FType) (h : t ≠ .rawrf) : Plain (formatOf v t).arraySingleTypes := by
  have h1 : (∀ k ∈ (formatOf v t).arraySingleTypes.keys, k ∉ defaultAttrs) ∧
      (∀ p ∈ (formatOf v t).arraySingleTypes, p.2 ≠ .npStr ∧ p.2 ≠ .npBytes ∧ p.2 ≠ .pyInt ∧ p.2 ≠ .pyFloat) ∧
      ∀ p ∈ (formatOf v t).arraySingleTypes, p.2.isOther = false := by
    cases v <;> cases t <;> first | exact absurd rfl h | decide +kernel
  exact ⟨h1.1, fun k ty hm => h1.2.1 (k, ty) hm, fun k ty hm => h1.2.2 (k, ty) hm⟩

theorem dsets_known (v : Version) (t : FType) (h : t ≠ .rawrf) :
    (∀ k ty, (k, ty) ∈ (formatOf v t).siteArrayTypes → ty.isOther = false) ∧
    ∀ k ty, (k, ty) ∈ (formatOf v t).arrayArrayTypes → ty.isOther = false := by
  have h1 : (∀ p ∈ (formatOf v t).siteArrayTypes, p.2.isOther = false) ∧
      ∀ p ∈ (formatOf v t).arrayArrayTypes, p.2.isOther = false := by
    cases v <;> cases t <;> first | exact absurd rfl h | decide +kernel
  exact ⟨fun k ty hm => h1.1 (k, ty) hm, fun k ty hm => h1.2 (k, ty) hm⟩

/-- The version of the software is a text attribute of both structures. -/
theorem hash_listed (v : Version) (t : FType) (h : t ≠ .rawrf) :
    (py! "borealis_git_hash", Ty.str) ∈ (formatOf v t).siteSingleTypes ∧
    (py! "borealis_git_hash", Ty.str) ∈ (formatOf v t).arraySingleTypes := by
  cases v <;> cases t <;> first | exact absurd rfl h | decide +kernel

theorem selectVersion_iff {hash : PyStr} {v : Version} :
    selectVersion hash = .ok v ↔ lookupVersion (versionOf hash) = some v := by
  unfold selectVersion
  cases lookupVersion (versionOf hash) <;> simp

end Verif.Bor
