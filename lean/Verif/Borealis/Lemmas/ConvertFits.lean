import Verif.Borealis.Lemmas.ConvertTypes
/-!
# Fields and types of all converted records
-/
namespace Verif.Bor
open Verif

set_option linter.constructorNameAsVariable false

/-- The version numbers of a record. -/
def HasRevisions (r : Rec) (rev : Revision × Revision) : Prop :=
  ∃ h u, Dict.get? r (py! "borealis_git_hash") = some h ∧ h.text = .ok u ∧ revisions u = .ok rev

theorem convertBfiq_mem {cfg : NpCfg} {ops : Ops} {s : Source} {recs : List PlainRec}
    (h : convertBfiq cfg ops s = .ok recs) {d : PlainRec} (hd : d ∈ recs) :
    ∃ rev norm nsamps nseq order beam b l, HasRevisions s.fields rev ∧
      Dict.get? s.fields (py! "antenna_arrays_order") = some (.arr order) ∧
      dictOf (iqdatFields cfg ops s rev norm nsamps nseq order beam b l) = .ok d := by
  unfold convertBfiq at h
  iterate 6 obtain ⟨_, -, h⟩ := bind_ok h
  obtain ⟨t, ht, h⟩ := bind_ok h
  obtain ⟨u, hu, h⟩ := bind_ok h
  obtain ⟨rev, hrev, h⟩ := bind_ok h
  obtain ⟨o, ho, h⟩ := bind_ok h
  obtain ⟨order, ho', h⟩ := bind_ok h
  iterate 7 obtain ⟨_, -, h⟩ := bind_ok h
  obtain ⟨p, -, h⟩ := mapE_mem h hd
  obtain ⟨l, -, h⟩ := bind_ok h
  refine ⟨_, _, _, _, _, _, _, _, ⟨t, u, field_iff.1 ht, hu, hrev⟩, ?_, h⟩
  rw [field_iff.1 ho]
  cases o <;> cases ho'
  rfl

theorem reshape_shape {v w : Val} {dims : List Nat} {a : NdArr} (h : v.reshape dims = .ok w) (ha : w.arr? = .ok a) :
    a.shape = dims := by
  cases v with
  | arr b =>
    rw [Val.reshape] at h
    split at h
    · cases h; cases ha; rfl
    · cases h
  | py t e => cases h
  | np t e => cases h

theorem shapedField_shape {r : Rec} {k : PyStr} {dims : List Nat} {a : NdArr}
    (h : shapedField r k dims = .ok (some a)) : a.shape = dims := by
  unfold shapedField at h
  split at h
  · cases h
  · obtain ⟨w, h1, h⟩ := bind_ok h
    obtain ⟨a', h2, h⟩ := bind_ok h
    cases h
    exact reshape_shape h1 h2

theorem convertRawacf_mem {cfg : NpCfg} {ops : Ops} {s : Source} {recs : List PlainRec}
    (h : convertRawacf cfg ops s = .ok recs) {d : PlainRec} (hd : d ∈ recs) :
    ∃ rev norm nr nl beam b l0 lm, ∃ lx : Option (List Elt), HasRevisions s.fields rev ∧ l0.length = nr ∧ lm.length = nr * (nl - 1) ∧
      (∀ l, lx = some l → l.length = nr * (nl - 1)) ∧
      dictOf (rawacfFields cfg ops s rev norm nr nl beam b l0 lm lx) = .ok d := by
  unfold convertRawacf at h
  obtain ⟨dims, -, h⟩ := bind_ok h
  obtain ⟨_, -, h⟩ := bind_ok h
  obtain ⟨v, h1, h⟩ := bind_ok h
  obtain ⟨main, h2, h⟩ := bind_ok h
  have hm := reshape_shape h1 h2
  obtain ⟨norm, -, h⟩ := bind_ok h
  obtain ⟨intf, -, h⟩ := bind_ok h
  obtain ⟨xcfs, h3, h⟩ := bind_ok h
  obtain ⟨t, ht, h⟩ := bind_ok h
  obtain ⟨u, hu, h⟩ := bind_ok h
  obtain ⟨rev, hrev, h⟩ := bind_ok h
  obtain ⟨_, -, h⟩ := bind_ok h
  obtain ⟨beams, -, h⟩ := bind_ok h
  split at h
  · rename_i nb nr nl
    obtain ⟨p, -, h⟩ := mapE_mem h hd
    unfold rawacfRecord at h
    obtain ⟨l0, h0, h⟩ := bind_ok h
    obtain ⟨lm, h4, h⟩ := bind_ok h
    obtain ⟨li, -, h⟩ := bind_ok h
    obtain ⟨lx, h5, h⟩ := bind_ok h
    obtain ⟨_, _, _, hs, hl0, -, -⟩ := beamLagZero_ok h0
    rw [hm] at hs
    cases hs
    obtain ⟨_, _, _, hs, hlm, -⟩ := beamLags_ok h4
    rw [hm] at hs
    cases hs
    refine ⟨_, _, _, _, _, _, _, _, _, ⟨t, u, field_iff.1 ht, hu, hrev⟩, hl0, hlm, ?_, h⟩
    rintro l rfl
    cases xcfs with
    | none => cases h5
    | some x =>
      obtain ⟨l', h6, h5⟩ := bind_ok h5
      cases h5
      obtain ⟨_, _, _, hs, hlx, -⟩ := beamLags_ok h6
      rw [shapedField_shape h3] at hs
      cases hs
      exact hlx
  · cases h

/-- The table of what is converted to. -/
def targetTable : Target → SD.Table
  | .iqdat => SD.Iqdat.types
  | .rawacf => rawacfTable

/-- The number of scalars in it. -/
def targetScalars : Target → Nat
  | .iqdat => 50
  | .rawacf => 47

theorem kinds_formats {d : PlainRec} {n : Nat} {t : SD.Table}
    (h : d.map (fun p => (p.1, fmtOf p.2, arrayVal p.2)) = (kinds n t).map (fun p => (p.1, some p.2.1, p.2.2))) :
    d.map (fun p => (p.1, fmtOf p.2)) = t.map (fun p => (p.1, some p.2)) := by
  have := congrArg (List.map fun p : PyStr × Option Fmt × Bool => (p.1, p.2.1)) h
  simp only [List.map_map, Function.comp_def] at this
  rw [this]
  conv => rhs; rw [← kinds_fst n t, List.map_map]
  rfl

theorem convertRecord_kinds {cfg : NpCfg} {ops : Ops} {t : Target} {s : Source} (hw : WFRec s.fields)
    {recs : List PlainRec} (h : convertRecord cfg ops t s = .ok recs) {d : PlainRec} (hd : d ∈ recs) :
    d.map (fun p => (p.1, fmtOf p.2, arrayVal p.2)) =
      (kinds (targetScalars t) (targetTable t)).map (fun p => (p.1, some p.2.1, p.2.2)) ∧
    ∀ p ∈ d, FitsType p.2 := by
  cases t with
  | iqdat =>
    obtain ⟨_, _, _, _, _, _, _, _, -, -, h⟩ := convertBfiq_mem h hd
    exact (iqdat_fits cfg ops hw _ _ _ _ _ _ _ _).dict h
  | rawacf =>
    obtain ⟨_, _, _, _, _, _, _, _, _, -, h0, hm, hx, h⟩ := convertRawacf_mem h hd
    exact (rawacf_fits cfg ops hw _ _ _ _ _ _ h0 hm hx).dict h

theorem convertRecord_fits {cfg : NpCfg} {ops : Ops} {t : Target} {s : Source} (hw : WFRec s.fields)
    {recs : List PlainRec} (h : convertRecord cfg ops t s = .ok recs) {d : PlainRec} (hd : d ∈ recs) :
    d.map (fun p => (p.1, fmtOf p.2)) = (targetTable t).map (fun p => (p.1, some p.2)) ∧
    ∀ p ∈ d, FitsType p.2 := by
  obtain ⟨h1, h2⟩ := convertRecord_kinds hw h hd
  exact ⟨kinds_formats h1, h2⟩

/-- Entries after `rsep` that both conversions make in the same way. -/
structure RestOf (cfg : NpCfg) (ops : Ops) (s : Source) (l : List Entry) : Prop where
  tfreq : Dict.get? l (py! "tfreq") = some (s.i16 cfg ops (py! "freq"))
  mxpwr : Dict.get? l (py! "mxpwr") = some (i32 (pyIntTo cfg 4 (-1)))
  lvmax : Dict.get? l (py! "lvmax") = some (i32 (pyIntTo cfg 4 20000))
  combf : Dict.get? l (py! "combf") = some s.combf
  ptab : Dict.get? l (py! "ptab") = some (do asI16 ops (← field s.fields (py! "pulses")))
  ltab : Dict.get? l (py! "ltab") = some (do asI16 ops (← field s.fields (py! "lags")))

/-- The entries that both conversions make in the same way. -/
theorem convertRecord_common {cfg : NpCfg} {ops : Ops} {t : Target} {s : Source}
    {recs : List PlainRec} (h : convertRecord cfg ops t s = .ok recs) {d : PlainRec} (hd : d ∈ recs) :
    ∃ rev beam b txpow nrang l, HasRevisions s.fields rev ∧
      dictOf (commonFields cfg ops s rev beam b txpow nrang ++ l) = .ok d ∧ RestOf cfg ops s l := by
  cases t with
  | iqdat =>
    obtain ⟨_, _, _, _, _, _, _, _, h1, -, h⟩ := convertBfiq_mem h hd
    exact ⟨_, _, _, _, _, _, h1, h, rfl, rfl, rfl, rfl, rfl, rfl⟩
  | rawacf =>
    obtain ⟨_, _, _, _, _, _, _, _, _, h1, -, -, -, h⟩ := convertRawacf_mem h hd
    exact ⟨_, _, _, _, _, _, h1, h, rfl, rfl, rfl, rfl, rfl, rfl⟩

theorem convertAll_mem {cfg : NpCfg} {ops : Ops} {t : Target} {slice : Val} {origin : PyStr} {factor : Int}
    {rs : Records} {ds : List PlainRec} (h : convertAll cfg ops t slice origin factor rs = .ok ds) :
    ∀ d ∈ ds, ∃ n r l, (n, r) ∈ rs ∧ convertRecord cfg ops t ⟨slice, n, r, origin, factor⟩ = .ok l ∧ d ∈ l := by
  induction rs generalizing ds with
  | nil => cases h; simp
  | cons p rs ih =>
    obtain ⟨l, h1, h⟩ := bind_ok h
    obtain ⟨ls, h2, h⟩ := bind_ok h
    cases h
    intro d hd
    rcases List.mem_append.1 hd with hd | hd
    · exact ⟨p.1, p.2, l, List.mem_cons_self, h1, hd⟩
    · obtain ⟨n, r, l, h3, h4⟩ := ih h2 d hd
      exact ⟨n, r, l, List.mem_cons_of_mem _ h3, h4⟩

theorem dict2dmap_ok {ds : List PlainRec}
    (h : ∀ d ∈ ds, ∃ r, plainToRec d = .ok r) : ∃ rs, dict2dmap ds = .ok rs := by
  induction ds with
  | nil => exact ⟨[], rfl⟩
  | cons d ds ih =>
    obtain ⟨r, h1⟩ := h d List.mem_cons_self
    obtain ⟨rs, h2⟩ := ih fun d hd => h d (List.mem_cons_of_mem _ hd)
    exact ⟨r :: rs, by simp only [dict2dmap, h1, h2, bind, Except.bind]; rfl⟩

theorem dict2dmap_mem {ds : List PlainRec} {rs : List Verif.Rec} (h : dict2dmap ds = .ok rs) :
    ∀ r ∈ rs, ∃ d ∈ ds, plainToRec d = .ok r := by
  induction ds generalizing rs with
  | nil => cases h; simp
  | cons d ds ih =>
    rw [dict2dmap] at h
    obtain ⟨r, h1, h⟩ := bind_ok h
    obtain ⟨rs', h2, h⟩ := bind_ok h
    cases h
    intro r' hr
    rcases List.mem_cons.1 hr with rfl | hr
    · exact ⟨d, List.mem_cons_self, h1⟩
    · obtain ⟨d', hd', h3⟩ := ih h2 r' hr
      exact ⟨d', List.mem_cons_of_mem _ hd', h3⟩

/-- The SuperDARN format of what is converted to. -/
def Target.fileType : Target → SD.FileType
  | .iqdat => .iqdat
  | .rawacf => .rawacf

theorem target_conforms (t : Target) {r : Verif.Rec}
    (h : r.map (fun p => (p.1, p.2.fmt?)) = (targetTable t).map (fun p => (p.1, some p.2))) :
    SD.Conforms t.fileType r := by
  cases t with
  | iqdat => exact conforms_of_formats iqdat_table_conforms h
  | rawacf => exact conforms_of_formats rawacf_table_conforms h

theorem plain_conforms {t : Target} {d : PlainRec} {r : Verif.Rec}
    (h : d.map (fun p => (p.1, fmtOf p.2)) = (targetTable t).map (fun p => (p.1, some p.2)))
    (hr : plainToRec d = .ok r) : SD.Conforms t.fileType r := by
  obtain ⟨r', h1, h2⟩ := plainToRec_ok h
  rw [hr] at h1
  cases h1
  exact target_conforms t h2

end Verif.Bor
