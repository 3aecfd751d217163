import Verif.Borealis.Lemmas.ConvertFits
import Verif.Borealis.Lemmas.Versions
/-!
# Conversion succeeds
-/
namespace Verif.Bor
open Verif

/-- The computation succeeds. -/
def Ok {α : Type} (x : Except Err α) : Prop := ∃ v, x = .ok v

theorem ok_ok {α : Type} (a : α) : Ok (.ok a : Except Err α) := ⟨a, rfl⟩

theorem ok_bind {α β : Type} {x : Except Err α} {g : α → Except Err β} (h : Ok x)
    (hg : ∀ a, x = .ok a → Ok (g a)) : Ok (x >>= g) := by
  obtain ⟨a, rfl⟩ := h
  exact hg a rfl

theorem ok_of {α β : Type} {x : Except Err α} {a : α} {g : α → Except Err β} (h : x = .ok a)
    (hg : Ok (g a)) : Ok (x >>= g) := by
  subst h
  exact hg

theorem ok_i8 {x : Except Err Int} (h : Ok x) : Ok (i8 x) := ok_bind h fun _ _ => ok_ok _
theorem ok_i16 {x : Except Err Int} (h : Ok x) : Ok (i16 x) := ok_bind h fun _ _ => ok_ok _
theorem ok_i32 {x : Except Err Int} (h : Ok x) : Ok (i32 x) := ok_bind h fun _ _ => ok_ok _
theorem ok_f32 {x : Except Err (BitVec 32)} (h : Ok x) : Ok (f32 x) := ok_bind h fun _ _ => ok_ok _
theorem ok_text {x : Except Err PyStr} (h : Ok x) : Ok (text x) := ok_bind h fun _ _ => ok_ok _

theorem ok_py (cfg : NpCfg) {k : Nat} {n : Int} (hk : 256 ^ k % 2 = 0) (h : signedOk k n) : Ok (pyIntTo cfg k n) :=
  ⟨n, pyIntTo_eq cfg hk h⟩

theorem ok_py16 (cfg : NpCfg) {n : Int} (h : Is16 n) : Ok (pyIntTo cfg 2 n) :=
  ok_py cfg rfl (by unfold Is16 at h; unfold signedOk; omega)

theorem ok_field {r : Rec} {k : PyStr} {v : Val} (h : Dict.get? r k = some v) : Ok (field r k) :=
  ⟨v, field_iff.2 h⟩

theorem ok_cons {k : PyStr} {x : Except Err PlainVal} {l : List Entry} (h : Ok x) (hl : Ok (dictOf l)) :
    Ok (dictOf ((k, x) :: l)) :=
  ok_bind h fun _ _ => ok_bind hl fun _ _ => ok_ok _

theorem ok_nil : Ok (dictOf []) := ⟨[], rfl⟩

theorem ok_append {l l' : List Entry} (h : Ok (dictOf l)) (h' : Ok (dictOf l')) : Ok (dictOf (l ++ l')) := by
  induction l with
  | nil => exact h'
  | cons e l ih =>
    obtain ⟨d, h⟩ := h
    obtain ⟨v, h1, h⟩ := bind_ok h
    obtain ⟨d', h2, -⟩ := bind_ok h
    exact ok_cons ⟨v, h1⟩ (ih ⟨d', h2⟩)

theorem ok_mapE {α β : Type} {g : α → Except Err β} {l : List α} (h : ∀ x ∈ l, Ok (g x)) : Ok (mapE g l) :=
  mapE_exists h

/-! ## Version numbers -/

theorem takeWhile_tail {s t : PyStr} {p : Char → Bool} (h : ∀ c ∈ s, p c = true) :
    (s ++ t).takeWhile p = s ++ t.takeWhile p := takeWhile_append_all h

/-- The version numbers of a tagged hash are those of the tag. -/
theorem revisions_tag (v : Version) {s : PyStr} (h : VersionTail s) :
    ∃ m, revisions (v.name ++ s) = .ok (.text ['0'], .text [m]) ∧ v.name = ['v', '0', '.', m] ∧
      m ∈ ['2', '3', '4', '5', '6', '7'] := by
  have key : ∀ m : Char, m ≠ '.' → m ≠ '-' → revisions (['v', '0', '.', m] ++ s) = .ok (.text ['0'], .text [m]) := by
    intro m h1 h2
    have hd : ∃ t, (pySplit '-' (['v', '0', '.', m] ++ s)).headD [] = 'v' :: '0' :: '.' :: m :: t ∧
        (t = [] ∨ ∃ u, t = '.' :: u) := by
      rw [pySplit_head]
      rcases h with rfl | ⟨t, rfl | rfl⟩
      · refine ⟨[], ?_, .inl rfl⟩
        simp [List.takeWhile, h2]
      · refine ⟨'.' :: t.takeWhile (· ≠ '-'), ?_, .inr ⟨_, rfl⟩⟩
        simp [List.takeWhile, h2]
      · refine ⟨[], ?_, .inl rfl⟩
        simp [List.takeWhile, h2]
    obtain ⟨t, ht, htt⟩ := hd
    have hsplit : ∃ l, pySplit '.' ('v' :: '0' :: '.' :: m :: t) = ['v', '0'] :: [m] :: l := by
      rcases htt with rfl | ⟨u, rfl⟩
      · exact ⟨[], by simp [pySplit, h1]⟩
      · exact ⟨pySplit '.' u, by simp [pySplit, h1]⟩
    obtain ⟨l, hl⟩ := hsplit
    have : revisions (['v', '0', '.', m] ++ s) =
        match pySplit '.' ((pySplit '-' (['v', '0', '.', m] ++ s)).headD []) with
        | maj :: min :: _ => .ok (.text (maj.drop 1), .text min)
        | _ => .error .indexError := rfl
    rw [this, ht, hl]
    rfl
  cases v
  · exact ⟨'2', key _ (by decide) (by decide), rfl, by decide⟩
  · exact ⟨'3', key _ (by decide) (by decide), rfl, by decide⟩
  · exact ⟨'4', key _ (by decide) (by decide), rfl, by decide⟩
  · exact ⟨'5', key _ (by decide) (by decide), rfl, by decide⟩
  · exact ⟨'6', key _ (by decide) (by decide), rfl, by decide⟩
  · exact ⟨'7', key _ (by decide) (by decide), rfl, by decide⟩

/-- The number of a digit. -/
theorem revision_digit (cfg : NpCfg) {m : Char} (h : m ∈ ['0', '2', '3', '4', '5', '6', '7']) :
    Revision.i8 cfg (.text [m]) = .ok ((m.toNat - 48 : Nat) : Int) ∧ m.toNat - 48 ≤ 7 := by
  have hp : parseInt [m] = .ok ((m.toNat - 48 : Nat) : Int) ∧ m.toNat - 48 ≤ 7 := by
    revert m
    decide
  refine ⟨?_, hp.2⟩
  simp only [Revision.i8, hp.1, bind, Except.bind]
  exact pyIntTo_eq cfg rfl (by unfold signedOk; omega)

/-! ## Fields of a record that conforms -/

/-- A field that has an integer type in all versions. -/
def intFields : List PyStr :=
  [py! "experiment_id", py! "num_sequences", py! "scan_start_marker", py! "tx_pulse_len", py! "tau_spacing",
   py! "freq"]

/-- A field that has a floating point type in all versions. -/
def fltFields : List PyStr :=
  [py! "first_range_rtt", py! "first_range", py! "range_sep", py! "int_time", py! "rx_sample_rate"]

/-- A field that is text in all versions. -/
def textFields : List PyStr :=
  [py! "experiment_name", py! "experiment_comment", py! "slice_comment"]

/-- A field that later versions have. -/
def statusFields : List PyStr := [py! "agc_status_word", py! "lp_status_word"]

/-- The types of a record that is to be converted. -/
def tablesOk (A D : TyTable) : Bool :=
  intFields.all (fun k => (Dict.get? A k).any intTy) &&
  fltFields.all (fun k => (Dict.get? A k).any fun t => t == .f32 || t == .f64) &&
  textFields.all (fun k => Dict.get? A k == some .str) &&
  statusFields.all (fun k => (Dict.get? A k).all intTy && (Dict.get? D k).isNone)

theorem tables_bfiq (v : Version) :
    tablesOk (formatOf v .bfiq).siteSingleTypes (formatOf v .bfiq).siteArrayTypes = true := by
  cases v <;> decide +kernel

theorem tables_rawacf (v : Version) :
    tablesOk (formatOf v .rawacf).siteSingleTypes (formatOf v .rawacf).siteArrayTypes = true := by
  cases v <;> decide +kernel

theorem get?_mem {α : Type} {d : Dict PyStr α} {k : PyStr} {v : α} (h : Dict.get? d k = some v) : (k, v) ∈ d := by
  induction d with
  | nil => cases h
  | cons p d ih =>
    obtain ⟨k', w⟩ := p
    by_cases hk : k' = k
    · subst hk
      simp [Dict.get?] at h
      subst h
      exact List.mem_cons_self
    · simp [Dict.get?, hk] at h
      exact List.mem_cons_of_mem _ (ih (by simpa [Dict.get?] using h))

theorem conf_scalar {A D : TyTable} {r : Rec} (hc : ConformsRecord A D r) {k : PyStr} {t : Ty}
    (h : Dict.get? A k = some t) : ∃ v, Dict.get? r k = some v ∧ IsScalar t v := by
  have hm := get?_mem h
  have h1 := hc.complete k
  have : ∃ v, Holds r k v := by
    cases hv : Dict.get? r k with
    | none => exact absurd ⟨.inl ⟨t, hm⟩, fun ⟨v, hv'⟩ => by rw [Holds, hv] at hv'; cases hv'⟩ h1
    | some v => exact ⟨v, hv⟩
  obtain ⟨v, hv⟩ := this
  refine ⟨v, hv, Classical.byContradiction fun hn => hc.typed k t (.inl ⟨hm, v, hv, hn⟩)⟩

theorem int_field {A D : TyTable} {r : Rec} (hc : ConformsRecord A D r) (hr : RealRec r) {k : PyStr}
    (h : (Dict.get? A k).any intTy = true) : ∃ t n, Dict.get? r k = some (.np t (.int n)) ∧ intTy t = true := by
  cases ht : Dict.get? A k with
  | none => rw [ht] at h; cases h
  | some t =>
    rw [ht] at h
    obtain ⟨v, hv, hs⟩ := conf_scalar hc ht
    have hreal := hr k v hv
    cases v with
    | arr a => cases hs
    | py t' e =>
      cases hs
      rcases hreal with rfl | rfl | ⟨rfl, -⟩ <;> cases h
    | np t' e =>
      cases hs
      obtain ⟨n, rfl⟩ := hreal.2 h
      exact ⟨_, n, hv, h⟩

theorem flt_field {A D : TyTable} {r : Rec} (hc : ConformsRecord A D r) (hr : RealRec r) {k : PyStr}
    (h : ((Dict.get? A k).any fun t => t == .f32 || t == .f64) = true) :
    ∃ t e, Dict.get? r k = some (.np t e) ∧ (t = .f32 ∨ t = .f64) := by
  cases ht : Dict.get? A k with
  | none => rw [ht] at h; cases h
  | some t =>
    rw [ht] at h
    simp only [Option.any_some, Bool.or_eq_true, beq_iff_eq] at h
    obtain ⟨v, hv, hs⟩ := conf_scalar hc ht
    have hreal := hr k v hv
    cases v with
    | arr a => cases hs
    | py t' e =>
      cases hs
      rcases hreal with rfl | rfl | ⟨rfl, -⟩ <;> rcases h with h | h <;> cases h
    | np t' e =>
      cases hs
      exact ⟨_, e, hv, h⟩

theorem text_field {A D : TyTable} {r : Rec} (hc : ConformsRecord A D r) (hr : RealRec r) {k : PyStr}
    (h : (Dict.get? A k == some .str) = true) : ∃ s, Dict.get? r k = some (.py .str (.str s)) := by
  rw [beq_iff_eq] at h
  obtain ⟨v, hv, hs⟩ := conf_scalar hc h
  have hreal := hr k v hv
  cases v with
  | arr a => cases hs
  | py t' e =>
    cases hs
    rcases hreal with h | h | ⟨-, s, rfl⟩
    · cases h
    · cases h
    · exact ⟨s, hv⟩
  | np t' e => cases hs; exact absurd rfl hreal.1

theorem npI16_int {cfg : NpCfg} {ops : Ops} {t : Ty} {n : Int} (h : intTy t = true) :
    npI16 cfg ops (.np t (.int n)) = .ok (wrapInt 2 n) := by
  cases t <;> first | rfl | cases h

theorem npI32_int {cfg : NpCfg} {t : Ty} {n : Int} : npI32 cfg (.np t (.int n)) = .ok (wrapInt 4 n) := rfl

/-- What the conversion needs of the fields. -/
structure FieldsFit (cfg : NpCfg) (ops : Ops) (r : Rec) : Prop where
  ints : ∀ k ∈ intFields, ∃ t n, Dict.get? r k = some (.np t (.int n)) ∧ intTy t = true
  flts : ∀ k ∈ fltFields, ∃ t e, Dict.get? r k = some (.np t e) ∧ (t = .f32 ∨ t = .f64)
  texts : ∀ k ∈ textFields, ∃ s, Dict.get? r k = some (.py .str (.str s))
  status : ∀ k ∈ statusFields, Dict.get? r k = none ∨ ∃ t n, Dict.get? r k = some (.np t (.int n)) ∧ intTy t = true

theorem fits_of {cfg : NpCfg} {ops : Ops} {A D : TyTable} {r : Rec} (hc : ConformsRecord A D r) (hr : RealRec r)
    (ht : tablesOk A D = true) : FieldsFit cfg ops r := by
  simp only [tablesOk, Bool.and_eq_true, List.all_eq_true] at ht
  obtain ⟨⟨⟨h1, h2⟩, h3⟩, h4⟩ := ht
  refine ⟨fun k hk => int_field hc hr (h1 k hk), fun k hk => flt_field hc hr (h2 k hk),
    fun k hk => text_field hc hr (h3 k hk), fun k hk => ?_⟩
  obtain ⟨h5, h6⟩ := h4 k hk
  cases hv : Dict.get? r k with
  | none => exact .inl rfl
  | some v =>
    cases hA : Dict.get? A k with
    | some t =>
      rw [hA] at h5
      obtain ⟨t', n, h7, h8⟩ := int_field hc hr (k := k) (by rw [hA]; exact h5)
      rw [hv] at h7
      exact .inr ⟨t', n, h7, h8⟩
    | none =>
      refine absurd ⟨⟨v, hv⟩, ?_⟩ (hc.known k)
      have hn : ∀ {d : TyTable}, Dict.get? d k = none → ¬ Listed d k := by
        intro d hd ⟨t, hm⟩
        induction d with
        | nil => cases hm
        | cons p d ih =>
          obtain ⟨k', w⟩ := p
          by_cases hk : k' = k
          · subst hk; simp [Dict.get?] at hd
          · rcases List.mem_cons.1 hm with hm | hm
            · cases hm; exact hk rfl
            · exact ih (by simpa [Dict.get?, hk] using hd) hm
      rintro (h | h)
      · exact hn hA h
      · exact hn (by simpa using h6) h

theorem ok_source16 {cfg : NpCfg} {ops : Ops} {s : Source} (hf : FieldsFit cfg ops s.fields) {k : PyStr}
    (hk : k ∈ intFields) : Ok (s.i16 cfg ops k) := by
  obtain ⟨t, n, h, ht⟩ := hf.ints k hk
  exact ok_i16 (ok_of (field_iff.2 h) ⟨_, npI16_int ht⟩)

theorem ok_flt {cfg : NpCfg} {ops : Ops} {s : Source} (hf : FieldsFit cfg ops s.fields) {k : PyStr}
    (hk : k ∈ fltFields) : ∃ v, field s.fields k = .ok v ∧ Ok v.flt := by
  obtain ⟨t, e, h, ht⟩ := hf.flts k hk
  refine ⟨_, field_iff.2 h, ?_⟩
  rcases ht with rfl | rfl <;> exact ok_ok _

theorem ok_fl16 {cfg : NpCfg} {ops : Ops} {s : Source} (hf : FieldsFit cfg ops s.fields) (g : Elt → BitVec 16) {k : PyStr}
    (hk : k ∈ fltFields) : Ok (s.fl16 g k) := by
  obtain ⟨v, h, ho⟩ := ok_flt hf hk
  exact ok_i16 (ok_of h (ok_bind ho fun _ _ => ok_ok _))

theorem ok_status {cfg : NpCfg} {ops : Ops} {s : Source} (hf : FieldsFit cfg ops s.fields) {k : PyStr}
    (hk : k ∈ statusFields) : Ok (s.status cfg ops k) := by
  refine ok_i16 ?_
  rcases hf.status k hk with h | ⟨t, n, h, ht⟩
  · rw [h]; exact ok_py cfg rfl (by decide)
  · rw [h]; exact ⟨_, npI16_int ht⟩

theorem ok_date {ops : Ops} {s : Source} {nb : Nat} (hc : Convertible ops s.slice s.fields nb) : Ok (s.date ops) := by
  obtain ⟨a, n, e, h1, h2, h3, ⟨d, h4⟩, -⟩ := hc.time
  refine ok_of (field_iff.2 h1) (ok_of (a := a.data) (by simp [Val.elems, h2]) (ok_of (a := e) (by simp [at_, h3]) ⟨d, h4⟩))

theorem ok_at {v : Option Val} {r : Rec} {k : PyStr} (hv : Dict.get? r k = v) {n i : Nat} (h : IsVector v n) (hr : RealRec r)
    (hi : i < n) : ∃ w l e, field r k = .ok w ∧ w.elems = .ok l ∧ at_ l i = .ok e := by
  obtain ⟨a, rfl, hs⟩ := h
  have hw : a.WF := hr k _ hv
  have hl : a.data.length = n := by rw [hw, hs]; simp [prod]
  refine ⟨_, a.data, a.data[i]'(by omega), field_iff.2 hv, by simp [Val.elems, hs], ?_⟩
  unfold at_
  rw [List.getElem?_eq_getElem (by omega)]

theorem common_ok {cfg : NpCfg} {ops : Ops} {s : Source} {nb : Nat} (hf : FieldsFit cfg ops s.fields)
    (hr : RealRec s.fields) (hc : Convertible ops s.slice s.fields nb) {rev : Revision × Revision}
    (h1 : Ok (rev.1.i8 cfg)) (h2 : Ok (rev.2.i8 cfg)) (beam : Elt) {b : Nat} (hb : b < nb)
    {txpow nrang : Except Err Int} (h3 : Ok txpow) (h4 : Ok nrang) :
    Ok (dictOf (commonFields cfg ops s rev beam b txpow nrang)) := by
  have hd := ok_date hc
  have hz : Ok (i16 (pyIntTo cfg 2 0)) := ok_i16 (ok_py cfg rfl (by decide))
  have hdi : ∀ g : Date → BitVec 16, Ok (i16 (do .ok (g (← s.date ops)).toInt)) :=
    fun g => ok_i16 (ok_bind hd fun _ _ => ok_ok _)
  unfold commonFields
  refine ok_cons (ok_i8 h1) <| ok_cons (ok_i8 h2) <| ok_cons (ok_i8 (ok_py cfg rfl (by decide))) <|
    ok_cons (ok_text (ok_bind hd fun _ _ => ok_ok _)) <| ok_cons ?_ <|
    ok_cons (ok_source16 hf (by decide)) <| ok_cons ?_ <|
    ok_cons (hdi _) <| ok_cons (hdi _) <| ok_cons (hdi _) <| ok_cons (hdi _) <| ok_cons (hdi _) <| ok_cons (hdi _) <|
    ok_cons (ok_i32 (ok_bind hd fun _ _ => ok_ok _)) <|
    ok_cons (ok_i16 h3) <| ok_cons (ok_source16 hf (by decide)) <| ok_cons hz <| ok_cons ?_ <|
    ok_cons (ok_fl16 hf _ (by decide)) <| ok_cons hz <| ok_cons (ok_status hf (by decide)) <|
    ok_cons (ok_status hf (by decide)) <| ok_cons ?_ <| ok_cons (ok_f32 (ok_ok _)) <| ok_cons (ok_i16 ?_) <|
    ok_cons (ok_i16 (ok_ok _)) <| ok_cons ?_ <| ok_cons (ok_source16 hf (by decide)) <|
    ok_cons hz <| ok_cons hz <| ok_cons (ok_fl16 hf _ (by decide)) <| ok_cons ?_ <|
    ok_cons (ok_source16 hf (by decide)) <| ok_cons (ok_source16 hf (by decide)) <|
    ok_cons ?_ <| ok_cons ?_ <| ok_cons (ok_i16 h4) <| ok_cons ?_ <| ok_cons ?_ ok_nil
  · obtain ⟨v, t, ht, -⟩ := hc.tag
    obtain ⟨u, hu⟩ := hf.texts (py! "experiment_name") (by decide)
    exact ok_text (ok_of (field_iff.2 ht) (ok_of (a := _) rfl (ok_of (field_iff.2 hu) (ok_of rfl (ok_ok _)))))
  · obtain ⟨st, n, h5, h6⟩ := hc.station
    refine ok_i16 (ok_of (field_iff.2 h5) (ok_of rfl ?_))
    have : ∀ p ∈ codeToStid, Dict.get? codeToStid p.1 = some p.2 ∧ Is16 p.2 := by unfold Is16; decide +kernel
    obtain ⟨h7, h8⟩ := this _ h6
    refine ok_of (a := n) (by unfold field; rw [h7]) (ok_py16 cfg h8)
  · obtain ⟨t, e, h5, h6⟩ := hf.flts (py! "first_range_rtt") (by decide)
    refine ok_i16 (ok_of (field_iff.2 h5) ?_)
    rcases h6 with rfl | rfl <;> exact ok_ok _
  · obtain ⟨n, h5⟩ := hc.noise
    obtain ⟨w, l, e, h6, h7, h8⟩ := ok_at rfl h5 hr (i := 0) (by omega)
    exact ok_f32 (ok_of h6 (ok_of h7 (ok_of h8 (ok_ok _))))
  · rcases hc.slice with ⟨t, n, h5, h6⟩ | ⟨n, h5, h6⟩
    · rw [h5]; exact ⟨_, npI16_int h6⟩
    · rw [h5]; exact ok_py16 cfg h6
  · obtain ⟨w, l, e, h6, h7, h8⟩ := ok_at rfl hc.azms hr hb
    exact ok_f32 (ok_of h6 (ok_of h7 (ok_of h8 (ok_ok _))))
  · obtain ⟨v, h5, h6⟩ := ok_flt hf (k := py! "int_time") (by decide)
    exact ok_i32 (ok_of h5 (ok_bind h6 fun _ _ => ok_ok _))
  · obtain ⟨n, ⟨a, h5, h6⟩, h7⟩ := hc.pulses
    refine ok_i16 (ok_of (field_iff.2 h5) (ok_of (a := n) (by simp [Val.len, h6]) ?_))
    exact ok_py16 cfg (by unfold Is16; omega)
  · obtain ⟨a, n, ds, h5, h6, h7⟩ := hc.lags
    refine ok_i16 (ok_of (field_iff.2 h5) (ok_of (a := n) (by simp [Val.shapeAt, Val.shape?, h6, bind, Except.bind]) ?_))
    exact ok_py16 cfg (by unfold Is16; omega)
  · obtain ⟨t, e, h5, h6⟩ := hf.flts (py! "first_range") (by decide)
    obtain ⟨n, h7, h8⟩ := hc.distances _ (by decide) _ _ h5
    refine ok_i16 (ok_of (field_iff.2 h5) ?_)
    rcases h6 with rfl | rfl <;> exact ok_of rfl (ok_of h7 (ok_py16 cfg h8))
  · obtain ⟨t, e, h5, h6⟩ := hf.flts (py! "range_sep") (by decide)
    obtain ⟨n, h7, h8⟩ := hc.distances _ (by decide) _ _ h5
    refine ok_i16 (ok_of (field_iff.2 h5) ?_)
    rcases h6 with rfl | rfl <;> exact ok_of rfl (ok_of h7 (ok_py16 cfg h8))

/-! ## bfiq -/

theorem ok_get {a : NdArr} (hw : a.WF) {idx : List Nat} (h : inBounds a.shape idx = true) :
    Ok (match a.get? idx with
      | some e => .ok e
      | none => .error .indexError : Except Err Elt) := by
  rw [NdArr.get?_eq_some_get hw h]
  exact ok_ok _

theorem ok_beamSamples {a : NdArr} (hw : a.WF) {na nq nb ns b : Nat} (hs : a.shape = [na, nq, nb, ns]) (hb : b < nb) :
    Ok (beamSamples a b nq) := by
  unfold beamSamples
  rw [hs]
  simp only [if_pos (show b < nb ∧ (na = 0 ∨ nq ≤ nq) from ⟨hb, .inr (Nat.le_refl _)⟩)]
  refine ok_mapE fun idx hidx => ?_
  simp only [List.mem_flatMap, List.mem_map, List.mem_range] at hidx
  obtain ⟨i, hi, x, hx, t, ht, rfl⟩ := hidx
  exact ok_get hw (by rw [hs]; simp [inBounds, hi, hx, ht, hb])

theorem ok_asI16 {ops : Ops} {r : Rec} {k : PyStr} {a : NdArr} (h : Dict.get? r k = some (.arr a)) :
    Ok (do asI16 ops (← field r k)) :=
  ok_of (field_iff.2 h) (ok_of rfl (ok_ok _))

theorem ok_combf {cfg : NpCfg} {ops : Ops} {s : Source} (hf : FieldsFit cfg ops s.fields) {n : Nat}
    (hb : IsVector (Dict.get? s.fields (py! "beam_nums")) n) : Ok s.combf := by
  obtain ⟨a, h1, h2⟩ := hb
  obtain ⟨e, h3⟩ := hf.texts (py! "experiment_comment") (by decide)
  obtain ⟨c, h4⟩ := hf.texts (py! "slice_comment") (by decide)
  exact ok_text (ok_of (field_iff.2 h1) (ok_of (a := n) (by simp [Val.len, h2])
    (ok_of (field_iff.2 h3) (ok_of rfl (ok_of (field_iff.2 h4) (ok_of rfl (ok_ok _)))))))

theorem iqdat_ok {cfg : NpCfg} {ops : Ops} {s : Source} {nb : Nat} (hf : FieldsFit cfg ops s.fields)
    (hr : RealRec s.fields) (hc : Convertible ops s.slice s.fields nb) {rev : Revision × Revision}
    (h1 : Ok (rev.1.i8 cfg)) (h2 : Ok (rev.2.i8 cfg)) (beam : Elt) {b : Nat} (hb : b < nb)
    (hbn : IsVector (Dict.get? s.fields (py! "beam_nums")) nb)
    (hn : ∃ t n, Dict.get? s.fields (py! "num_ranges") = some (.np t (.int n)) ∧ intTy t = true)
    (hs : ∃ t n, Dict.get? s.fields (py! "num_samps") = some (.np t (.int n)))
    (norm : Val) (nsamps nseq : Nat) {order : NdArr} (ho : order.shape.headD 0 < 2 ^ 31) (l : List Elt) :
    Ok (dictOf (iqdatFields cfg ops s rev norm nsamps nseq order beam b l)) := by
  unfold iqdatFields
  have hi : ∀ {n : Int}, signedOk 4 n → Ok (i32 (pyIntTo cfg 4 n)) := fun h => ok_i32 (ok_py cfg rfl h)
  refine ok_append (common_ok hf hr hc h1 h2 beam hb (ok_py cfg rfl (by decide)) ?_) ?_
  · obtain ⟨t, n, h3, h4⟩ := hn
    exact ok_of (field_iff.2 h3) ⟨_, npI16_int h4⟩
  refine ok_cons (ok_i16 (ok_py cfg rfl ?_)) <| ok_cons (ok_source16 hf (by decide)) <|
    ok_cons (hi (by decide)) <| ok_cons (hi (by decide)) <| ok_cons (hi (by decide)) <| ok_cons (hi (by decide)) <|
    ok_cons (ok_combf hf hbn) <| ok_cons ?_ <| ok_cons (hi (signedOk4 ho)) <| ok_cons ?_ <| ok_cons ?_ <|
    ok_cons ?_ <| ok_cons ?_ <| ok_cons ?_ <| ok_cons ?_ <| ok_cons (ok_ok _) <| ok_cons ?_ <|
    ok_cons (ok_ok _) <| ok_cons (ok_ok _) <| ok_cons (ok_ok _) ok_nil
  · split <;> decide
  · obtain ⟨t, n, h3, h4⟩ := hf.ints (py! "num_sequences") (by decide)
    exact ok_i32 (ok_of (field_iff.2 h3) (ok_ok _))
  · obtain ⟨t, n, h3⟩ := hs
    exact ok_i32 (ok_of (field_iff.2 h3) (ok_ok _))
  · obtain ⟨v, h3, h4⟩ := ok_flt hf (k := py! "first_range") (by decide)
    obtain ⟨w, h5, h6⟩ := ok_flt hf (k := py! "range_sep") (by decide)
    exact ok_i32 (ok_of h3 (ok_bind h4 fun _ _ => ok_of h5 (ok_bind h6 fun _ _ => ok_ok _)))
  · obtain ⟨n, ⟨a, h3, -⟩, -⟩ := hc.pulses
    exact ok_asI16 h3
  · obtain ⟨a, n, ds, h3, -⟩ := hc.lags
    exact ok_asI16 h3
  · obtain ⟨a, n, e, h3, h4, -, -, h5⟩ := hc.time
    exact ok_of (field_iff.2 h3) (ok_of (a := a.data) (by simp [Val.elems, h4])
      (ok_bind (ok_mapE fun e he => (h5 e he).1) fun _ _ => ok_ok _))
  · obtain ⟨a, n, e, h3, h4, -, -, h5⟩ := hc.time
    exact ok_of (field_iff.2 h3) (ok_of (a := a.data) (by simp [Val.elems, h4])
      (ok_bind (ok_mapE fun e he => (h5 e he).2) fun _ _ => ok_ok _))
  · obtain ⟨n, a, h3, -⟩ := hc.noise
    exact ok_of (field_iff.2 h3) (ok_of rfl (ok_ok _))

theorem convertBfiq_succeeds {cfg : NpCfg} {ops : Ops} {s : Source} {a : NdArr} {norm : Val} {beams : List Elt}
    {na nq ns : Nat} {v : Version} (hc : ConformsRecord (formatOf v .bfiq).siteSingleTypes (formatOf v .bfiq).siteArrayTypes s.fields)
    (hr : RealRec s.fields) (hk : Convertible ops s.slice s.fields beams.length)
    (hb : BfiqRec s.fields a norm beams na nq ns) (hna : na < 2 ^ 31) : Ok (convertBfiq cfg ops s) := by
  have hf : FieldsFit cfg ops s.fields := fits_of hc hr (tables_bfiq v)
  have hn := int_field hc hr (k := py! "num_ranges") (by cases v <;> decide +kernel)
  obtain ⟨w, t, ht, htt⟩ := hk.tag
  obtain ⟨m, hm, -, hmm⟩ := revisions_tag w htt
  obtain ⟨o, ho, hos⟩ := hb.order
  obtain ⟨be, hbe, hbs, hbd⟩ := hb.beams
  unfold convertBfiq
  refine ok_of (field_iff.2 hb.dims) (ok_of (numbers_dims _) (ok_of (field_iff.2 hb.data) (ok_of
    (a := Val.arr ⟨a.ty, [na, nq, beams.length, ns], a.data⟩)
    (by rw [Val.reshape, if_pos (by rw [hb.size]; simp [prod])]) (ok_of rfl (ok_of (field_iff.2 hb.norm) (ok_of
    (field_iff.2 ht) (ok_of rfl (ok_of hm (ok_of (field_iff.2 ho) (ok_of rfl (ok_of (a := na)
    (by simp [Val.shapeAt, Val.shape?, hos, bind, Except.bind]) (ok_of (field_iff.2 hb.samps) (ok_of rfl (ok_of (field_iff.2 hbe) (ok_of
    (a := be.data) (by simp [Val.elems, hbs]) (ok_of (field_iff.2 hb.seqs) (ok_of rfl ?_)))))))))))))))))
  refine ok_mapE fun p hp => ?_
  obtain ⟨j, hj, hj'⟩ := enumFrom_mem hp
  have hlt : p.1 < beams.length := by
    have := (List.getElem?_eq_some_iff.1 hj').1
    rw [hbd] at this
    omega
  refine ok_bind (ok_beamSamples ?_ rfl hlt) fun l _ => ?_
  · simp [NdArr.WF, hb.size, prod]
  refine iqdat_ok hf hr hk ?_ ?_ _ hlt ⟨be, hbe, by rw [hbs]⟩ hn ⟨_, _, hb.samps⟩ _ _ _ (by rw [hos]; exact hna) _
  · exact ⟨_, (revision_digit cfg (by decide)).1⟩
  · exact ⟨_, (revision_digit cfg (List.mem_cons_of_mem _ hmm)).1⟩

/-! ## rawacf -/

theorem ok_beamLags {a : NdArr} (hw : a.WF) {nb nr nl b : Nat} (hs : a.shape = [nb, nr, nl]) (hb : b < nb) :
    Ok (beamLags a b) := by
  unfold beamLags
  rw [hs]
  simp only [if_pos hb]
  refine ok_mapE fun idx hidx => ?_
  simp only [List.mem_flatMap, List.mem_map, List.mem_range] at hidx
  obtain ⟨i, hi, j, hj, rfl⟩ := hidx
  exact ok_get hw (by rw [hs]; simp [inBounds, hi, hb]; omega)

theorem ok_beamLagZero {a : NdArr} (hw : a.WF) {nb nr nl b : Nat} (hs : a.shape = [nb, nr, nl]) (hb : b < nb)
    (hl : 0 < nl) : Ok (beamLagZero a b) := by
  unfold beamLagZero
  rw [hs]
  simp only [if_pos (And.intro hb hl)]
  refine ok_mapE fun idx hidx => ?_
  simp only [List.mem_map, List.mem_range] at hidx
  obtain ⟨i, hi, rfl⟩ := hidx
  exact ok_get hw (by rw [hs]; simp [inBounds, hi, hb, hl])

theorem convertRawacf_succeeds {cfg : NpCfg} {ops : Ops} {s : Source} {m x : NdArr} {norm : Val} {beams : List Elt}
    {nr nl : Nat} {v : Version} (hc : ConformsRecord (formatOf v .rawacf).siteSingleTypes (formatOf v .rawacf).siteArrayTypes s.fields)
    (hr : RealRec s.fields) (hk : Convertible ops s.slice s.fields beams.length)
    (hb : RawacfRec s.fields m x norm beams nr nl) (hl : 0 < nl)
    (hi : ∀ w, Dict.get? s.fields (py! "intf_acfs") = some w →
      ∃ a, w = .arr a ∧ a.data.length = beams.length * (nr * nl))
    (hp : ∀ w, Dict.get? s.fields (py! "tx_antenna_phases") = some w → ∃ a n, w = .arr a ∧ a.shape = [n] ∧ n ≤ 16) :
    Ok (convertRawacf cfg ops s) := by
  have hf : FieldsFit cfg ops s.fields := fits_of hc hr (tables_rawacf v)
  obtain ⟨w, t, ht, htt⟩ := hk.tag
  obtain ⟨mi, hm, -, hmm⟩ := revisions_tag w htt
  obtain ⟨be, hbe, hbs, hbd⟩ := hb.beams
  have hdims : rawacfDims s.fields = .ok [beams.length, nr, nl] := by
    unfold rawacfDims
    rcases hb.dims with h | ⟨h1, h2⟩
    · simp only [h, numbers_dims]
    · simp only [h1, h2, numbers_dims]
  have hint : ∃ o, shapedField s.fields (py! "intf_acfs") [beams.length, nr, nl] = .ok o ∧
      ∀ a, o = some a → a.shape = [beams.length, nr, nl] ∧ a.WF := by
    unfold shapedField
    cases hg : Dict.get? s.fields (py! "intf_acfs") with
    | none => exact ⟨none, rfl, by simp⟩
    | some w =>
      obtain ⟨a, rfl, ha⟩ := hi w hg
      refine ⟨some ⟨a.ty, [beams.length, nr, nl], a.data⟩, ?_, ?_⟩
      · simp only [Val.reshape]
        rw [if_pos (by rw [ha]; simp [prod])]
        rfl
      · rintro _ ⟨⟩
        exact ⟨rfl, by simp [NdArr.WF, ha, prod]⟩
  obtain ⟨io, hio, hio'⟩ := hint
  have hcross : shapedField s.fields (py! "xcfs") [beams.length, nr, nl] =
      .ok (some ⟨x.ty, [beams.length, nr, nl], x.data⟩) := by
    unfold shapedField
    rw [hb.cross]
    simp only [Val.reshape]
    rw [if_pos (by rw [hb.crossSize]; simp [prod])]
    rfl
  have htx : Ok (txpowOf cfg ops s.fields) := by
    unfold txpowOf
    cases hg : Dict.get? s.fields (py! "tx_antenna_phases") with
    | none => exact ok_py cfg rfl (by decide)
    | some w =>
      obtain ⟨a, n, rfl, hs, hn⟩ := hp w hg
      have hlen : a.data.length = n := by
        have : a.WF := hr _ _ hg
        rw [this, hs]; simp [prod]
      have hbits : ∀ l : List Elt, antennaBits ops l < 2 ^ l.length := by
        intro l
        induction l with
        | nil => simp [antennaBits]
        | cons e l ih =>
          simp only [antennaBits, List.length_cons, Nat.pow_succ]
          split <;> omega
      have : antennaBits ops a.data < 2 ^ 16 :=
        Nat.lt_of_lt_of_le (hbits _) (Nat.pow_le_pow_right (by decide) (by omega))
      refine ok_of (a := a.data) (by simp [Val.elems, hs]) ?_
      rw [if_pos (.inr this)]
      exact ok_ok _
  unfold convertRawacf
  refine ok_of hdims (ok_of (field_iff.2 hb.main) (ok_of (a := Val.arr ⟨m.ty, [beams.length, nr, nl], m.data⟩)
    (by rw [Val.reshape, if_pos (by rw [hb.mainSize]; simp [prod])]) (ok_of rfl (ok_of (field_iff.2 hb.norm)
    (ok_of hio (ok_of hcross (ok_of (field_iff.2 ht) (ok_of rfl (ok_of hm (ok_of (field_iff.2 hbe)
    (ok_of (a := be.data) (by simp [Val.elems, hbs]) ?_)))))))))))
  refine ok_mapE fun p hpm => ?_
  obtain ⟨j, hj, hj'⟩ := enumFrom_mem hpm
  have hlt : p.1 < beams.length := by
    have := (List.getElem?_eq_some_iff.1 hj').1
    rw [hbd] at this
    omega
  have hmw : NdArr.WF ⟨m.ty, [beams.length, nr, nl], m.data⟩ := by simp [NdArr.WF, hb.mainSize, prod]
  have hxw : NdArr.WF ⟨x.ty, [beams.length, nr, nl], x.data⟩ := by simp [NdArr.WF, hb.crossSize, prod]
  unfold rawacfRecord
  obtain ⟨lx, hlx⟩ := ok_beamLags hxw rfl hlt
  refine ok_bind (ok_beamLagZero hmw rfl hlt hl) fun l0 _ => ok_bind (ok_beamLags hmw rfl hlt) fun lm _ =>
    ok_bind ?_ fun _ _ => ok_of (a := some lx) (by simp only [optLags, hlx]; rfl) ?_
  · cases io with
    | none => exact ok_ok _
    | some a =>
      obtain ⟨h1, h2⟩ := hio' a rfl
      exact ok_bind (ok_beamLags h2 h1 hlt) fun _ _ => ok_ok _
  have hi32 : ∀ {n : Int}, signedOk 4 n → Ok (i32 (pyIntTo cfg 4 n)) := fun h => ok_i32 (ok_py cfg rfl h)
  unfold rawacfFields
  refine ok_append (common_ok hf hr hk ⟨_, (revision_digit cfg (by decide)).1⟩
    ⟨_, (revision_digit cfg (List.mem_cons_of_mem _ hmm)).1⟩ _ hlt htx (ok_ok _)) ?_
  refine ok_cons (ok_i16 (ok_py cfg rfl ?_)) <| ok_cons (ok_source16 hf (by decide)) <|
    ok_cons (hi32 (by decide)) <| ok_cons (hi32 (by decide)) <| ok_cons (hi32 (by decide)) <|
    ok_cons (hi32 (by decide)) <| ok_cons (ok_combf hf ⟨be, hbe, hbs⟩) <| ok_cons (ok_f32 (ok_ok _)) <|
    ok_cons ?_ <| ok_cons ?_ <| ok_cons (ok_ok _) <| ok_cons (ok_ok _) <| ok_cons (ok_ok _) <| ok_cons (ok_ok _) ok_nil
  · split <;> decide
  · obtain ⟨n, ⟨a, h3, -⟩, -⟩ := hk.pulses
    exact ok_asI16 h3
  · obtain ⟨a, n, ds, h3, -⟩ := hk.lags
    exact ok_asI16 h3

end Verif.Bor
