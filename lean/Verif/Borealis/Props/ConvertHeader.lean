import Verif.Borealis.Lemmas.ConvertHeader
import Verif.Borealis.Lemmas.ConvertSamples
/-!
# C55: the header of converted records
-/
namespace Verif.Bor
open Verif

/-- **C55.** Every field in the header of a converted record says what it should about the Borealis record. -/
theorem C55_header {cfg : NpCfg} {ops : Ops} {t : Target} {s : Source} {ds : List PlainRec}
    (h : convertRecord cfg ops t s = .ok ds) : ∀ d ∈ ds, HeaderOf ops s d := by
  intro d hd
  obtain ⟨rev, beam, b, txpow, nrang, l, -, h, hl⟩ := convertRecord_common h hd
  have app : ∀ {k x}, Dict.get? (commonFields cfg ops s rev beam b txpow nrang) k = none → Dict.get? l k = some x →
      Dict.get? (commonFields cfg ops s rev beam b txpow nrang ++ l) k = some x := by
    intro k x h1 h2
    rw [get?_append, h1, h2]
    rfl
  obtain ⟨tm, h0, htm⟩ := entry_text (k := py! "origin.time") h rfl
  obtain ⟨x, hx, h0⟩ := bind_ok h0
  cases h0
  obtain ⟨e, he, hutc⟩ := date_ok hx
  refine ⟨?_, ?_, ?_, ⟨e, x, he, hutc, htm, source_date (k := py! "time.yr") hx h rfl,
    source_date (k := py! "time.mo") hx h rfl, source_date (k := py! "time.dy") hx h rfl,
    source_date (k := py! "time.hr") hx h rfl, source_date (k := py! "time.mt") hx h rfl,
    source_date (k := py! "time.sc") hx h rfl, ?_⟩, ?_, table_ok h (app rfl hl.ptab), ?_,
    table_ok h (app rfl hl.ltab), ?_, ?_, ?_, ?_, ?_, ?_, ?_, ?_, ?_, ?_⟩
  · intro p hp n hn h16
    simp only [sameNumber, List.mem_cons, List.not_mem_nil, or_false] at hp
    rcases hp with rfl | rfl | rfl | rfl | rfl | rfl
    · exact source_i16 h rfl hn h16
    · exact source_i16 h rfl hn h16
    · exact source_i16 h rfl hn h16
    · exact source_i16 h rfl hn h16
    · exact source_i16 h rfl hn h16
    · exact source_i16 h (app rfl hl.tfreq) hn h16
  · intro p hp
    simp only [statusNumber, List.mem_cons, List.not_mem_nil, or_false] at hp
    rcases hp with rfl | rfl
    · exact source_status h rfl
    · exact source_status h rfl
  · intro p hp
    simp only [constantNumbers, List.mem_cons, List.not_mem_nil, or_false] at hp
    have c16 : ∀ {k} {n : Int}, Is16 n →
        Dict.get? (commonFields cfg ops s rev beam b txpow nrang ++ l) k = some (i16 (pyIntTo cfg 2 n)) →
        intField d k = some n := by
      intro k n hn hk
      obtain ⟨m, h1, h2⟩ := entry_i16 h hk
      rw [pyIntTo_eq cfg rfl (signedOk2 hn)] at h1
      cases h1
      exact h2
    have c32 : ∀ {k} {n : Int}, signedOk 4 n →
        Dict.get? (commonFields cfg ops s rev beam b txpow nrang ++ l) k = some (i32 (pyIntTo cfg 4 n)) →
        intField d k = some n := by
      intro k n hn hk
      obtain ⟨m, h1, h2⟩ := entry_i32 h hk
      rw [pyIntTo_eq cfg rfl hn] at h1
      cases h1
      exact h2
    rcases hp with rfl | rfl | rfl | rfl | rfl | rfl | rfl
    · obtain ⟨m, h1, h2⟩ := entry_i8 (k := py! "origin.code") h rfl
      rw [pyIntTo_eq cfg rfl (by unfold signedOk; omega)] at h1
      cases h1
      exact h2
    · exact c16 (by unfold Is16; omega) rfl
    · exact c16 (by unfold Is16; omega) rfl
    · exact c16 (by unfold Is16; omega) rfl
    · exact c16 (by unfold Is16; omega) rfl
    · exact c32 (by unfold signedOk; omega) (app rfl hl.mxpwr)
    · exact c32 (by unfold signedOk; omega) (app rfl hl.lvmax)
  · obtain ⟨m, h1, h2⟩ := entry_i32 (k := py! "time.us") h rfl
    rw [bind_of_ok hx] at h1
    cases h1
    exact h2
  · intro c hc
    obtain ⟨m, h1, h2⟩ := entry_i16 (k := py! "stid") h rfl
    rw [bind_of_ok (field_iff.2 hc), bind_of_ok (x := (Val.py .str (.str c)).text) (a := c) rfl] at h1
    obtain ⟨n, h3, h1⟩ := bind_ok h1
    have hm : (c, n) ∈ codeToStid := get?_mem (field_iff.1 h3)
    have : ∀ p ∈ codeToStid, -2 ^ 15 ≤ p.2 ∧ p.2 < 2 ^ 15 := by decide +kernel
    rw [pyIntTo_eq cfg rfl (signedOk2 (this _ hm))] at h1
    cases h1
    exact ⟨n, hm, h2⟩
  · rintro n ⟨a, ha, hs⟩ hn
    obtain ⟨m, h1, h2⟩ := entry_i16 (k := py! "mppul") h rfl
    rw [bind_of_ok (field_iff.2 ha), bind_of_ok (a := n) (by simp [Val.len, hs]),
      pyIntTo_eq cfg rfl (by unfold signedOk; omega)] at h1
    cases h1
    exact h2
  · rintro a n ha hs hn
    obtain ⟨m, h1, h2⟩ := entry_i16 (k := py! "mplgs") h rfl
    rw [bind_of_ok (field_iff.2 ha), bind_of_ok (a := n) (by simp [Val.shapeAt, Val.shape?, hs, bind, Except.bind]),
      pyIntTo_eq cfg rfl (by unfold signedOk; omega)] at h1
    cases h1
    exact h2
  · obtain ⟨m, h1, h2⟩ := entry_f32 (k := py! "noise.search") h rfl
    obtain ⟨v, h3, h1⟩ := bind_ok h1
    obtain ⟨es, h4, h1⟩ := bind_ok h1
    obtain ⟨e, h5, h1⟩ := bind_ok h1
    cases h1
    obtain ⟨a, n, rfl, h6, rfl⟩ := elems_ok h4
    exact ⟨e, ⟨a, n, field_iff.1 h3, h6, at_ok h5⟩, h2⟩
  · obtain ⟨m, h1, h2⟩ := entry_f32 (k := py! "noise.mean") h rfl
    cases h1
    exact h2
  · rintro n ⟨t, hn, ht⟩ h16
    obtain ⟨m, h1, h2⟩ := entry_i16 (k := py! "channel") h rfl
    rw [Option.some.inj hn, npI16_int ht, wrapInt_eq (signedOk2 h16)] at h1
    cases h1
    exact h2
  · intro e he
    obtain ⟨m, h1, h2⟩ := entry_i16 (k := py! "lagfr") h rfl
    rcases he with he | he
    · rw [bind_of_ok (field_iff.2 he)] at h1
      cases h1
      exact h2
    · rw [bind_of_ok (field_iff.2 he)] at h1
      cases h1
      exact h2
  · intro e he
    exact source_fl16 h rfl he
  · intro e he
    refine ⟨source_fl16 h rfl he, ?_⟩
    obtain ⟨w, hw, hf⟩ := flt_of he
    obtain ⟨m, h1, h2⟩ := entry_i32 (k := py! "intt.us") h rfl
    rw [bind_of_ok (field_iff.2 hw), bind_of_ok hf] at h1
    cases h1
    exact h2
  · intro p hp e n he hn h16
    simp only [List.mem_cons, List.not_mem_nil, or_false] at hp
    rcases hp with rfl | rfl
    · exact source_round h rfl he hn h16
    · exact source_round h rfl he hn h16
  · intro hash e hh he
    obtain ⟨m, h1, h2⟩ := entry_text (k := py! "origin.command") h rfl
    rw [bind_of_ok (field_iff.2 hh), bind_of_ok (x := (Val.py .str (.str hash)).text) (a := hash) rfl,
      bind_of_ok (field_iff.2 he), bind_of_ok (x := (Val.py .str (.str e)).text) (a := e) rfl] at h1
    cases h1
    exact h2

  · intro e c he hc
    obtain ⟨m, h1, h2⟩ := entry_text (k := py! "combf") h (app rfl hl.combf)
    obtain ⟨v, -, h1⟩ := bind_ok h1
    obtain ⟨n, -, h1⟩ := bind_ok h1
    rw [bind_of_ok (field_iff.2 he), bind_of_ok (x := (Val.py .str (.str e)).text) (a := e) rfl,
      bind_of_ok (field_iff.2 hc), bind_of_ok (x := (Val.py .str (.str c)).text) (a := c) rfl] at h1
    cases h1
    refine ⟨py! " with scaling factor = " ++ intText s.factor ++ py! " ; Number of beams in record: " ++ natText n, ?_⟩
    rw [h2]
    simp only [List.append_assoc]

/-- **C55.** The station numbers are distinct and fit int16. -/
theorem C55_stations : (codeToStid.map (·.1)).Nodup ∧ (codeToStid.map (·.2)).Nodup ∧
    ∀ p ∈ codeToStid, 0 ≤ p.2 ∧ p.2 < 2 ^ 15 := by decide +kernel

/-- **C55.** Number of ranges and flag for cross correlations of an iqdat record. -/
theorem C55_iqdat {cfg : NpCfg} {ops : Ops} {s : Source} {ds : List PlainRec}
    (h : convertBfiq cfg ops s = .ok ds) : ∀ d ∈ ds,
    (∀ n, IsInt (Dict.get? s.fields (py! "num_ranges")) n → Is16 n → intField d (py! "nrang") = some n) ∧
    intField d (py! "txpow") = some (-1) ∧
    ∃ o, Dict.get? s.fields (py! "antenna_arrays_order") = some (.arr o) ∧
      (intField d (py! "xcf") = some 0 ∨ intField d (py! "xcf") = some 1) ∧
      (intField d (py! "xcf") = some 1 ↔ o.ty = .npStr ∧ .str (py! "intf") ∈ o.data) := by
  intro d hd
  obtain ⟨rev, norm, nsamps, nseq, order, beam, b, l, -, ho, h⟩ := convertBfiq_mem h hd
  refine ⟨?_, ?_, order, ho, ?_⟩
  · rintro n ⟨t, hn, ht⟩ h16
    obtain ⟨m, h1, h2⟩ := entry_i16 (k := py! "nrang") h rfl
    rw [bind_of_ok (field_iff.2 hn), npI16_int ht, wrapInt_eq (signedOk2 h16)] at h1
    cases h1
    exact h2
  · obtain ⟨m, h1, h2⟩ := entry_i16 (k := py! "txpow") h rfl
    rw [pyIntTo_eq cfg rfl (by unfold signedOk; omega)] at h1
    cases h1
    exact h2
  · obtain ⟨m, h1, h2⟩ := entry_i16 (k := py! "xcf") h rfl
    rw [h2]
    have hi : hasIntf order = true ↔ order.ty = .npStr ∧ .str (py! "intf") ∈ order.data := by
      unfold hasIntf
      simp
    by_cases hx : hasIntf order = true
    · rw [if_pos hx, pyIntTo_eq cfg rfl (by unfold signedOk; omega)] at h1
      cases h1
      exact ⟨.inr rfl, by simp [hi.1 hx]⟩
    · rw [if_neg hx, pyIntTo_eq cfg rfl (by unfold signedOk; omega)] at h1
      cases h1
      exact ⟨.inl rfl, by rw [hi] at hx; simpa using hx⟩

/-- **C55.** Number of ranges, antennas and flag for cross correlations of a rawacf record.  (A record without
cross correlations is not converted, see C45.) -/
theorem C55_rawacf {cfg : NpCfg} {ops : Ops} {s : Source} {ds : List PlainRec} {m x : NdArr} {norm : Val}
    {beams : List Elt} {nr nl : Nat} (hr : RawacfRec s.fields m x norm beams nr nl)
    (h : convertRawacf cfg ops s = .ok ds) : ∀ d ∈ ds,
    (nr < 2 ^ 15 → intField d (py! "nrang") = some (nr : Int)) ∧ intField d (py! "xcf") = some 1 ∧
    f32Field d (py! "thr") = some 0 ∧
    (Dict.get? s.fields (py! "tx_antenna_phases") = none → intField d (py! "txpow") = some (-1)) ∧
    ∀ a n, Dict.get? s.fields (py! "tx_antenna_phases") = some (.arr a) → a.shape = [n] → a.data.length = n → n ≤ 16 →
      ∃ p : Int, intField d (py! "txpow") = some p ∧
        ∀ i e, a.data[i]? = some e → (BitVec.ofInt 16 p).getLsbD i = ops.isOn e := by
  intro d hd
  obtain ⟨rev, intf, -, h⟩ := convertRawacf_ok hr h
  obtain ⟨p, -, h⟩ := mapE_mem h hd
  obtain ⟨l0, lm, lx, -, -, -, h⟩ := rawacfRecord_ok h
  refine ⟨fun hn => ?_, ?_, ?_, fun hp => ?_, fun a n ha hs hl hn => ?_⟩
  · obtain ⟨m, h1, h2⟩ := entry_i16 (k := py! "nrang") h rfl
    rw [wrapInt_eq (by unfold signedOk; omega)] at h1
    cases h1
    exact h2
  · obtain ⟨m, h1, h2⟩ := entry_i16 (k := py! "xcf") h rfl
    rw [hr.cross, Option.isSome_some, if_pos rfl, pyIntTo_eq cfg rfl (by unfold signedOk; omega)] at h1
    cases h1
    exact h2
  · obtain ⟨m, h1, h2⟩ := entry_f32 (k := py! "thr") h rfl
    cases h1
    exact h2
  · obtain ⟨m, h1, h2⟩ := entry_i16 (k := py! "txpow") h rfl
    unfold txpowOf at h1
    rw [hp] at h1
    simp only [pyIntTo_eq cfg (k := 2) (n := -1) rfl (by unfold signedOk; omega)] at h1
    cases h1
    exact h2
  · obtain ⟨m, h1, h2⟩ := entry_i16 (k := py! "txpow") h rfl
    unfold txpowOf at h1
    rw [ha] at h1
    simp only at h1
    rw [bind_of_ok (a := a.data) (by simp [Val.elems, hs])] at h1
    rw [if_pos (.inr (Nat.lt_of_lt_of_le antennaBits_lt (Nat.pow_le_pow_right (by omega) (by omega))))] at h1
    cases h1
    refine ⟨_, h2, fun i e he => ?_⟩
    have hi : i < n := by
      have := (List.getElem?_eq_some_iff.1 he).1
      omega
    rw [ofInt_wrap, BitVec.getLsbD_ofNat, antennaBits_test he]
    have : i < 16 := by omega
    simp [this]

example : ∃ d ds, convertRecord numpy1 sampleOps .iqdat (sampleSource (sampleBfiq .v06 [])) = .ok (d :: ds) ∧
    HeaderOf sampleOps (sampleSource (sampleBfiq .v06 [])) d := by
  obtain ⟨ds, h⟩ := convertBfiq_succeeds (cfg := numpy1) (s := sampleSource (sampleBfiq .v06 []))
    (sampleBfiq_conforms .v06 _) (sampleBfiq_real .v06 _) (sampleBfiq_convertible .v06 (.inl rfl)) (sampleBfiq_rec .v06 _)
    (by decide)
  obtain ⟨_, _, -, -, -, h'⟩ := convertBfiq_ok (sampleBfiq_rec .v06 []) h
  cases ds with
  | nil => have := mapE_length h'; simp [enumFrom_length] at this
  | cons d ds => exact ⟨d, ds, h, C55_header (t := .iqdat) h d List.mem_cons_self⟩

example : ((convertRecord numpy2 sampleOps .iqdat (sampleSource (sampleBfiq .v06 []))).map fun l => l.map fun d =>
      (intField d (py! "xcf"), intField d (py! "nrang"), intField d (py! "stid"), textField d (py! "origin.command") == some (py! "Borealis v0.6 text"))) =
    .ok (List.replicate 2 (some 1, some 1, some 5, true)) := by decide +kernel

example : ((convertRecord numpy2 sampleOps .rawacf (sampleSource (sampleRawacf .v07 []))).map fun l => l.map fun d =>
      (intField d (py! "xcf"), intField d (py! "nrang"), intField d (py! "txpow"))) =
    .ok (List.replicate 2 (some 1, some 2, some 3)) := by decide +kernel

end Verif.Bor
