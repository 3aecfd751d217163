import Verif.Borealis.Lemmas.Times
import Verif.Borealis.Props.Restructure
import Verif.Borealis.Props.ConvertFlaws
import Verif.Borealis.Props.ConvertFile
/-!
# C40, C52, C54, C55: times, with the arithmetic of float64

The theorems of `Props/Restructure.lean`, `Props/ConvertHeader.lean` and `Props/ConvertFlaws.lean` hold for any operations on timestamps.
Here these are the operations of CPython and NumPy (`Model/Times.lean`).
-/
namespace Verif.Bor
open Verif Verif.Ieee

/-- 2020-01-01 00:00:00, 0.4 and 1.5 milliseconds later, and 3 seconds later. -/
def t0 : Elt := .flt 4744404735195348992
def t1 : Elt := .flt 4744404735195350670
def t2 : Elt := .flt 4744404735195355283
def t3 : Elt := .flt 4744404735207931904

theorem t0_time : IsTime t0 1577836800 :=
  ⟨BitVec.ofNat 64 4744404735195348992, rfl, by unfold f64Finite; decide, by decide +kernel⟩

theorem t1_time : IsTime t1 (3308963600794439 / 2097152) :=
  ⟨BitVec.ofNat 64 4744404735195350670, rfl, by unfold f64Finite; decide, by decide +kernel⟩

theorem t2_time : IsTime t2 (6617927201593491 / 4194304) :=
  ⟨BitVec.ofNat 64 4744404735195355283, rfl, by unfold f64Finite; decide, by decide +kernel⟩

theorem t3_time : IsTime t3 1577836803 :=
  ⟨BitVec.ofNat 64 4744404735207931904, rfl, by unfold f64Finite; decide, by decide +kernel⟩

/-! ## C40 -/

/-- **C40.** From November 2004 to January 2038 the name of a record is the number of milliseconds since 1970 of the
timestamp, which is rounded to microseconds first. -/
theorem C40_milliseconds {e : Elt} {v : Rat} (h : IsTime e v) (h1 : 1100000000 ≤ v) (h2 : v ≤ 2147483647) :
    ∃ m : Nat, Nearest (v * 1000000) m ∧ recordName e = .ok (Nat.toDigits 10 (m / 1000)) :=
  recordName_eq h h1 h2

example : recordName t2 = .ok (py! "1577836800001") := by decide +kernel

example : ∃ m : Nat, Nearest (6617927201593491 / 4194304 * 1000000) m ∧ recordName t2 = .ok (Nat.toDigits 10 (m / 1000)) :=
  C40_milliseconds t2_time (by decide +kernel) (by decide +kernel)

/-- **C40.** Before, the name can be one millisecond too low: 1090216309.682 becomes 1090216309681. -/
theorem C40_early_name : ∃ e v, IsTime e v ∧ Nearest (v * 1000000) 1090216309682000 ∧
    recordName e = .ok (Nat.toDigits 10 1090216309681) :=
  ⟨.flt 4742359506622326243, 4572698628564451 / 4194304,
    ⟨BitVec.ofNat 64 4742359506622326243, rfl, by unfold f64Finite; decide, by decide +kernel⟩,
    ⟨by decide +kernel, by decide +kernel, by decide +kernel⟩, by decide +kernel⟩

/-- **C40.** Two times have the same name if and only if they are in the same millisecond. -/
theorem C40_same_name {e e' : Elt} {v v' : Rat} {m m' : Int} (h : IsTime e v) (h' : IsTime e' v')
    (h1 : 1100000000 ≤ v) (h2 : v ≤ 2147483647) (h1' : 1100000000 ≤ v') (h2' : v' ≤ 2147483647)
    (hm : Nearest (v * 1000000) m) (hm' : Nearest (v' * 1000000) m') :
    recordName e = recordName e' ↔ m / 1000 = m' / 1000 := by
  obtain ⟨n, hn, hr⟩ := recordName_eq h h1 h2
  obtain ⟨n', hn', hr'⟩ := recordName_eq h' h1' h2'
  rw [hm.unique hn, hm'.unique hn', hr, hr']
  constructor
  · intro heq
    injection heq with heq
    have := natText_inj heq
    omega
  · intro heq
    rw [show n / 1000 = n' / 1000 by omega]

example : recordName t0 = recordName t1 ∧ recordName t1 ≠ recordName t2 := by decide +kernel

/-- Times that are more than a millisecond apart. -/
def Apart (v v' : Rat) : Prop := v + 1001 / 1000000 ≤ v' ∨ v' + 1001 / 1000000 ≤ v

theorem names_apart {e e' : Elt} {v v' : Rat} (h : IsTime e v) (h' : IsTime e' v')
    (h1 : 1100000000 ≤ v) (h2 : v ≤ 2147483647) (h1' : 1100000000 ≤ v') (h2' : v' ≤ 2147483647) (ha : Apart v v') :
    recordName e ≠ recordName e' := by
  obtain ⟨m, hm, -⟩ := recordName_eq h h1 h2
  obtain ⟨m', hm', -⟩ := recordName_eq h' h1' h2'
  rw [Ne, C40_same_name h h' h1 h2 h1' h2' hm hm']
  have a1 := hm.above
  have a2 := hm.below
  have b1 := hm'.above
  have b2 := hm'.below
  simp only [Rat.intCast_natCast] at a1 a2 b1 b2
  rcases ha with ha | ha
  · have : ((m + 1000 : Nat) : Rat) ≤ (m' : Rat) := by
      rw [Rat.natCast_add, show ((1000 : Nat) : Rat) = 1000 from rfl]
      grind
    have := Rat.natCast_le_natCast.1 this
    omega
  · have : ((m' + 1000 : Nat) : Rat) ≤ (m : Rat) := by
      rw [Rat.natCast_add, show ((1000 : Nat) : Rat) = 1000 from rfl]
      grind
    have := Rat.natCast_le_natCast.1 this
    omega

/-- **C40.** No record is lost if the first timestamps of the rows are more than a millisecond apart. -/
theorem C40_apart_partial (f : Format) (A : Rec) (out : Records) (h : arrayToSite recordName f A = .ok out) (ts : NdArr) (n : Nat)
    (hts : A.get? (py! "sqn_timestamps") = some (.arr ts)) (hn : ts.shape.head? = some n) (time : Nat → Rat)
    (ht : ∀ i < n, ∃ e, ts.get? [i, 0] = some e ∧ IsTime e (time i) ∧ 1100000000 ≤ time i ∧ time i ≤ 2147483647)
    (ha : ∀ i j, i < j → j < n → Apart (time i) (time j)) : out.length = n := by
  refine (C40_count_partial recordName f A out h ts n hts hn).2.2 fun i j hij hj e e' he he' => ?_
  obtain ⟨x, hx, i1, i2, i3⟩ := ht i (by omega)
  obtain ⟨y, hy, j1, j2, j3⟩ := ht j hj
  rw [hx] at he
  cases he
  rw [hy] at he'
  cases he'
  exact names_apart i1 j1 i2 i3 j2 j3 (ha i j hij hj)

/-- Records that start at two times. -/
def atTimes (e e' : Elt) : Records :=
  [(py! "a", (sampleSite .v07 .rawacf .none 1 1 1 5).set (py! "sqn_timestamps") (.arr ⟨.f64, [1], [e]⟩)),
   (py! "b", (sampleSite .v07 .rawacf .none 1 2 1 5).set (py! "sqn_timestamps") (.arr ⟨.f64, [1], [e']⟩))]

/-- The names of the records that come back. -/
def namesBack (e e' : Elt) : Except Err (List PyStr) := do
  let A ← siteToArray (formatOf .v07 .rawacf) (atTimes e e')
  let out ← arrayToSite recordName (formatOf .v07 .rawacf) A
  pure (out.map (·.1))

/-- Three seconds, and a bit more than a millisecond apart. -/
example : namesBack t0 t3 = .ok [py! "1577836800000", py! "1577836803000"] ∧
    namesBack t0 t2 = .ok [py! "1577836800000", py! "1577836800001"] := by decide +kernel

/-- The theorem on these records. -/
example (A : Rec) (out : Records) (h : arrayToSite recordName (formatOf .v07 .rawacf) A = .ok out)
    (hts : A.get? (py! "sqn_timestamps") = some (.arr ⟨.f64, [2, 1], [t0, t3]⟩)) : out.length = 2 :=
  C40_apart_partial _ A out h _ 2 hts rfl (fun i => if i = 0 then 1577836800 else 1577836803)
    (fun i hi => by
      match i, hi with
      | 0, _ => exact ⟨t0, rfl, t0_time, by decide +kernel, by decide +kernel⟩
      | 1, _ => exact ⟨t3, rfl, t3_time, by decide +kernel, by decide +kernel⟩)
    (fun i j hij hj => by
      obtain rfl : i = 0 := by omega
      obtain rfl : j = 1 := by omega
      left
      decide +kernel)

example : ((siteToArray (formatOf .v07 .rawacf) (atTimes t0 t3)).map fun A => A.get? (py! "sqn_timestamps")) =
    .ok (some (.arr ⟨.f64, [2, 1], [t0, t3]⟩)) := by decide +kernel

/-- **C40** violated: records that start 0.4 milliseconds apart become one. -/
theorem C40_float_violation : namesBack t0 t1 = .ok [py! "1577836800000"] := by decide +kernel

/-! ## C52 -/

/-- The operations on timestamps are those of CPython and NumPy. -/
structure FloatTimes (ops : Ops) : Prop where
  tsc : ops.tsc = tscOf
  tus : ops.tus = tusOf
  utc : ops.utc = utcDate

/-- The times of sequences are the results of the operations. -/
theorem sequence_times {cfg : NpCfg} {ops : Ops} {s : Source} {ds : List PlainRec} {a : NdArr}
    {nq : Nat} (ha : Dict.get? s.fields (py! "sqn_timestamps") = some (.arr a)) (hs : a.shape = [nq])
    (hw : a.WF) (h : convertBfiq cfg ops s = .ok ds) :
    ∀ d ∈ ds, ∃ tsc tus, arrField d (py! "tsc") = some tsc ∧ tsc.shape = [nq] ∧
      arrField d (py! "tus") = some tus ∧ tus.shape = [nq] ∧
      ∀ i e, a.data[i]? = some e → ∃ x y, ops.tsc e = .ok x ∧ ops.tus e = .ok y ∧
        i32At tsc [i] = some x.toInt ∧ i32At tus [i] = some y.toInt := by
  intro d hd
  obtain ⟨rev, norm, nsamps, nseq, order, beam, b, l, -, ho, h⟩ := convertBfiq_mem h hd
  have hlen : a.data.length = nq := by
    have := hw
    unfold NdArr.WF at this
    rw [this, hs]; simp [prod]
  obtain ⟨v1, h1, h2⟩ := entry_get (k := py! "tsc") h rfl
  rw [bind_of_ok (field_iff.2 ha), bind_of_ok (x := (Val.arr a).elems) (a := a.data) (by simp [Val.elems, hs])] at h1
  obtain ⟨l1, hl1, h1⟩ := bind_ok h1
  cases h1
  obtain ⟨v2, h3, h4⟩ := entry_get (k := py! "tus") h rfl
  rw [bind_of_ok (field_iff.2 ha), bind_of_ok (x := (Val.arr a).elems) (a := a.data) (by simp [Val.elems, hs])] at h3
  obtain ⟨l2, hl2, h3⟩ := bind_ok h3
  cases h3
  refine ⟨_, _, by simp only [arrField, h2, arr32]; rfl, by simp only [hlen], by simp only [arrField, h4, arr32]; rfl,
    by simp only [hlen], fun i e he => ?_⟩
  obtain ⟨y1, hy1, ht1⟩ := mapE_get hl1 he
  obtain ⟨y2, hy2, ht2⟩ := mapE_get hl2 he
  have s1 : signedOk 4 y1.toInt := by
    have := y1.toInt_lt; have := y1.le_toInt; unfold signedOk; omega
  have s2 : signedOk 4 y2.toInt := by
    have := y2.toInt_lt; have := y2.le_toInt; unfold signedOk; omega
  refine ⟨y1, y2, ht1, ht2, i32At_vec (by rw [List.length_map, mapE_length hl1]) ?_ s1,
    i32At_vec (by rw [List.length_map, mapE_length hl2]) ?_ s2⟩
  · rw [List.getElem?_map, hy1, Option.map_some]
  · rw [List.getElem?_map, hy2, Option.map_some]

/-- **C52.** With the arithmetic of float64, `tsc` is the thousandth of the timestamp, and `tus` what remains of it in
thousandths, both rounded down; that would be right for timestamps in milliseconds. -/
theorem C52_float_partial {cfg : NpCfg} {ops : Ops} (hops : FloatTimes ops) {s : Source} {ds : List PlainRec} {a : NdArr}
    {nq : Nat} (ha : Dict.get? s.fields (py! "sqn_timestamps") = some (.arr a)) (hs : a.shape = [nq])
    (hw : a.WF) (h : convertBfiq cfg ops s = .ok ds) :
    ∀ d ∈ ds, ∃ tsc tus, arrField d (py! "tsc") = some tsc ∧ tsc.shape = [nq] ∧
      arrField d (py! "tus") = some tus ∧ tus.shape = [nq] ∧
      ∀ i e v, a.data[i]? = some e → IsTime e v → 2 ^ 20 ≤ v → v < 2 ^ 31 →
        i32At tsc [i] = some (v / 1000).floor ∧ i32At tus [i] = some ((v - 1000 * (v / 1000).floor) * 1000).floor := by
  intro d hd
  obtain ⟨tsc, tus, h1, h2, h3, h4, h5⟩ := sequence_times ha hs hw h d hd
  refine ⟨tsc, tus, h1, h2, h3, h4, fun i e v he hv hlo hhi => ?_⟩
  obtain ⟨x, y, hx, hy, g1, g2⟩ := h5 i e he
  rw [hops.tsc, tscOf_eq hv (by grind) hhi] at hx
  cases hx
  rw [hops.tus, tusOf_eq hv hlo hhi] at hy
  cases hy
  have b1 := Rat.floor_le (v / 1000)
  have b2 := Rat.lt_floor_add_one (v / 1000)
  have c1 : 0 ≤ (v / 1000).floor := Rat.le_floor_iff.2 (by show (0 : Rat) ≤ _; grind)
  have c2 : (v / 1000).floor < 2 ^ 31 := Rat.floor_lt_iff.2 (by show _ < (2147483648 : Rat); grind)
  rw [Rat.intCast_add, show ((1 : Int) : Rat) = 1 from rfl] at b2
  have c3 : 0 ≤ ((v - 1000 * (v / 1000).floor) * 1000).floor := Rat.le_floor_iff.2 (by show (0 : Rat) ≤ _; grind)
  have c4 : ((v - 1000 * (v / 1000).floor) * 1000).floor < 2 ^ 31 :=
    Rat.floor_lt_iff.2 (by show _ < (2147483648 : Rat); grind)
  rw [g1, g2, toInt32_ofInt c1 c2, toInt32_ofInt c3 c4]
  exact ⟨rfl, rfl⟩

/-- The sample operations with the arithmetic of float64 on times. -/
def floatOps : Ops := { sampleOps with tsc := tscOf, tus := tusOf, utc := utcDate }

theorem floatOps_times : FloatTimes floatOps := ⟨rfl, rfl, rfl⟩

/-- 2020-01-01 00:00:00 and 1.5 milliseconds later. -/
def floatSource : Source :=
  sampleSource ((sampleBfiq .v06 []).set (py! "sqn_timestamps") (.arr ⟨.f64, [2], [t0, t2]⟩))

/-- 1577836.8 and 1577836.8000015 in "milliseconds". -/
example : ((convertBfiq numpy2 floatOps floatSource).map fun l => l.map fun d =>
      [(arrField d (py! "tsc")).bind fun a => i32At a [0], (arrField d (py! "tsc")).bind fun a => i32At a [1],
       (arrField d (py! "tus")).bind fun a => i32At a [0], (arrField d (py! "tus")).bind fun a => i32At a [1]]) =
    .ok (List.replicate 2 [some 1577836, some 1577836, some 800000, some 800001]) := by decide +kernel

/-! ## C55 -/

/-- The date of a timestamp. -/
theorem utcDate_ok {e : Elt} {v : Rat} (h : IsTime e v) (h1 : 2 ^ 20 ≤ v) (h2 : v < 2 ^ 33) :
    ∃ (x : Date) (t : Moment), utcDate e = .ok x ∧ t.Valid ∧ Nearest (v * 1000000) t.micros ∧ x.text = t.text ∧
      x.year.toInt = t.year ∧ x.month.toInt = t.month ∧ x.day.toInt = t.day ∧ x.hour.toInt = t.hour ∧
      x.minute.toInt = t.minute ∧ x.second.toInt = t.second ∧ x.micro.toInt = t.micro := by
  obtain ⟨b, a, rfl, hb, ha⟩ := time_num h (by grind)
  obtain ⟨s, us, ht, hs, hs', hus, hus', hn⟩ := utcTime_near ha h1 h2
  obtain ⟨t, hv, hm, hrest⟩ := dateTime_ok hs hs' hus hus'
  refine ⟨dateTime s us, t, ?_, hv, by rw [hm]; exact hn, hrest⟩
  unfold utcDate
  simp only
  rw [hb, ht]
  rfl

/-- **C55.** The date in the header of a converted record is that of the first timestamp in the Gregorian calendar, to the
nearest microsecond, from 1970-01-13 to the year 2242. -/
theorem C55_date {cfg : NpCfg} {ops : Ops} (hops : FloatTimes ops) {t : Target} {s : Source} {ds : List PlainRec}
    (h : convertRecord cfg ops t s = .ok ds) : ∀ d ∈ ds, ∃ e, IsFirst (Dict.get? s.fields (py! "sqn_timestamps")) e ∧
      ∀ v, IsTime e v → 2 ^ 20 ≤ v → v < 2 ^ 33 →
        ∃ m : Moment, m.Valid ∧ Nearest (v * 1000000) m.micros ∧ HeaderTime d m := by
  intro d hd
  obtain ⟨e, x, he, hx, d1, d2, d3, d4, d5, d6, d7, d8⟩ := (C55_header h d hd).date
  refine ⟨e, he, fun v hv h1 h2 => ?_⟩
  obtain ⟨y, m, hy, hval, hn, e1, e2, e3, e4, e5, e6, e7, e8⟩ := utcDate_ok hv h1 h2
  rw [hops.utc, hy] at hx
  cases hx
  exact ⟨m, hval, hn, e1 ▸ d1, e2 ▸ d2, e3 ▸ d3, e4 ▸ d4, e5 ▸ d5, e6 ▸ d6, e7 ▸ d7, e8 ▸ d8⟩

example : ((convertBfiq numpy2 floatOps floatSource).map fun l => l.map fun d =>
      (textField d (py! "origin.time"), intField d (py! "time.yr"), intField d (py! "time.mo"), intField d (py! "time.dy"))) =
    .ok (List.replicate 2 (some (py! "Wed Jan  1 00:00:00 2020"), some 2020, some 1, some 1)) := by decide +kernel

/-- A leap day: 2024-02-29 23:59:59.999999, a Thursday. -/
example : ∃ m : Moment, m.Valid ∧ m.micros = 1709251199999999 ∧ m.text = py! "Thu Feb 29 23:59:59 2024" :=
  ⟨⟨2024, 2, 29, 23, 59, 59, 999999⟩, by refine ⟨?_, ?_, ?_, ?_, ?_, ?_, ?_⟩ <;> decide +kernel, by decide +kernel, by decide +kernel⟩

/-- **C55.** A time has only one date. -/
theorem C55_date_unique (t t' : Moment) (ht : t.Valid) (ht' : t'.Valid) (h : t.micros = t'.micros) : t = t' := by
  obtain ⟨y, m, d, hh, mi, se, us⟩ := t
  obtain ⟨y', m', d', hh', mi', se', us'⟩ := t'
  obtain ⟨a1, ⟨a2, a3⟩, ⟨a4, a5⟩, a6, a7, a8, a9⟩ := ht
  obtain ⟨b1, ⟨b2, b3⟩, ⟨b4, b5⟩, b6, b7, b8, b9⟩ := ht'
  simp only at a1 a2 a3 a4 a5 a6 a7 a8 a9 b1 b2 b3 b4 b5 b6 b7 b8 b9
  unfold Moment.micros at h
  simp only at h
  have hd : dayNumber y m d = dayNumber y' m' d' := by omega
  obtain ⟨rfl, rfl, rfl⟩ := dayNumber_inj a1 a2 a3 a4 a5 b1 b2 b3 b4 b5 hd
  have e1 : hh = hh' := by omega
  have e2 : mi = mi' := by omega
  have e3 : se = se' := by omega
  have e4 : us = us' := by omega
  rw [e1, e2, e3, e4]

/-- **C52** is violated: the seconds of the first sequence are not those of the header, for any timestamp after
1970-01-13. -/
theorem C52_float_violation {cfg : NpCfg} {ops : Ops} (hops : FloatTimes ops) {s : Source} {ds : List PlainRec} {a : NdArr}
    {nq : Nat} (ha : Dict.get? s.fields (py! "sqn_timestamps") = some (.arr a)) (hs : a.shape = [nq])
    (hw : a.WF) (h : convertBfiq cfg ops s = .ok ds) {d : PlainRec} (hd : d ∈ ds) {e : Elt} {v : Rat}
    (he : a.data[0]? = some e) (hv : IsTime e v) (h1 : 2 ^ 20 ≤ v) (h2 : v < 2 ^ 31) :
    ∃ (m : Moment) (tsc : Verif.NdArr) (n : Int), m.Valid ∧ HeaderTime d m ∧ arrField d (py! "tsc") = some tsc ∧
      i32At tsc [0] = some n ∧ n * 1000000 + 1000000 ≤ m.micros := by
  obtain ⟨tsc, tus, g1, -, -, -, g2⟩ := C52_float_partial hops ha hs hw h d hd
  obtain ⟨e', ⟨a', n', k1, -, k2⟩, k3⟩ := C55_date hops (t := .iqdat) h d hd
  rw [ha] at k1
  cases k1
  rw [he] at k2
  cases k2
  obtain ⟨m, m1, m2, m3⟩ := k3 v hv h1 (by grind)
  refine ⟨m, tsc, _, m1, m3, g1, (g2 0 e v he hv h1 h2).1, ?_⟩
  have b1 := Rat.floor_le (v / 1000)
  have b2 := m2.above
  generalize (v / 1000).floor = n at *
  have : ((n * 1000000 + 1000000 : Int) : Rat) ≤ (m.micros : Rat) := by
    rw [Rat.intCast_add, Rat.intCast_mul, show ((1000000 : Int) : Rat) = 1000000 from rfl]
    grind
  exact Rat.intCast_le_intCast.1 this

/-- The record above. -/
example (ds : List PlainRec) (h : convertBfiq numpy2 floatOps floatSource = .ok ds) (d : PlainRec) (hd : d ∈ ds) :
    ∃ (m : Moment) (tsc : Verif.NdArr) (n : Int), m.Valid ∧ HeaderTime d m ∧ arrField d (py! "tsc") = some tsc ∧
      i32At tsc [0] = some n ∧ n * 1000000 + 1000000 ≤ m.micros :=
  C52_float_violation (a := ⟨.f64, [2], [t0, t2]⟩) (nq := 2) floatOps_times rfl rfl rfl h hd rfl t0_time
    (by decide +kernel) (by decide +kernel)

/-! ## C54 -/

open Verif.Spec (PlainText)

theorem getD_plain {l : List PyStr} (h : ∀ t ∈ l, PlainText t) (n : Nat) : PlainText (l.getD n []) := by
  by_cases hn : n < l.length
  · rw [List.getD_eq_getElem?_getD, List.getElem?_eq_getElem hn]
    exact h _ (List.getElem_mem hn)
  · rw [List.getD_eq_getElem?_getD, List.getElem?_eq_none (by omega)]
    unfold PlainText
    decide

theorem twoDigits_plain {c : Char} (hc : PlainText [c]) (n : Nat) : PlainText (twoDigits c n) := by
  unfold twoDigits
  split
  · exact plain_append (s := [c]) hc (plain_digits n)
  · exact plain_digits n

theorem dateTime_plain (s us : Int) : PlainText (dateTime s us).text := by
  have h1 : ∀ t ∈ dayNames, PlainText t := by unfold PlainText; decide +kernel
  have h2 : ∀ t ∈ monthNames, PlainText t := by unfold PlainText; decide +kernel
  have sp : PlainText [' '] := by unfold PlainText; decide
  have ze : PlainText ['0'] := by unfold PlainText; decide
  have co : PlainText [':'] := by unfold PlainText; decide
  unfold dateTime
  simp only [List.append_assoc, List.cons_append]
  have cons : ∀ {c : Char} {t : PyStr}, PlainText [c] → PlainText t → PlainText (c :: t) := fun hc ht => plain_append (s := [_]) hc ht
  refine plain_append (getD_plain h1 _) (cons sp (plain_append (getD_plain h2 _) (cons sp (plain_append (twoDigits_plain sp _)
    (cons sp (plain_append (twoDigits_plain ze _) (cons co (plain_append (twoDigits_plain ze _) (cons co
    (plain_append (twoDigits_plain ze _) (cons sp (plain_digits _))))))))))))

/-- **C54.** The texts of dates can be written to files (`PlainDates` is a hypothesis of `C54_roundtrip`). -/
theorem C54_dates {ops : Ops} (hops : FloatTimes ops) : PlainDates ops := by
  intro e x h
  rw [hops.utc] at h
  cases e with
  | flt b =>
    unfold utcDate at h
    obtain ⟨⟨s, us⟩, -, h⟩ := bind_ok h
    cases h
    exact dateTime_plain s us
  | _ => cases h

example : PlainDates floatOps := C54_dates floatOps_times

end Verif.Bor
