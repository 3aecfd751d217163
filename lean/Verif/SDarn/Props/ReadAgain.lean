import Verif.SDarn.Model.ReadAgain
import Verif.SDarn.Props.Objects
import Verif.Dmap.Props.ReadAgain
/-!
# C89 for `SDarnRead`: calling any read methods again after something was written into an array

Specification: what the keys of the records of the results give.
-/
namespace Verif.SD
open Verif Spec

/-- A reader at the end of its memory gives its records with every call. -/
theorem runCalls_end (cfg : NpCfg) {ds : List PlainRec} (cs : List Call) (r : DarnReader)
    (h1 : r.base.cursor = (r.base.buf.length : Int)) (h2 : dmap2dict cfg r.base.dmapRecords = .ok ds) :
    (runCalls cfg r cs).1 = List.replicate cs.length (.ok ds) := by
  induction cs generalizing r with
  | nil => rfl
  | cons c cs ih =>
    simp only [runCalls, List.length_cons, List.replicate_succ]
    cases c with
    | records =>
      have : r.readRecords cfg = (.ok ds, { r with base := { r.base with records := ds } }) := by
        unfold DarnReader.readRecords
        rw [readRecords_ok.2 ⟨r.base, readLoop_stop _ _ _ (by omega), by omega, h2, rfl⟩]
      simp only [runCall, this]
      rw [ih]
      · exact h1
      · exact h2
    | darn ft =>
      have : r.read cfg ft = (.ok ds, ⟨{ r.base with recNum := 0 }, some ds⟩) :=
        read_ok.2 ⟨_, [], .nil _, by dsimp only; omega, by simp, h2, rfl⟩
      simp only [runCall, this]
      rw [ih]
      · exact h1
      · exact h2

/-- A first call that succeeds has read the whole file, as `DmapRead` reads it. -/
theorem runCall_all {cfg : NpCfg} {bs : Bytes} {c : Call} {ds : List PlainRec} {rd : DarnReader}
    (h : runCall cfg (freshDarn bs) c = (.ok ds, rd)) :
    rd.base.cursor = (bs.length : Int) ∧ ∃ b, (freshReader bs).readRecords cfg = (.ok ds, b) := by
  cases c with
  | records =>
    simp only [runCall, DarnReader.readRecords] at h
    rcases hr : (freshDarn bs).base.readRecords cfg with ⟨x, b⟩
    rw [hr] at h
    cases h
    refine ⟨?_, b, hr⟩
    obtain ⟨r1, g3, g4, g5, rfl⟩ := readRecords_ok.1 hr
    exact (readLoop_ok_cursor cfg _ _ _ 0 rfl (by simp [freshDarn, freshReader]) g3).1
  | darn ft =>
    obtain ⟨b, new, h1, h2, h3, h4, rfl⟩ := read_ok.1 h
    have hin := h1.inside (by simp [freshDarn, freshReader]) (by simp [freshDarn, freshReader])
    have hs := readLoop_ok_steps.2 ⟨new, h1, h2⟩
    have hc := (readLoop_ok_cursor cfg _ _ _ 0 rfl (by simp [freshDarn, freshReader]) hs).1
    exact ⟨hc, { b with records := ds }, readRecords_ok.2 ⟨b, hs, by omega, h4, rfl⟩⟩

/-- **C89** What further calls of any read methods give on an `SDarnRead` after a first one that succeeded, when the memory of the
reader has changed since: all of them give one list, in which every array has the bytes that are there now and everything else is
as before. -/
theorem C89_darn_exact (cfg : NpCfg) {bs : Bytes} (hb : bs ≠ []) (hneg : ¬ NegSlist bs) {c : Call} {ds : List PlainRec}
    {rd : DarnReader} (h : runCall cfg (freshDarn bs) c = (.ok ds, rd)) :
    ∃ vs, readViews cfg bs = .ok vs ∧ ∀ mem : Bytes, mem.length = bs.length →
      ∃ ds', (∀ cs, darnChanged cfg rd mem vs cs = List.replicate cs.length (.ok ds')) ∧ ds'.length = ds.length ∧
        ∀ (i : Nat) d, ds[i]? = some d → ∃ d', ds'[i]? = some d' ∧ ∀ k,
          (∀ a v, ArrayAt vs i k a v → d.get? k = some (.arr a.value) ∧ a.value.cells = v.cells bs ∧
            d'.get? k = some (.arr { a.value with cells := v.cells mem })) ∧
          ((∀ a v, ¬ ArrayAt vs i k a v) → d'.get? k = d.get? k) := by
  obtain ⟨hc, b, hr⟩ := runCall_all h
  obtain ⟨vs, hv, hx⟩ := C89_exact cfg hb hneg hr
  refine ⟨vs, hv, fun mem hm => ?_⟩
  obtain ⟨ds', h1, h2, h3⟩ := hx mem hm
  refine ⟨ds', fun cs => ?_, h2, h3⟩
  rw [readChanged_eq hr hm] at h1
  exact runCalls_end cfg cs _ (by dsimp only; rw [hc, hm]) h1

/-- **C89** violated for `SDarnRead` too: whatever file was read by whichever method, if the caller has changed an array of the
result, every further call of any method gives the changed array and not that of the file. -/
theorem C89_darn_violation (cfg : NpCfg) {bs : Bytes} (hb : bs ≠ []) (hneg : ¬ NegSlist bs) {c : Call} {ds : List PlainRec}
    {rd : DarnReader} (h : runCall cfg (freshDarn bs) c = (.ok ds, rd)) {vs : List VRec} (hv : readViews cfg bs = .ok vs) {i : Nat}
    {k : PyStr} {a : DmapArray} {v : View} (ha : ArrayAt vs i k a v) {mem : Bytes} (hw : WrittenThrough v bs mem)
    (hne : v.cells mem ≠ a.value.cells) :
    ∃ ds' d d', (∀ cs, darnChanged cfg rd mem vs cs = List.replicate cs.length (.ok ds')) ∧ ds[i]? = some d ∧
      ds'[i]? = some d' ∧ d'.get? k ≠ d.get? k ∧ d'.get? k = some (.arr { a.value with cells := v.cells mem }) ∧
      ∀ (j : Nat) l e e', (j, l) ≠ (i, k) → ds[j]? = some e → ds'[j]? = some e' → e'.get? l = e.get? l := by
  obtain ⟨hc, b, hr⟩ := runCall_all h
  obtain ⟨ds', d, d', h1, h2⟩ := C89_violation cfg hb hneg hr hv ha hw hne
  rw [readChanged_eq hr hw.1] at h1
  exact ⟨ds', d, d', fun cs => runCalls_end cfg cs _ (by dsimp only; rw [hc, hw.1]) h1, h2⟩

/-! ## Sample -/

/-- After `read_records`, the caller sets the second number of the array `b` of `twoArrays` to 9; `read_grid` and `read_records`
then give the changed array.  (`read_grid` checks records only while it reads them.) -/
example : ∃ rd ds, runCall numpy2 (freshDarn twoArrays) .records = (.ok ds, rd) ∧
    (darnChanged numpy2 rd (twoArrays.set 32 9) (placed twoArrays) [.darn .grid, .records]).map
        (fun x => x.toOption.map fun ds' => ds'.map (fun d => d.get? (py! "b"))) =
      [some [some (.arr ⟨.uint8, [2], [[6], [9]]⟩)], some [some (.arr ⟨.uint8, [2], [[6], [9]]⟩)]] := by
  refine ⟨_, _, rfl, ?_⟩
  decide +kernel

example : ∃ rd ds, runCall numpy2 (freshDarn twoArrays) .records = (.ok ds, rd) ∧
    ∃ ds' d d', darnChanged numpy2 rd (twoArrays.set 32 9) (placed twoArrays) [.darn .grid] = [.ok ds'] ∧ ds[0]? = some d ∧
      ds'[0]? = some d' ∧ d'.get? (py! "b") ≠ d.get? (py! "b") := by
  refine ⟨_, _, rfl, ?_⟩
  obtain ⟨ds', d, d', h1, h2, h3, h4, -⟩ := C89_darn_violation numpy2 (bs := twoArrays) (by decide) (c := .records)
    (Sample.not_negSlist (by decide +kernel)) rfl (vs := placed twoArrays) rfl (i := 0) (k := py! "b") (v := ⟨31, 1, 2⟩)
    ⟨_, rfl, rfl⟩ (mem := twoArrays.set 32 9)
    ⟨by simp, fun i hi => by rw [List.getElem?_set_ne (by simp at hi; omega)]⟩ (by decide +kernel)
  exact ⟨ds', d, d', h1 _, h2, h3, h4⟩

end Verif.SD
