import Verif.Dmap.Model.ReadAgain
import Verif.Dmap.Lemmas.Header
import Verif.Dmap.Props.Views
/-!
# C89: reading again after something was written into an array

Specification: what the keys of the records of the two results give.
-/
namespace Verif
open Verif.Spec

theorem get?_shown (mem : Bytes) (r : VRec) (k : PyStr) :
    Dict.get? (shownRec mem r) k = (Dict.get? r k).map (shownField mem) := by
  induction r with
  | nil => rfl
  | cons p r ih =>
    simp only [shownRec, List.map_cons, Dict.get?] at ih ⊢
    split
    · rfl
    · exact ih

/-- What `dmap2dict` gives for a key. -/
theorem recToPlain_get {cfg : NpCfg} {r : Rec} {d : PlainRec} (h : recToPlain cfg r = .ok d) (k : PyStr) :
    (Dict.get? r k = none → Dict.get? d k = none) ∧
      ∀ f, Dict.get? r k = some f → ∃ v, fieldToPlain cfg f = .ok v ∧ Dict.get? d k = some v := by
  induction r generalizing d with
  | nil =>
    cases h
    exact ⟨fun _ => rfl, nofun⟩
  | cons p r ih =>
    obtain ⟨k', f'⟩ := p
    simp only [recToPlain] at h
    cases h1 : fieldToPlain cfg f' with
    | error e => rw [h1] at h; cases h
    | ok v =>
      cases h2 : recToPlain cfg r with
      | error e => rw [h1, h2] at h; cases h
      | ok d' =>
        rw [h1, h2] at h
        cases h
        simp only [Dict.get?]
        by_cases hk : k' = k
        · rw [if_pos hk, if_pos hk]
          refine ⟨nofun, fun f hf => ?_⟩
          cases hf
          exact ⟨v, h1, rfl⟩
        · rw [if_neg hk, if_neg hk]
          exact ih h2

theorem recToPlain_shown {cfg : NpCfg} {r : VRec} {d : PlainRec} (h : recToPlain cfg (VRec.plain r) = .ok d) (mem : Bytes) :
    ∃ d', recToPlain cfg (shownRec mem r) = .ok d' := by
  induction r generalizing d with
  | nil => exact ⟨[], rfl⟩
  | cons p r ih =>
    obtain ⟨k, f, v⟩ := p
    have h : (do
        let v ← fieldToPlain cfg f
        let d ← recToPlain cfg (VRec.plain r)
        return (k, v) :: d) = Except.ok d := h
    change ∃ d', (do
        let v ← fieldToPlain cfg (shownField mem (f, v))
        let d ← recToPlain cfg (shownRec mem r)
        return (k, v) :: d) = Except.ok d'
    cases h1 : fieldToPlain cfg f with
    | error e => rw [h1] at h; cases h
    | ok x =>
      cases h2 : recToPlain cfg (VRec.plain r) with
      | error e => rw [h1, h2] at h; cases h
      | ok d1 =>
        obtain ⟨d', hd⟩ := ih h2
        rw [hd]
        have : ∃ y, fieldToPlain cfg (shownField mem (f, v)) = .ok y := by
          cases f with
          | scalar s => exact ⟨x, h1⟩
          | other => exact ⟨x, h1⟩
          | array a =>
            cases v with
            | none => exact ⟨x, h1⟩
            | some v => exact ⟨_, rfl⟩
        obtain ⟨y, hy⟩ := this
        rw [hy]
        exact ⟨_, rfl⟩

/-- `dmap2dict` record by record. -/
theorem dmap2dict_each {cfg : NpCfg} {rs : List Rec} {ds : List PlainRec} (h : dmap2dict cfg rs = .ok ds) (i : Nat) :
    (rs[i]? = none → ds[i]? = none) ∧ ∀ r, rs[i]? = some r → ∃ d, recToPlain cfg r = .ok d ∧ ds[i]? = some d := by
  induction rs generalizing ds i with
  | nil =>
    cases h
    exact ⟨fun _ => rfl, nofun⟩
  | cons r rs ih =>
    simp only [dmap2dict] at h
    cases h1 : recToPlain cfg r with
    | error e => rw [h1] at h; cases h
    | ok d =>
      cases h2 : dmap2dict cfg rs with
      | error e => rw [h1, h2] at h; cases h
      | ok ds' =>
        rw [h1, h2] at h
        cases h
        cases i with
        | zero =>
          refine ⟨nofun, fun r' hr => ?_⟩
          cases hr
          exact ⟨d, h1, rfl⟩
        | succ i => exact ih h2 i

theorem dmap2dict_shown {cfg : NpCfg} {vs : List VRec} {ds : List PlainRec} (h : dmap2dict cfg (vs.map VRec.plain) = .ok ds)
    (mem : Bytes) : ∃ ds', dmap2dict cfg (vs.map (shownRec mem)) = .ok ds' := by
  induction vs generalizing ds with
  | nil => exact ⟨[], rfl⟩
  | cons r vs ih =>
    simp only [List.map_cons, dmap2dict] at h ⊢
    cases h1 : recToPlain cfg (VRec.plain r) with
    | error e => rw [h1] at h; cases h
    | ok d =>
      cases h2 : dmap2dict cfg (vs.map VRec.plain) with
      | error e => rw [h1, h2] at h; cases h
      | ok ds1 =>
        obtain ⟨d', hd⟩ := recToPlain_shown h1 mem
        obtain ⟨ds', hds⟩ := ih h2
        rw [hd, hds]
        exact ⟨_, rfl⟩

/-- A reader that has read everything hands out its records once more. -/
theorem readChanged_eq {cfg : NpCfg} {bs : Bytes} {ds : List PlainRec} {rd : Reader}
    (h : (freshReader bs).readRecords cfg = (.ok ds, rd)) {mem : Bytes} (hm : mem.length = bs.length) (vs : List VRec) :
    (readChanged cfg rd mem vs).1 = dmap2dict cfg (vs.map (shownRec mem)) := by
  obtain ⟨r1, g3, g4, g5, rfl⟩ := readRecords_ok.1 h
  obtain ⟨e1, e2⟩ := readLoop_ok_cursor cfg _ _ _ 0 rfl (by simp) g3
  have hc : r1.cursor = (mem.length : Int) := by rw [e1, hm]; rfl
  unfold readChanged Reader.readRecords
  rw [readLoop_stop _ _ _ (by dsimp only; omega)]
  dsimp only
  rw [if_neg (by omega)]
  cases dmap2dict cfg (vs.map (shownRec mem)) <;> rfl

/-- **C89** What a second call of `read_records` gives, when the memory of the reader has changed since the first: every array with
the bytes that are there now, everything else as before. -/
theorem C89_exact (cfg : NpCfg) {bs : Bytes} (hb : bs ≠ []) (hneg : ¬ NegSlist bs) {ds : List PlainRec} {rd : Reader}
    (h : (freshReader bs).readRecords cfg = (.ok ds, rd)) :
    ∃ vs, readViews cfg bs = .ok vs ∧ ∀ mem : Bytes, mem.length = bs.length →
      ∃ ds', (readChanged cfg rd mem vs).1 = .ok ds' ∧ ds'.length = ds.length ∧
        ∀ (i : Nat) d, ds[i]? = some d → ∃ d', ds'[i]? = some d' ∧ ∀ k,
          (∀ a v, ArrayAt vs i k a v → d.get? k = some (.arr a.value) ∧ a.value.cells = v.cells bs ∧
            d'.get? k = some (.arr { a.value with cells := v.cells mem })) ∧
          ((∀ a v, ¬ ArrayAt vs i k a v) → d'.get? k = d.get? k) := by
  have hf := readFile_ok.2 ⟨hb, rd, h, rfl⟩
  obtain ⟨vs, hv, hr, hcell, -⟩ := C74_separate_partial cfg hneg hf
  refine ⟨vs, hv, fun mem hm => ?_⟩
  have hds : dmap2dict cfg (vs.map VRec.plain) = .ok ds := by
    rw [← hr]
    obtain ⟨r1, -, -, g5, rfl⟩ := readRecords_ok.1 h
    exact g5
  obtain ⟨ds', hds'⟩ := dmap2dict_shown hds mem
  refine ⟨ds', by rw [readChanged_eq h hm, hds'], ?_, ?_⟩
  · rw [dmap2dict_length hds, dmap2dict_length hds']
    simp
  · intro i d hd
    cases hi : vs[i]? with
    | none =>
      have := (dmap2dict_each hds i).1 (by rw [List.getElem?_map, hi]; rfl)
      rw [hd] at this
      cases this
    | some r =>
      obtain ⟨d1, g1, g2⟩ := (dmap2dict_each hds i).2 (VRec.plain r) (by rw [List.getElem?_map, hi]; rfl)
      rw [hd] at g2
      cases g2
      obtain ⟨d', g3, g4⟩ := (dmap2dict_each hds' i).2 (shownRec mem r) (by rw [List.getElem?_map, hi]; rfl)
      refine ⟨d', g4, fun k => ⟨?_, ?_⟩⟩
      · rintro a v ⟨r', e1, e2⟩
        rw [hi] at e1
        cases e1
        obtain ⟨x, x1, x2⟩ := (recToPlain_get g1 k).2 (.array a) (by rw [get?_plain, e2]; rfl)
        cases x1
        obtain ⟨y, y1, y2⟩ := (recToPlain_get g3 k).2 _ (by rw [get?_shown, e2]; rfl)
        cases y1
        refine ⟨x2, ?_, y2⟩
        obtain ⟨v', ⟨r'', q1, q2⟩, q3, -⟩ := hcell i (VRec.plain r) k a (by rw [hr, List.getElem?_map, hi]; rfl)
          (by rw [get?_plain, e2]; rfl)
        rw [hi] at q1
        cases q1
        rw [e2] at q2
        cases q2
        exact q3
      · intro hn
        cases hg : Dict.get? r k with
        | none =>
          rw [(recToPlain_get g1 k).1 (by rw [get?_plain, hg]; rfl), (recToPlain_get g3 k).1 (by rw [get?_shown, hg]; rfl)]
        | some p =>
          obtain ⟨f, v⟩ := p
          have hs : shownField mem (f, v) = f := by
            cases f with
            | scalar s => rfl
            | other => rfl
            | array a =>
              cases v with
              | none => rfl
              | some v => exact absurd ⟨r, hi, hg⟩ (hn a v)
          obtain ⟨x, x1, x2⟩ := (recToPlain_get g1 k).2 f (by rw [get?_plain, hg]; rfl)
          obtain ⟨y, y1, y2⟩ := (recToPlain_get g3 k).2 f (by rw [get?_shown, hg]; exact congrArg some hs)
          rw [x1] at y1
          cases y1
          rw [x2, y2]

/-- **C89** (partial: the bytes under the arrays are as they were.)  The second call gives what the first gave, whatever is asked
of the records.  Missing: memory that has changed, see `C89_violation`. -/
theorem C89_unchanged_partial (cfg : NpCfg) {bs : Bytes} (hb : bs ≠ []) (hneg : ¬ NegSlist bs) {ds : List PlainRec} {rd : Reader}
    (h : (freshReader bs).readRecords cfg = (.ok ds, rd)) {vs : List VRec} (hv : readViews cfg bs = .ok vs) {mem : Bytes}
    (hm : mem.length = bs.length) (hs : ∀ i k a v, ArrayAt vs i k a v → v.cells mem = v.cells bs) :
    ∃ ds', (readChanged cfg rd mem vs).1 = .ok ds' ∧ ds'.length = ds.length ∧
      ∀ (i : Nat) d, ds[i]? = some d → ∃ d', ds'[i]? = some d' ∧ ∀ k, d'.get? k = d.get? k := by
  obtain ⟨vs', hv', hx⟩ := C89_exact cfg hb hneg h
  rw [hv] at hv'
  cases hv'
  obtain ⟨ds', h1, h2, h3⟩ := hx mem hm
  refine ⟨ds', h1, h2, fun i d hd => ?_⟩
  obtain ⟨d', g1, g2⟩ := h3 i d hd
  refine ⟨d', g1, fun k => ?_⟩
  by_cases ha : ∃ a v, ArrayAt vs i k a v
  · obtain ⟨a, v, ha⟩ := ha
    obtain ⟨q1, q2, q3⟩ := (g2 k).1 a v ha
    rw [q1, q3, hs i k a v ha, ← q2]
  · exact (g2 k).2 fun a v hav => ha ⟨a, v, hav⟩

/-- **C89** violated: whatever file was read, if the caller has changed an array that `read_records` gave, a second call gives the
changed array and not that of the file; all else it gives as before. -/
theorem C89_violation (cfg : NpCfg) {bs : Bytes} (hb : bs ≠ []) (hneg : ¬ NegSlist bs) {ds : List PlainRec} {rd : Reader}
    (h : (freshReader bs).readRecords cfg = (.ok ds, rd)) {vs : List VRec} (hv : readViews cfg bs = .ok vs) {i : Nat} {k : PyStr}
    {a : DmapArray} {v : View} (ha : ArrayAt vs i k a v) {mem : Bytes} (hw : WrittenThrough v bs mem)
    (hne : v.cells mem ≠ a.value.cells) :
    ∃ ds' d d', (readChanged cfg rd mem vs).1 = .ok ds' ∧ ds[i]? = some d ∧ ds'[i]? = some d' ∧ d'.get? k ≠ d.get? k ∧
      d'.get? k = some (.arr { a.value with cells := v.cells mem }) ∧
      ∀ (j : Nat) l e e', (j, l) ≠ (i, k) → ds[j]? = some e → ds'[j]? = some e' → e'.get? l = e.get? l := by
  obtain ⟨vs', hv', hx⟩ := C89_exact cfg hb hneg h
  rw [hv] at hv'
  cases hv'
  obtain ⟨ds', h1, h2, h3⟩ := hx mem hw.1
  have hf := readFile_ok.2 ⟨hb, rd, h, rfl⟩
  obtain ⟨vs', hv', hr, -, hsep⟩ := C74_separate_partial cfg hneg hf
  rw [hv] at hv'
  cases hv'
  obtain ⟨r, hr1, hr2⟩ := ha
  have hd : ∃ d, ds[i]? = some d := by
    obtain ⟨r1, -, -, g5, rfl⟩ := readRecords_ok.1 h
    obtain ⟨d, -, hd⟩ := (dmap2dict_each g5 i).2 (VRec.plain r) (by
      rw [show r1.dmapRecords = vs.map VRec.plain from hr, List.getElem?_map, hr1]; rfl)
    exact ⟨d, hd⟩
  obtain ⟨d, hd⟩ := hd
  obtain ⟨d', g1, g2⟩ := h3 i d hd
  obtain ⟨q1, q2, q3⟩ := (g2 k).1 a v ⟨r, hr1, hr2⟩
  refine ⟨ds', d, d', h1, hd, g1, ?_, q3, ?_⟩
  · rw [q1, q3]
    intro e
    injection e with e
    injection e with e
    exact hne (congrArg NdArr.cells e)
  · intro j l e e' hjl he he'
    obtain ⟨e'', g3, g4⟩ := h3 j e he
    rw [he'] at g3
    cases g3
    by_cases hx : ∃ b w, ArrayAt vs j l b w
    · obtain ⟨b, w, hbw⟩ := hx
      obtain ⟨p1, p2, p3⟩ := (g4 l).1 b w hbw
      have := hsep i j k l a b v w ⟨r, hr1, hr2⟩ hbw (fun e => hjl e.symm) mem hw
      rw [p1, p3, this]
    · exact (g4 l).2 fun b w hbw => hx ⟨b, w, hbw⟩

/-! ## Sample -/

/-- The caller sets the second number of the array `b` of `twoArrays` to 9 and reads again. -/
example : ∃ rd ds ds', (freshReader twoArrays).readRecords numpy2 = (.ok ds, rd) ∧
    (readChanged numpy2 rd (twoArrays.set 32 9) (placed twoArrays)).1 = .ok ds' ∧
    ds.map (fun d => d.get? (py! "b")) = [some (.arr ⟨.uint8, [2], [[6], [7]]⟩)] ∧
    ds'.map (fun d => d.get? (py! "b")) = [some (.arr ⟨.uint8, [2], [[6], [9]]⟩)] ∧
    ds'.map (fun d => d.get? (py! "c")) = ds.map (fun d => d.get? (py! "c")) := by
  refine ⟨_, _, _, rfl, rfl, ?_, ?_, ?_⟩ <;> decide +kernel

example : ∃ rd ds, (freshReader twoArrays).readRecords numpy2 = (.ok ds, rd) ∧
    ∃ ds' d d', (readChanged numpy2 rd (twoArrays.set 32 9) (placed twoArrays)).1 = .ok ds' ∧ ds[0]? = some d ∧
      ds'[0]? = some d' ∧ d'.get? (py! "b") ≠ d.get? (py! "b") := by
  refine ⟨_, _, rfl, ?_⟩
  obtain ⟨ds', d, d', h1, h2, h3, h4, -⟩ := C89_violation numpy2 (bs := twoArrays) (by decide)
    (Sample.not_negSlist (by decide +kernel)) rfl (vs := placed twoArrays) rfl (i := 0) (k := py! "b") (v := ⟨31, 1, 2⟩)
    ⟨_, rfl, rfl⟩ (mem := twoArrays.set 32 9)
    ⟨by simp, fun i hi => by rw [List.getElem?_set_ne (by simp at hi; omega)]⟩ (by decide +kernel)
  exact ⟨ds', d, d', h1, h2, h3, h4⟩

end Verif
