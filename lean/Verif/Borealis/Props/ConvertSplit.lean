import Verif.Borealis.Props.ConvertStructure
import Verif.SDarn.Props.Write
import Verif.Dmap.Props.Stream
/-!
# C67: conversion record by record
-/
namespace Verif.Bor
open Verif

theorem checkTarget_append (ops : Ops) (t : Target) (rs1 rs2 : Records) :
    checkTarget ops t (rs1 ++ rs2) = .ok () ↔ checkTarget ops t rs1 = .ok () ∧ checkTarget ops t rs2 = .ok () := by
  cases t
  · show checkIqdat ops (rs1 ++ rs2) = _ ↔ checkIqdat ops rs1 = _ ∧ checkIqdat ops rs2 = _
    induction rs1 with
    | nil => exact ⟨fun h => ⟨rfl, h⟩, fun h => h.2⟩
    | cons p rs1 ih =>
      rw [List.cons_append, checkIqdat, checkIqdat]
      cases blankedCheck p.2 with
      | error e => exact ⟨nofun, nofun⟩
      | ok u =>
        simp only [bind, Except.bind]
        cases phaseCheck ops p.2 with
        | error e => exact ⟨nofun, nofun⟩
        | ok u => exact ih
  · show checkRawacf (rs1 ++ rs2) = _ ↔ checkRawacf rs1 = _ ∧ checkRawacf rs2 = _
    induction rs1 with
    | nil => exact ⟨fun h => ⟨rfl, h⟩, fun h => h.2⟩
    | cons p rs1 ih =>
      rw [List.cons_append, checkRawacf, checkRawacf]
      cases blankedCheck p.2 with
      | error e => exact ⟨nofun, nofun⟩
      | ok u => exact ih

theorem convertAll_append (cfg : NpCfg) (ops : Ops) (t : Target) (sl : Val) (origin : PyStr) (factor : Int) (rs1 rs2 : Records)
    (ds : List PlainRec) : convertAll cfg ops t sl origin factor (rs1 ++ rs2) = .ok ds ↔
      ∃ d1 d2, convertAll cfg ops t sl origin factor rs1 = .ok d1 ∧ convertAll cfg ops t sl origin factor rs2 = .ok d2 ∧
        ds = d1 ++ d2 := by
  induction rs1 generalizing ds with
  | nil => exact ⟨fun h => ⟨[], ds, rfl, h, rfl⟩, fun ⟨d1, d2, h1, h2, e⟩ => by cases h1; rw [e]; exact h2⟩
  | cons p rs1 ih =>
    rw [List.cons_append, convertAll, convertAll]
    cases convertRecord cfg ops t ⟨sl, p.1, p.2, origin, factor⟩ with
    | error e => exact ⟨nofun, nofun⟩
    | ok l =>
      constructor
      · intro h
        obtain ⟨m, h1, h⟩ := bind_ok (show (Except.ok l >>= fun l => _) = _ from h)
        cases h1
        obtain ⟨ds', h2, h⟩ := bind_ok h
        cases h
        obtain ⟨d1, d2, h3, h4, rfl⟩ := (ih _).1 h2
        exact ⟨l ++ d1, d2, by simp only [bind, Except.bind, h3], h4, by rw [List.append_assoc]⟩
      · rintro ⟨d1, d2, h1, h2, rfl⟩
        obtain ⟨m, h3, h1⟩ := bind_ok (show (Except.ok l >>= fun l => _) = _ from h1)
        cases h3
        obtain ⟨ds', h3, h1⟩ := bind_ok h1
        cases h1
        simp only [bind, Except.bind, (ih _).2 ⟨ds', d2, h3, h2, rfl⟩, List.append_assoc]

theorem dict2dmap_append (d1 d2 : List PlainRec) (l : List Verif.Rec) : dict2dmap (d1 ++ d2) = .ok l ↔
    ∃ l1 l2, dict2dmap d1 = .ok l1 ∧ dict2dmap d2 = .ok l2 ∧ l = l1 ++ l2 := by
  induction d1 generalizing l with
  | nil => exact ⟨fun h => ⟨[], l, rfl, h, rfl⟩, fun ⟨l1, l2, h1, h2, e⟩ => by cases h1; rw [e]; exact h2⟩
  | cons d d1 ih =>
    rw [List.cons_append, dict2dmap, dict2dmap]
    cases plainToRec d with
    | error e => exact ⟨nofun, nofun⟩
    | ok r =>
      simp only [bind, Except.bind]
      constructor
      · intro h
        cases hd : dict2dmap (d1 ++ d2) with
        | error e => rw [hd] at h; cases h
        | ok l' =>
          rw [hd] at h
          cases h
          obtain ⟨l1, l2, h1, h2, rfl⟩ := (ih _).1 hd
          exact ⟨r :: l1, l2, by rw [h1]; rfl, h2, rfl⟩
      · rintro ⟨l1, l2, h1, h2, rfl⟩
        cases hd : dict2dmap d1 with
        | error e => rw [hd] at h1; cases h1
        | ok l' =>
          rw [hd] at h1
          cases h1
          rw [(ih _).2 ⟨l', l2, hd, h2, rfl⟩]
          rfl

theorem convertToDmap_iff (cfg : NpCfg) (ops : Ops) (t : Target) (sl : Val) (origin : PyStr) (factor : Int) (rs : Records)
    (l : List Verif.Rec) : convertToDmap cfg ops t sl origin factor rs = .ok l ↔
      checkTarget ops t rs = .ok () ∧ ∃ ds, convertAll cfg ops t sl origin factor rs = .ok ds ∧ dict2dmap ds = .ok l := by
  unfold convertToDmap
  cases checkTarget ops t rs with
  | error e => exact ⟨nofun, nofun⟩
  | ok u =>
    simp only
    cases convertAll cfg ops t sl origin factor rs with
    | error e => exact ⟨nofun, nofun⟩
    | ok ds =>
      simp only
      cases hd : dict2dmap ds with
      | error e => exact ⟨nofun, fun ⟨_, ds', h1, h2⟩ => by cases h1; rw [hd] at h2; cases h2⟩
      | ok l' =>
        refine ⟨fun h => ⟨trivial, ds, rfl, by cases h; exact hd⟩, fun ⟨_, ds', h1, h2⟩ => ?_⟩
        cases h1
        rw [hd] at h2
        cases h2
        rfl

/-- **C67** The conversion of two lists of records together is that of the one followed by that of the other, and possible
exactly if both are; with the same slice id. -/
theorem C67_records (cfg : NpCfg) (ops : Ops) (t : Target) (sl : Val) (origin : PyStr) (factor : Int) (rs1 rs2 : Records)
    (l : List Verif.Rec) : convertToDmap cfg ops t sl origin factor (rs1 ++ rs2) = .ok l ↔
      ∃ l1 l2, convertToDmap cfg ops t sl origin factor rs1 = .ok l1 ∧ convertToDmap cfg ops t sl origin factor rs2 = .ok l2 ∧
        l = l1 ++ l2 := by
  simp only [convertToDmap_iff, checkTarget_append]
  constructor
  · rintro ⟨⟨h1, h2⟩, ds, h3, h4⟩
    obtain ⟨d1, d2, h5, h6, rfl⟩ := (convertAll_append ..).1 h3
    obtain ⟨l1, l2, h7, h8, rfl⟩ := (dict2dmap_append ..).1 h4
    exact ⟨l1, l2, ⟨h1, d1, h5, h7⟩, ⟨h2, d2, h6, h8⟩, rfl⟩
  · rintro ⟨l1, l2, ⟨h1, d1, h5, h7⟩, ⟨h2, d2, h6, h8⟩, rfl⟩
    exact ⟨⟨h1, h2⟩, d1 ++ d2, (convertAll_append ..).2 ⟨d1, d2, h5, h6, rfl⟩, (dict2dmap_append ..).2 ⟨l1, l2, h7, h8, rfl⟩⟩

/-- **C67** For files: three readers, of the records of two files and of both.  Partial: the first records of the two files
have the same slice id (or none), see `C67_violation`. -/
theorem C67_files_partial (cfg : NpCfg) (ops : Ops) (tkey : Elt → Except Err PyStr) (t : Target) (inp : PyStr) (slice : Option Int)
    (factor : Int) {x x1 x2 : Handler} {rs1 rs2 : Records} (h1 : x1.records tkey = .ok rs1) (h2 : x2.records tkey = .ok rs2)
    (h : x.records tkey = .ok (rs1 ++ rs2)) {n1 n2 : PyStr} {r1 r2 : Rec} {tail1 tail2 : Records} (e1 : rs1 = (n1, r1) :: tail1)
    (e2 : rs2 = (n2, r2) :: tail2) (hs : r1.get? (py! "slice_id") = r2.get? (py! "slice_id")) (l : List Verif.Rec) :
    convertHandler cfg ops tkey t inp slice factor x = .ok l ↔
      ∃ l1 l2, convertHandler cfg ops tkey t inp slice factor x1 = .ok l1 ∧
        convertHandler cfg ops tkey t inp slice factor x2 = .ok l2 ∧ l = l1 ++ l2 := by
  unfold convertHandler
  rw [bind_of_ok h, bind_of_ok h1, bind_of_ok h2]
  have s1 : sliceIdOf (rs1 ++ rs2) slice = sliceIdOf rs1 slice := by rw [e1]; rfl
  have s2 : sliceIdOf rs2 slice = sliceIdOf rs1 slice := by
    rw [e1, e2]
    simp only [sliceIdOf, firstRec, bind, Except.bind]
    rw [hs]
  rw [s1, s2]
  cases sliceIdOf rs1 slice with
  | error e => exact ⟨nofun, nofun⟩
  | ok sl => exact C67_records ..

theorem sdarnBytes_iff (t : Target) (recs : List Verif.Rec) (out : PyStr) (b : Bytes) : sdarnBytes t recs out = .ok (some b) ↔
    out ≠ [] ∧ (∀ r ∈ recs, SD.Conforms (writeMethod t) r) ∧ writeBytes recs = .ok b := by
  unfold sdarnBytes
  rw [show (⟨true, recs.map fun r => r.map fun p => (p.1, .dmap p.2)⟩ : WInput) = Spec.dmapInput recs from rfl]
  unfold SD.darnWriter
  rw [writerNew_dmapInput]
  cases recs with
  | nil =>
    refine ⟨nofun, fun h => ?_⟩
    exact absurd rfl (writeBytes_iff.1 h.2.2).1
  | cons r rs =>
    have hw : ({ filename := out, isList := true, recs := r :: rs, buf := [], recNum := 0 } : Writer).emptyRecordCheck = .ok () := rfl
    simp only [bind, Except.bind, hw, pure, Except.pure]
    by_cases ho : out = []
    · subst ho
      exact ⟨nofun, fun h => absurd rfl h.1⟩
    · unfold SD.darnWrite
      rw [show ({ filename := out, isList := true, recs := r :: rs, buf := [], recNum := 0 } : Writer).filenameCheck out =
        (.ok (), { filename := out, isList := true, recs := r :: rs, buf := [], recNum := 0 }) by
          unfold Writer.filenameCheck
          rw [if_neg (by simp [ho]), if_pos ho]]
      simp only [hw, SD.darnStructureToBytes]
      constructor
      · intro h
        rcases hd : SD.darnToBytes (SD.writeGroups (writeMethod t)) (SD.writeOptional (writeMethod t)) 0 0 [] (r :: rs) with ⟨x, b', rn, rs'⟩
        rw [hd] at h
        cases x with
        | error e => cases h
        | ok u =>
          have hc := SD.darnToBytes_stop hd
          rw [SD.darnToBytes_conform hc] at hd
          obtain ⟨bs, h1, h2, -⟩ := recordsToBytes_inv hd
          have h : FileSys.write (fun _ => none) out b' out = some b := Except.ok.inj h
          simp only [FileSys.write, if_true] at h
          cases h
          exact ⟨ho, hc, writeBytes_iff.2 ⟨nofun, by rw [h2]; exact h1⟩⟩
      · rintro ⟨-, hc, hb⟩
        obtain ⟨rn, h1⟩ := recordsToBytes_writtenList (rn := 0) [] (writeBytes_iff.1 hb).2
        rw [SD.darnToBytes_conform hc, h1]
        simp only [List.nil_append, FileSys.write, if_true]

/-- **C67** So is the content of the DMAP files: that of the one followed by that of the other. -/
theorem C67_written (t : Target) {l1 l2 : List Verif.Rec} (n1 : l1 ≠ []) (n2 : l2 ≠ []) (out : PyStr) (b : Bytes) :
    sdarnBytes t (l1 ++ l2) out = .ok (some b) ↔
      ∃ b1 b2, sdarnBytes t l1 out = .ok (some b1) ∧ sdarnBytes t l2 out = .ok (some b2) ∧ b = b1 ++ b2 := by
  simp only [sdarnBytes_iff, C64_concat n1 n2, List.mem_append]
  constructor
  · rintro ⟨h1, h2, b1, b2, h3, h4, rfl⟩
    exact ⟨b1, b2, ⟨h1, fun r hr => h2 r (.inl hr), h3⟩, ⟨h1, fun r hr => h2 r (.inr hr), h4⟩, rfl⟩
  · rintro ⟨b1, b2, ⟨h1, h2, h3⟩, ⟨-, h4, h5⟩, rfl⟩
    exact ⟨h1, fun r hr => hr.elim (h2 r) (h4 r), b1, b2, h3, h5, rfl⟩

/-! ## Samples -/

/-- The records of one reader of `convertibleSlice` twice: those of one, twice. -/
example : ∃ l, l ≠ [] ∧
    convertHandler numpy2 sampleOps sampleKey .rawacf (py! "in") none 1 (.site ⟨.rawacf, .v06, [], convertibleSlice⟩) = .ok l ∧
    convertHandler numpy2 sampleOps sampleKey .rawacf (py! "in") none 1 (.site ⟨.rawacf, .v06, [], convertibleSlice ++ convertibleSlice⟩) =
      .ok (l ++ l) := by
  have h : okAnd (convertHandler numpy2 sampleOps sampleKey .rawacf (py! "in") none 1 (.site ⟨.rawacf, .v06, [], convertibleSlice⟩))
    (fun l => !l.isEmpty) = true := by decide +kernel
  obtain ⟨l, h1, h2⟩ := okAnd_ok h
  have e : ∃ p q, convertibleSlice = p :: q := ⟨_, _, rfl⟩
  obtain ⟨⟨n, r⟩, q, e⟩ := e
  exact ⟨l, (by intro e; rw [e] at h2; cases h2), h1, (C67_files_partial numpy2 sampleOps sampleKey .rawacf (py! "in") none 1
    (x1 := .site ⟨.rawacf, .v06, [], convertibleSlice⟩) (x2 := .site ⟨.rawacf, .v06, [], convertibleSlice⟩)
    (x := .site ⟨.rawacf, .v06, [], convertibleSlice ++ convertibleSlice⟩) rfl rfl rfl e e rfl _).2 ⟨l, l, h1, h1, rfl⟩⟩

/-- They are written, too. -/
example : ∃ l b, convertHandler numpy2 sampleOps sampleKey .rawacf (py! "in") none 1 (.site ⟨.rawacf, .v06, [], convertibleSlice⟩) = .ok l ∧
    sdarnBytes .rawacf l (py! "out") = .ok (some b) ∧ sdarnBytes .rawacf (l ++ l) (py! "out") = .ok (some (b ++ b)) := by
  have h : okAnd (convertHandler numpy2 sampleOps sampleKey .rawacf (py! "in") none 1 (.site ⟨.rawacf, .v06, [], convertibleSlice⟩))
    (fun l => !l.isEmpty && match sdarnBytes .rawacf l (py! "out") with
      | .ok (some _) => true
      | _ => false) = true := by decide +kernel
  obtain ⟨l, h1, h2⟩ := okAnd_ok h
  simp only [Bool.and_eq_true] at h2
  obtain ⟨h2, h3⟩ := h2
  have n : l ≠ [] := by intro e; rw [e] at h2; cases h2
  revert h3
  cases hb : sdarnBytes .rawacf l (py! "out") with
  | error e => exact nofun
  | ok o =>
    cases o with
    | none => exact nofun
    | some b => exact fun _ => ⟨l, b, h1, hb, (C67_written .rawacf n n _ _).2 ⟨b, b, hb, hb, rfl⟩⟩

/-- A record of `convertibleSlice` of another slice. -/
def otherSlice (n : Int) : Records := convertibleSlice.map fun p => (p.1, p.2.set (py! "slice_id") (.np .u32 (.int n)))

/-- **C67** violated by records of two slices in one file: the slice id of the first record is that of all. -/
theorem C67_violation : ∃ rs1 rs2 l l1 l2,
    convertHandler numpy2 sampleOps sampleKey .rawacf (py! "in") none 1 (.site ⟨.rawacf, .v06, [], rs1⟩) = .ok l1 ∧
    convertHandler numpy2 sampleOps sampleKey .rawacf (py! "in") none 1 (.site ⟨.rawacf, .v06, [], rs2⟩) = .ok l2 ∧
    convertHandler numpy2 sampleOps sampleKey .rawacf (py! "in") none 1 (.site ⟨.rawacf, .v06, [], rs1 ++ rs2⟩) = .ok l ∧
    l ≠ l1 ++ l2 := by
  have h : okAnd (convertHandler numpy2 sampleOps sampleKey .rawacf (py! "in") none 1 (.site ⟨.rawacf, .v06, [], otherSlice 1⟩)) (fun l1 =>
    okAnd (convertHandler numpy2 sampleOps sampleKey .rawacf (py! "in") none 1 (.site ⟨.rawacf, .v06, [], otherSlice 2⟩)) (fun l2 =>
    okAnd (convertHandler numpy2 sampleOps sampleKey .rawacf (py! "in") none 1 (.site ⟨.rawacf, .v06, [], otherSlice 1 ++ otherSlice 2⟩))
      fun l => decide (l ≠ l1 ++ l2))) = true := by decide +kernel
  refine ⟨otherSlice 1, otherSlice 2, ?_⟩
  revert h
  cases convertHandler numpy2 sampleOps sampleKey .rawacf (py! "in") none 1 (.site ⟨.rawacf, .v06, [], otherSlice 1⟩) with
  | error e => exact nofun
  | ok l1 =>
    cases convertHandler numpy2 sampleOps sampleKey .rawacf (py! "in") none 1 (.site ⟨.rawacf, .v06, [], otherSlice 2⟩) with
    | error e => exact nofun
    | ok l2 =>
      cases convertHandler numpy2 sampleOps sampleKey .rawacf (py! "in") none 1 (.site ⟨.rawacf, .v06, [], otherSlice 1 ++ otherSlice 2⟩) with
      | error e => exact nofun
      | ok l => exact fun h => ⟨l, l1, l2, rfl, rfl, rfl, by simpa only [okAnd, decide_eq_true_eq] using h⟩

end Verif.Bor
