import Verif.Dmap.Props.ReadState
import Verif.Dmap.Props.Write
import Verif.Dmap.Model.Texts
/-!
# C69: texts of the DMAP objects
-/
namespace Verif
open Spec

/-- The decimal digits of a number. -/
def digitsOf (n : Nat) : PyStr := (toString n).toList

theorem decText_nat (n : Nat) : decText n = digitsOf n := by
  show Nat.toDigits 10 n = (Nat.repr n).toList
  unfold Nat.repr
  simp

/-- **C69** After a file was read, the text of the reader tells its length, as the cursor and the total, and the number of
records returned. -/
theorem C69_read_text (cfg : NpCfg) {bs : Bytes} {ds : List PlainRec} {rd' : Reader}
    (h : (freshReader bs).readRecords cfg = (.ok ds, rd')) (filename : PyStr) :
    rd'.str filename = py! "Reading from " ++ filename ++ py! " at cursor: " ++ digitsOf bs.length ++ py! " record number: " ++
      digitsOf ds.length ++ py! " with a total number of bytes: " ++ digitsOf bs.length := by
  obtain ⟨h1, h2, sizes, -, -, -, h3, h4, -⟩ := C03_exact cfg h
  unfold Reader.str
  rw [h1, h2, h4, ← h3, decText_nat, decText_nat]

/-- **C69** The same for its representation. -/
theorem C69_read_repr (cfg : NpCfg) {bs : Bytes} {ds : List PlainRec} {rd' : Reader}
    (h : (freshReader bs).readRecords cfg = (.ok ds, rd')) (cls filename : PyStr) :
    rd'.repr cls filename = cls ++ py! "(" ++ filename ++ py! ", " ++ digitsOf bs.length ++ py! ", " ++
      digitsOf ds.length ++ py! ", " ++ digitsOf bs.length ++ py! ")" := by
  obtain ⟨h1, h2, sizes, -, -, -, h3, h4, -⟩ := C03_exact cfg h
  unfold Reader.repr
  rw [h1, h2, h4, ← h3, decText_nat, decText_nat]

/-- **C69** So does it after an exception, for the records read before. -/
theorem C69_failed_text (cfg : NpCfg) {bs : Bytes} {e : Err} {rd' : Reader}
    (h : (freshReader bs).readRecords cfg = (.error e, rd')) (filename : PyStr) :
    ∃ cursor, rd'.str filename = py! "Reading from " ++ filename ++ py! " at cursor: " ++ decText cursor ++ py! " record number: " ++
      digitsOf rd'.dmapRecords.length ++ py! " with a total number of bytes: " ++ digitsOf bs.length := by
  have h1 := (C68_number cfg h).1
  have h2 : rd'.buf = bs := by
    unfold Reader.readRecords at h
    cases hl : (freshReader bs).readLoop cfg ((freshReader bs).buf.length - (freshReader bs).cursor).toNat with
    | mk x r1 =>
      have hb := readLoop_buf cfg _ _ _ _ hl
      rw [hl] at h
      cases x with
      | error e' => cases h; exact hb
      | ok u =>
        simp only at h
        split at h
        · cases h; exact hb
        · cases hd : dmap2dict cfg r1.dmapRecords with
          | ok ds => rw [hd] at h; cases h
          | error e' => rw [hd] at h; cases h; exact hb
  refine ⟨rd'.cursor, ?_⟩
  unfold Reader.str
  rw [h1, h2, decText_nat, decText_nat]

theorem recordsToBytes_last {k rn : Nat} {buf buf' : Bytes} {rs rs' : List Rec} {rn' : Nat}
    (h : recordsToBytes k rn buf rs = (.ok (), buf', rn', rs')) : rn' = if rs = [] then rn else k + rs.length - 1 := by
  induction rs generalizing k rn buf rs' with
  | nil => cases h; rfl
  | cons r rs ih =>
    simp only [recordsToBytes] at h
    rcases hr : recordToBytes k buf r with ⟨x, b, r'⟩
    rw [hr] at h
    cases x with
    | error e => cases h
    | ok u =>
      simp only at h
      rcases hs : recordsToBytes (k + 1) k b rs with ⟨y, b2, rn2, rs2⟩
      rw [hs] at h
      cases h
      rw [ih hs, if_neg (List.cons_ne_nil _ _), List.length_cons]
      cases rs with
      | nil => simp
      | cons r2 rs => simp only [List.length_cons, reduceCtorEq, if_false]; omega

/-- **C69** violated by writers: after writing, the text and the representation tell the index of the last record, one less than the number of
records. -/
theorem C69_write_text_violation {recs : List Rec} {fn : PyStr} {inp : WInput} {out : Bytes} {w' : Writer} (hne : recs ≠ [])
    (h : (writerOf recs fn).writeStream inp = (.ok out, w')) :
    w'.str = py! "Writing to filename: " ++ fn ++ py! " at record number: " ++ digitsOf (recs.length - 1) ∧
    ∀ cls, w'.repr cls = cls ++ py! "(" ++ fn ++ py! ", " ++ digitsOf (recs.length - 1) ++ py! ")" := by
  rw [writeStream_eq (by exact hne)] at h
  rcases hr : recordsToBytes 0 (writerOf recs fn).recNum (writerOf recs fn).buf (writerOf recs fn).recs with ⟨x, b, rn, rs⟩
  rw [hr] at h
  cases x with
  | error e => cases h
  | ok u =>
    cases h
    have := recordsToBytes_last hr
    rw [if_neg (by exact hne)] at this
    constructor
    · unfold Writer.str
      simp only [this, writerOf, decText_nat, Nat.zero_add]
    · intro cls
      unfold Writer.repr
      simp only [this, writerOf, decText_nat, Nat.zero_add]

example : ((freshReader Sample.bytes2).readRecords numpy1).2.str (py! "a.rawacf") =
    py! "Reading from a.rawacf at cursor: 42 record number: 1 with a total number of bytes: 42" := by decide +kernel

example : ((freshReader Sample.bytes2).readRecords numpy1).2.repr (py! "DmapRead") (py! "a.rawacf") =
    py! "DmapRead(a.rawacf, 42, 1, 42)" := by decide +kernel

example : ∃ out w', (writerOf [Sample.record2, Sample.record2] (py! "a")).writeStream noRecords = (.ok out, w') ∧
    w'.str = py! "Writing to filename: a at record number: 1" := ⟨_, _, rfl, by decide +kernel⟩

end Verif
