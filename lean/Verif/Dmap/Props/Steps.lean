import Verif.Dmap.Lemmas.StepsBad
import Verif.Dmap.Props.Read
/-!
# C71: how long reading takes
-/
namespace Verif
open Spec

/-- Counting does not change what is returned: `read_records` and the test of integrity are those of the model of the reader. -/
theorem C71_same (cfg : NpCfg) (r : Reader) :
    r.readRecords cfg = (match (r.readLoopS cfg (r.buf.length - r.cursor).toNat).1 with
      | (.error e, r') => (.error e, r')
      | (.ok (), r') =>
        if r'.cursor > r'.buf.length then (.error (.mismatchByte r'.recNum), r')
        else
          match dmap2dict cfg r'.dmapRecords with
          | .error e => (.error e, r')
          | .ok ds => (.ok ds, { r' with records := ds })) ∧
    r.testIntegrity = (if r.cursor ≠ 0 then (.error .cursorError, r)
      else match (integrityLoopS r.buf r.recNum r.buf.length 0 r.cursor).1 with
        | (.error e, c) => (.error e, { r with cursor := c })
        | (.ok total, c) =>
          if total ≠ r.buf.length then (.error .attributeError, { r with cursor := c })
          else (.ok (), { r with cursor := 0 })) := by
  constructor
  · rw [readLoopS_eq]; rfl
  · rw [integrityLoopS_eq]; rfl

/-- The number of steps of `read_records` is bounded by a polynomial of the second degree in the number of bytes, whatever the bytes
are, and those of the test of integrity by the number of bytes. -/
theorem C71_bounded (cfg : NpCfg) (bs : Bytes) {r : Reader} (h : Reader.new bs = .ok r) :
    r.readSteps cfg ≤ bs.length * (6 * bs.length + 8) ∧ integritySteps bs ≤ bs.length + 1 := by
  unfold Reader.new at h
  split at h
  · cases h
  · cases h
    refine ⟨?_, ?_⟩
    · have := readLoopS_steps cfg (((bs.length : Int) - 0).toNat)
        { buf := bs, cursor := 0, recNum := 0, dmapRecords := [], records := [] } (Int.le_refl _)
      simpa [Reader.readSteps] using this
    · have := integrityLoopS_steps bs 0 bs.length 0 0 (Int.le_refl _)
      unfold integritySteps
      omega

example : ∃ r, Reader.new Sample.bytes2 = .ok r ∧ r.readSteps numpy2 = 17 ∧ integritySteps Sample.bytes2 = 1 :=
  ⟨_, rfl, by decide +kernel, by decide +kernel⟩

/-- Two steps for each byte, and two: if no array `slist` has a negative dimension.  For all bytes this is not so, see below. -/
theorem C71_linear_partial (cfg : NpCfg) (bs : Bytes) (hneg : ¬ NegSlist bs) {r : Reader} (h : Reader.new bs = .ok r) :
    r.readSteps cfg ≤ 2 * bs.length + 2 := by
  unfold Reader.new at h
  split at h
  · cases h
  · cases h
    have := readLoopS_linear (cfg := cfg) (((bs.length : Int) - 0).toNat)
      { buf := bs, cursor := 0, recNum := 0, dmapRecords := [], records := [] } hneg (Int.le_refl _)
    simpa [Reader.readSteps] using this

example : ∃ r, Reader.new Sample.bytes2 = .ok r ∧ ¬ NegSlist Sample.bytes2 := ⟨_, rfl, Sample.bytes2_plain⟩

/-- The code does not read in a number of steps proportional to the number of bytes: a negative dimension of `slist` moves the cursor
backwards, and the same bytes are read again, as often as the header wants.  There are files of `m + 46` bytes for which
reading takes at least `m * (m - 1) / 2` steps. -/
theorem C71_linear_violation (cfg : NpCfg) (hc : 1 ≤ cfg.maxDims) {m : Nat} (h2 : 2 ≤ m) (hm : m < 2 ^ 30) :
    ∃ bs r, bs.length = m + 46 ∧ Reader.new bs = .ok r ∧ m * (m - 1) ≤ 2 * r.readSteps cfg := by
  have hl := length_againFile m
  refine ⟨againFile m, _, hl, by rw [Reader.new, if_neg (by omega)], ?_⟩
  have hr := readRecordS_again hc h2 hm
  have hk : m / 2 * m ≤ Reader.readSteps cfg
      { buf := againFile m, cursor := 0, recNum := 0, dmapRecords := [], records := [] } := by
    unfold Reader.readSteps
    simp only [hl]
    rw [show (((m + 46 : Nat) : Int) - 0).toNat = (m + 45) + 1 by omega]
    unfold Reader.readLoopS
    rw [if_pos (by simp only [hl]; omega)]
    dsimp only
    split
    · rename_i heq; rw [heq] at hr; exact hr
    · rename_i heq; rw [heq] at hr; simp only at hr ⊢; omega
  have h3 : m * (m - 1) ≤ m * (2 * (m / 2)) := Nat.mul_le_mul_left _ (by omega)
  have h4 : m * (2 * (m / 2)) = 2 * (m / 2 * m) := by
    rw [Nat.mul_comm m, Nat.mul_assoc]
  omega

example : (againFile 2).length = 48 ∧ ∃ r, Reader.new (againFile 2) = .ok r ∧ NegSlist (againFile 2) := by
  refine ⟨by decide +kernel, _, rfl, againHead 2 ++ againArray 2, [], 1, [-28], by decide +kernel, -28, by simp, by decide, by decide⟩

/-- So no factor does, as long as the size of the block fits into the header. -/
theorem C71_factor_violation (cfg : NpCfg) (hc : 1 ≤ cfg.maxDims) {k : Nat} (hk : k < 2 ^ 28) :
    ∃ bs r, Reader.new bs = .ok r ∧ k * bs.length < r.readSteps cfg := by
  obtain ⟨bs, r, h1, h2, h3⟩ := C71_linear_violation cfg hc (m := 2 * k + 94) (by omega) (by omega)
  refine ⟨bs, r, h2, ?_⟩
  rw [h1]
  have e1 : (2 * k + 94) * (2 * k + 94 - 1) = 2 * (k * (2 * k + 94 + 46)) + 94 * k + 8742 := by
    rw [show 2 * k + 94 - 1 = 2 * k + 93 by omega]
    simp only [Nat.add_mul, Nat.mul_add]
    have : 2 * k * (2 * k) = 2 * (k * (2 * k)) := Nat.mul_assoc _ _ _
    omega
  omega

example : ∃ bs r, Reader.new bs = .ok r ∧ 1000 * bs.length < r.readSteps numpy2 :=
  C71_factor_violation numpy2 (by decide) (by decide)

end Verif
