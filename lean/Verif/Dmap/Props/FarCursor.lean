import Verif.Dmap.Props.ReadState
/-!
# C68: a cursor before the first byte

Negative `slist` dimensions can leave the cursor so far before the first byte that not even Python's counting from the end
finds a byte there.
-/
namespace Verif
open Spec

/-- **C68** (the cursor is before the first byte, also if counted from the end.)  `read_records` raises: `OverflowError` if the
place of the size does not fit 64 bits, else `struct.error`. -/
theorem C68_far (cfg : NpCfg) (rd : Reader) (h : rd.cursor + 4 < -(rd.buf.length : Int)) (hl : 2 ≤ rd.buf.length) :
    (rd.readRecords cfg).1 = .error (if rd.cursor + 4 < -2 ^ 63 then .overflowError else .structError) := by
  have hu : unpackFrom rd.buf 4 (rd.cursor + 4) = none := by
    unfold unpackFrom
    rw [if_pos (by omega)]
    split
    · rfl
    · rw [if_pos (by omega)]
  have hi : readInt rd.buf (rd.cursor + 4) =
      (.error (if rd.cursor + 4 < -2 ^ 63 then .overflowError else .structError), rd.cursor + 4) := by
    unfold readInt
    refine rd_bind_stop ?_
    unfold readDataN
    have hp : readPre rd.buf 4 (rd.cursor + 4) = (.ok (), rd.cursor + 4) := by
      unfold readPre
      rw [if_neg (by omega), if_neg (by omega)]
    rw [rd_bind_run hp, rd_bind_run (cursor_run _), hu]
    rfl
  have hr : readRecord cfg rd.buf rd.recNum rd.cursor =
      (.error (if rd.cursor + 4 < -2 ^ 63 then .overflowError else .structError), rd.cursor + 4) := by
    unfold readRecord
    rw [rd_bind_run (cursor_run _), rd_bind_run (setCursor_run _ _), rd_bind_stop hi]
  unfold Reader.readRecords
  obtain ⟨f, hf⟩ : ∃ f, ((rd.buf.length : Int) - rd.cursor).toNat = f + 1 := ⟨_, (Nat.succ_pred_eq_of_pos (by omega)).symm⟩
  rw [hf, Reader.readLoop.eq_def]
  dsimp only
  rw [if_pos (by omega), hr]

/-! ## Samples -/

/-- A record whose `slist` has the dimensions 32, 32, 32, 32, 32, 32 and -2^31, with no cells behind. -/
def farSlist : Bytes :=
  [1, 0, 1, 0, 62, 0, 0, 0, 1, 0, 0, 0, 1, 0, 0, 0, 97, 0, 3, 7, 0, 0, 0, 115, 108, 105, 115, 116, 0, 8, 7, 0, 0, 0,
    32, 0, 0, 0, 32, 0, 0, 0, 32, 0, 0, 0, 32, 0, 0, 0, 32, 0, 0, 0, 32, 0, 0, 0, 0, 0, 0, 128]

/-- The first call of `read_records` raises `CursorError` and leaves such a cursor, so the second raises `OverflowError`. -/
example : ((freshReader farSlist).readRecords numpy1).1 = .error .cursorError ∧
    (((freshReader farSlist).readRecords numpy1).2.readRecords numpy1).1 = .error .overflowError := by
  have h1 : ((freshReader farSlist).readRecords numpy1).2.cursor = 62 - 2 ^ 64 := by decide +kernel
  have h2 : ((freshReader farSlist).readRecords numpy1).2.buf.length = 62 := by decide +kernel
  refine ⟨by decide +kernel, ?_⟩
  have := C68_far numpy1 ((freshReader farSlist).readRecords numpy1).2 (by omega) (by omega)
  rwa [if_pos (by omega)] at this

/-- With one dimension -100 it is `struct.error`. -/
example : ∃ bs : Bytes, ((freshReader bs).readRecords numpy1).1 = .error .cursorError ∧
    (((freshReader bs).readRecords numpy1).2.readRecords numpy1).1 = .error .structError := by
  refine ⟨[1, 0, 1, 0, 38, 0, 0, 0, 1, 0, 0, 0, 1, 0, 0, 0, 97, 0, 3, 7, 0, 0, 0, 115, 108, 105, 115, 116, 0, 8, 1, 0, 0, 0,
    156, 255, 255, 255], by decide +kernel, by decide +kernel⟩

end Verif
