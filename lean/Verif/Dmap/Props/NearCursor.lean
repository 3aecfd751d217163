import Verif.Dmap.Props.ReadState
/-!
# C68: a cursor that counts from the end

Negative `slist` dimensions can leave a negative cursor; `struct.unpack_from` then counts from the end of the file.
-/
namespace Verif
open Spec

/-- The signed number in the four bytes that begin `k` bytes before the end. -/
def Spec.intBeforeEnd (buf : Bytes) (k : Nat) : Int := toSigned 4 (leNat ((buf.drop (buf.length - k)).take 4))

theorem readInt_beforeEnd {buf : Bytes} {k : Nat} (h4 : 4 ≤ k) (hl : k ≤ buf.length) :
    readInt buf (-(k : Int)) = (.ok (intBeforeEnd buf k), -(k : Int) + 4) := by
  have hu : unpackFrom buf 4 (-(k : Int)) = some ((buf.drop (buf.length - k)).take 4) := by
    unfold unpackFrom
    rw [if_pos (by omega), if_neg (by omega), if_neg (by omega)]
    have : (-(k : Int) + buf.length).toNat = buf.length - k := by omega
    rw [this]
  have hp : readPre buf 4 (-(k : Int)) = (.ok (), -(k : Int)) := by
    unfold readPre
    rw [if_neg (by omega), if_neg (by omega)]
  have hn : readDataN buf 4 (-(k : Int)) = (.ok ((buf.drop (buf.length - k)).take 4), -(k : Int) + 4) := by
    unfold readDataN
    rw [rd_bind_run hp, rd_bind_run (cursor_run _), hu]
    rfl
  unfold readInt
  rw [rd_bind_run hn]
  rfl

theorem readRecords_stops {cfg : NpCfg} {rd : Reader} {e : Err} {c : Int} (hc : rd.cursor < rd.buf.length)
    (h : readRecord cfg rd.buf rd.recNum rd.cursor = (.error e, c)) : (rd.readRecords cfg).1 = .error e := by
  unfold Reader.readRecords
  obtain ⟨f, hf⟩ : ∃ f, ((rd.buf.length : Int) - rd.cursor).toNat = f + 1 := ⟨_, (Nat.succ_pred_eq_of_pos (by omega)).symm⟩
  rw [hf, Reader.readLoop.eq_def]
  dsimp only
  rw [if_pos (by omega), h]

/-- **C68** (the place of the size is `k` bytes before the first byte.)  `read_records` takes the number `k` bytes before the end of
the file for the size of the record and checks it as any other. -/
theorem C68_near (cfg : NpCfg) (rd : Reader) {k : Nat} (hk : rd.cursor + 4 = -(k : Int)) (h4 : 4 ≤ k) (hl : k ≤ rd.buf.length) :
    (intBeforeEnd rd.buf k = 0 → (rd.readRecords cfg).1 = .error (.zeroByte rd.recNum)) ∧
    (intBeforeEnd rd.buf k < 0 → (rd.readRecords cfg).1 = .error (.negativeByte rd.recNum)) ∧
    (rd.buf.length + k + 4 < intBeforeEnd rd.buf k → (rd.readRecords cfg).1 = .error (.mismatchByte rd.recNum)) := by
  have hi : readInt rd.buf (rd.cursor + 4) = (.ok (intBeforeEnd rd.buf k), -(k : Int) + 4) := by
    rw [hk]; exact readInt_beforeEnd h4 hl
  refine ⟨fun hz => ?_, fun hz => ?_, fun hz => ?_⟩
  · refine readRecords_stops (c := -(k : Int) + 4) (by omega) ?_
    have hb : bytesCheck rd.recNum (intBeforeEnd rd.buf k) (rd.buf.length - (-(k : Int) + 4) + 8) (-(k : Int) + 4) =
        (.ok (), -(k : Int) + 4) := by
      unfold bytesCheck; rw [if_neg (by omega)]; rfl
    have hs : zeroNegativeCheck rd.recNum (intBeforeEnd rd.buf k) (-(k : Int) + 4) = (.error (.zeroByte rd.recNum), -(k : Int) + 4) := by
      unfold zeroNegativeCheck; rw [if_pos hz]; rfl
    unfold readRecord
    rw [rd_bind_run (cursor_run _), rd_bind_run (setCursor_run _ _), rd_bind_run hi, rd_bind_run (cursor_run _), rd_bind_run hb,
      rd_bind_stop hs]
  · refine readRecords_stops (c := -(k : Int) + 4) (by omega) ?_
    have hb : bytesCheck rd.recNum (intBeforeEnd rd.buf k) (rd.buf.length - (-(k : Int) + 4) + 8) (-(k : Int) + 4) =
        (.ok (), -(k : Int) + 4) := by
      unfold bytesCheck; rw [if_neg (by omega)]; rfl
    have hs : zeroNegativeCheck rd.recNum (intBeforeEnd rd.buf k) (-(k : Int) + 4) =
        (.error (.negativeByte rd.recNum), -(k : Int) + 4) := by
      unfold zeroNegativeCheck; rw [if_neg (by omega), if_pos hz]; rfl
    unfold readRecord
    rw [rd_bind_run (cursor_run _), rd_bind_run (setCursor_run _ _), rd_bind_run hi, rd_bind_run (cursor_run _), rd_bind_run hb,
      rd_bind_stop hs]
  · refine readRecords_stops (c := -(k : Int) + 4) (by omega) ?_
    have hb : bytesCheck rd.recNum (intBeforeEnd rd.buf k) (rd.buf.length - (-(k : Int) + 4) + 8) (-(k : Int) + 4) =
        (.error (.mismatchByte rd.recNum), -(k : Int) + 4) := by
      unfold bytesCheck; rw [if_pos (by omega)]; rfl
    unfold readRecord
    rw [rd_bind_run (cursor_run _), rd_bind_run (setCursor_run _ _), rd_bind_run hi, rd_bind_run (cursor_run _), rd_bind_stop hb]

/-- **C68** (the size would begin before the first byte and end behind it.)  `read_records` raises `struct.error`: no number lies
across the end of the file and its beginning. -/
theorem C68_across (cfg : NpCfg) (rd : Reader) (h : rd.cursor + 4 < 0) (h4 : -4 < rd.cursor + 4) (hl : 4 ≤ rd.buf.length) :
    (rd.readRecords cfg).1 = .error .structError := by
  have hu : unpackFrom rd.buf 4 (rd.cursor + 4) = none := by
    unfold unpackFrom
    rw [if_pos h, if_pos (by omega)]
  have hp : readPre rd.buf 4 (rd.cursor + 4) = (.ok (), rd.cursor + 4) := by
    unfold readPre
    rw [if_neg (by omega), if_neg (by omega)]
  have he : unpackErr (rd.cursor + 4) = .structError := by
    unfold unpackErr
    rw [if_neg (by omega)]
  have hn : readDataN rd.buf 4 (rd.cursor + 4) = (.error .structError, rd.cursor + 4) := by
    unfold readDataN
    rw [rd_bind_run hp, rd_bind_run (cursor_run _), hu]
    simp only [he]
    rfl
  have hi : readInt rd.buf (rd.cursor + 4) = (.error .structError, rd.cursor + 4) := by
    unfold readInt
    exact rd_bind_stop hn
  refine readRecords_stops (c := rd.cursor + 4) (by omega) ?_
  unfold readRecord
  rw [rd_bind_run (cursor_run _), rd_bind_run (setCursor_run _ _), rd_bind_stop hi]

/-- A record whose `slist` of bytes has the dimension -66 and leaves the cursor at -31; the last 31 bytes are the beginning of a
record up to the cells of its array `b` of 66 bytes. -/
def aroundTheEnd : Bytes :=
  [1, 0, 1, 0, 66, 0, 0, 0, 1, 0, 0, 0, 1, 0, 0, 0, 97, 0, 16, 7, 115, 108, 105, 115, 116, 0, 16, 1, 0, 0, 0, 190, 255, 255, 255,
    1, 0, 1, 0, 97, 0, 0, 0, 1, 0, 0, 0, 1, 0, 0, 0, 97, 0, 16, 7, 98, 0, 16, 1, 0, 0, 0, 66, 0, 0, 0]

/-- **C68** Violation: the second call may even return a record that is not in the file.  It is read from the end of the file on
into its beginning: its array has the bytes of the whole file, so that it cannot stand in it beside a header. -/
theorem C68_around_violation : ∃ d a, (readManyTimes numpy1 2 (freshReader aroundTheEnd)).1 = [.error .cursorError, .ok [d]] ∧
    Dict.get? d (py! "b") = some (.arr a) ∧ a.cells.flatten = aroundTheEnd :=
  ⟨[(py! "a", .scalar (.np .uint8) (.int 7)), (py! "b", .arr ⟨.uint8, [66], aroundTheEnd.map fun b => [b]⟩)],
    ⟨.uint8, [66], aroundTheEnd.map fun b => [b]⟩, by decide +kernel, by decide +kernel, by decide +kernel⟩

/-! ## Samples -/

/-- A record whose `slist` of characters has the dimension `d`, with no cells behind. -/
def charSlist (d : UInt8) : Bytes :=
  [1, 0, 1, 0, 38, 0, 0, 0, 1, 0, 0, 0, 1, 0, 0, 0, 97, 0, 3, 7, 0, 0, 0, 115, 108, 105, 115, 116, 0, 1, 1, 0, 0, 0,
    d, 255, 255, 255]

/-- With the dimension -46 the first call leaves the cursor at -8: the second takes -46 itself for the size. -/
example : ((freshReader (charSlist 210)).readRecords numpy1).2.cursor = -8 ∧
    (((freshReader (charSlist 210)).readRecords numpy1).2.readRecords numpy1).1 = .error (.negativeByte 0) := by
  have hr : ((freshReader (charSlist 210)).readRecords numpy1).2.recNum = 0 := by decide +kernel
  have hc : ((freshReader (charSlist 210)).readRecords numpy1).2.cursor = -8 := by decide +kernel
  refine ⟨hc, ?_⟩
  have := (C68_near numpy1 ((freshReader (charSlist 210)).readRecords numpy1).2 (k := 4) (by rw [hc]; rfl) (by decide)
    (by decide +kernel)).2.1 (by decide +kernel)
  rwa [hr] at this

/-- The dimension -44 leaves it at -6. -/
example : ((freshReader (charSlist 212)).readRecords numpy1).2.cursor = -6 ∧
    (((freshReader (charSlist 212)).readRecords numpy1).2.readRecords numpy1).1 = .error .structError := by
  have hc : ((freshReader (charSlist 212)).readRecords numpy1).2.cursor = -6 := by decide +kernel
  exact ⟨hc, C68_across numpy1 _ (by rw [hc]; decide) (by rw [hc]; decide) (by decide +kernel)⟩

end Verif
