import Verif.SDarn.Lemmas.Decide
import Verif.Dmap.Sample
/-!
# Concrete SuperDARN records for the non-vacuity examples
-/
namespace Verif.SD.Sample
open Verif

/-- A scalar of the given format. -/
def scalarOf (name : PyStr) : Fmt → DmapScalar
  | .c => ⟨name, .int 5, 1, .c⟩
  | .h => ⟨name, .int (-2), 2, .h⟩
  | .i => ⟨name, .int 70000, 3, .i⟩
  | .f => ⟨name, .f32 0x41200000#32, 4, .f⟩
  | .d => ⟨name, .f64 0#64, 8, .d⟩
  | .s => ⟨name, .str (py! "a b"), 9, .s⟩
  | .q => ⟨name, .int 1, 10, .q⟩
  | .B => ⟨name, .int 200, 16, .B⟩
  | .H => ⟨name, .int 1, 17, .H⟩
  | .I => ⟨name, .int 1, 18, .I⟩
  | .Q | .dmap => ⟨name, .int 1, 19, .Q⟩

/-- The scalars of a table. -/
def scalarsOf (g : Table) : List DmapScalar := g.map fun p => scalarOf p.1 p.2

/-- A full rawacf record: the 51 fields of `Rawacf.types` and an array `acfd`. -/
def rawacf : Rec :=
  Spec.fieldsOf (scalarsOf Rawacf.types)
    [⟨py! "acfd", ⟨.float32, [1, 2], [[0, 0, 128, 63], [0, 0, 0, 64]]⟩, 4, .f, 2, [1, 2]⟩]

/-- A grid record with its main fields. -/
def grid : Rec := Spec.fieldsOf (scalarsOf Grid.types) []

/-- A rawacf record without `cp`, with an unknown field. -/
def broken : Rec := (py! "foo", .scalar ⟨py! "foo", .int 1, 2, .h⟩) :: rawacf.filter fun p => p.1 ≠ py! "cp"

/-- A rawacf record whose `cp` is an integer instead of a short. -/
def illTyped : Rec :=
  rawacf.map fun p => if p.1 = py! "cp" then (p.1, .scalar ⟨p.1, .int 1, 3, .i⟩) else p

theorem scalarOf_ok {name : PyStr} {fm : Fmt} (h : Spec.PlainText name) : Spec.ScalarOK (scalarOf name fm) := by
  cases fm
  case c => exact ⟨h, rfl, .char (n := 5) (by decide)⟩
  case h => exact ⟨h, rfl, .i16 (by decide) (by decide)⟩
  case i => exact ⟨h, rfl, .i32 (by decide) (by decide)⟩
  case f => exact ⟨h, rfl, .f32 (by decide)⟩
  case d => exact ⟨h, rfl, .f64⟩
  case s => exact ⟨h, rfl, .str ⟨by decide, by decide⟩⟩
  case q => exact ⟨h, rfl, .i64 (by decide) (by decide)⟩
  case B => exact ⟨h, rfl, .u8 (n := 200) (by decide)⟩
  case H => exact ⟨h, rfl, .u16 (n := 1) (by decide)⟩
  case I => exact ⟨h, rfl, .u32 (n := 1) (by decide)⟩
  all_goals exact ⟨h, rfl, .u64 (n := 1) (by decide)⟩

theorem rawacf_encodable {mr : Nat} (h : 2 ≤ mr) : Spec.Encodable mr rawacf := by
  refine ⟨_, _, rfl, by decide +kernel, by decide, by decide +kernel, ?_, ?_, by decide +kernel⟩
  · intro s hs
    obtain ⟨p, hp, rfl⟩ := List.mem_map.1 hs
    have : ∀ p ∈ Rawacf.types, Spec.Ascii p.1 ∧ Spec.NulFree p.1 := by
      unfold Spec.Ascii Spec.NulFree; decide +kernel
    exact scalarOf_ok (this p hp)
  · intro a ha
    rw [List.mem_singleton.1 ha]
    exact ⟨⟨by decide, by decide⟩, rfl, rfl, rfl, by decide, h, rfl, .inl (by decide), by decide +kernel,
      by decide, nofun, by decide, by decide⟩

end Verif.SD.Sample
