import Verif.Dmap.Lemmas.Write
/-!
# A concrete record for the non-vacuity examples
-/
namespace Verif.Sample
open Verif Spec

/-- Scalars of the sample record: a short, a string, a char, a float and an unsigned long. -/
def scalars : List DmapScalar :=
  [⟨py! "bmnum", .int (-5), 2, .h⟩, ⟨py! "combf", .str (py! "a b"), 9, .s⟩,
   ⟨py! "chan", .int 127, 1, .c⟩, ⟨py! "noise", .f32 0x41200000#32, 4, .f⟩,
   ⟨py! "big", .int 18446744073709551615, 19, .Q⟩]

/-- Arrays of the sample record: a 2×3 array of shorts and an empty `slist`. -/
def arrays : List DmapArray :=
  [⟨py! "ptab", ⟨.int16, [2, 3], [[1, 0], [2, 0], [3, 0], [4, 0], [5, 0], [6, 1]]⟩, 2, .h, 2, [2, 3]⟩,
   ⟨py! "slist", ⟨.int16, [0], []⟩, 2, .h, 1, [0]⟩,
   ⟨py! "count", ⟨.int64, [1], [[1, 0, 0, 0, 0, 0, 0, 128]]⟩, 10, .q, 1, [1]⟩]

/-- The sample record. -/
def record : Rec := fieldsOf scalars arrays

/-- A second, smaller record. -/
def record2 : Rec := fieldsOf [⟨py! "a", .int 7, 3, .i⟩]
  [⟨py! "b", ⟨.float64, [1], [[0, 0, 0, 0, 0, 0, 240, 63]]⟩, 8, .d, 1, [1]⟩]

theorem record_encodable {mr : Nat} (h : 2 ≤ mr) : Encodable mr record := by
  refine ⟨scalars, arrays, rfl, by decide, by decide, by decide, ?_, ?_, by decide⟩
  · intro s hs
    simp only [scalars, List.mem_cons, List.not_mem_nil, or_false] at hs
    rcases hs with rfl | rfl | rfl | rfl | rfl
    · exact ⟨⟨by decide, by decide⟩, rfl, .i16 (by decide) (by decide)⟩
    · exact ⟨⟨by decide, by decide⟩, rfl, .str ⟨by decide, by decide⟩⟩
    · exact ⟨⟨by decide, by decide⟩, rfl, .char (n := 127) (by decide)⟩
    · exact ⟨⟨by decide, by decide⟩, rfl, .f32 (by decide)⟩
    · exact ⟨⟨by decide, by decide⟩, rfl, .u64 (n := 18446744073709551615) (by decide)⟩
  · intro a ha
    simp only [arrays, List.mem_cons, List.not_mem_nil, or_false] at ha
    rcases ha with rfl | rfl | rfl
    · exact ⟨⟨by decide, by decide⟩, rfl, rfl, rfl, by decide, h, rfl, .inl (by decide),
        by decide, by decide, nofun, by decide, by decide⟩
    · exact ⟨⟨by decide, by decide⟩, rfl, rfl, rfl, by decide, by simp; omega, rfl,
        .inr ⟨rfl, by decide⟩, by decide, by decide, nofun, by decide, by decide⟩
    · exact ⟨⟨by decide, by decide⟩, rfl, rfl, rfl, by decide, by simp; omega, rfl, .inl (by decide),
        by decide, by decide, nofun, by decide, by decide⟩

theorem record2_encodable {mr : Nat} (h : 1 ≤ mr) : Encodable mr record2 := by
  refine ⟨_, _, rfl, by decide, by decide, by decide, ?_, ?_, by decide⟩
  · intro s hs
    simp only [List.mem_cons, List.not_mem_nil, or_false] at hs
    subst hs
    exact ⟨⟨by decide, by decide⟩, rfl, .i32 (by decide) (by decide)⟩
  · intro a ha
    simp only [List.mem_cons, List.not_mem_nil, or_false] at ha
    subst ha
    exact ⟨⟨by decide, by decide⟩, rfl, rfl, rfl, by decide, h, rfl, .inl (by decide),
        by decide, by decide, nofun, by decide, by decide⟩

/-- Both samples are encodable. -/
theorem both_encodable {mr : Nat} (h : 2 ≤ mr) : ∀ r ∈ [record, record2], Encodable mr r := by
  intro r hr
  simp only [List.mem_cons, List.not_mem_nil, or_false] at hr
  rcases hr with rfl | rfl
  · exact record_encodable h
  · exact record2_encodable (by omega)

/-- The stream written for `record2`, byte by byte. -/
def bytes2 : Bytes :=
  [1, 0, 1, 0, 42, 0, 0, 0, 1, 0, 0, 0, 1, 0, 0, 0,
   97, 0, 3, 7, 0, 0, 0,
   98, 0, 8, 1, 0, 0, 0, 1, 0, 0, 0, 0, 0, 0, 0, 0, 0, 240, 63]

/-- Without the name there is no such array. -/
theorem not_negSlist {buf : Bytes} (h : ∀ n ≤ buf.length, (buf.drop n).take 6 ≠ [115, 108, 105, 115, 116, 0]) :
    ¬ NegSlist buf := by
  rintro ⟨pre, suf, t, dims, rfl, _⟩
  refine h pre.length (by simp only [List.length_append]; omega) ?_
  rw [List.append_assoc, List.drop_left]
  have : encStr (py! "slist") = [115, 108, 105, 115, 116, 0] := by decide
  rw [this]
  rfl

theorem bytes2_plain : ¬ NegSlist bytes2 := not_negSlist (by decide)

end Verif.Sample
