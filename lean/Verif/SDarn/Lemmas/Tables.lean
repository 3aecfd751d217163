import Verif.SDarn.Lemmas.Checks
/-!
# From the table lists of the methods to the specification
-/
namespace Verif.SD
open Verif

/-- The tables and optional tables passed by a method describe the same format as `req`/`op`. -/
structure Describes (gs opt req op : List Table) : Prop where
  one : OneFormat gs
  reqd : ∀ g, g ∈ gs.filter (fun g => !inTables g opt) ↔ g ∈ req
  sub : ∀ g ∈ gs, g ∈ req ++ op
  sup : ∀ g ∈ req ++ op, g = [] ∨ g ∈ gs

theorem Describes.lists {gs opt req op : List Table} (h : Describes gs opt req op) {k : PyStr} {t : Fmt} :
    Lists gs k t ↔ Lists (req ++ op) k t := by
  constructor
  · rintro ⟨g, hg, ht⟩; exact ⟨g, h.sub g hg, ht⟩
  · rintro ⟨g, hg, ht⟩
    rcases h.sup g hg with rfl | hg
    · cases ht
    · exact ⟨g, hg, ht⟩

theorem Describes.missing {gs opt req op : List Table} (h : Describes gs opt req op) {r : Rec} {k : PyStr} :
    Missing (gs.filter fun g => !inTables g opt) r k ↔ Missing req r k := by
  simp only [Missing, h.reqd]

theorem Describes.extra {gs opt req op : List Table} (h : Describes gs opt req op) {r : Rec} {k : PyStr} :
    Extra gs r k ↔ Extra (req ++ op) r k := by
  simp only [Extra, h.lists]

theorem Describes.wrong {gs opt req op : List Table} (h : Describes gs opt req op) {r : Rec} {k : PyStr} {t : Fmt} :
    WrongType gs r k t ↔ WrongType (req ++ op) r k t := by
  simp only [WrongType, h.lists]

/-- Decidable form of `OneFormat`. -/
theorem oneFormat_of {gs : List Table}
    (h : ∀ g ∈ gs, ∀ g' ∈ gs, ∀ p ∈ g, ∀ q ∈ g', p.1 = q.1 → p.2 = q.2) : OneFormat gs := by
  rintro k t t' ⟨g, hg, ht⟩ ⟨g', hg', ht'⟩
  exact h g hg g' hg' (k, t) ht (k, t') ht' rfl

theorem describes_of {gs opt req op : List Table}
    (h1 : ∀ g ∈ gs, ∀ g' ∈ gs, ∀ p ∈ g, ∀ q ∈ g', p.1 = q.1 → p.2 = q.2)
    (h2 : ∀ g ∈ gs, inTables g opt = false → g ∈ req)
    (h2' : ∀ g ∈ req, g ∈ gs ∧ inTables g opt = false)
    (h3 : ∀ g ∈ gs, g ∈ req ++ op) (h4 : ∀ g ∈ op, g = [] ∨ g ∈ gs) : Describes gs opt req op := by
  refine ⟨oneFormat_of h1, fun g => ?_, h3, ?_⟩
  · simp only [List.mem_filter, Bool.not_eq_true']
    exact ⟨fun h => h2 g h.1 h.2, h2' g⟩
  · intro g hg
    rcases List.mem_append.1 hg with hg | hg
    · exact .inr (h2' g hg).1
    · exact h4 g hg

/-- The read methods check the documented formats (whole tables, by evaluation). -/
theorem describes_read (ft : FileType) : Describes (readGroups ft) (readOptional ft) (required ft) (optional ft) := by
  cases ft <;> exact describes_of (by decide +kernel) (by decide +kernel) (by decide +kernel)
    (by decide +kernel) (by decide +kernel)

/-- The write methods check the documented formats (whole tables, by evaluation). -/
theorem describes_write (ft : FileType) :
    Describes (writeGroups ft) (writeOptional ft) (required ft) (optional ft) := by
  cases ft <;> exact describes_of (by decide +kernel) (by decide +kernel) (by decide +kernel)
    (by decide +kernel) (by decide +kernel)

end Verif.SD
