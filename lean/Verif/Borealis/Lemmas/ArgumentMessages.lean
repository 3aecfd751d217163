import Verif.Borealis.Model.ArgumentMessages
import Verif.Borealis.Lemmas.ConvertMessages
/-!
# Lemmas on the texts of refused arguments
-/
namespace Verif.Bor
open Verif

/-- Without the text. -/
def dropTextW {α : Type} : Except Said α × FSys → Except Err α × FSys
  | (x, fs) => (dropText x, fs)

theorem dropTextW_untoldW {α : Type} (x : Except Err α × FSys) : dropTextW (untoldW x) = x := by
  obtain ⟨x, fs⟩ := x
  cases x <;> rfl

theorem selectVersionM_drop (p hash : PyStr) : dropText (selectVersionM p hash) = selectVersion hash := by
  unfold selectVersionM selectVersion
  cases lookupVersion (versionOf hash) <;> rfl

theorem siteReadM_drop (fs : FSys) (p ft : PyStr) : dropText (siteReadM fs p ft) = siteRead fs p ft := by
  unfold siteReadM siteRead
  cases parseFType ft with
  | none => rfl
  | some t =>
    simp only [dropText_bind, dropText_untoldE, selectVersionM_drop, siteContent]

theorem arrayReadM_drop (fs : FSys) (p ft : PyStr) : dropText (arrayReadM fs p ft) = arrayRead fs p ft := by
  unfold arrayReadM arrayRead
  cases parseFType ft with
  | none => rfl
  | some t =>
    simp only [dropText_bind, dropText_untoldE, selectVersionM_drop, arrayContent]

theorem returnReaderM_drop (fs : FSys) (p ft : PyStr) : dropText (returnReaderM fs p ft) = returnReader fs p ft := by
  unfold returnReaderM returnReader
  rw [← arrayReadM_drop, ← siteReadM_drop]
  cases arrayReadM fs p ft with
  | ok r => rfl
  | error e =>
    show dropText (if fallsBack e.kind then _ else _) = if fallsBack e.kind then _ else _
    split
    · cases siteReadM fs p ft <;> rfl
    · rfl

theorem borealisReadM_drop (fs : FSys) (p ft : PyStr) (st : Option PyStr) :
    dropText (borealisReadM fs p ft st) = borealisRead fs p ft st := by
  unfold borealisReadM borealisRead
  cases parseFType ft with
  | none => rfl
  | some t =>
    cases st with
    | none => exact returnReaderM_drop fs p ft
    | some s =>
      simp only
      split
      · simp only [dropText_bind, siteReadM_drop]; rfl
      · split
        · simp only [dropText_bind, arrayReadM_drop]; rfl
        · rfl

theorem siteWriteCheckM_drop (p : PyStr) (d : Data) (ft : PyStr) : dropText (siteWriteCheckM p d ft) = siteWriteCheck d ft := by
  unfold siteWriteCheckM siteWriteCheck
  cases parseFType ft with
  | none => rfl
  | some t =>
    simp only [dropText_bind, dropText_untoldE, selectVersionM_drop, siteData]
    rfl

theorem arrayWriteCheckM_drop (p : PyStr) (d : Data) (ft : PyStr) : dropText (arrayWriteCheckM p d ft) = arrayWriteCheck d ft := by
  unfold arrayWriteCheckM arrayWriteCheck
  cases parseFType ft with
  | none => rfl
  | some t =>
    simp only [dropText_bind, dropText_untoldE, selectVersionM_drop, arrayData]
    rfl

theorem siteWriteM_drop (h : H5Cfg) (fs : FSys) (p : PyStr) (d : Data) (ft : PyStr) (comp : Option PyStr) :
    dropTextW (siteWriteM h fs p d ft comp) = siteWrite h fs p d ft comp := by
  unfold siteWriteM siteWrite
  rw [← siteWriteCheckM_drop p]
  cases siteWriteCheckM p d ft with
  | error e => rfl
  | ok x => exact dropTextW_untoldW _

theorem arrayWriteM_drop (h : H5Cfg) (fs : FSys) (p : PyStr) (d : Data) (ft : PyStr) (comp : Option PyStr) :
    dropTextW (arrayWriteM h fs p d ft comp) = arrayWrite h fs p d ft comp := by
  unfold arrayWriteM arrayWrite
  rw [← arrayWriteCheckM_drop p]
  cases arrayWriteCheckM p d ft with
  | error e => rfl
  | ok x => exact dropTextW_untoldW _

theorem returnWriterM_drop (h : H5Cfg) (fs : FSys) (p : PyStr) (d : Data) (ft : PyStr) (comp : Option (Option PyStr)) :
    dropTextW (returnWriterM h fs p d ft comp) = returnWriter h fs p d ft comp := by
  unfold returnWriterM returnWriter
  rw [← arrayWriteM_drop]
  obtain ⟨x, fs'⟩ := arrayWriteM h fs p d ft (comp.getD arrayCompression)
  cases x with
  | ok u => rfl
  | error e =>
    show dropTextW (if fallsBack e.kind then _ else _) = if fallsBack e.kind then _ else _
    split
    · rw [← siteWriteM_drop]
      obtain ⟨y, fs''⟩ := siteWriteM h fs' p d ft (comp.getD siteCompression)
      cases y <;> rfl
    · rfl

theorem borealisWriteM_drop (h : H5Cfg) (fs : FSys) (p : PyStr) (d : Data) (ft : PyStr) (st : Option PyStr)
    (comp : Option (Option PyStr)) :
    dropTextW (borealisWriteM h fs p d ft st comp) = borealisWrite h fs p d ft st comp := by
  unfold borealisWriteM borealisWrite
  cases st with
  | none => exact returnWriterM_drop h fs p d ft comp
  | some s =>
    simp only
    split
    · rw [← siteWriteM_drop]
      obtain ⟨y, fs''⟩ := siteWriteM h fs p d ft (comp.getD siteCompression)
      cases y <;> rfl
    · split
      · rw [← arrayWriteM_drop]
        obtain ⟨y, fs''⟩ := arrayWriteM h fs p d ft (comp.getD arrayCompression)
        cases y <;> rfl
      · rfl

theorem borealisRestructureM_drop (h : H5Cfg) (tkey : Elt → Except Err PyStr) (fs : FSys) (inp out ft st : PyStr)
    (comp : Option PyStr) :
    dropTextW (borealisRestructureM h tkey fs inp out ft st comp) = borealisRestructure h tkey fs inp out ft st comp := by
  unfold borealisRestructureM borealisRestructure
  cases restructureType ft with
  | none => rfl
  | some t =>
    simp only
    cases restructureTo st with
    | none => rfl
    | some s =>
      simp only
      split
      · rfl
      · cases examine fs inp with
        | error e => rfl
        | ok x => exact dropTextW_untoldW _

theorem sliceIdOfM_drop (rs : Records) (arg : Option Int) : dropText (sliceIdOfM rs arg) = sliceIdOf rs arg := by
  unfold sliceIdOfM sliceIdOf
  simp only [dropText_bind, dropText_untoldE]
  congr 1; funext first
  cases first.get? (py! "slice_id") with
  | some v => rfl
  | none => cases arg <;> rfl

theorem convertPrepareM_drop (cfg : NpCfg) (ops : Ops) (tkey : Elt → Except Err PyStr) (fs : FSys) (inp ft out : PyStr)
    (slice : Option Int) (st : Option PyStr) (factor : Int) :
    dropText (convertPrepareM cfg ops tkey fs inp ft out slice st factor) =
      convertPrepare cfg ops tkey fs inp ft out slice st factor := by
  unfold convertPrepareM convertPrepare
  simp only [dropText_bind, dropText_untoldE, borealisReadM_drop, sliceIdOfM_drop]
  congr 1; funext rd
  congr 1; funext rs
  congr 1; funext sl
  cases (parseFType ft).bind allowedConversion with
  | none => rfl
  | some t =>
    simp only
    split
    · rfl
    · simp only [dropText_bind, dropText_untoldE]; rfl

end Verif.Bor
