import Verif.Borealis.Model.RestructureMessages
import Verif.Borealis.Lemmas.ArgumentMessages
/-!
# Lemmas on the texts of failed restructurings
-/
namespace Verif.Bor
open Verif

theorem arraysOfM_drop (cause : Err → PyStr) (side : Side) (fn : PyStr) (v : Version) (t : FType) (rs : Records) :
    dropText (arraysOfM cause side fn v t rs) = arraysOf (formatOf v t) rs := by
  unfold arraysOfM arraysOf
  dsimp only
  split
  · generalize (do
      let r ← siteToArray (formatOf v t) rs
      checkArrays (formatOf v t).arraySingleTypes (formatOf v t).arrayArrayTypes (formatOf v t).unshared r
      .ok r : Except Err Rec) = x
    cases x <;> rfl
  · rename_i h
    unfold siteToArray
    rw [if_neg h]
    rfl

theorem recordsOfM_drop (cause : Err → PyStr) (side : Side) (fn : PyStr) (tkey : Elt → Except Err PyStr) (v : Version) (t : FType)
    (r : Rec) : dropText (recordsOfM cause side fn tkey v t r) = recordsOf tkey (formatOf v t) r := by
  unfold recordsOfM recordsOf
  dsimp only
  split
  · generalize (do
      let rs ← arrayToSite tkey (formatOf v t) r
      checkRecords (formatOf v t).siteSingleTypes (formatOf v t).siteArrayTypes rs
      .ok rs : Except Err Records) = x
    cases x <;> rfl
  · rename_i h
    unfold arrayToSite
    rw [if_neg h]
    rfl

theorem toArrayFailed_drop (cause : Err → PyStr) (inp : PyStr) (v : Version) (t : FType) {α : Type} (x : Except Err α) :
    dropText (toArrayFailed cause inp v t x) = asRestructure (· == .typeError) x := by
  cases x with
  | ok a => rfl
  | error e =>
    unfold toArrayFailed asRestructure
    dsimp only
    split <;> rfl

theorem siteFileToArrayM_drop (cause : Err → PyStr) (h : H5Cfg) (fs : FSys) (f : H5) (inp out : PyStr) (v : Version) (t : FType)
    (comp : Option PyStr) : dropTextW (siteFileToArrayM cause h fs f inp out v t comp) = siteFileToArray h fs f out v t comp := by
  unfold siteFileToArrayM siteFileToArray
  dsimp only
  generalize (do
    let r ← arraysOfFile (formatOf v t) (mainDims v t) f
    checkArrays (formatOf v t).arraySingleTypes (formatOf v t).arrayArrayTypes (formatOf v t).unshared r
    .ok r : Except Err Rec) = x
  cases x with
  | error e => exact Prod.ext (toArrayFailed_drop cause inp v t (.error e : Except Err Unit)) rfl
  | ok r =>
    dsimp only
    exact Prod.ext (toArrayFailed_drop cause inp v t _) rfl

theorem arrayFileToSiteM_drop (cause : Err → PyStr) (h : H5Cfg) (tkey : Elt → Except Err PyStr) (fs : FSys) (f : H5) (inp out : PyStr)
    (v : Version) (t : FType) (comp : Option PyStr) :
    dropTextW (arrayFileToSiteM cause h tkey fs f inp out v t comp) = arrayFileToSite h tkey fs f inp out (formatOf v t) comp := by
  unfold arrayFileToSiteM arrayFileToSite
  cases loadOnce (formatOf v t) f.root with
  | error e => rfl
  | ok ts =>
    dsimp only
    generalize writeRows h tkey (formatOf v t) f.root ts (decide (fs.node inp = fs.node out)) out comp
      (List.range (ts.shape.headD 0)) fs = x
    obtain ⟨x, fs'⟩ := x
    cases x <;> rfl

theorem restructureM_drop (cause : Err → PyStr) (h : H5Cfg) (tkey : Elt → Except Err PyStr) (fs : FSys) (f : H5) (s s' : Struct)
    (inp out : PyStr) (v : Version) (t : FType) (comp : Option PyStr) :
    dropTextW (restructureM cause h tkey fs f s s' inp out v t comp) = restructure h tkey fs f s s' inp out v t comp := by
  unfold restructureM restructure
  split
  · rfl
  · split
    · cases s' with
      | site => exact arrayFileToSiteM_drop ..
      | array => exact siteFileToArrayM_drop ..
    · rfl

theorem borealisRestructureT_drop (cause : Err → PyStr) (h : H5Cfg) (tkey : Elt → Except Err PyStr) (fs : FSys) (inp out ft st : PyStr)
    (comp : Option PyStr) :
    dropTextW (borealisRestructureT cause h tkey fs inp out ft st comp) = borealisRestructure h tkey fs inp out ft st comp := by
  unfold borealisRestructureT borealisRestructure
  cases restructureType ft with
  | none => rfl
  | some t =>
    simp only
    cases restructureTo st with
    | none => rfl
    | some s =>
      simp only
      split
      · rfl
      · cases examine fs inp with
        | error e => rfl
        | ok x => exact restructureM_drop ..

end Verif.Bor
