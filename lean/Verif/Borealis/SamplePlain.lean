import Verif.Borealis.SpecRestructure
import Verif.Borealis.SampleRestructure
/-!
# A computable check of plain files
-/
namespace Verif.Bor
open Verif

/-- The attribute is bytes. -/
def Attr.isBytes : Attr → Bool
  | .bytes _ => true
  | _ => false

/-- The attribute is a value. -/
def Attr.isValue : Attr → Bool
  | .value _ => true
  | _ => false

/-- Check of an attribute. -/
def plainAttrB (attrs : TyTable) (p : PyStr × Attr) : Bool :=
  match attrs.get? p.1 with
  | some ty => if ty = .str then p.2.isBytes else p.2.isValue
  | none => true

/-- Check of `PlainGroup`. -/
def plainGroupB (attrs dsets : TyTable) (g : Group) : Bool :=
  decide (g.attrs.keys.Nodup ∧ g.dsets.keys.Nodup ∧ (∀ k ∈ attrs.keys, k ∉ g.dsets.keys) ∧
    (∀ k ∈ dsets.keys, k ∉ g.attrs.keys) ∧ (∀ p ∈ g.attrs, plainAttrB attrs p = true) ∧
    ∀ p ∈ g.dsets, p.1 ∈ dsets.keys → (p.2.itemsize.isSome = true ↔ dsets.get? p.1 = some .npStr))

theorem plainGroupB_sound {attrs dsets : TyTable} {g : Group} (h : plainGroupB attrs dsets g = true) :
    PlainGroup attrs dsets g := by
  simp only [plainGroupB, decide_eq_true_eq] at h
  obtain ⟨h1, h2, h3, h4, h5, h6⟩ := h
  refine ⟨h1, h2, h3, h4, ?_, ?_, ?_⟩
  · intro k hk a ha
    have := h5 _ (Dict.mem_of_get? ha)
    simp only [plainAttrB, hk, if_pos] at this
    cases a with
    | bytes b => exact ⟨b, rfl⟩
    | empty _ => cases this
    | value _ => cases this
  · intro k ty hk hne a ha
    have := h5 _ (Dict.mem_of_get? ha)
    simp only [plainAttrB, hk, if_neg hne] at this
    cases a with
    | bytes _ => cases this
    | empty _ => cases this
    | value v => exact ⟨v, rfl⟩
  · intro k d hk hd
    exact h6 _ (Dict.mem_of_get? hd) hk

/-- Check of the bytes of an attribute. -/
def asciiAttrB : Option Attr → Bool
  | some (.bytes b) => b.all fun x => x.toNat < 128
  | _ => true

/-- Check of phase offsets. -/
def f32B : Option Val → Bool
  | some (.arr a) => decide (a.ty = .f32)
  | some _ => false
  | none => true

/-- Check of the pulses. -/
def shapeB (s : List Nat) : Option Val → Bool
  | some (.arr a) => decide (a.shape = s)
  | _ => false

/-- Check of the numbers of beams. -/
def beamsB : Records → Bool
  | [] => true
  | p :: rs => rs.all fun q => beamsOf q.2 ≤ beamsOf p.2

/-- Check of `PlainSite`. -/
def plainSiteB (v : Version) (t : FType) (o : Ppo) (c : Common) (f : H5) (rs : Records) : Bool :=
  decide ((∀ k ∈ f.root.attrs.keys, k ∈ defaultAttrs) ∧ py! "borealis_git_hash" ∉ f.keys ∧
    (∀ p ∈ f.groups, plainGroupB (formatOf v t).siteSingleTypes (formatOf v t).siteArrayTypes p.2 = true) ∧
    (∀ p ∈ f.groups, ∀ k ∈ (formatOf v t).unshared, (formatOf v t).single.get? k = some .str →
      asciiAttrB (p.2.attrs.get? k) = true) ∧
    readRecords f = .ok rs ∧ siteRecordsB (formatOf v t) t o c (flatFields v t) rs = true ∧
    (ppoName ∈ (formatOf v t).unshared → ∀ p ∈ rs, shapeB [c.pulses] (p.2.get? (py! "pulses")) = true) ∧
    (ppoName ∈ (formatOf v t).unshared → o ≠ .flat) ∧
    (∀ p ∈ rs, f32B (p.2.get? ppoName) = true) ∧ beamsB rs = true)

theorem plainSiteB_sound {v t o c f rs} (h : plainSiteB v t o c f rs = true) : PlainSite v t o c f rs := by
  simp only [plainSiteB, decide_eq_true_eq] at h
  obtain ⟨h1, h2, h3, h4, h5, h6, h7, h8, h9, h10⟩ := h
  refine ⟨h1, h2, fun n g hg => plainGroupB_sound (h3 _ (Dict.mem_of_get? hg)), ?_, h5, siteRecordsB_sound h6, ?_, h8, ?_, ?_⟩
  · intro n g hg k hk hs b hb x hx
    have := h4 _ (Dict.mem_of_get? hg) k hk hs
    simp only [hb, asciiAttrB, List.all_eq_true, decide_eq_true_eq] at this
    exact this x hx
  · intro hu p hp
    have := h7 hu p hp
    unfold shapeB at this
    split at this
    · rename_i a ha
      exact ⟨a, ha, by simpa using this⟩
    · cases this
  · intro p hp w hw
    have := h9 p hp
    rw [hw] at this
    cases w with
    | arr a => exact ⟨a, rfl, by simpa [f32B] using this⟩
    | np _ _ => cases this
    | py _ _ => cases this
  · intro _ p q hp hq
    cases rs with
    | nil => cases hq
    | cons p' rs =>
      cases hp
      rcases List.mem_cons.1 hq with rfl | hq
      · exact Nat.le_refl _
      · simp only [beamsB, List.all_eq_true, decide_eq_true_eq] at h10
        exact h10 q hq

/-- Check of the size of phase offsets. -/
def sizeB (P : List Nat → Bool) : Option Val → Bool
  | some (.arr a) => P a.shape
  | _ => true

/-- Check of counts. -/
def countB : Option Val → Bool
  | some (.arr a) => a.data.all fun e => match e with
    | .int n => decide (0 ≤ n)
    | _ => true
  | _ => true

/-- Check of `PlainArrays`. -/
def plainArraysB (v : Version) (t : FType) (f : H5) (A : Rec) : Bool :=
  decide (plainGroupB (formatOf v t).arraySingleTypes (datasetTypes (formatOf v t)) f.root = true ∧ readArrays f = .ok A ∧
    sizeB (· != [2]) (A.get? ppoName) = true ∧ ∀ k ∈ countFields, countB (A.get? k) = true)

theorem plainArraysB_sound {v t f A} (h : plainArraysB v t f A = true) : PlainArrays v t f A := by
  simp only [plainArraysB, decide_eq_true_eq] at h
  obtain ⟨h1, h2, h3, h4⟩ := h
  refine ⟨plainGroupB_sound h1, h2, ?_, ?_⟩
  · intro a ha
    rw [ha] at h3
    simpa [sizeB] using h3
  · intro k hk a ha n hn
    have := h4 k hk
    simp only [ha, countB, List.all_eq_true] at this
    simpa using this _ hn

/-- Check of `OffsetsCut`. -/
def offsetsCutB (A : Rec) (i : Nat) : Bool :=
  match A.get? ppoName, A.get? (py! "num_sequences") with
  | some (.arr a), some w =>
    match w.elemInt i with
    | .ok n => decide (n ≤ prod a.shape) || match a.shape with
      | [_, 0] => true
      | _ => false
    | .error _ => true
  | _, _ => true

theorem offsetsCutB_sound {A i} (h : offsetsCutB A i = true) : OffsetsCut A i := by
  intro a w n ha hw hn
  simp only [offsetsCutB, ha, hw, hn, Bool.or_eq_true, decide_eq_true_eq] at h
  rcases h with h | h
  · exact .inl h
  · right
    split at h
    · rename_i m hm
      exact ⟨m, hm⟩
    · cases h

/-- The arrays in a file. -/
def arraysFrom (f : H5) : Rec :=
  match readArrays f with
  | .ok A => A
  | .error _ => []

/-- The records in a file. -/
def recordsIn (f : H5) : Records :=
  match readRecords f with
  | .ok rs => rs
  | .error _ => []

end Verif.Bor
