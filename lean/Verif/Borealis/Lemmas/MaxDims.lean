import Verif.Borealis.Lemmas.RawRecords
import Verif.Borealis.Lemmas.Reshape
/-!
# `site_get_max_dims` of the records of a slice
-/
namespace Verif.Bor
open Verif

/-! ## The records of a file -/

/-- The groups of the names are related to the records of the same names. -/
inductive FromFile (f : H5) (P : Group → Rec → Prop) : List PyStr → Records → Prop
  | nil : FromFile f P [] []
  | cons {n g r ns rs} : f.groups.get? n = some g → P g r → FromFile f P ns rs → FromFile f P (n :: ns) ((n, r) :: rs)

theorem fromFile_read {f : H5} : ∀ {ns : List PyStr} {rs : Records}, readNames f ns = .ok rs →
    FromFile f (fun g r => readGroup g = .ok r) ns rs
  | [], rs, h => by cases h; exact .nil
  | n :: ns, rs, h => by
    rw [readNames] at h
    cases hg : f.groups.get? n with
    | none => rw [hg] at h; cases h
    | some g =>
      rw [hg] at h
      obtain ⟨r, hr, h⟩ := bind_ok h
      obtain ⟨rs', hrs, h⟩ := bind_ok h
      cases h
      exact .cons hg hr (fromFile_read hrs)

theorem FromFile.imp {f : H5} {P R : Group → Rec → Prop} {ns : List PyStr} {rs : Records} (h : FromFile f P ns rs) :
    (∀ n g r, f.groups.get? n = some g → (n, r) ∈ rs → P g r → R g r) → FromFile f R ns rs := by
  induction h with
  | nil => exact fun _ => .nil
  | cons hg hp _ ih =>
    intro hi
    exact .cons hg (hi _ _ _ hg (by simp) hp) (ih fun n g r h1 h2 h3 => hi n g r h1 (by simp [h2]) h3)

/-! ## One record -/

/-- What a record of a file adds to the maximum dimensions: the shapes of its arrays, the number of sequences `n` and
of beams `b`. -/
structure HasDims (ks : List PyStr) (sh : PyStr → Option (List Nat)) (n b : Nat) (g : Group) : Prop where
  attr : ∀ k ∈ ks, sh k = none → ∃ a, g.attrs.get? k = some a ∧ (k = py! "num_sequences" → a.int = .ok n)
  dset : ∀ k ∈ ks, ∀ s, sh k = some s → g.attrs.get? k = none ∧ dsetShape g k = .ok (some s)
  seqs : sh (py! "num_sequences") = none
  beams : sh (py! "beam_nums") = some [b]

/-- The dimensions of a field after a record. -/
def newDims (first : Bool) (old s : Option (List Nat)) : Option (List Nat) :=
  match s with
  | none => old
  | some s => if first then some s else old.map fun o => List.zipWith max o s

/-- The state after the fields of a record. -/
structure AfterFields (ks : List PyStr) (sh : PyStr → Option (List Nat)) (n b : Nat) (first : Bool) (m m' : MaxDims) :
    Prop where
  keys : ∀ k, k ∈ m.dims.keys → k ∈ m'.dims.keys
  other : ∀ k, k ∉ ks → m'.dims.get? k = m.dims.get? k
  dims : ∀ k ∈ ks, m'.dims.get? k = newDims first (m.dims.get? k) (sh k)
  seqs : m'.seqs = if py! "num_sequences" ∈ ks then max m.seqs n else m.seqs
  beams : m'.beams = if first = true ∧ py! "beam_nums" ∈ ks then max b m.beams else m.beams

theorem maxDimsField_ok {ks sh n b g} (h : HasDims ks sh n b g) {first : Bool} {k : PyStr} (hk : k ∈ ks) {m : MaxDims}
    (hm : k ∈ m.dims.keys) : ∃ m', maxDimsField g first k m = .ok m' ∧ AfterFields [k] sh n b first m m' := by
  cases hs : sh k with
  | none =>
    obtain ⟨a, ha, hi⟩ := h.attr k hk hs
    have hb : k ≠ py! "beam_nums" := fun e => by rw [e, h.beams] at hs; cases hs
    by_cases he : k = py! "num_sequences"
    · refine ⟨{ m with seqs := max m.seqs n }, ?_, fun _ h => h, fun _ _ => rfl, ?_, ?_, ?_⟩
      · rw [maxDimsField, ha]
        simp only
        rw [if_pos he, hi he]
        rfl
      · intro k' hk'
        obtain rfl := List.mem_singleton.1 hk'
        rw [hs]; rfl
      · rw [if_pos (by simp [he])]
      · rw [if_neg (by simp [Ne.symm hb])]
    · refine ⟨m, ?_, fun _ h => h, fun _ _ => rfl, ?_, ?_, ?_⟩
      · rw [maxDimsField, ha]
        simp only
        rw [if_neg he]
      · intro k' hk'
        obtain rfl := List.mem_singleton.1 hk'
        rw [hs]; rfl
      · rw [if_neg (by simp [Ne.symm he])]
      · rw [if_neg (by simp [Ne.symm hb])]
  | some s =>
    obtain ⟨ha, hd⟩ := h.dset k hk s hs
    have hn : k ≠ py! "num_sequences" := fun e => by rw [e, h.seqs] at hs; cases hs
    have hstep : maxDimsField g first k m = addShape first k s m := by
      rw [maxDimsField, ha]
      simp only
      rw [hd]
      rfl
    have hother : ∀ (x : List Nat) k', k' ∉ [k] → (m.dims.set k x).get? k' = m.dims.get? k' := by
      intro x k' hk'
      exact Dict.get?_set_ne _ (fun e => hk' (by simp [e])) _
    have hkeys : ∀ (x : List Nat) k', k' ∈ m.dims.keys → k' ∈ (m.dims.set k x).keys := by
      intro x k' hk'
      rw [Dict.keys_set_of_mem hm]; exact hk'
    cases first with
    | true =>
      by_cases hb : k = py! "beam_nums"
      · have hsb : s = [b] := by rw [hb, h.beams] at hs; exact (Option.some.inj hs).symm
        refine ⟨{ m with dims := m.dims.set k s, beams := max b m.beams }, ?_, hkeys s, hother s, ?_, ?_, ?_⟩
        · rw [hstep, addShape]
          simp only [hsb, hb, if_true]
        · intro k' hk'
          obtain rfl := List.mem_singleton.1 hk'
          rw [hs]
          exact Dict.get?_set_self ..
        · rw [if_neg (by simp [Ne.symm hn])]
        · rw [if_pos (by simp [hb])]
      · refine ⟨{ m with dims := m.dims.set k s }, ?_, hkeys s, hother s, ?_, ?_, ?_⟩
        · rw [hstep, addShape]
          simp only [if_true, if_neg hb]
        · intro k' hk'
          obtain rfl := List.mem_singleton.1 hk'
          rw [hs]
          exact Dict.get?_set_self ..
        · rw [if_neg (by simp [Ne.symm hn])]
        · rw [if_neg (by simp [Ne.symm hb])]
    | false =>
      obtain ⟨old, hold⟩ := Dict.mem_keys_iff.1 hm
      refine ⟨{ m with dims := m.dims.set k (List.zipWith max old s) }, ?_, hkeys _, hother _, ?_, ?_, ?_⟩
      · rw [hstep, addShape]
        simp only [Bool.false_eq_true, if_false]
        rw [field_iff.2 hold]
        rfl
      · intro k' hk'
        obtain rfl := List.mem_singleton.1 hk'
        rw [hs, hold]
        exact Dict.get?_set_self ..
      · rw [if_neg (by simp [Ne.symm hn])]
      · rw [if_neg (by simp)]

theorem maxDimsFields_ok {sh n b g} {first : Bool} : ∀ {ks : List PyStr} {m : MaxDims}, HasDims ks sh n b g → ks.Nodup →
    (∀ k ∈ ks, k ∈ m.dims.keys) → ∃ m', maxDimsFields g first ks m = .ok m' ∧ AfterFields ks sh n b first m m'
  | [], m, _, _, _ => ⟨m, rfl, fun _ h => h, fun _ _ => rfl, by simp, by simp, by simp⟩
  | k :: ks, m, h, hn, hm => by
    obtain ⟨m1, h1, a1⟩ := maxDimsField_ok (first := first) h (k := k) (by simp) (hm k (by simp))
    have hn' := List.nodup_cons.1 hn
    have h' : HasDims ks sh n b g :=
      ⟨fun k hk => h.attr k (by simp [hk]), fun k hk => h.dset k (by simp [hk]), h.seqs, h.beams⟩
    obtain ⟨m2, h2, a2⟩ := maxDimsFields_ok (first := first) (m := m1) h' hn'.2
      (fun k hk => a1.keys k (hm k (by simp [hk])))
    refine ⟨m2, ?_, fun k hk => a2.keys k (a1.keys k hk), ?_, ?_, ?_, ?_⟩
    · rw [maxDimsFields, h1]
      exact h2
    · intro k' hk'
      rw [a2.other k' (fun c => hk' (by simp [c])), a1.other k' (fun c => hk' (by simp_all))]
    · intro k' hk'
      by_cases he : k' = k
      · subst he
        rw [a2.other k' hn'.1, a1.dims k' (by simp)]
      · have hks : k' ∈ ks := by simpa [he] using hk'
        rw [a2.dims k' hks, a1.other k' (by simp [he])]
    · rw [a2.seqs, a1.seqs]
      by_cases he : py! "num_sequences" = k
      · rw [if_neg (by rw [he]; exact hn'.1), if_pos (by simp [he]), if_pos (by simp [he])]
      · by_cases hks : py! "num_sequences" ∈ ks
        · rw [if_pos hks, if_neg (by simp [he]), if_pos (by simp [hks])]
        · rw [if_neg hks, if_neg (by simp [he]), if_neg (by simp [hks, he])]
    · rw [a2.beams, a1.beams]
      cases first with
      | false => simp
      | true =>
        by_cases he : py! "beam_nums" = k
        · rw [if_neg (by rw [he]; simp [hn'.1]), if_pos (by simp [he]), if_pos (by simp [he])]
        · by_cases hks : py! "beam_nums" ∈ ks
          · rw [if_pos (by simp [hks]), if_neg (by simp [he]), if_pos (by simp [hks])]
          · rw [if_neg (by simp [hks]), if_neg (by simp [he]), if_neg (by simp [hks, he])]

end Verif.Bor
