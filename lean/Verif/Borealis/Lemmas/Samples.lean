import Verif.Borealis.Lemmas.Keys
/-!
# Sample records, and a computable check of the specification for them
-/
namespace Verif.Bor
open Verif

/-- Numbers for a sample. -/
def sampleCommon : Common := ⟨2, 3, 2, 2, 2, 2⟩

/-- The sizes of a sample record with `n` sequences, `b` beams and `z` blanked samples. -/
def sampleSize (n b z : Nat) : Q → Nat
  | .seqs => n
  | .beams => b
  | .blanked => z
  | .ranges => 2
  | .lags => 3
  | .none => 0
  | _ => 2

/-- A sample record with `n` sequences, `b` beams and `z` blanked samples from the time `ts` on. -/
def sampleSite (v : Version) (t : FType) (o : Ppo) (n b z ts : Nat) : Rec :=
  let f := formatOf v t
  ((f.shared.filter fun k => k ∉ f.unshared).map fun k => (k, Val.np .u32 (.int 1))) ++
  (f.unshared.map fun k =>
    (k,
      if k = py! "num_sequences" then .np .i64 (.int n)
      else
        match f.single.get? k with
        | some .str => .py .str (.str (py! "SCAN"))
        | some ty => .np ty (.int 5)
        | none =>
          let s := (shapeOf o t k).map (sampleSize n b z)
          .arr ⟨(f.arrays.get? k).getD .u8, storedShape (flatFields v t) k s,
            (List.range (prod s)).map fun j =>
              if k = py! "sqn_timestamps" then .flt (ts + j) else .int j⟩)) ++
  ((dimFields.filter fun k => k ∈ f.arrays.keys).map fun k =>
    (k, numbers ((mainShape t).map (sampleSize n b z)))) ++
  ((descriptorFields.filter fun k => k ∈ f.arrays.keys).map fun k =>
    let ty := (f.arrays.get? k).getD .u8
    (k, vec ty ((dimNames t).map (constElt ty))))

/-- A name for a timestamp. -/
def sampleKey : Elt → Except Err PyStr
  | .flt b => .ok (List.replicate b '0')
  | _ => .error .typeError

/-- Check of `ScalarOK`. -/
def scalarB (ty : Ty) : Val → Bool
  | .py .str (.str s) => decide (ty = .str ∧ s.length ≤ 256 ∧ s.getLast? ≠ some '\x00')
  | .np ty' _ => decide (ty ≠ .str ∧ ty' = ty)
  | _ => false

theorem scalarB_sound {ty : Ty} {v : Val} (h : scalarB ty v = true) : ScalarOK ty v := by
  unfold scalarB at h
  unfold ScalarOK
  split at h
  · simp only [decide_eq_true_eq] at h
    rw [if_pos h.1]
    exact ⟨_, rfl, h.2⟩
  · simp only [decide_eq_true_eq] at h
    rw [if_neg h.1, ← h.2]
    exact ⟨_, rfl⟩
  · cases h

/-- Check of a field. -/
def fieldB (f : Format) (t : FType) (o : Ppo) (c : Common) (flat : List PyStr) (r : Rec) (k : PyStr) : Bool :=
  match f.single.get? k, r.get? k with
  | some ty, some v => scalarB ty v
  | none, some (.arr a) =>
    decide (f.arrays.get? k = some a.ty ∧ a.data.length = prod a.shape ∧
      a.shape = storedShape flat k ((shapeOf o t k).map (Q.size c r)))
  | _, _ => false

/-- Check of `SiteRec`. -/
def siteRecB (f : Format) (t : FType) (o : Ppo) (c : Common) (flat : List PyStr) (r : Rec) : Bool :=
  decide (0 < seqsOf r ∧ r.get? (py! "num_sequences") = some (.np .i64 (.int (seqsOf r))) ∧
    0 < beamsOf r ∧ (∀ k ∈ f.unshared, fieldB f t o c flat r k = true) ∧
    (∀ k ∈ dimFields, k ∈ f.arrays.keys → r.get? k = some (numbers ((mainShape t).map (Q.size c r)))) ∧
    ∀ k ∈ f.shared, k ∈ r.keys)

theorem siteRecB_sound {f t o c flat r} (h : siteRecB f t o c flat r = true) : SiteRec f t o c flat r := by
  simp only [siteRecB, decide_eq_true_eq] at h
  obtain ⟨h1, h2, h3, h4, h5, h6⟩ := h
  refine ⟨⟨_, h1, h2⟩, h3, ?_, ?_, h5, h6⟩
  · intro k ty hu hs
    have := h4 k hu
    unfold fieldB at this
    rw [hs] at this
    split at this
    · rename_i hv
      rename_i hty
      cases hty
      exact ⟨_, hv, scalarB_sound this⟩
    · rename_i hty _; cases hty
    · cases this
  · intro k ty hu hs ha
    have := h4 k hu
    unfold fieldB at this
    rw [hs] at this
    split at this
    · rename_i hty _; cases hty
    · rename_i hv
      simp only [decide_eq_true_eq] at this
      rw [ha] at this
      exact ⟨_, hv, by have := this.1; simpa using this.symm, this.2.1, this.2.2⟩
    · cases this

/-- Check of `SiteRecords`. -/
def siteRecordsB (f : Format) (t : FType) (o : Ppo) (c : Common) (flat : List PyStr) (rs : Records) : Bool :=
  decide (rs ≠ [] ∧
    (0 < c.ranges ∧ 0 < c.lags ∧ 0 < c.arrays ∧ 0 < c.samps ∧ 0 < c.antennas ∧ 0 < c.pulses) ∧
    (∀ p ∈ rs, siteRecB f t o c flat p.2 = true) ∧
    ((∀ p ∈ rs, blankedOf p.2 = 0) ∨ ∀ p ∈ rs, blankedOf p.2 ≠ 0))

theorem siteRecordsB_sound {f t o c flat rs} (h : siteRecordsB f t o c flat rs = true) :
    SiteRecords f t o c flat rs := by
  simp only [siteRecordsB, decide_eq_true_eq] at h
  exact ⟨h.1, h.2.1, fun p hp => siteRecB_sound (h.2.2.1 p hp), h.2.2.2⟩

/-- Check of the name of a record. -/
def timeB (tkey : Elt → Except Err PyStr) (p : PyStr × Rec) : Bool :=
  match p.2.get? (py! "sqn_timestamps") with
  | some (.arr a) =>
    match a.data.head? with
    | some e => decide (tkey e = .ok p.1)
    | none => false
  | _ => false

/-- Check of a field with names of dimensions. -/
def descriptorB (f : Format) (t : FType) (p : PyStr × Rec) (k : PyStr) : Bool :=
  match f.arrays.get? k with
  | some ty => decide (p.2.get? k = some (vec ty ((dimNames t).map (constElt ty))))
  | none => true

/-- Check of `OneSlice`. -/
def oneSliceB (tkey : Elt → Except Err PyStr) (f : Format) (t : FType) (rs : Records) : Bool :=
  decide (rs.keys.Nodup ∧ (∀ p ∈ rs, timeB tkey p = true) ∧
    (∀ p ∈ rs, ∀ q ∈ rs, ∀ k ∈ f.shared, k ∉ f.unshared → p.2.get? k = q.2.get? k) ∧
    (∀ p ∈ rs, ∀ k ∈ descriptorFields, descriptorB f t p k = true) ∧
    ∀ p ∈ rs, ∀ k ∈ p.2.keys, k ∈ f.siteFields)

theorem oneSliceB_sound {tkey f t rs} (h : oneSliceB tkey f t rs = true) : OneSlice tkey f t rs := by
  simp only [oneSliceB, decide_eq_true_eq] at h
  obtain ⟨h1, h2, h3, h4, h5⟩ := h
  refine ⟨h1, ?_, h3, ?_, h5⟩
  · intro p hp
    have := h2 p hp
    unfold timeB at this
    split at this
    · rename_i a ha
      split at this
      · rename_i e hd
        exact ⟨a, e, ha, hd, by simpa using this⟩
      · cases this
    · cases this
  · intro p hp k hk ty hty
    have := h4 p hp k hk
    unfold descriptorB at this
    rw [hty] at this
    simpa using this

end Verif.Bor
