import Verif.Borealis.SampleConvert
import Verif.Borealis.Lemmas.ConvertSuccess
/-!
# Checks of the specification for sample records
-/
namespace Verif.Bor
open Verif

/-- A scalar of the type. -/
def isScalarB (t : Ty) : Val → Bool
  | .py t' _ => t' == t
  | .np t' _ => t' == t
  | .arr _ => false

/-- Check of conformance. -/
def conformsB (A D : TyTable) (r : Rec) : Bool :=
  A.all (fun p => (Dict.get? r p.1).any (isScalarB p.2)) &&
  D.all (fun p => match Dict.get? r p.1 with
    | some (.arr a) => a.ty == p.2
    | _ => false) &&
  r.all (fun p => A.any (fun q => q.1 == p.1) || D.any (fun q => q.1 == p.1))

theorem conformsB_sound {A D : TyTable} {r : Rec} (h : conformsB A D r = true) : ConformsRecord A D r := by
  simp only [conformsB, Bool.and_eq_true, List.all_eq_true] at h
  obtain ⟨⟨h1, h2⟩, h3⟩ := h
  refine ⟨?_, ?_, ?_⟩
  · rintro k ⟨⟨t, hl⟩ | ⟨t, hl⟩, hn⟩
    · have := h1 _ hl
      cases hv : Dict.get? r k with
      | none => simp [hv] at this
      | some v => exact hn ⟨v, hv⟩
    · have := h2 _ hl
      cases hv : Dict.get? r k with
      | none => simp [hv] at this
      | some v => exact hn ⟨v, hv⟩
  · rintro k ⟨⟨v, hv⟩, hn⟩
    have := h3 _ (get?_mem hv)
    simp only [Bool.or_eq_true, List.any_eq_true, beq_iff_eq] at this
    rcases this with ⟨⟨k', t⟩, hm, rfl⟩ | ⟨⟨k', t⟩, hm, rfl⟩
    · exact hn (.inl ⟨t, hm⟩)
    · exact hn (.inr ⟨t, hm⟩)
  · rintro k t (⟨hm, v, hv, hn⟩ | ⟨hm, v, hv, hn⟩)
    · have := h1 _ hm
      rw [Holds] at hv
      rw [hv] at this
      refine hn ?_
      cases v <;> simp [isScalarB, IsScalar] at this ⊢ <;> exact this
    · have := h2 _ hm
      rw [Holds] at hv
      simp only [hv] at this
      refine hn ?_
      cases v
      · cases this
      · cases this
      · simpa [IsArray] using this

/-- Check of a value. -/
def realB : Val → Bool
  | .py t e => t == .pyInt || t == .pyFloat || (t == .str && match e with
    | .str _ => true
    | _ => false)
  | .np t e => t != .str && (!intTy t || match e with
    | .int _ => true
    | _ => false)
  | .arr a => a.data.length == prod a.shape

theorem realB_sound {v : Val} (h : realB v = true) : RealVal v := by
  cases v with
  | py t e =>
    cases e <;> simp_all [realB, RealVal, or_assoc]
  | np t e =>
    cases e <;> cases t <;> simp_all [realB, RealVal, intTy]
  | arr a => simpa [realB, RealVal, NdArr.WF] using h

theorem realRec_of {r : Rec} (h : r.all (fun p => realB p.2) = true) : RealRec r := by
  intro k v hv
  exact realB_sound (List.all_eq_true.1 h _ (get?_mem hv))

theorem wfRec_of {r : Rec} (h : r.all (fun p => realB p.2) = true) : WFRec r :=
  fun k a ha => realRec_of h k (.arr a) ha

theorem sampleBfiq_conforms (v : Version) (tail : PyStr) :
    ConformsRecord (formatOf v .bfiq).siteSingleTypes (formatOf v .bfiq).siteArrayTypes (sampleBfiq v tail) :=
  conformsB_sound (by cases v <;> rfl)

theorem sampleRawacf_conforms (v : Version) (tail : PyStr) :
    ConformsRecord (formatOf v .rawacf).siteSingleTypes (formatOf v .rawacf).siteArrayTypes (sampleRawacf v tail) :=
  conformsB_sound (by cases v <;> rfl)

theorem sampleBfiq_real (v : Version) (tail : PyStr) : RealRec (sampleBfiq v tail) :=
  realRec_of (by cases v <;> rfl)

theorem sampleRawacf_real (v : Version) (tail : PyStr) : RealRec (sampleRawacf v tail) :=
  realRec_of (by cases v <;> rfl)

theorem sampleBfiq_convertible (v : Version) {tail : PyStr} (h : VersionTail tail) :
    Convertible sampleOps (.np .u32 (.int 0)) (sampleBfiq v tail) 2 where
  tag := ⟨v, tail, by cases v <;> rfl, h⟩
  station := ⟨py! "sas", 5, by cases v <;> rfl, by decide⟩
  time := ⟨⟨.f64, [2], [.flt 0, .flt 0]⟩, 2, .flt 0, by cases v <;> rfl, rfl, rfl, ⟨_, rfl⟩, fun _ _ => ⟨⟨_, rfl⟩, ⟨_, rfl⟩⟩⟩
  noise := ⟨1, ⟨.f64, [2], [.flt 0, .flt 0]⟩, by cases v <;> rfl, rfl⟩
  azms := ⟨⟨.f64, [2], [.flt 0, .flt 0]⟩, by cases v <;> rfl, rfl⟩
  pulses := ⟨3, ⟨_, by cases v <;> rfl, rfl⟩, by decide⟩
  lags := ⟨_, 3, [2], by cases v <;> rfl, rfl, by decide⟩
  distances := fun _ _ _ _ _ => ⟨45, rfl, by unfold Is16; decide⟩
  slice := .inl ⟨.u32, 0, rfl, rfl⟩

theorem sampleRawacf_convertible (v : Version) {tail : PyStr} (h : VersionTail tail) :
    Convertible sampleOps (.np .u32 (.int 0)) (sampleRawacf v tail) 2 where
  tag := ⟨v, tail, by cases v <;> rfl, h⟩
  station := ⟨py! "sas", 5, by cases v <;> rfl, by decide⟩
  time := ⟨⟨.f64, [2], [.flt 0, .flt 0]⟩, 2, .flt 0, by cases v <;> rfl, rfl, rfl, ⟨_, rfl⟩, fun _ _ => ⟨⟨_, rfl⟩, ⟨_, rfl⟩⟩⟩
  noise := ⟨1, ⟨.f64, [2], [.flt 0, .flt 0]⟩, by cases v <;> rfl, rfl⟩
  azms := ⟨⟨.f64, [2], [.flt 0, .flt 0]⟩, by cases v <;> rfl, rfl⟩
  pulses := ⟨3, ⟨_, by cases v <;> rfl, rfl⟩, by decide⟩
  lags := ⟨_, 3, [2], by cases v <;> rfl, rfl, by decide⟩
  distances := fun _ _ _ _ _ => ⟨45, rfl, by unfold Is16; decide⟩
  slice := .inl ⟨.u32, 0, rfl, rfl⟩

/-- The samples of the bfiq record. -/
def sampleData : NdArr :=
  ⟨.c64, [24], (List.range 24).map fun n => .cpx (0x4059000000000000 + n * 0x1000000000000) n⟩

theorem sampleBfiq_rec (v : Version) (tail : PyStr) :
    BfiqRec (sampleBfiq v tail) sampleData (.np .f64 (.flt 9)) [.int 3, .int 7] 2 2 3 where
  data := by cases v <;> rfl
  size := rfl
  dims := by cases v <;> rfl
  norm := by cases v <;> rfl
  order := by cases v <;> exact ⟨_, rfl, rfl⟩
  samps := by cases v <;> rfl
  seqs := by cases v <;> rfl
  beams := ⟨_, by cases v <;> rfl, rfl, rfl⟩

/-- Correlations of the rawacf record. -/
def sampleAcfs (k : Nat) : NdArr := ⟨.c64, [12], (List.range 12).map fun n => .cpx (k + n) (2 * k + n)⟩

theorem sampleRawacf_rec (v : Version) (tail : PyStr) :
    RawacfRec (sampleRawacf v tail) (sampleAcfs 100) (sampleAcfs 300) (.np .f64 (.flt 9)) [.int 3, .int 7] 2 3 where
  main := by cases v <;> rfl
  cross := by cases v <;> rfl
  mainSize := rfl
  crossSize := rfl
  dims := by cases v <;> first | exact .inl rfl | exact .inr ⟨rfl, rfl⟩
  norm := by cases v <;> rfl
  beams := ⟨_, by cases v <;> rfl, rfl, rfl⟩

end Verif.Bor
