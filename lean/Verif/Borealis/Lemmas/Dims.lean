import Verif.Borealis.Lemmas.Tables
import Verif.Borealis.Lemmas.Coherent
/-!
# Lemmas on the dimensions computed from site records
-/
namespace Verif.Bor
open Verif

theorem foldl_max_ge (c : Common) (q : Q) (rs : Records) (m : Nat) :
    m ≤ rs.foldl (fun m p => Nat.max m (q.size c p.2)) m := by
  induction rs generalizing m with
  | nil => exact Nat.le_refl _
  | cons p rs ih => exact Nat.le_trans (Nat.le_max_left _ _) (ih _)

theorem size_le_max {c : Common} {q : Q} {rs : Records} {p : PyStr × Rec} (h : p ∈ rs) :
    q.size c p.2 ≤ q.max c rs := by
  unfold Q.max
  generalize 0 = m
  induction rs generalizing m with
  | nil => cases h
  | cons p' rs ih =>
    rw [List.foldl_cons]
    rcases List.mem_cons.1 h with rfl | h
    · exact Nat.le_trans (Nat.le_max_right _ _) (foldl_max_ge ..)
    · exact ih h _

theorem max_const {c : Common} {q : Q} {rs : Records} {n : Nat} (hn : rs ≠ [])
    (h : ∀ p ∈ rs, q.size c p.2 = n) : q.max c rs = n := by
  have key : ∀ (rs : Records) m, m ≤ n → rs ≠ [] → (∀ p ∈ rs, q.size c p.2 = n) →
      rs.foldl (fun m p => Nat.max m (q.size c p.2)) m = n := by
    intro rs
    induction rs with
    | nil => intro m _ h; exact absurd rfl h
    | cons p rs ih =>
      intro m hm _ hall
      rw [List.foldl_cons, hall p (List.mem_cons_self ..)]
      have hmx : Nat.max m n = n := Nat.max_eq_right hm
      rw [hmx]
      cases rs with
      | nil => rfl
      | cons p' rs => exact ih n (Nat.le_refl _) (by simp) fun q hq => hall q (List.mem_cons_of_mem _ hq)
  exact key rs 0 (Nat.zero_le _) hn h

theorem size_common {c : Common} {q : Q} (h : q.common = true) (r r' : Rec) :
    q.size c r = q.size c r' := by
  cases q <;> first | rfl | cases h

theorem max_common {c : Common} {q : Q} (h : q.common = true) {rs : Records} (hn : rs ≠ []) (r : Rec) :
    q.max c rs = q.size c r := max_const hn fun p _ => size_common h p.2 r

theorem firstRec_ok {rs : Records} (h : rs ≠ []) : ∃ p, p ∈ rs ∧ rs[0]? = some p ∧
    firstRec rs = .ok p.2 := by
  cases rs with
  | nil => exact absurd rfl h
  | cons p rs => exact ⟨p, List.mem_cons_self .., rfl, rfl⟩

theorem findMaxSequences_ok {c : Common} {rs : Records}
    (h : ∀ p ∈ rs, ∃ n : Nat, p.2.get? (py! "num_sequences") = some (.np .i64 (.int n))) :
    findMaxSequences rs = .ok (Int.ofNat (Q.max c rs .seqs)) := by
  unfold findMaxSequences Q.max
  have key : ∀ (rs : Records) (m : Nat),
      (∀ p ∈ rs, ∃ n : Nat, p.2.get? (py! "num_sequences") = some (.np .i64 (.int n))) →
      findMaxSequences.go (Int.ofNat m) rs =
        .ok (Int.ofNat (rs.foldl (fun m p => Nat.max m (Q.size c p.2 .seqs)) m)) := by
    intro rs
    induction rs with
    | nil => intro m _; rfl
    | cons p rs ih =>
      intro m hall
      obtain ⟨k, r⟩ := p
      obtain ⟨n, hn⟩ := hall (k, r) (List.mem_cons_self ..)
      simp only at hn
      have hs : Q.size c r .seqs = n := by simp [Q.size, seqsOf, hn]
      rw [List.foldl_cons, ← ih _ fun q hq => hall q (List.mem_cons_of_mem _ hq), hs]
      simp only [findMaxSequences.go, field_ok hn, Val.int, bind, Except.bind]
      congr 1
      have hmx : Nat.max m n = if m < n then n else m := by
        split
        · exact Nat.max_eq_right (by omega)
        · exact Nat.max_eq_left (by omega)
      rw [hmx]
      by_cases hlt : m < n
      · rw [if_pos hlt, if_pos (by simpa using hlt)]; rfl
      · rw [if_neg hlt, if_neg (by simpa using hlt)]
  exact key rs 0 h

theorem findMaxLen_ok {c : Common} {q : Q} {k : PyStr} (hq : ∀ r, q.size c r = lenOf k r) {rs : Records}
    (h : ∀ p ∈ rs, ∃ a n l, p.2.get? k = some (.arr a) ∧ a.shape = n :: l) :
    findMaxLen k rs = .ok (q.max c rs) := by
  unfold findMaxLen Q.max
  generalize 0 = m
  induction rs generalizing m with
  | nil => rfl
  | cons p rs ih =>
    obtain ⟨nm, r⟩ := p
    obtain ⟨a, n, l, ha, hs⟩ := h (nm, r) (List.mem_cons_self ..)
    simp only at ha
    have hsz : q.size c r = n := by rw [hq, lenOf, ha]; simp [hs]
    rw [List.foldl_cons, ← ih (fun q hq => h q (List.mem_cons_of_mem _ hq)), hsz]
    simp only [findMaxLen.go, field_ok ha, Val.len, hs, bind, Except.bind]
    congr 1
    split
    · exact (Nat.max_eq_right (by omega)).symm
    · exact (Nat.max_eq_left (by omega)).symm

theorem elemInt_numbers {l : List Nat} {i n : Nat} (h : l[i]? = some n) :
    (numbers l).elemInt i = .ok (Int.ofNat n) := by
  obtain ⟨hi, he⟩ := List.getElem?_eq_some_iff.1 h
  simp [numbers, Val.elemInt, NdArr.get?, inBounds, hi, ravel, prod, he]

/-- An array field of a reshaped record. -/
theorem SiteRec.arr {f t o c r k flat} (h : SiteRec f t o c flat r) (hk : IsArr f k) (hf : k ∉ flat) :
    ∃ a ty, f.arrays.get? k = some ty ∧ r.get? k = some (.arr a) ∧ a.ty = ty ∧ a.WF ∧
      a.shape = (((shapeTable t).get? k).getD []).map (Q.size c r) := by
  obtain ⟨hu, hs, ha, hp⟩ := hk
  obtain ⟨ty, hty⟩ := Option.isSome_iff_exists.1 ha
  obtain ⟨a, h1, h2, h3, h4⟩ := h.array k ty hu hs hty
  refine ⟨a, ty, hty, h1, h2, h3, ?_⟩
  rw [h4]
  simp [storedShape, hf, shapeOf, hp]

theorem evalDimA_ok {f t o c rs flat d q} (hc : Coherent f t flat) (h : SiteRecords f t o c [] rs)
    (hd : denA f t d = some q) : evalDimA rs d = .ok [Int.ofNat (q.max c rs)] := by
  obtain ⟨p0, hp0, -, hfirst⟩ := firstRec_ok h.nonempty
  have h0 := h.recs p0 hp0
  cases d with
  | maxSeqs =>
    cases hd
    simp only [evalDimA]
    rw [findMaxSequences_ok (c := c) fun p hp => ((h.recs p hp).seqs).imp fun n hn => hn.2]
    rfl
  | maxBeams =>
    cases hd
    simp only [evalDimA]
    rw [findMaxLen_ok (c := c) (q := .beams) (fun r => rfl) fun p hp => by
      obtain ⟨a, ty, -, ha, -, -, hs⟩ := (h.recs p hp).arr hc.beamNums (by simp)
      rw [hc.shapes.1] at hs
      exact ⟨a, _, _, ha, hs⟩]
    rfl
  | maxLen k =>
    simp only [denA] at hd
    split at hd
    · rename_i hk
      obtain ⟨rfl, harr⟩ := hk
      cases hd
      simp only [evalDimA]
      rw [findMaxLen_ok (c := c) (q := .blanked) (fun r => rfl) fun p hp => by
        obtain ⟨a, ty, -, ha, -, -, hs⟩ := (h.recs p hp).arr harr (by simp)
        rw [hc.shapes.2.2] at hs
        exact ⟨a, _, _, ha, hs⟩]
      rfl
    · cases hd
  | maxPpo => cases hd
  | firstElem k i =>
    simp only [denA] at hd
    split at hd
    · rename_i hk
      rw [Option.filter_eq_some_iff] at hd
      have hv := h0.dims k hk.1 hk.2
      simp only [evalDimA, hfirst, field_ok hv, bind, Except.bind]
      rw [elemInt_numbers (n := q.size c p0.2) (by rw [List.getElem?_map, hd.1]; rfl),
        max_common hd.2 h.nonempty p0.2]
    · cases hd
  | firstShape k i =>
    simp only [denA] at hd
    split at hd
    · rename_i hk
      rw [Option.filter_eq_some_iff] at hd
      obtain ⟨a, ty, -, ha, -, -, hs⟩ := h0.arr hk (by simp)
      have e : a.shape[i]? = some (q.size c p0.2) := by rw [hs, List.getElem?_map, hd.1]; rfl
      simp only [evalDimA, hfirst, field_ok ha, bind, Except.bind, Val.shapeAt, Val.shape?, e,
        max_common hd.2 h.nonempty p0.2]
    · cases hd

theorem evalDims_ok {f t o c rs flat} (hc : Coherent f t flat) (h : SiteRecords f t o c [] rs) :
    ∀ {ds : List DimA} {qs : List Q}, mapO (denA f t) ds = some qs →
    evalDims rs ds = .ok (qs.map fun q => Int.ofNat (q.max c rs))
  | [], qs, hm => by cases hm; rfl
  | d :: ds, qs, hm => by
    simp only [mapO] at hm
    split at hm
    · rename_i q qs' hq hqs
      cases hm
      simp [evalDims, evalDimA_ok hc h hq, evalDims_ok hc h hqs, bind, Except.bind]
    · cases hm

/-- The value of `pulse_phase_offset` in a record. -/
theorem SiteRec.ppo {f t o c r flat ty} (h : SiteRec f t o c flat r)
    (hu : py! "pulse_phase_offset" ∈ f.unshared) (hs : f.single.get? (py! "pulse_phase_offset") = none)
    (ha : f.arrays.get? (py! "pulse_phase_offset") = some ty) (hf : py! "pulse_phase_offset" ∉ flat) :
    ∃ a, r.get? (py! "pulse_phase_offset") = some (.arr a) ∧ a.ty = ty ∧ a.WF ∧
      a.shape = o.shape.map (Q.size c r) := by
  obtain ⟨a, h1, h2, h3, h4⟩ := h.array _ ty hu hs ha
  refine ⟨a, h1, h2, h3, ?_⟩
  rw [h4]
  simp [storedShape, hf, shapeOf]

theorem maxPpoShape_ok {c : Common} {qs : List Q} : ∀ {rs : Records} {m : List Nat},
    m.length = qs.length →
    (∀ p ∈ rs, ∃ a, p.2.get? (py! "pulse_phase_offset") = some (.arr a) ∧ a.shape = qs.map (Q.size c p.2)) →
    maxPpoShape m rs = .ok (List.zipWith (fun q x => rs.foldl (fun m p => Nat.max m (q.size c p.2)) x) qs m)
  | [], m, hm, _ => by
    simp only [maxPpoShape, List.foldl_nil]
    congr 1
    apply List.ext_getElem <;> simp [hm]
  | (n, r) :: rs, m, hm, h => by
    obtain ⟨a, ha, hs⟩ := h (n, r) (List.mem_cons_self ..)
    simp only at ha hs
    have hl : a.shape.length = m.length := by rw [hs, List.length_map, hm]
    have ih := maxPpoShape_ok (c := c) (qs := qs) (rs := rs) (m := List.zipWith max a.shape m)
      (by simp [hs, hm]) fun p hp => h p (List.mem_cons_of_mem _ hp)
    simp only [maxPpoShape, field_ok ha, Val.shape?, bind, Except.bind, hl, if_true, ih]
    congr 1
    apply List.ext_getElem
    · simp [hs, hm]
    · intro i h1 h2
      simp only [List.getElem_zipWith, List.foldl_cons, hs, List.getElem_map]
      congr 1
      exact Nat.max_comm _ _

theorem foldl_max_idem (c : Common) (q : Q) {rs : Records} {p : PyStr × Rec} (h : rs[0]? = some p) :
    rs.foldl (fun m p => Nat.max m (q.size c p.2)) (q.size c p.2) = q.max c rs := by
  cases rs with
  | nil => cases h
  | cons p' rs =>
    cases h
    simp only [Q.max, List.foldl_cons]
    congr 1
    have : Nat.max (q.size c p.2) (q.size c p.2) = q.size c p.2 := Nat.max_self _
    rw [this]
    exact (Nat.max_eq_right (Nat.zero_le _)).symm

theorem findMaxPpo_ok {f t o c rs ty} (h : SiteRecords f t o c [] rs)
    (hu : py! "pulse_phase_offset" ∈ f.unshared) (hs : f.single.get? (py! "pulse_phase_offset") = none)
    (ha : f.arrays.get? (py! "pulse_phase_offset") = some ty) :
    findMaxPpo rs = .ok (o.shape.map (Q.max c rs)) := by
  obtain ⟨p0, hp0, hg0, hfirst⟩ := firstRec_ok h.nonempty
  obtain ⟨a, hav, -, -, has⟩ := (h.recs p0 hp0).ppo hu hs ha (by simp)
  have key : o ≠ .none → findMaxPpo rs = maxPpoShape a.shape rs := by
    intro ho
    simp only [findMaxPpo, hfirst, field_ok hav, Val.shape?, bind, Except.bind]
    cases o with
    | none => exact absurd rfl ho
    | perSeq =>
      simp only [Ppo.shape, List.map_cons, List.map_nil] at has
      obtain ⟨n, hn, hv⟩ := (h.recs p0 hp0).seqs
      have : Q.size c p0.2 .seqs ≠ 0 := by simp [Q.size, seqsOf, hv]; omega
      rw [has]
      split
      · rename_i e; cases e
      · rename_i e; exact absurd (by simpa using congrArg List.head? e) this
      · rfl
    | flat =>
      simp only [Ppo.shape, List.map_cons, List.map_nil] at has
      have : Q.size c p0.2 .pulses ≠ 0 := by have := h.pos; simp [Q.size]; unfold Common.Pos at this; omega
      rw [has]
      split
      · rename_i e; cases e
      · rename_i e; exact absurd (by simpa using congrArg List.head? e) this
      · rfl
  by_cases ho : o = .none
  · subst ho
    simp only [Ppo.shape, List.map_cons, List.map_nil] at has
    have e : a.shape = [0] := has
    simp only [findMaxPpo, hfirst, field_ok hav, Val.shape?, bind, Except.bind, e]
    rw [Ppo.shape, List.map_cons, max_const h.nonempty (n := 0) (fun p _ => rfl)]
    rfl
  · rw [key ho, has, maxPpoShape_ok (c := c) (qs := o.shape) (by simp)]
    · congr 1
      apply List.ext_getElem
      · simp
      · intro i h1 h2
        simp only [List.getElem_zipWith, List.getElem_map]
        exact foldl_max_idem c _ hg0
    · intro p hp
      obtain ⟨b, hb, -, -, hbs⟩ := (h.recs p hp).ppo hu hs ha (by simp)
      exact ⟨b, hb, hbs⟩

theorem toShape_ofNat : ∀ l : List Nat, toShape (l.map Int.ofNat) = .ok l
  | [] => rfl
  | n :: l => by
    have := toShape_ofNat l
    simp only [List.map_cons, toShape, this, bind, Except.bind]
    rw [if_pos (show 0 ≤ Int.ofNat n from Int.natCast_nonneg n)]
    rfl

end Verif.Bor
