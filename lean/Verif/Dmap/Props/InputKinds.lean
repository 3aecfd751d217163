import Verif.Dmap.Props.Stream
import Verif.Dmap.Props.Convert
/-!
# C83: records of DMAP structures and records of plain values
-/
namespace Verif
open Spec

/-- `DmapWrite(records).write_dmap_stream()` for any records. -/
def writeGiven (inp : WInput) : Except Err Bytes :=
  match Writer.new inp [] with
  | .error e => .error e
  | .ok w => (w.writeStream noRecords).1

theorem asDmapRecs_dmap (recs : List Rec) : asDmapRecs (dmapInput recs).recs = recs := by
  unfold asDmapRecs dmapInput
  simp only [List.map_map]
  exact (List.map_congr_left (g := id) fun r _ => by
    simp only [Function.comp, List.map_map, id]
    exact (List.map_congr_left (g := id) fun p _ => rfl).trans (List.map_id _)).trans (List.map_id _)

/-- The outcome of the writer from the outcome of the check of the input. -/
theorem writeGiven_of {inp : WInput} {b : Bool} {recs : List Rec} (h : checkDmapDict inp = .ok (b, recs)) (hne : recs ≠ []) :
    writeGiven inp = writeBytes recs := by
  unfold writeGiven writeBytes
  rw [writerNew_dmapInput]
  unfold Writer.new
  rw [h]
  simp only [bind, Except.bind, pure, Except.pure]
  rw [writeStream_eq hne, writeStream_eq hne]

theorem writeGiven_error {inp : WInput} {e : Err} (h : checkDmapDict inp = .error e) : writeGiven inp = .error e := by
  unfold writeGiven Writer.new
  rw [h]
  rfl

theorem asPlainRec_only {d : Dict PyStr InVal} {x : PlainRec} (h : asPlainRec d = .ok x) :
    d = x.map fun p => (p.1, .plain p.2) := by
  induction d generalizing x with
  | nil => cases h; rfl
  | cons p d ih =>
    obtain ⟨k, v⟩ := p
    cases v with
    | dmap f => cases h
    | plain v =>
      simp only [asPlainRec, bind, Except.bind] at h
      cases hd : asPlainRec d with
      | error e => rw [hd] at h; cases h
      | ok y =>
        rw [hd] at h
        cases h
        rw [ih hd]
        rfl

theorem asPlainRecs_only {l : List (Dict PyStr InVal)} {x : List PlainRec} (h : asPlainRecs l = .ok x) :
    l = x.map fun d => d.map fun p => (p.1, .plain p.2) := by
  induction l generalizing x with
  | nil => cases h; rfl
  | cons d l ih =>
    simp only [asPlainRecs, bind, Except.bind] at h
    cases hd : asPlainRec d with
    | error e => rw [hd] at h; cases h
    | ok y =>
      rw [hd] at h
      cases hl : asPlainRecs l with
      | error e => rw [hl] at h; cases h
      | ok z =>
        rw [hl] at h
        cases h
        rw [asPlainRec_only hd, ih hl]
        rfl

theorem written_fields {k : Nat} {rs : List Rec} {bs : Bytes} (h : WrittenList k rs bs) :
    ∀ r ∈ rs, ∀ p ∈ r, p.2 ≠ .other := by
  have key : ∀ {k : Nat} {r : Rec} {b : Bytes}, Written k r b → ∀ p ∈ r, p.2 ≠ .other := by
    intro k r b h
    induction h with
    | nil => simp
    | scalar _ _ ih =>
      intro p hp
      rcases List.mem_cons.1 hp with rfl | hp
      · simp
      · exact ih p hp
    | array _ _ ih =>
      intro p hp
      rcases List.mem_cons.1 hp with rfl | hp
      · simp
      · exact ih p hp
  induction h with
  | nil => simp
  | cons h1 _ _ _ _ ih =>
    intro r hr
    rcases List.mem_cons.1 hr with rfl | hr
    · exact key h1
    · exact ih r hr

theorem onlyDmap_of {l : List (Dict PyStr InVal)} (h : ∀ r ∈ asDmapRecs l, ∀ p ∈ r, p.2 ≠ .other) :
    l = (dmapInput (asDmapRecs l)).recs := by
  unfold dmapInput asDmapRecs
  simp only [List.map_map]
  conv => lhs; rw [← List.map_id l]
  refine List.map_congr_left fun d hd => ?_
  simp only [Function.comp, id, List.map_map]
  conv => lhs; rw [← List.map_id d]
  refine List.map_congr_left fun p hp => ?_
  obtain ⟨k, v⟩ := p
  cases v with
  | dmap f => rfl
  | plain v =>
    exact absurd rfl (h (d.map fun p => (p.1, p.2.toField)) (List.mem_map.2 ⟨d, hd, rfl⟩) (k, .other)
      (List.mem_map.2 ⟨_, hp, rfl⟩))

theorem dict2dmap_length {ps : List PlainRec} {rs : List Rec} (h : dict2dmap ps = .ok rs) : rs.length = ps.length := by
  induction ps generalizing rs with
  | nil => cases h; rfl
  | cons d ps ih =>
    simp only [dict2dmap, bind, Except.bind] at h
    cases hd : plainToRec d with
    | error e => rw [hd] at h; cases h
    | ok r =>
      rw [hd] at h
      cases hp : dict2dmap ps with
      | error e => rw [hp] at h; cases h
      | ok rs' =>
        rw [hp] at h
        cases h
        simp [ih hp]

theorem check_dmapRecs {b : Bool} {recs : List Rec} : checkDmapDict ⟨b, (dmapInput recs).recs⟩ = .ok (b, recs) := by
  have := asDmapRecs_dmap recs
  unfold checkDmapDict
  cases recs with
  | nil => rfl
  | cons r rs =>
    cases r with
    | nil => exact congrArg (fun x => Except.ok (b, x)) this
    | cons p r => exact congrArg (fun x => Except.ok (b, x)) this

theorem check_plainRecs {b : Bool} {ps : List PlainRec} (hne : ps ≠ []) (hd : ps.head? ≠ some []) :
    checkDmapDict ⟨b, (plainInput ps).recs⟩ =
      (match dict2dmap ps with
       | .error e => .error e
       | .ok rs => .ok (true, rs)) := by
  cases ps with
  | nil => exact absurd rfl hne
  | cons d ps =>
    cases d with
    | nil => exact absurd rfl hd
    | cons q d =>
      have hp := asPlainRecs_plainInput ((q :: d) :: ps)
      simp only [plainInput, checkDmapDict, List.map_cons] at hp ⊢
      rw [hp]
      simp only [bind, Except.bind]
      cases dict2dmap ((q :: d) :: ps) <;> rfl

/-- **C83** Records of DMAP structures are written as they are. -/
theorem C83_dmap (b : Bool) {recs : List Rec} (hne : recs ≠ []) : writeGiven ⟨b, (dmapInput recs).recs⟩ = writeBytes recs :=
  writeGiven_of check_dmapRecs hne

/-- **C83** (partial: the first record is not empty.)  Of records of plain values is written what `dict2dmap` makes of them,
or its error is raised.  Missing: see `C83_empty_first_violation`. -/
theorem C83_plain_partial (b : Bool) {ps : List PlainRec} (hne : ps ≠ []) (hd : ps.head? ≠ some []) :
    writeGiven ⟨b, (plainInput ps).recs⟩ =
      (match dict2dmap ps with
       | .error e => .error e
       | .ok recs => writeBytes recs) := by
  have h := check_plainRecs (b := b) hne hd
  cases hc : dict2dmap ps with
  | error e => rw [hc] at h; exact writeGiven_error h
  | ok rs =>
    rw [hc] at h
    refine writeGiven_of h ?_
    rintro rfl
    have := dict2dmap_length hc
    exact hne (List.length_eq_zero_iff.1 this.symm)

/-- **C83** A stream is written exactly if the records are all made of DMAP structures and these can be written, or all of
plain values, the first record not being empty, and what `dict2dmap` makes of them can be written; it is the stream of these
records. -/
theorem C83_written {inp : WInput} (hne : inp.recs ≠ []) (bs : Bytes) :
    writeGiven inp = .ok bs ↔
      (∃ recs, inp.recs = (dmapInput recs).recs ∧ writeBytes recs = .ok bs) ∨
      (∃ ps recs, inp.recs = (plainInput ps).recs ∧ ps.head? ≠ some [] ∧ dict2dmap ps = .ok recs ∧ writeBytes recs = .ok bs) := by
  obtain ⟨b, l⟩ := inp
  dsimp only at hne ⊢
  constructor
  · intro h
    have dm : ∀ b', checkDmapDict ⟨b, l⟩ = .ok (b', asDmapRecs l) →
        ∃ recs, l = (dmapInput recs).recs ∧ writeBytes recs = .ok bs := by
      intro b' hc
      have hn : asDmapRecs l ≠ [] := by simpa [asDmapRecs] using hne
      rw [writeGiven_of hc hn] at h
      exact ⟨_, onlyDmap_of (written_fields (writeBytes_inv h).2), h⟩
    cases l with
    | nil => exact absurd rfl hne
    | cons d l =>
      cases d with
      | nil => exact .inl (dm b rfl)
      | cons p d =>
        obtain ⟨k, v⟩ := p
        cases v with
        | dmap f => exact .inl (dm b rfl)
        | plain v =>
          cases hp : asPlainRecs (((k, .plain v) :: d) :: l) with
          | error e =>
            rw [writeGiven_error (e := e) (by simp only [checkDmapDict, bind, Except.bind]; rw [hp])] at h
            cases h
          | ok ps =>
            have hl := asPlainRecs_only hp
            have hps : ps ≠ [] := by rintro rfl; cases hl
            have hhd : ps.head? ≠ some [] := by
              cases ps with
              | nil => exact absurd rfl hps
              | cons q ps =>
                intro hq
                cases hq
                cases hl
            rw [show (⟨b, ((k, .plain v) :: d) :: l⟩ : WInput) = ⟨b, (plainInput ps).recs⟩ from congrArg _ hl,
              C83_plain_partial b hps hhd] at h
            cases hc : dict2dmap ps with
            | error e => rw [hc] at h; cases h
            | ok rs => rw [hc] at h; exact .inr ⟨ps, rs, hl, hhd, hc, h⟩
  · rintro (⟨recs, rfl, h⟩ | ⟨ps, recs, rfl, h1, h2, h3⟩)
    · rw [C83_dmap b (writeBytes_inv h).1]
      exact h
    · have hps : ps ≠ [] := by
        rintro rfl
        exact hne rfl
      rw [C83_plain_partial b hps h1, h2]
      exact h3

/-- **C83** Records of both kinds are never written, wherever the two kinds stand. -/
theorem C83_mixed {inp : WInput} {d d' : Dict PyStr InVal} {k k' : PyStr} {f : Field} {v : PlainVal} (hd : d ∈ inp.recs)
    (hf : (k, .dmap f) ∈ d) (hd' : d' ∈ inp.recs) (hv : (k', .plain v) ∈ d') : ∃ e, writeGiven inp = .error e := by
  cases h : writeGiven inp with
  | error e => exact ⟨e, rfl⟩
  | ok bs =>
    rcases (C83_written (List.ne_nil_of_mem hd) bs).1 h with ⟨recs, h1, -⟩ | ⟨ps, recs, h1, -⟩
    · rw [h1] at hd'
      obtain ⟨r, -, rfl⟩ := List.mem_map.1 hd'
      obtain ⟨p, -, hp⟩ := List.mem_map.1 hv
      cases hp
    · rw [h1] at hd
      obtain ⟨r, -, rfl⟩ := List.mem_map.1 hd
      obtain ⟨p, -, hp⟩ := List.mem_map.1 hf
      cases hp

theorem recordsToBytes_other {n k rn : Nat} {buf : Bytes} {key : PyStr} {r : Rec} {rest : List Rec} :
    (recordsToBytes k rn buf (List.replicate n [] ++ ((key, .other) :: r) :: rest)).1 = .error (.dmapTypeError (k + n)) := by
  induction n generalizing k rn buf with
  | zero => rfl
  | succ n ih =>
    have h : recordToBytes k buf [] = (.ok (), buf ++ [1, 0, 1, 0, 16, 0, 0, 0, 0, 0, 0, 0, 0, 0, 0, 0], []) := by
      have e : recordToBytes k buf [] = (.ok (), buf ++ natLE 4 65537 ++ natLE 4 16 ++ natLE 4 0 ++ natLE 4 0 ++ [], []) := rfl
      rw [e]
      simp only [List.append_assoc]
      rfl
    have hi := ih (k := k + 1) (rn := k) (buf := buf ++ [1, 0, 1, 0, 16, 0, 0, 0, 0, 0, 0, 0, 0, 0, 0, 0])
    rw [List.replicate_succ, List.cons_append]
    simp only [recordsToBytes, h]
    generalize hz : recordsToBytes (k + 1) k (buf ++ [1, 0, 1, 0, 16, 0, 0, 0, 0, 0, 0, 0, 0, 0, 0, 0])
      (List.replicate n [] ++ ((key, .other) :: r) :: rest) = z at hi ⊢
    obtain ⟨x, b, rn', rs⟩ := z
    dsimp only at hi ⊢
    rw [hi, show k + 1 + n = k + (n + 1) by omega]

/-- **C83** violated: after empty records, records of plain values are not converted but refused, whatever they are, as if
they were not plain: `DmapTypeError` with the number of the first one that is not empty. -/
theorem C83_empty_first_violation (b : Bool) (n : Nat) {d : PlainRec} (hd : d ≠ []) (ps : List PlainRec) :
    writeGiven ⟨b, (plainInput (List.replicate (n + 1) [] ++ d :: ps)).recs⟩ = .error (.dmapTypeError (n + 1)) := by
  obtain ⟨q, d', rfl⟩ := List.exists_cons_of_ne_nil hd
  rw [writeGiven_of (b := b) (recs := asDmapRecs (plainInput (List.replicate (n + 1) [] ++ (q :: d') :: ps)).recs) rfl
    (by simp [asDmapRecs, plainInput])]
  unfold writeBytes
  rw [writerNew_dmapInput]
  dsimp only
  rw [writeStream_eq (by simp [asDmapRecs, plainInput])]
  have hr : asDmapRecs (plainInput (List.replicate (n + 1) [] ++ (q :: d') :: ps)).recs =
      List.replicate (n + 1) [] ++ ((q.1, .other) :: d'.map fun p => (p.1, .other)) :: asDmapRecs (plainInput ps).recs := by
    simp [asDmapRecs, plainInput, InVal.toField]
  have := recordsToBytes_other (n := n + 1) (k := 0) (rn := 0) (buf := []) (key := q.1)
    (r := d'.map fun p => (p.1, .other)) (rest := asDmapRecs (plainInput ps).recs)
  dsimp only
  rw [hr, this, Nat.zero_add]
  rfl

/-- One field of an integer. -/
def plainOne : PlainRec := [(py! "x", .scalar .int (.int 7))]

/-- Plain records are written with an empty one behind, not with an empty one in front, nor with DMAP structures. -/
example : (∃ bs, writeGiven ⟨true, (plainInput [plainOne, []]).recs⟩ = .ok bs ∧ bs ≠ []) ∧
    writeGiven ⟨true, (plainInput [[], plainOne]).recs⟩ = .error (.dmapTypeError 1) ∧
    ∃ e, writeGiven ⟨true, (dmapInput [Sample.record]).recs ++ (plainInput [plainOne]).recs⟩ = .error e := by
  refine ⟨?_, C83_empty_first_violation true 0 (d := plainOne) (by decide) [], ?_⟩
  · rw [C83_plain_partial true (by decide) (by decide)]
    exact ⟨_, rfl, by decide +kernel⟩
  · obtain ⟨p, hp⟩ : ∃ p, p ∈ Sample.record := ⟨Sample.record.head (by decide), List.head_mem _⟩
    exact C83_mixed (List.mem_append_left _ (List.mem_map.2 ⟨_, List.mem_singleton.2 rfl, rfl⟩))
      (List.mem_map.2 ⟨p, hp, rfl⟩) (List.mem_append_right _ (List.mem_map.2 ⟨_, List.mem_singleton.2 rfl, rfl⟩))
      (List.mem_map.2 ⟨_, List.mem_singleton.2 rfl, rfl⟩)

end Verif
