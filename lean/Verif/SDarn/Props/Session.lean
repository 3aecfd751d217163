import Verif.SDarn.Model.Session
import Verif.SDarn.Sample
import Verif.Dmap.Props.Session
/-!
# C88 for programs that use `SDarnWrite`

Specification: the bytes a call returned, and the contents of the object it returned after any further calls.
-/
namespace Verif.SD
open Verif Spec

theorem darnToBytes_prefix (gs opt : List Table) (k rn : Nat) (buf : Bytes) (rs : List Rec) :
    buf <+: (darnToBytes gs opt k rn buf rs).2.1 := by
  induction rs generalizing k rn buf with
  | nil => exact List.prefix_refl _
  | cons r rs ih =>
    simp only [darnToBytes]
    cases writeCheck gs opt k r with
    | error e => exact List.prefix_refl _
    | ok u =>
      dsimp only
      have := recordToBytes_prefix k buf r
      generalize recordToBytes k buf r = x at this ⊢
      obtain ⟨x1, x2, x3⟩ := x
      cases x1 with
      | error e => exact this
      | ok u =>
        dsimp only at this ⊢
        exact this.trans (ih (k + 1) k x2)

/-- If the first record was written, the buffer is longer. -/
theorem darnToBytes_grows {gs opt : List Table} {k rn : Nat} {buf : Bytes} {r : Rec} {rs : List Rec}
    (h : (darnToBytes gs opt k rn buf (r :: rs)).1 = .ok ()) :
    (darnToBytes gs opt k rn buf (r :: rs)).2.1 ≠ buf := by
  simp only [darnToBytes] at h ⊢
  cases hc : writeCheck gs opt k r with
  | error e => rw [hc] at h; cases h
  | ok u =>
    rw [hc] at h
    dsimp only at h ⊢
    have hp := recordToBytes_prefix k buf r
    have hs := @recordToBytes_same k buf r
    have hw : (recordToBytes k buf r).1 = .ok () → ∃ b, Written k r b := by
      unfold recordToBytes
      cases he : encodeFields k r with
      | mk x r' =>
        cases x with
        | error e => nofun
        | ok enc => exact fun _ => ⟨_, written_of_encodeFields he⟩
    generalize recordToBytes k buf r = x at hp hs hw h ⊢
    obtain ⟨x1, x2, x3⟩ := x
    cases x1 with
    | error e => cases h
    | ok u =>
      dsimp only at hp hs hw ⊢
      have h3 := darnToBytes_prefix gs opt (k + 1) k x2 rs
      intro e
      have h3 : x2 <+: buf := by
        have e' : (darnToBytes gs opt (k + 1) k x2 rs).2.1 = buf := e
        rwa [e'] at h3
      obtain ⟨b, hb⟩ := hw rfl
      exact hs.1 (h3.eq_of_length_le hp.length_le) b hb

theorem filenameCheck_buf {w w1 : Writer} {name : PyStr} {x : Except Err Unit} (h : w.filenameCheck name = (x, w1)) :
    w1.buf = w.buf ∧ w1.recs = w.recs := by
  unfold Writer.filenameCheck at h
  split at h
  · cases h; exact ⟨rfl, rfl⟩
  · split at h <;> (cases h; exact ⟨rfl, rfl⟩)

theorem darnWrite_prefix (ft : FileType) (w : Writer) (fs : FileSys) (name : PyStr) :
    w.buf <+: (darnWrite ft w fs name).2.1.buf := by
  unfold darnWrite
  cases hf : w.filenameCheck name with
  | mk x w1 =>
    have hb := (filenameCheck_buf hf).1
    cases x with
    | error e => exact hb ▸ List.prefix_refl _
    | ok u =>
      dsimp only
      cases w1.emptyRecordCheck with
      | error e => exact hb ▸ List.prefix_refl _
      | ok u =>
        dsimp only
        unfold darnStructureToBytes
        have := darnToBytes_prefix (writeGroups ft) (writeOptional ft) 0 0 w1.buf w1.recs
        rw [hb] at this
        rw [hb]
        generalize darnToBytes (writeGroups ft) (writeOptional ft) 0 0 w.buf w1.recs = z at this ⊢
        obtain ⟨z1, z2, z3, z4⟩ := z
        cases z1 <;> exact this

/-- After a successful write the buffer is longer, and it is what the file has. -/
theorem darnWrite_grows {ft : FileType} {w w' : Writer} {fs fs' : FileSys} {name : PyStr}
    (hne : w.recs ≠ []) (h : darnWrite ft w fs name = (.ok (), w', fs')) :
    w'.buf ≠ w.buf ∧ ∃ p, fs' = fs.write p w'.buf := by
  unfold darnWrite at h
  cases hf : w.filenameCheck name with
  | mk x w1 =>
    have hb := (filenameCheck_buf hf).1
    rw [hf] at h
    cases x with
    | error e => cases h
    | ok u =>
      dsimp only at h
      cases he : w1.emptyRecordCheck with
      | error e => rw [he] at h; cases h
      | ok u =>
        rw [he] at h
        dsimp only at h
        unfold darnStructureToBytes at h
        rw [← (filenameCheck_buf hf).2] at hne
        obtain ⟨r, rs, hr⟩ := List.exists_cons_of_ne_nil hne
        rw [hr] at h
        have hg := @darnToBytes_grows (writeGroups ft) (writeOptional ft) 0 0 w1.buf r rs
        generalize darnToBytes (writeGroups ft) (writeOptional ft) 0 0 w1.buf (r :: rs) = z at h hg
        obtain ⟨z1, z2, z3, z4⟩ := z
        cases z1 with
        | error e => cases h
        | ok u =>
          cases h
          exact ⟨hb ▸ hg rfl, _, rfl⟩

theorem darnWriter_new {inp : WInput} {name : PyStr} {w : Writer} (h : darnWriter inp name = .ok w) :
    Writer.new inp name = .ok w := by
  unfold darnWriter at h
  cases hn : Writer.new inp name with
  | error e => rw [hn] at h; cases h
  | ok v =>
    rw [hn] at h
    simp only [bind, Except.bind] at h
    cases he : v.emptyRecordCheck with
    | error e => rw [he] at h; cases h
    | ok u => rw [he] at h; cases h; rfl

/-- Making an `SDarnWrite` is making a `DmapWrite`, or fails and changes nothing. -/
theorem newDarn_step (s : Session) (inp : WInput) (name : PyStr) :
    darnStep s (.newDarn inp name) = s ∨ darnStep s (.newDarn inp name) = s.step (.new inp name) := by
  simp only [darnStep]
  cases h : darnWriter inp name with
  | error e => exact .inl rfl
  | ok w =>
    right
    simp only [Session.step, darnWriter_new h]

theorem darnStep_good {s : Session} (hs : s.Good) (c : DCall) : (darnStep s c).Good := by
  cases c with
  | base c => exact step_good hs c
  | newDarn inp name =>
    rcases newDarn_step s inp name with e | e <;> rw [e]
    · exact hs
    · exact step_good hs _
  | darn ft i name =>
    obtain ⟨h1, h2, h3, h4⟩ := hs
    simp only [darnStep]
    cases hw : s.writers[i]? with
    | none => exact ⟨h1, h2, h3, h4⟩
    | some p =>
      obtain ⟨w, id⟩ := p
      dsimp only
      have hp := darnWrite_prefix ft { w with buf := s.arrays id } s.files name
      cases hx : darnWrite ft { w with buf := s.arrays id } s.files name with
      | mk res q =>
        obtain ⟨w', fs⟩ := q
        rw [hx] at hp
        dsimp only at hp ⊢
        have hid : id < s.next := h2 _ (List.mem_of_getElem? hw)
        refine ⟨?_, ?_, ?_, h4⟩
        · dsimp only
          rw [set_same hw]
          exact h1
        · intro q hq
          rcases List.mem_or_eq_of_mem_set hq with hq | rfl
          · exact h2 q hq
          · exact hid
        · intro q hq
          exact (h3 q hq).trans (setArray_prefix hp _)

theorem darnRun_good {s : Session} (hs : s.Good) (cs : List DCall) : (darnRun s cs).Good := by
  induction cs generalizing s with
  | nil => exact hs
  | cons c cs ih => exact ih (darnStep_good hs c)

/-- **C88** In every program with writers of both classes: the bytes that were returned still stand at the beginning of the
stream. -/
theorem C88_darn_prefix (fs : FileSys) (cs : List DCall) {id : Nat} {out : Bytes}
    (h : (id, out) ∈ (darnRun (Session.start fs) cs).returned) : out <+: (darnRun (Session.start fs) cs).arrays id :=
  (darnRun_good (start_good fs) cs).held _ h

/-- The call is of writer `i`. -/
def DCall.on (i : Nat) : DCall → Prop
  | .base c => c.on i
  | .newDarn _ _ => False
  | .darn _ j _ => j = i

theorem darnStep_apart {s : Session} (hs : s.Good) {c : DCall} {i id : Nat} {w : Writer} (hi : s.writers[i]? = some (w, id))
    (hc : ¬ c.on i) : (darnStep s c).writers[i]? = some (w, id) ∧ (darnStep s c).arrays id = s.arrays id := by
  cases c with
  | base c => exact step_apart hs hi hc
  | newDarn inp name =>
    rcases newDarn_step s inp name with e | e <;> rw [e]
    · exact ⟨hi, rfl⟩
    · exact step_apart hs hi (by simp [SCall.on])
  | darn ft j name =>
    simp only [darnStep]
    have hj : j ≠ i := hc
    cases hw : s.writers[j]? with
    | none => exact ⟨hi, rfl⟩
    | some p =>
      obtain ⟨v, jd⟩ := p
      dsimp only
      refine ⟨by rw [List.getElem?_set_ne hj, hi], ?_⟩
      unfold setArray
      rw [if_neg (ids_ne hs.apart hi hw hj)]

theorem darnRun_apart {s : Session} (hs : s.Good) {cs : List DCall} {i id : Nat} {w : Writer} (hi : s.writers[i]? = some (w, id))
    (hc : ∀ c ∈ cs, ¬ c.on i) : (darnRun s cs).writers[i]? = some (w, id) ∧ (darnRun s cs).arrays id = s.arrays id := by
  induction cs generalizing s with
  | nil => exact ⟨hi, rfl⟩
  | cons c cs ih =>
    obtain ⟨h1, h2⟩ := darnStep_apart hs hi (hc c (by simp))
    obtain ⟨h3, h4⟩ := ih (darnStep_good hs c) h1 fun d hd => hc d (List.mem_cons_of_mem _ hd)
    exact ⟨h3, h4.trans h2⟩

theorem darnRun_append (s : Session) (cs ds : List DCall) : darnRun s (cs ++ ds) = darnRun (darnRun s cs) ds := by
  induction cs generalizing s with
  | nil => rfl
  | cons c cs ih => exact ih _

/-- The state after a call of `write_dmap_stream` that returned a stream. -/
theorem stream_returned {s : Session} {i : Nat} {inp : WInput} {id : Nat} {out : Bytes}
    (hr : (s.step (.stream i inp)).returned = s.returned ++ [(id, out)]) :
    ∃ w, (s.step (.stream i inp)).writers[i]? = some (w, id) ∧ (s.step (.stream i inp)).arrays id = out := by
  cases hw : s.writers[i]? with
  | none => simp [Session.step, hw] at hr
  | some p =>
    obtain ⟨w, jd⟩ := p
    cases hx : Writer.writeStream { w with buf := s.arrays jd } inp with
    | mk res w' =>
      have hs : s.step (.stream i inp) =
          { s with
            writers := s.writers.set i (w', jd)
            arrays := setArray s.arrays jd w'.buf
            returned := s.returned ++ match (generalizing := false) res with
              | .ok out => [(jd, out)]
              | .error _ => [] } := by
        simp only [Session.step, hw, hx]
        cases res <;> rfl
      rw [hs] at hr ⊢
      dsimp only at hr ⊢
      cases res with
      | error e => simp at hr
      | ok out1 =>
        have := List.append_cancel_left hr
        simp only [List.cons.injEq, Prod.mk.injEq, and_true] at this
        obtain ⟨rfl, rfl⟩ := this
        refine ⟨w', by simp [(List.getElem?_eq_some_iff.1 hw).1], ?_⟩
        simp [setArray, writeStream_returns hx]

/-- **C88** A stream that a call returned stays as it is as long as only other writers, of both classes, are used and made.
Missing: later calls of the same writer, see `C88_darn_prefix`, `C88_darn_violation` and `C88_iff`. -/
theorem C88_darn_apart_partial (fs : FileSys) (before after : List DCall) {i : Nat} {inp : WInput} {id : Nat} {out : Bytes}
    (hr : (darnRun (Session.start fs) (before ++ [.base (.stream i inp)])).returned =
      (darnRun (Session.start fs) before).returned ++ [(id, out)])
    (hc : ∀ c ∈ after, ¬ c.on i) :
    (darnRun (Session.start fs) (before ++ .base (.stream i inp) :: after)).arrays id = out := by
  have hg := darnRun_good (start_good fs) before
  rw [darnRun_append] at hr ⊢
  generalize darnRun (Session.start fs) before = s at hr hg ⊢
  obtain ⟨w, h1, h2⟩ := stream_returned (s := s) hr
  change (darnRun (s.step (.stream i inp)) after).arrays id = out
  rw [(darnRun_apart (step_good hg _) h1 hc).2, h2]

/-- In this state the writer has records and the call of `write_X` succeeds. -/
def Succeeds (s : Session) (ft : FileType) (i : Nat) (name : PyStr) : Prop :=
  ∃ w id, s.writers[i]? = some (w, id) ∧ w.recs ≠ [] ∧ (darnWrite ft { w with buf := s.arrays id } s.files name).1 = .ok ()

/-- **C88** violated by `write_X` too: in every program, a call of `write_X` that succeeds makes the stream longer that its writer
returned last, and what was returned goes into the file once more. -/
theorem C88_darn_violation (fs : FileSys) (before between : List DCall) {i : Nat} {inp : WInput} {id : Nat} {out : Bytes}
    (hr : (darnRun (Session.start fs) (before ++ [.base (.stream i inp)])).returned =
      (darnRun (Session.start fs) before).returned ++ [(id, out)])
    (hc : ∀ c ∈ between, ¬ c.on i) {ft : FileType} {name : PyStr}
    (hs : Succeeds (darnRun (Session.start fs) (before ++ .base (.stream i inp) :: between)) ft i name) :
    let s := darnRun (Session.start fs) (before ++ .base (.stream i inp) :: between)
    ∃ more p, more ≠ [] ∧ (darnStep s (.darn ft i name)).arrays id = out ++ more ∧
      (darnStep s (.darn ft i name)).files = s.files.write p (out ++ more) := by
  have hg := darnRun_good (start_good fs) before
  rw [darnRun_append] at hr hs ⊢
  generalize darnRun (Session.start fs) before = s at hr hg hs ⊢
  obtain ⟨w0, h1, h2⟩ := stream_returned (s := s) hr
  change Succeeds (darnRun (s.step (.stream i inp)) between) ft i name at hs
  change let s := darnRun (s.step (.stream i inp)) between
    ∃ more p, more ≠ [] ∧ (darnStep s (.darn ft i name)).arrays id = out ++ more ∧
      (darnStep s (.darn ft i name)).files = s.files.write p (out ++ more)
  obtain ⟨h3, h4⟩ := darnRun_apart (step_good hg _) h1 hc
  rw [h2] at h4
  generalize darnRun (s.step (.stream i inp)) between = t at h3 h4 hs ⊢
  dsimp only
  obtain ⟨w, jd, hw, hne, hok⟩ := hs
  rw [h3] at hw
  cases hw
  have hp := darnWrite_prefix ft { w0 with buf := t.arrays id } t.files name
  simp only [darnStep, h3]
  cases hx : darnWrite ft { w0 with buf := t.arrays id } t.files name with
  | mk res q =>
    obtain ⟨w', fs'⟩ := q
    rw [hx] at hok hp
    cases hok
    obtain ⟨h5, p, h6⟩ := darnWrite_grows (w := { w0 with buf := t.arrays id }) hne hx
    dsimp only at h5 h6 hp ⊢
    rw [h4] at h5 hp
    obtain ⟨more, hm⟩ := hp
    refine ⟨more, p, ?_, ?_, ?_⟩
    · rintro rfl
      rw [List.append_nil] at hm
      exact h5 hm.symm
    · simp [setArray, hm]
    · rw [h6, hm]

/-! ## Samples -/

/-- An `SDarnWrite` and a `DmapWrite`. -/
def bothClasses : List DCall :=
  [.newDarn (dmapInput [Sample.rawacf]) [], .base (.new (dmapInput [Sample.grid]) [])]

theorem bothClasses_stream : ∃ out, (darnRun (Session.start fun _ => none) (bothClasses ++ [.base (.stream 0 noRecords)])).returned =
    (darnRun (Session.start fun _ => none) bothClasses).returned ++ [(0, out)] :=
  ⟨((darnRun (Session.start fun _ => none) (bothClasses ++ [.base (.stream 0 noRecords)])).returned.map Prod.snd).head!, by
    decide +kernel⟩

/-- The stream of the `SDarnWrite` stays as it is while the other writer writes and an `SDarnWrite` is made and used. -/
example : ∃ out, (0, out) ∈ (darnRun (Session.start fun _ => none) (bothClasses ++ [.base (.stream 0 noRecords)])).returned ∧
    (darnRun (Session.start fun _ => none) (bothClasses ++ .base (.stream 0 noRecords) ::
      [.darn .grid 1 (py! "g"), .newDarn (dmapInput [Sample.rawacf]) [], .darn .rawacf 2 (py! "f")])).arrays 0 = out := by
  obtain ⟨out, h⟩ := bothClasses_stream
  exact ⟨out, by rw [h]; simp, C88_darn_apart_partial _ bothClasses _ h (by simp [DCall.on])⟩

theorem bothClasses_succeeds : Succeeds (darnRun (Session.start fun _ => none) (bothClasses ++ .base (.stream 0 noRecords) ::
    [.darn .grid 1 (py! "g")])) .rawacf 0 (py! "f") := by
  generalize hs : darnRun (Session.start fun _ => none) (bothClasses ++ .base (.stream 0 noRecords) ::
    [.darn .grid 1 (py! "g")]) = s
  have h : (match s.writers[0]? with
      | none => false
      | some (w, id) => !w.recs.isEmpty && (darnWrite .rawacf { w with buf := s.arrays id } s.files (py! "f")).1.isOk) = true := by
    rw [← hs]
    decide +kernel
  cases hw : s.writers[0]? with
  | none => rw [hw] at h; cases h
  | some p =>
    obtain ⟨w, id⟩ := p
    rw [hw] at h
    simp only [Bool.and_eq_true, Bool.not_eq_true', List.isEmpty_eq_false_iff] at h
    refine ⟨w, id, hw, h.1, ?_⟩
    have h2 := h.2
    cases hx : (darnWrite .rawacf { w with buf := s.arrays id } s.files (py! "f")).1 with
    | error e => rw [hx] at h2; cases h2
    | ok u => rfl

/-- `write_dmap_stream` and then `write_rawacf` of the same writer: the stream is longer. -/
example : ∃ out more, more ≠ [] ∧
    (0, out) ∈ (darnRun (Session.start fun _ => none) (bothClasses ++ [.base (.stream 0 noRecords)])).returned ∧
    (darnStep (darnRun (Session.start fun _ => none) (bothClasses ++ .base (.stream 0 noRecords) :: [.darn .grid 1 (py! "g")]))
      (.darn .rawacf 0 (py! "f"))).arrays 0 = out ++ more := by
  obtain ⟨out, h⟩ := bothClasses_stream
  obtain ⟨more, p, h1, h2, -⟩ := C88_darn_violation _ bothClasses _ h (by simp [DCall.on]) bothClasses_succeeds
  exact ⟨out, more, h1, by rw [h]; simp, h2⟩

end Verif.SD
