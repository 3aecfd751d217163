import Verif.Dmap.Model.Session
import Verif.Dmap.Props.Stream
/-!
# C88: streams that were returned

Specification: the bytes a call returned, and the contents of the object it returned after any further calls.
-/
namespace Verif
open Spec

/-! ## The buffer only grows -/

theorem appendInts_prefix (buf : Bytes) (l : List Int) : buf <+: (appendInts buf l).2 := by
  induction l generalizing buf with
  | nil => exact List.prefix_refl _
  | cons v l ih =>
    simp only [appendInts, appendInt]
    cases packSigned 4 v with
    | error e => exact List.prefix_refl _
    | ok b => exact (List.prefix_append buf b).trans (ih _)

theorem recordToBytes_prefix (rn : Nat) (buf : Bytes) (r : Rec) : buf <+: (recordToBytes rn buf r).2.1 := by
  unfold recordToBytes
  generalize encodeFields rn r = x
  obtain ⟨x1, x2⟩ := x
  cases x1 with
  | error e => exact List.prefix_refl _
  | ok enc =>
    dsimp only
    have := appendInts_prefix buf [encodingIdentifier, enc.data.length + 16, enc.numScalars, enc.numArrays]
    generalize appendInts buf [encodingIdentifier, enc.data.length + 16, enc.numScalars, enc.numArrays] = z at this ⊢
    obtain ⟨z1, z2⟩ := z
    cases z1 with
    | error e => exact this
    | ok u => exact this.trans (List.prefix_append _ _)

theorem recordsToBytes_prefix (k rn : Nat) (buf : Bytes) (rs : List Rec) : buf <+: (recordsToBytes k rn buf rs).2.1 := by
  induction rs generalizing k rn buf with
  | nil => exact List.prefix_refl _
  | cons r rs ih =>
    simp only [recordsToBytes]
    have := recordToBytes_prefix k buf r
    generalize recordToBytes k buf r = x at this ⊢
    obtain ⟨x1, x2, x3⟩ := x
    cases x1 with
    | error e => exact this
    | ok u =>
      dsimp only at this ⊢
      exact this.trans (ih (k + 1) k x2)

theorem writeStream_prefix (w : Writer) (inp : WInput) : w.buf <+: (w.writeStream inp).2.buf := by
  unfold Writer.writeStream
  generalize (if w.isEmptyList = true then checkDmapDict inp else Except.ok (w.isList, w.recs)) = z
  cases z with
  | error e => exact List.prefix_refl _
  | ok p =>
    obtain ⟨il, recs⟩ := p
    dsimp only
    split
    · exact List.prefix_refl _
    · unfold Writer.recordsToBytes
      dsimp only
      have := recordsToBytes_prefix 0 w.recNum w.buf recs
      generalize recordsToBytes 0 w.recNum w.buf recs = z at this ⊢
      obtain ⟨x, b, rn, rs⟩ := z
      cases x <;> exact this

/-- What a successful call returns is the buffer. -/
theorem writeStream_returns {w w' : Writer} {inp : WInput} {out : Bytes} (h : w.writeStream inp = (.ok out, w')) :
    out = w'.buf := by
  unfold Writer.writeStream at h
  generalize (if w.isEmptyList = true then checkDmapDict inp else Except.ok (w.isList, w.recs)) = z at h
  cases z with
  | error e => cases h
  | ok p =>
    obtain ⟨il, recs⟩ := p
    dsimp only at h
    split at h
    · cases h
    · unfold Writer.recordsToBytes at h
      dsimp only at h
      generalize recordsToBytes 0 w.recNum w.buf recs = z at h
      obtain ⟨x, b, rn, rs⟩ := z
      cases x with
      | error e => cases h
      | ok u => cases h; rfl

theorem writeDmap_prefix (w : Writer) (fs : FileSys) (name : PyStr) : w.buf <+: (w.writeDmap fs name).2.1.buf := by
  unfold Writer.writeDmap
  cases hf : w.filenameCheck name with
  | mk x w1 =>
    have hb : w1.buf = w.buf := by
      unfold Writer.filenameCheck at hf
      split at hf
      · cases hf; rfl
      · split at hf <;> (cases hf; rfl)
    cases x with
    | error e => exact hb ▸ List.prefix_refl _
    | ok u =>
      dsimp only
      have := writeStream_prefix w1 noRecords
      rw [hb] at this
      generalize w1.writeStream noRecords = z at this ⊢
      obtain ⟨z1, z2⟩ := z
      cases z1 <;> exact this

/-! ## Sessions -/

/-- Every writer has a `bytearray` of its own that exists; streams that were returned are such, and their bytes still stand at the
beginning. -/
structure Session.Good (s : Session) : Prop where
  apart : (s.writers.map Prod.snd).Nodup
  made : ∀ p ∈ s.writers, p.2 < s.next
  held : ∀ p ∈ s.returned, p.2 <+: s.arrays p.1
  exist : ∀ p ∈ s.returned, p.1 < s.next

theorem start_good (fs : FileSys) : (Session.start fs).Good := ⟨.nil, nofun, nofun, nofun⟩

theorem set_same {l : List (Writer × Nat)} {i : Nat} {w w' : Writer} {id : Nat} (h : l[i]? = some (w, id)) :
    (l.set i (w', id)).map Prod.snd = l.map Prod.snd := by
  apply List.ext_getElem?
  intro j
  rw [List.getElem?_map, List.getElem?_map, List.getElem?_set]
  by_cases hj : i = j
  · subst hj
    have hl : i < l.length := (List.getElem?_eq_some_iff.1 h).1
    rw [if_pos rfl, if_pos hl, h]
    rfl
  · simp [hj]

theorem setArray_prefix {arrays : Nat → Bytes} {id : Nat} {bs : Bytes} (h : arrays id <+: bs) (j : Nat) :
    arrays j <+: setArray arrays id bs j := by
  unfold setArray
  split
  · next e => rw [e]; exact h
  · exact List.prefix_refl _

theorem step_good {s : Session} (hs : s.Good) (c : SCall) : (s.step c).Good := by
  obtain ⟨h1, h2, h3, h4⟩ := hs
  cases c with
  | new inp name =>
    simp only [Session.step]
    cases Writer.new inp name with
    | error e => exact ⟨h1, h2, h3, h4⟩
    | ok w =>
      refine ⟨?_, ?_, ?_, ?_⟩
      · simp only [List.map_append, List.map_cons, List.map_nil]
        refine List.nodup_append.2 ⟨h1, by simp, ?_⟩
        intro a ha b hb
        simp only [List.mem_singleton] at hb
        obtain ⟨p, hp, rfl⟩ := List.mem_map.1 ha
        have := h2 p hp
        omega
      · intro p hp
        rcases List.mem_append.1 hp with hp | hp
        · exact Nat.lt_succ_of_lt (h2 p hp)
        · cases List.mem_singleton.1 hp
          exact Nat.lt_succ_self _
      · intro p hp
        have := h4 p hp
        have e : setArray s.arrays s.next w.buf p.1 = s.arrays p.1 := by
          unfold setArray
          rw [if_neg (by omega)]
        dsimp only
        rw [e]
        exact h3 p hp
      · intro p hp
        exact Nat.lt_succ_of_lt (h4 p hp)
  | stream i inp =>
    simp only [Session.step]
    cases hw : s.writers[i]? with
    | none => exact ⟨h1, h2, h3, h4⟩
    | some p =>
      obtain ⟨w, id⟩ := p
      dsimp only
      have hp := writeStream_prefix { w with buf := s.arrays id } inp
      have hr := @writeStream_returns { w with buf := s.arrays id }
      cases hx : Writer.writeStream { w with buf := s.arrays id } inp with
      | mk res w' =>
        rw [hx] at hp
        dsimp only at hp ⊢
        have hid : id < s.next := h2 _ (List.mem_of_getElem? hw)
        refine ⟨?_, ?_, ?_, ?_⟩
        · dsimp only
          rw [set_same hw]
          exact h1
        · intro q hq
          rcases List.mem_or_eq_of_mem_set hq with hq | rfl
          · exact h2 q hq
          · exact hid
        · intro q hq
          rcases List.mem_append.1 hq with hq | hq
          · exact (h3 q hq).trans (setArray_prefix hp _)
          · cases res with
            | error e => cases hq
            | ok out =>
              cases List.mem_singleton.1 hq
              dsimp only
              rw [hr hx]
              simp [setArray]
        · intro q hq
          rcases List.mem_append.1 hq with hq | hq
          · exact h4 q hq
          · cases res with
            | error e => cases hq
            | ok out =>
              cases List.mem_singleton.1 hq
              exact hid
  | file i name =>
    simp only [Session.step]
    cases hw : s.writers[i]? with
    | none => exact ⟨h1, h2, h3, h4⟩
    | some p =>
      obtain ⟨w, id⟩ := p
      dsimp only
      have hp := writeDmap_prefix { w with buf := s.arrays id } s.files name
      cases hx : Writer.writeDmap { w with buf := s.arrays id } s.files name with
      | mk res q =>
        obtain ⟨w', fs⟩ := q
        rw [hx] at hp
        dsimp only at hp ⊢
        have hid : id < s.next := h2 _ (List.mem_of_getElem? hw)
        refine ⟨?_, ?_, ?_, h4⟩
        · dsimp only
          rw [set_same hw]
          exact h1
        · intro q hq
          rcases List.mem_or_eq_of_mem_set hq with hq | rfl
          · exact h2 q hq
          · exact hid
        · intro q hq
          exact (h3 q hq).trans (setArray_prefix hp _)

theorem run_good {s : Session} (hs : s.Good) (cs : List SCall) : (s.run cs).Good := by
  induction cs generalizing s with
  | nil => exact hs
  | cons c cs ih => exact ih (step_good hs c)

/-- **C88** Whatever is called later: the bytes that were returned still stand at the beginning of the stream, in every program. -/
theorem C88_prefix (fs : FileSys) (cs : List SCall) {id : Nat} {out : Bytes}
    (h : (id, out) ∈ ((Session.start fs).run cs).returned) : out <+: ((Session.start fs).run cs).arrays id :=
  (run_good (start_good fs) cs).held _ h

/-- The call is of writer `i`. -/
def SCall.on (i : Nat) : SCall → Prop
  | .new _ _ => False
  | .stream j _ => j = i
  | .file j _ => j = i

theorem getElem?_map_snd {l : List (Writer × Nat)} {i id : Nat} {w : Writer} (h : l[i]? = some (w, id)) :
    (l.map Prod.snd)[i]? = some id := by
  rw [List.getElem?_map, h]
  rfl

theorem ids_ne {l : List (Writer × Nat)} (hn : (l.map Prod.snd).Nodup) {i j id jd : Nat} {w v : Writer}
    (hi : l[i]? = some (w, id)) (hj : l[j]? = some (v, jd)) (hij : j ≠ i) : id ≠ jd := by
  intro e
  subst e
  have h1 := getElem?_map_snd hi
  have h2 := getElem?_map_snd hj
  exact hij ((List.getElem?_inj (List.getElem?_eq_some_iff.1 h2).1 hn).1 (h2.trans h1.symm))

theorem step_apart {s : Session} (hs : s.Good) {c : SCall} {i id : Nat} {w : Writer} (hi : s.writers[i]? = some (w, id))
    (hc : ¬ c.on i) : (s.step c).writers[i]? = some (w, id) ∧ (s.step c).arrays id = s.arrays id := by
  have hid := hs.made _ (List.mem_of_getElem? hi)
  cases c with
  | new inp name =>
    simp only [Session.step]
    cases Writer.new inp name with
    | error e => exact ⟨hi, rfl⟩
    | ok v =>
      dsimp only at hid ⊢
      refine ⟨?_, ?_⟩
      · rw [List.getElem?_append_left (List.getElem?_eq_some_iff.1 hi).1, hi]
      · unfold setArray
        rw [if_neg (by omega)]
  | stream j inp =>
    simp only [Session.step]
    have hj : j ≠ i := hc
    cases hw : s.writers[j]? with
    | none => exact ⟨hi, rfl⟩
    | some p =>
      obtain ⟨v, jd⟩ := p
      dsimp only
      refine ⟨by rw [List.getElem?_set_ne hj, hi], ?_⟩
      unfold setArray
      rw [if_neg (ids_ne hs.apart hi hw hj)]
  | file j name =>
    simp only [Session.step]
    have hj : j ≠ i := hc
    cases hw : s.writers[j]? with
    | none => exact ⟨hi, rfl⟩
    | some p =>
      obtain ⟨v, jd⟩ := p
      dsimp only
      refine ⟨by rw [List.getElem?_set_ne hj, hi], ?_⟩
      unfold setArray
      rw [if_neg (ids_ne hs.apart hi hw hj)]

theorem run_apart {s : Session} (hs : s.Good) {cs : List SCall} {i id : Nat} {w : Writer} (hi : s.writers[i]? = some (w, id))
    (hc : ∀ c ∈ cs, ¬ c.on i) : (s.run cs).writers[i]? = some (w, id) ∧ (s.run cs).arrays id = s.arrays id := by
  induction cs generalizing s with
  | nil => exact ⟨hi, rfl⟩
  | cons c cs ih =>
    obtain ⟨h1, h2⟩ := step_apart hs hi (hc c (by simp))
    obtain ⟨h3, h4⟩ := ih (step_good hs c) h1 fun d hd => hc d (List.mem_cons_of_mem _ hd)
    exact ⟨h3, h4.trans h2⟩

theorem run_append (s : Session) (cs ds : List SCall) : s.run (cs ++ ds) = (s.run cs).run ds := by
  induction cs generalizing s with
  | nil => rfl
  | cons c cs ih => exact ih _

/-- **C88** A stream that a call returned stays as it is as long as only other writers are used and made.  Missing: later calls of
the same writer, see `C88_iff`, `C88_prefix` and `C88_violation`. -/
theorem C88_apart_partial (fs : FileSys) (before after : List SCall) {i : Nat} {inp : WInput} {id : Nat} {out : Bytes}
    (hr : ((Session.start fs).run (before ++ [.stream i inp])).returned =
      ((Session.start fs).run before).returned ++ [(id, out)])
    (hc : ∀ c ∈ after, ¬ c.on i) :
    ((Session.start fs).run (before ++ .stream i inp :: after)).arrays id = out := by
  have hg := run_good (start_good fs) before
  have e : before ++ SCall.stream i inp :: after = before ++ [.stream i inp] ++ after := by simp
  rw [e, run_append _ _ after]
  rw [run_append] at hr ⊢
  generalize (Session.start fs).run before = s at hr hg ⊢
  have hg' := step_good hg (.stream i inp)
  change (s.step (.stream i inp)).returned = _ at hr
  change ((s.step (.stream i inp)).run after).arrays id = out
  cases hw : s.writers[i]? with
  | none =>
    simp [Session.step, hw] at hr
  | some p =>
    obtain ⟨w, jd⟩ := p
    cases hx : Writer.writeStream { w with buf := s.arrays jd } inp with
    | mk res w' =>
      have hs : s.step (.stream i inp) =
          { s with
            writers := s.writers.set i (w', jd)
            arrays := setArray s.arrays jd w'.buf
            returned := s.returned ++ match (generalizing := false) res with
              | .ok out => [(jd, out)]
              | .error _ => [] } := by
        simp only [Session.step, hw, hx]
        cases res <;> rfl
      rw [hs] at hr
      dsimp only at hr
      cases res with
      | error e => simp at hr
      | ok out1 =>
        have := List.append_cancel_left hr
        simp only [List.cons.injEq, Prod.mk.injEq, and_true] at this
        obtain ⟨rfl, rfl⟩ := this
        have hi : (s.step (.stream i inp)).writers[i]? = some (w', jd) := by
          rw [hs]
          simp [(List.getElem?_eq_some_iff.1 hw).1]
        rw [(run_apart hg' hi hc).2, hs]
        simp [setArray, writeStream_returns hx]

/-! ## Calls of the same writer -/

theorem appendInts_grows (buf : Bytes) (l : List Int) : buf.length < (appendInts buf (encodingIdentifier :: l)).2.length := by
  simp only [appendInts, appendInt]
  have : packSigned 4 encodingIdentifier = .ok (intLE 4 encodingIdentifier) := rfl
  rw [this]
  dsimp only
  have := (appendInts_prefix (buf ++ intLE 4 encodingIdentifier) l).length_le
  rw [List.length_append] at this
  have hl : (intLE 4 encodingIdentifier).length = 4 := by decide +kernel
  omega

theorem recordToBytes_same {rn : Nat} {buf : Bytes} {r : Rec} :
    (recordToBytes rn buf r).2.1 = buf ↔ ∀ b, ¬ Written rn r b := by
  unfold recordToBytes
  cases he : encodeFields rn r with
  | mk x r' =>
    cases x with
    | error e =>
      refine ⟨fun _ b hb => ?_, fun _ => rfl⟩
      rw [encodeFields_written hb] at he
      cases he
    | ok enc =>
      refine ⟨fun h => ?_, fun h => absurd (written_of_encodeFields he) (h _)⟩
      dsimp only at h
      have := appendInts_grows buf [enc.data.length + 16, enc.numScalars, enc.numArrays]
      generalize appendInts buf [encodingIdentifier, enc.data.length + 16, enc.numScalars, enc.numArrays] = z at this h
      obtain ⟨z1, z2⟩ := z
      dsimp only at this
      cases z1 with
      | error e =>
        dsimp only at h
        rw [h] at this
        omega
      | ok u =>
        dsimp only at h
        rw [← h, List.length_append] at this
        omega

theorem recordsToBytes_same {k rn : Nat} {buf : Bytes} {rs : List Rec} :
    (recordsToBytes k rn buf rs).2.1 = buf ↔ ∀ r rest b, rs = r :: rest → ¬ Written k r b := by
  cases rs with
  | nil => simp [recordsToBytes]
  | cons r rest =>
    have h1 := @recordToBytes_same k buf r
    have h2 := recordToBytes_prefix k buf r
    have : (∀ r' rest' b, r :: rest = r' :: rest' → ¬ Written k r' b) ↔ ∀ b, ¬ Written k r b :=
      ⟨fun h b => h r rest b rfl, fun h r' rest' b e => by cases e; exact h b⟩
    rw [this, ← h1]
    simp only [recordsToBytes]
    cases hr : recordToBytes k buf r with
    | mk x y =>
      obtain ⟨b1, r1⟩ := y
      rw [hr] at h2
      cases x with
      | error e => exact Iff.rfl
      | ok u =>
        dsimp only at h2 ⊢
        have h3 := recordsToBytes_prefix (k + 1) k b1 rest
        constructor
        · intro e
          rw [e] at h3
          exact h3.eq_of_length_le h2.length_le
        · intro e
          obtain ⟨data, g, -⟩ := recordToBytes_inv hr
          exact absurd g (h1.1 (by rw [hr]; exact e) data)

theorem recordsToBytes_empty {k rn : Nat} {buf : Bytes} {rs : List Rec} : (recordsToBytes k rn buf rs).2.2.2 = [] ↔ rs = [] := by
  cases rs with
  | nil => simp [recordsToBytes]
  | cons r rs =>
    simp only [recordsToBytes]
    generalize recordToBytes k buf r = x
    obtain ⟨x1, x2, x3⟩ := x
    cases x1 <;> simp

/-- A writer that has returned a stream has records, or they are no list. -/
theorem writeStream_filled {w w' : Writer} {inp : WInput} {out : Bytes} (h : w.writeStream inp = (.ok out, w')) :
    w'.isEmptyList = false := by
  unfold Writer.writeStream at h
  generalize (if w.isEmptyList = true then checkDmapDict inp else Except.ok (w.isList, w.recs)) = z at h
  cases z with
  | error e => cases h
  | ok p =>
    obtain ⟨il, recs⟩ := p
    dsimp only at h
    unfold Writer.emptyRecordCheck at h
    by_cases he : Writer.isEmptyList { w with isList := il, recs := recs } = true
    · rw [if_pos he] at h
      cases h
    · rw [if_neg he] at h
      unfold Writer.recordsToBytes at h
      dsimp only at h
      have hx := @recordsToBytes_empty 0 w.recNum w.buf recs
      generalize recordsToBytes 0 w.recNum w.buf recs = z at h hx
      obtain ⟨x, b, rn, rs⟩ := z
      cases x with
      | error e => cases h
      | ok u =>
        cases h
        unfold Writer.isEmptyList at he ⊢
        dsimp only at he hx ⊢
        cases il with
        | false => rfl
        | true =>
          cases rs with
          | nil => simp [hx.1 rfl] at he
          | cons r rs => rfl

theorem writeStream_same {w : Writer} (hw : w.isEmptyList = false) (inp : WInput) :
    (w.writeStream inp).2.buf = w.buf ↔ ∀ r rest b, w.recs = r :: rest → ¬ Written 0 r b := by
  rw [← @recordsToBytes_same 0 w.recNum w.buf w.recs]
  unfold Writer.writeStream
  have hx : Writer.emptyRecordCheck { w with isList := w.isList, recs := w.recs } = .ok () := by
    unfold Writer.emptyRecordCheck
    rw [if_neg (by simp [hw])]
  simp only [hw, Bool.false_eq_true, if_false, hx, Writer.recordsToBytes]
  generalize recordsToBytes 0 w.recNum w.buf w.recs = z
  obtain ⟨x, b, rn, rs⟩ := z
  cases x <;> exact Iff.rfl

theorem packShape_all {l : List Int} : (∃ b, packShape l = .ok b) ↔ ∀ n ∈ l, signedOk 4 n := by
  induction l with
  | nil => simp [packShape]
  | cons n l ih =>
    simp only [packShape]
    unfold packSigned
    by_cases hn : signedOk 4 n
    · rw [if_pos hn]
      have : (∀ m ∈ n :: l, signedOk 4 m) ↔ ∀ m ∈ l, signedOk 4 m := by simp [hn]
      rw [this, ← ih]
      cases packShape l with
      | error e => exact ⟨nofun, nofun⟩
      | ok b => exact ⟨fun _ => ⟨b, rfl⟩, fun _ => ⟨_, rfl⟩⟩
    · rw [if_neg hn]
      exact ⟨nofun, fun h => absurd (h n (by simp)) hn⟩

/-- What was written can be written again with its shape list turned, and takes as many bytes. -/
theorem array_again {rn : Nat} {a a' : DmapArray} {b : Bytes} (h : arrayToBytes rn a = (.ok b, a')) :
    ∃ b', arrayToBytes rn (leftArray a) = (.ok b', leftArray (leftArray a)) ∧ b'.length = b.length := by
  obtain ⟨tb, db, sb, h1, h2, h3, h4, rfl, -⟩ := arrayToBytes_inv h
  by_cases hd : a.dimension > 1
  · have hl : leftArray a = { a with shape := a.shape.reverse } := by unfold leftArray; rw [if_pos hd]
    rw [hl] at h4
    dsimp only at h4
    obtain ⟨sb', h5⟩ := (packShape_all (l := a.shape)).2 fun n hn =>
      packShape_all.1 ⟨sb, h4⟩ n (List.mem_reverse.2 hn)
    have l1 := packShape_length h4
    have l2 := packShape_length h5
    refine ⟨packStr a.name ++ tb ++ db ++ sb' ++ a.value.cells.flatten, ?_, by simp [l1, l2]⟩
    have hc : arrayTypeCheck rn { a with shape := a.shape.reverse } = .ok () := h1
    rw [hl]
    unfold arrayToBytes leftArray
    rw [hc]
    dsimp only
    rw [h2, h3]
    dsimp only
    rw [if_pos hd]
    dsimp only
    rw [List.reverse_reverse, h5]
  · have hl : leftArray a = a := by unfold leftArray; rw [if_neg hd]
    rw [hl, hl]
    rw [arrayToBytes_left_ok h, hl] at h
    exact ⟨_, h, rfl⟩

theorem written_again {rn : Nat} {r : Rec} {b : Bytes} (h : Written rn r b) :
    ∃ b', Written rn (leftRec r) b' ∧ b'.length = b.length := by
  induction h with
  | nil => exact ⟨[], .nil, rfl⟩
  | scalar g _ ih =>
    obtain ⟨b', i1, i2⟩ := ih
    exact ⟨_, .scalar g i1, by simp [i2]⟩
  | array g _ ih =>
    obtain ⟨b', i1, i2⟩ := ih
    obtain ⟨c, j1, j2⟩ := array_again g
    exact ⟨_, .array j1 i1, by simp [i2, j2]⟩

theorem scalarsOf_leftRec (r : Rec) : scalarsOf (leftRec r) = scalarsOf r := by
  induction r with
  | nil => rfl
  | cons p r ih =>
    obtain ⟨k, f⟩ := p
    cases f <;> simp_all [scalarsOf, leftRec, leftField]

theorem arraysOf_leftRec (r : Rec) : (arraysOf (leftRec r)).length = (arraysOf r).length := by
  induction r with
  | nil => rfl
  | cons p r ih =>
    obtain ⟨k, f⟩ := p
    cases f <;> simp_all [arraysOf, leftRec, leftField]

theorem writtenList_again {k : Nat} {rs : List Rec} {b : Bytes} (h : WrittenList k rs b) :
    ∃ b', WrittenList k (rs.map leftRec) b' ∧ b'.length = b.length := by
  induction h with
  | nil => exact ⟨[], .nil, rfl⟩
  | cons g1 g2 g3 g4 _ ih =>
    obtain ⟨b', i1, i2⟩ := ih
    obtain ⟨c, j1, j2⟩ := written_again g1
    exact ⟨_, .cons j1 (by omega) (by rw [scalarsOf_leftRec]; exact g3) (by rw [arraysOf_leftRec]; exact g4) i1,
      by simp [blockBytes, i2, j2]⟩

/-- **C88** A writer with records that has returned a stream returns one at every further call, and the stream is longer by as
many bytes as were written before. -/
theorem C88_again {w w' : Writer} {inp : WInput} (inp' : WInput) {out : Bytes} (hne : w.recs ≠ [])
    (h : w.writeStream inp = (.ok out, w')) :
    ∃ out' w'', w'.writeStream inp' = (.ok out', w'') ∧ out <+: out' ∧ w''.recs ≠ [] ∧
      out'.length = out.length + (out.length - w.buf.length) := by
  obtain ⟨bs, h1, rfl, h3, h4, -, -⟩ := writeStream_inv hne h
  obtain ⟨bs', i1, i2⟩ := writtenList_again h1
  rw [← h4] at i1
  have hne' : w'.recs ≠ [] := by rw [h4]; simpa using hne
  obtain ⟨rn, hx⟩ := writeStream_written hne' inp' i1
  refine ⟨_, _, hx, ?_, ?_, ?_⟩
  · rw [h3]; exact List.prefix_append _ _
  · simpa using hne'
  · simp [h3, i2]
    omega

/-- The records of a writer that has returned a stream have been written. -/
theorem writeStream_left {w w' : Writer} {inp : WInput} {out : Bytes} (h : w.writeStream inp = (.ok out, w')) :
    ∃ recs bs, WrittenList 0 recs bs ∧ w'.recs = recs.map leftRec := by
  unfold Writer.writeStream at h
  generalize (if w.isEmptyList = true then checkDmapDict inp else Except.ok (w.isList, w.recs)) = z at h
  cases z with
  | error e => cases h
  | ok p =>
    obtain ⟨il, recs⟩ := p
    dsimp only at h
    split at h
    · cases h
    · unfold Writer.recordsToBytes at h
      dsimp only at h
      cases hz : recordsToBytes 0 w.recNum w.buf recs with
      | mk x q =>
        obtain ⟨b, rn, rs⟩ := q
        rw [hz] at h
        cases x with
        | error e => cases h
        | ok u =>
          cases h
          obtain ⟨bs, h1, -, h3⟩ := recordsToBytes_inv hz
          exact ⟨recs, bs, h1, h3⟩

/-- **C88** A stream that was returned is left as it is by another call of the same writer iff the writer has no records (they
are an empty collection that is no list). -/
theorem C88_iff {w w' : Writer} {inp inp' : WInput} {out : Bytes} (h : w.writeStream inp = (.ok out, w')) :
    (w'.writeStream inp').2.buf = out ↔ w'.recs = [] := by
  rw [writeStream_returns h, writeStream_same (writeStream_filled h) inp']
  constructor
  · intro hn
    obtain ⟨recs, bs, h1, h2⟩ := writeStream_left h
    cases h1 with
    | nil => exact h2
    | cons g _ _ _ _ =>
      obtain ⟨b, hb, -⟩ := written_again g
      exact absurd hb (hn _ _ b h2)
  · intro e r rest b he
    rw [e] at he
    cases he

/-- **C88** violated: in every program in which a writer makes a stream and then another, the first one is changed, if the writer
has a record: both are the same object, so it has the bytes of the second. -/
theorem C88_violation (fs : FileSys) (before : List SCall) {i : Nat} {inp inp' : WInput} {w w1 w2 : Writer} {id : Nat}
    {out1 out2 : Bytes} (hw : ((Session.start fs).run before).writers[i]? = some (w, id))
    (h1 : { w with buf := ((Session.start fs).run before).arrays id }.writeStream inp = (.ok out1, w1))
    (h2 : w1.writeStream inp' = (.ok out2, w2)) (hne : w1.recs ≠ []) :
    ((Session.start fs).run (before ++ [.stream i inp, .stream i inp'])).returned =
        ((Session.start fs).run before).returned ++ [(id, out1), (id, out2)] ∧
      ((Session.start fs).run (before ++ [.stream i inp, .stream i inp'])).arrays id = out2 ∧ out1 ≠ out2 := by
  rw [run_append]
  generalize (Session.start fs).run before = s at hw h1 ⊢
  have hl := (List.getElem?_eq_some_iff.1 hw).1
  have b1 := writeStream_returns h1
  have b2 := writeStream_returns h2
  have hne' : out1 ≠ out2 := by
    intro e
    exact hne ((C88_iff (inp' := inp') h1).1 (by rw [h2, e]; exact b2.symm))
  have e1 : Writer.mk w1.filename w1.isList w1.recs w1.buf w1.recNum = w1 := rfl
  simp only [Session.run, Session.step, hw, h1, List.getElem?_set_self hl, setArray, if_true, e1, h2]
  refine ⟨by simp, b2.symm, hne'⟩

/-! ## Samples -/

/-- Two writers, each with a record. -/
def twoWriters : List SCall := [.new (dmapInput [Sample.record]) [], .new (dmapInput [Sample.record]) []]

/-- The first writer's stream, the second's, the first's again. -/
def threeStreams : List SCall := twoWriters ++ [.stream 0 noRecords, .stream 1 noRecords, .stream 0 noRecords]

/-- The stream that the first call returned has become twice as long, the other writer's has not. -/
example : (((Session.start fun _ => none).run threeStreams).returned.map fun p => (p.1, p.2.length)) =
      [(0, (writeBytes [Sample.record]).toOption.get!.length), (1, (writeBytes [Sample.record]).toOption.get!.length),
        (0, 2 * (writeBytes [Sample.record]).toOption.get!.length)] ∧
    ((Session.start fun _ => none).run threeStreams).arrays 0 ≠ (writeBytes [Sample.record]).toOption.get! ∧
    ((Session.start fun _ => none).run threeStreams).arrays 1 = (writeBytes [Sample.record]).toOption.get! := by
  decide +kernel

/-- The stream of the first writer stays as it is while the second writes and a third is made. -/
example : ((Session.start fun _ => none).run (twoWriters ++ .stream 0 noRecords ::
      [.stream 1 noRecords, .new (dmapInput [Sample.record]) [], .file 1 (py! "f"), .stream 2 noRecords])).arrays 0 =
    (writeBytes [Sample.record]).toOption.get! :=
  C88_apart_partial _ twoWriters _ (by decide +kernel) (by simp [SCall.on])

/-- The program of `C88_violation`. -/
example : ∃ out1 out2, ((Session.start fun _ => none).run (twoWriters ++ [.stream 0 noRecords, .stream 0 noRecords])).returned =
      [(0, out1), (0, out2)] ∧
    ((Session.start fun _ => none).run (twoWriters ++ [.stream 0 noRecords, .stream 0 noRecords])).arrays 0 = out2 ∧
    out1 ≠ out2 := by
  cases h1 : Writer.writeStream ⟨[], true, [Sample.record], [], 0⟩ noRecords with
  | mk x w1 =>
    cases x with
    | error e =>
      exact absurd (show (Writer.writeStream ⟨[], true, [Sample.record], [], 0⟩ noRecords).1.isOk = true by decide +kernel)
        (by rw [h1]; nofun)
    | ok out1 =>
      obtain ⟨out2, w2, h2, -⟩ := C88_again noRecords (by simp) h1
      have hne : w1.recs ≠ [] := by
        obtain ⟨_, _, _, _, k, _⟩ := writeStream_inv (by simp) h1
        rw [k]
        simp
      exact ⟨out1, out2, C88_violation (fun _ => none) twoWriters (w := ⟨[], true, [Sample.record], [], 0⟩) (id := 0) rfl h1 h2 hne⟩

/-- An empty `deque` as records: the stream is empty and stays so. -/
example : (Writer.writeStream ⟨[], false, [], [], 0⟩ noRecords).1 = .ok [] ∧
    ((Writer.writeStream ⟨[], false, [], [], 0⟩ noRecords).2.writeStream noRecords).2.buf = [] := by
  decide +kernel

end Verif
