import Verif.Dmap.Model.Lists
import Verif.Dmap.Props.Session
import Verif.Dmap.Props.InputKinds
/-!
# C90: the records a writer was given

Specification: the records that were given, and what `writeBytes` makes of them.
-/
namespace Verif
open Spec

/-! ## The writer with lists and the one without -/

/-- Records with plain values among them keep them when they are written. -/
theorem asDmapRecs_left {old : List (Dict PyStr InVal)} {rs : List Rec} (h : Pairs TouchedRec (asDmapRecs old) rs) :
    asDmapRecs (leftBehind old rs) = rs := by
  have hrec : ∀ (d : Dict PyStr InVal) (r : Rec), TouchedRec (d.map fun p => (p.1, p.2.toField)) r →
      (d.zipWith (fun p q => match p.2 with
        | .dmap _ => (p.1, InVal.dmap q.2)
        | .plain v => (p.1, .plain v)) r).map (fun p => (p.1, p.2.toField)) = r := by
    intro d
    induction d with
    | nil =>
      intro r h
      cases h
      rfl
    | cons p d ih =>
      intro r h
      cases h with
      | cons h1 h2 =>
        simp only [List.zipWith_cons_cons, List.map_cons]
        rw [ih _ h2]
        obtain ⟨k, v⟩ := p
        rename_i q r'
        obtain ⟨k', f⟩ := q
        obtain ⟨rfl, hf⟩ := h1
        cases v with
        | dmap g => rfl
        | plain v =>
          rcases hf with hf | ⟨a, ha, -⟩
          · cases hf
            rfl
          · cases ha
  induction old generalizing rs with
  | nil =>
    cases h
    rfl
  | cons d old ih =>
    cases h with
    | cons h1 h2 =>
      simp only [leftBehind, asDmapRecs] at ih ⊢
      simp only [List.zipWith_cons_cons, List.map_cons]
      exact List.cons_eq_cons.2 ⟨hrec _ _ h1, ih h2⟩

/-- A writer with the contents of its list, as in `Writer.lean`. -/
def Lists.writer (s : Lists) (name : PyStr) (w : LWriter) : Writer :=
  ⟨name, true, asDmapRecs (s.lists w.held), w.buf, w.recNum⟩

/-- The part of `write_dmap_stream` after the records have been chosen. -/
theorem write_agrees (name : PyStr) {i : Nat} {w v : LWriter} (t : Lists) (h : Nat) (hw : t.writers[i]? = some v) :
    let step : Option (Except Err Bytes) × Lists :=
      if (t.lists h).isEmpty then
        (some (.error .dmapDataError), { t with writers := t.writers.set i { w with held := h } })
      else
        match recordsToBytes 0 w.recNum w.buf (asDmapRecs (t.lists h)) with
        | (res, buf, rn, rs) =>
          (some (match res with
            | .ok () => .ok buf
            | .error e => .error e),
           { t with lists := setList t.lists h (leftBehind (t.lists h) rs), writers := t.writers.set i ⟨h, buf, rn⟩ })
    let plain : Except Err Bytes × Writer :=
      match Writer.emptyRecordCheck ⟨name, true, asDmapRecs (t.lists h), w.buf, w.recNum⟩ with
      | .error e => (.error e, (⟨name, true, asDmapRecs (t.lists h), w.buf, w.recNum⟩ : Writer))
      | .ok () =>
        match Writer.recordsToBytes ⟨name, true, asDmapRecs (t.lists h), w.buf, w.recNum⟩ with
        | (.error e, w) => (.error e, w)
        | (.ok (), w) => (.ok w.buf, w)
    step.1 = some plain.1 ∧ ∃ w', step.2.writers[i]? = some w' ∧ w'.held = h ∧ step.2.writer name w' = plain.2 ∧
      step.2.mine = t.mine ∧ ∀ j, j ≠ h → step.2.lists j = t.lists j := by
  have hi := (List.getElem?_eq_some_iff.1 hw).1
  have he : (asDmapRecs (t.lists h)).isEmpty = (t.lists h).isEmpty := by
    unfold asDmapRecs
    cases t.lists h <;> rfl
  unfold Writer.emptyRecordCheck Writer.isEmptyList Writer.recordsToBytes
  dsimp only
  rw [he]
  cases (t.lists h).isEmpty with
  | true => exact ⟨rfl, ⟨h, w.buf, w.recNum⟩, List.getElem?_set_self hi, rfl, rfl, rfl, fun _ _ => rfl⟩
  | false =>
    simp only [Bool.and_false, Bool.false_eq_true, if_false]
    have hp := recordsToBytes_touched 0 w.recNum w.buf (asDmapRecs (t.lists h))
    generalize recordsToBytes 0 w.recNum w.buf (asDmapRecs (t.lists h)) = z at hp ⊢
    obtain ⟨z1, z2, z3, z4⟩ := z
    have hl := asDmapRecs_left hp
    refine ⟨by cases z1 <;> rfl, ⟨h, z2, z3⟩, List.getElem?_set_self hi, rfl, ?_, trivial, fun j hj => if_neg hj⟩
    unfold Lists.writer
    simp only [setList, if_true]
    rw [hl]
    cases z1 <;> rfl

theorem given_cases (s : Lists) (g : Nat) :
    (∃ e, s.adopt g = .error e ∧ checkDmapDict ⟨true, s.lists g⟩ = .error e) ∨
    (s.adopt g = .ok (g, s) ∧ checkDmapDict ⟨true, s.lists g⟩ = .ok (true, asDmapRecs (s.lists g))) ∨
    ∃ rs, checkDmapDict ⟨true, s.lists g⟩ = .ok (true, rs) ∧
      s.adopt g = .ok (s.next, { s with lists := setList s.lists s.next (dmapInput rs).recs, next := s.next + 1 }) := by
  by_cases hp : ∃ (k : PyStr) (v : PlainVal) (d : _) (l : _), s.lists g = ((k, .plain v) :: d) :: l
  · obtain ⟨k, v, d, l, hl⟩ := hp
    have h1 : s.adopt g = (match asPlainRecs (s.lists g) with
        | .error e => .error e
        | .ok ps =>
          match dict2dmap ps with
          | .error e => .error e
          | .ok rs =>
            .ok (s.next, { s with lists := setList s.lists s.next (dmapInput rs).recs, next := s.next + 1 })) := by
      unfold Lists.adopt
      rw [hl]
      rfl
    have h2 : checkDmapDict ⟨true, s.lists g⟩ = (do
        let ps ← asPlainRecs (s.lists g)
        let rs ← dict2dmap ps
        return (true, rs)) := by
      unfold checkDmapDict
      rw [hl]
    rw [h1, h2]
    cases asPlainRecs (s.lists g) with
    | error e => exact .inl ⟨e, rfl, rfl⟩
    | ok ps =>
      simp only [bind, Except.bind]
      cases dict2dmap ps with
      | error e => exact .inl ⟨e, rfl, rfl⟩
      | ok rs => exact .inr (.inr ⟨rs, rfl, rfl⟩)
  · right
    left
    unfold Lists.adopt checkDmapDict
    cases hl : s.lists g with
    | nil => exact ⟨rfl, rfl⟩
    | cons d l =>
      cases d with
      | nil => exact ⟨rfl, rfl⟩
      | cons p d =>
        obtain ⟨k, v⟩ := p
        cases v with
        | dmap f => exact ⟨rfl, rfl⟩
        | plain v => exact absurd ⟨k, v, d, l, hl⟩ hp

/-- **C90** In every state, `write_dmap_stream` does here what it does in `Writer.lean` for the contents of the lists: it returns
the same and leaves the same records; of the lists that were there, only the one that the writer has then can have changed. -/
theorem C90_agrees {s : Lists} {i g : Nat} {given : Option Nat} {w : LWriter} (hw : s.writers[i]? = some w)
    (hg : s.given streamDefault given = some g) (name : PyStr) :
    (s.step (.stream i given)).1 = some (Writer.writeStream (s.writer name w) ⟨true, s.lists g⟩).1 ∧
    ∃ w', (s.step (.stream i given)).2.writers[i]? = some w' ∧
      (s.step (.stream i given)).2.writer name w' = (Writer.writeStream (s.writer name w) ⟨true, s.lists g⟩).2 ∧
      (s.step (.stream i given)).2.mine = s.mine ∧
      ∀ j, j < s.next → j ≠ w'.held → (s.step (.stream i given)).2.lists j = s.lists j := by
  have he : (asDmapRecs (s.lists w.held)).isEmpty = (s.lists w.held).isEmpty := by
    unfold asDmapRecs
    cases s.lists w.held <;> rfl
  simp only [Lists.step, hw, hg, Writer.writeStream, Writer.isEmptyList, Bool.true_and, he, Lists.writer]
  cases hb : (s.lists w.held).isEmpty with
  | false =>
    simp only [Bool.false_eq_true, if_false]
    obtain ⟨h1, w', h2, h3, h4, h5, h6⟩ := write_agrees name (w := w) s w.held hw
    exact ⟨h1, w', h2, h4, h5, fun j _ hj => h6 j (h3 ▸ hj)⟩
  | true =>
    simp only [if_true]
    rcases given_cases s g with ⟨e, h1, h2⟩ | ⟨h1, h2⟩ | ⟨rs, h1, h2⟩
    · rw [h1, h2]
      exact ⟨rfl, w, hw, rfl, rfl, fun _ _ _ => rfl⟩
    · rw [h1, h2]
      obtain ⟨h1, w', h2, h3, h4, h5, h6⟩ := write_agrees name (w := w) s g hw
      exact ⟨h1, w', h2, h4, h5, fun j _ hj => h6 j (h3 ▸ hj)⟩
    · rw [h1, h2]
      obtain ⟨h1, w', h2, h3, h4, h5, h6⟩ := write_agrees name (w := w)
        { s with lists := setList s.lists s.next (dmapInput rs).recs, next := s.next + 1 } s.next hw
      have hl : asDmapRecs (setList s.lists s.next (dmapInput rs).recs s.next) = rs := by
        simp only [setList, if_true]
        exact asDmapRecs_dmap rs
      dsimp only at h1 h4 h6 ⊢
      rw [hl] at h1 h4
      refine ⟨?_, w', h2, ?_, h5, fun j hn hj => ?_⟩
      · rw [hl]
        exact h1
      · rw [hl]
        exact h4
      · exact (h6 j (h3 ▸ hj)).trans (if_neg (by omega))

/-! ## Writers made without argument -/

/-- Nothing was appended to the default arguments. -/
structure Lists.Clean (s : Lists) : Prop where
  init : s.lists initDefault = []
  stream : s.lists streamDefault = []
  next : 2 ≤ s.next
  mine : ∀ id ∈ s.mine, 2 ≤ id

theorem setList_ne {lists : Nat → List (Dict PyStr InVal)} {id j : Nat} {l : List (Dict PyStr InVal)} (h : j ≠ id) :
    setList lists id l j = lists j := if_neg h

theorem adopt_cases {s t : Lists} {g h : Nat} (ha : s.adopt g = .ok (h, t)) :
    (h = g ∧ t = s) ∨ (h = s.next ∧ ∃ l, t = { s with lists := setList s.lists s.next l, next := s.next + 1 }) := by
  unfold Lists.adopt at ha
  split at ha
  · cases h1 : asPlainRecs (s.lists g) with
    | error e => rw [h1] at ha; cases ha
    | ok ps =>
      rw [h1] at ha
      dsimp only at ha
      cases h2 : dict2dmap ps with
      | error e => rw [h2] at ha; cases ha
      | ok rs =>
        rw [h2] at ha
        cases ha
        exact .inr ⟨rfl, _, rfl⟩
  · cases ha
    exact .inl ⟨rfl, rfl⟩

theorem adopt_clean {s t : Lists} (hs : s.Clean) {g h : Nat} (ha : s.adopt g = .ok (h, t)) : t.Clean := by
  obtain ⟨h1, h2, h3, h4⟩ := hs
  rcases adopt_cases ha with ⟨-, rfl⟩ | ⟨-, l, rfl⟩
  · exact ⟨h1, h2, h3, h4⟩
  · refine ⟨?_, ?_, by dsimp only; omega, h4⟩
    · dsimp only
      rw [setList_ne (by unfold initDefault; omega), h1]
    · dsimp only
      rw [setList_ne (by unfold streamDefault; omega), h2]

/-- Appends to the records of a writer. -/
def LCall.toWriter : LCall → Prop
  | .appendTo _ _ => True
  | _ => False

theorem step_clean {s : Lists} (hs : s.Clean) {c : LCall} (hc : ¬ c.toWriter) : (s.step c).2.Clean := by
  have setc : ∀ (t : Lists) (id : Nat) l, t.Clean → 2 ≤ id → ({ t with lists := setList t.lists id l } : Lists).Clean := by
    rintro t id l ⟨h1, h2, h3, h4⟩ hid
    refine ⟨?_, ?_, h3, h4⟩
    · dsimp only
      rw [setList_ne (by unfold initDefault; omega), h1]
    · dsimp only
      rw [setList_ne (by unfold streamDefault; omega), h2]
  have setw : ∀ (t : Lists) ws, t.Clean → ({ t with writers := ws } : Lists).Clean :=
    fun t ws ⟨h1, h2, h3, h4⟩ => ⟨h1, h2, h3, h4⟩
  cases c with
  | list recs =>
    obtain ⟨h1, h2, h3, h4⟩ := setc s s.next recs hs hs.next
    refine ⟨h1, h2, Nat.le_succ_of_le h3, ?_⟩
    intro id hid
    rcases List.mem_append.1 hid with hid | hid
    · exact h4 id hid
    · cases List.mem_singleton.1 hid
      exact h3
  | append l rec =>
    simp only [Lists.step]
    cases hl : s.mine[l]? with
    | none => exact hs
    | some id => exact setc s id _ hs (hs.mine _ (List.mem_of_getElem? hl))
  | new given =>
    simp only [Lists.step]
    cases s.given initDefault given with
    | none => exact hs
    | some g =>
      dsimp only
      cases ha : s.adopt g with
      | error e => exact hs
      | ok p =>
        obtain ⟨h, t⟩ := p
        exact setw t _ (adopt_clean hs ha)
  | stream i given =>
    simp only [Lists.step]
    cases hw : s.writers[i]? with
    | none => exact hs
    | some w =>
      cases s.given streamDefault given with
      | none => exact hs
      | some g =>
        dsimp only
        cases ha : (if (s.lists w.held).isEmpty then s.adopt g else .ok (w.held, s)) with
        | error e => exact hs
        | ok p =>
          obtain ⟨h, t⟩ := p
          have ht : t.Clean := by
            split at ha
            · exact adopt_clean hs ha
            · cases ha; exact hs
          dsimp only
          by_cases he : (t.lists h).isEmpty = true
          · rw [if_pos he]
            exact setw t _ ht
          · rw [if_neg he]
            have hh : 2 ≤ h := by
              have h0 : h ≠ initDefault := by
                rintro rfl
                rw [ht.init] at he
                exact he rfl
              have h1 : h ≠ streamDefault := by
                rintro rfl
                rw [ht.stream] at he
                exact he rfl
              unfold initDefault at h0
              unfold streamDefault at h1
              omega
            generalize recordsToBytes 0 w.recNum w.buf (asDmapRecs (t.lists h)) = z
            obtain ⟨z1, z2, z3, z4⟩ := z
            exact setw _ _ (setc t h _ ht hh)
  | appendTo i rec => exact absurd trivial hc

theorem run_clean {s : Lists} (hs : s.Clean) {cs : List LCall} (hc : ∀ c ∈ cs, ¬ c.toWriter) : (s.run cs).Clean := by
  induction cs generalizing s with
  | nil => exact hs
  | cons c cs ih => exact ih (step_clean hs (hc c (by simp))) fun d hd => hc d (List.mem_cons_of_mem _ hd)

theorem start_clean : Lists.start.Clean := ⟨rfl, rfl, by decide, nofun⟩

theorem adopt_dmap (s : Lists) (g : Nat) {recs : List Rec} (h : s.lists g = (dmapInput recs).recs) : s.adopt g = .ok (g, s) := by
  unfold Lists.adopt
  rw [h]
  cases recs with
  | nil => rfl
  | cons r rs => cases r <;> rfl

/-- **C90** (partial: nothing is appended to the records of a writer.)  In every such program, whatever lists and writers were
made and whatever was written: a writer that is now made without argument has no records and writes nothing.  Missing: programs
that append to the records of a writer, see `C90_default_violation`. -/
theorem C90_default_partial {cs : List LCall} (hc : ∀ c ∈ cs, ¬ c.toWriter) :
    let s := Lists.start.run cs
    ((s.step (.new none)).2.step (.stream s.writers.length none)).1 = some (.error .dmapDataError) := by
  intro s
  have hs : s.Clean := run_clean start_clean hc
  have hn : (s.step (.new none)).2 = { s with writers := s.writers ++ [⟨initDefault, [], 0⟩] } := by
    simp only [Lists.step, Lists.given]
    rw [adopt_dmap s initDefault (recs := []) hs.init]
  rw [hn, (C90_agrees (w := ⟨initDefault, [], 0⟩) (g := streamDefault) (by simp) rfl []).1]
  dsimp only [Lists.writer]
  rw [hs.init, hs.stream]
  rfl

/-- The bytes of a list of DMAP records, as the writer with lists makes them. -/
theorem stream_writes {s : Lists} {i h : Nat} {recs : List Rec} (hw : s.writers[i]? = some ⟨h, [], 0⟩)
    (hl : s.lists h = (dmapInput recs).recs) (hne : recs ≠ []) :
    (s.step (.stream i none)).1 = some (writeBytes recs) := by
  rw [(C90_agrees hw (g := streamDefault) rfl []).1]
  unfold Lists.writer
  unfold writeBytes
  rw [writerNew_dmapInput]
  dsimp only
  rw [hl, asDmapRecs_dmap]
  unfold Writer.writeStream
  have : Writer.isEmptyList ⟨[], true, recs, [], 0⟩ = false := by
    cases recs with
    | nil => exact absurd rfl hne
    | cons => rfl
  rw [this]
  rfl

/-- **C90** violated: after any program that appended nothing to the records of a writer, make a writer without argument and append
a record to its records: a second writer made without argument writes this record. -/
theorem C90_default_violation {cs : List LCall} (hc : ∀ c ∈ cs, ¬ c.toWriter) (r : Rec) :
    let s := Lists.start.run cs
    let n := s.writers.length
    ((s.run [.new none, .appendTo n (r.map fun p => (p.1, .dmap p.2)), .new none]).step (.stream (n + 1) none)).1 =
      some (writeBytes [r]) := by
  intro s n
  have hs : s.Clean := run_clean start_clean hc
  have h1 : (s.step (.new none)).2 = { s with writers := s.writers ++ [⟨initDefault, [], 0⟩] } := by
    simp only [Lists.step, Lists.given]
    rw [adopt_dmap s initDefault (recs := []) hs.init]
  simp only [Lists.run]
  rw [h1]
  generalize ht : (({ s with writers := s.writers ++ [⟨initDefault, [], 0⟩] } : Lists).step
    (.appendTo n (r.map fun p => (p.1, .dmap p.2)))).2 = t
  have hlist : t.lists initDefault = (dmapInput [r]).recs := by
    rw [← ht]
    simp [Lists.step, n, setList, hs.init, dmapInput]
  have hlen : t.writers.length = n + 1 := by
    rw [← ht]
    simp [Lists.step, n]
  have h2 : (t.step (.new none)).2 = { t with writers := t.writers ++ [⟨initDefault, [], 0⟩] } := by
    simp only [Lists.step, Lists.given]
    rw [adopt_dmap t initDefault hlist]
  rw [h2]
  exact stream_writes (h := initDefault) (by simp [← hlen]) hlist (by simp)

/-! ## Writers made with a list -/

/-- **C90** violated: whatever program came before, give a list of DMAP records to a new writer and then append to the list: the
writer writes the appended record as well, which never gives the bytes of the records that were given. -/
theorem C90_list_violation (cs : List LCall) (recs : List Rec) (r : Rec) :
    let s := Lists.start.run cs
    (∀ bs, writeBytes recs = .ok bs → writeBytes (recs ++ [r]) ≠ .ok bs) ∧
    ((s.run [.list (dmapInput recs).recs, .new (some s.mine.length),
      .append s.mine.length (r.map fun p => (p.1, .dmap p.2))]).step (.stream s.writers.length none)).1 =
      some (writeBytes (recs ++ [r])) := by
  intro s
  refine ⟨fun bs h1 h2 => ?_, ?_⟩
  · obtain ⟨hne, h1⟩ := writeBytes_iff.1 h1
    obtain ⟨b1, b2, e, h3, h4⟩ := writtenList_append_inv (writeBytes_iff.1 h2).2
    have h5 := writeBytes_iff.2 ⟨hne, h1⟩
    rw [writeBytes_iff.2 ⟨hne, h3⟩] at h5
    cases h5
    have := writtenList_ne h4 (by simp)
    have hl := congrArg List.length e
    rw [List.length_append] at hl
    exact this (List.length_eq_zero_iff.1 (by omega))
  simp only [Lists.run]
  generalize ht : (s.step (.list (dmapInput recs).recs)).2 = t
  have e1 : t.lists s.next = (dmapInput recs).recs := by
    rw [← ht]
    simp [Lists.step, setList]
  have e2 : t.mine = s.mine ++ [s.next] ∧ t.writers = s.writers := by
    rw [← ht]
    exact ⟨rfl, rfl⟩
  have h2 : (t.step (.new (some s.mine.length))).2 = { t with writers := t.writers ++ [⟨s.next, [], 0⟩] } := by
    simp only [Lists.step, Lists.given, e2.1, List.getElem?_concat_length]
    rw [adopt_dmap t s.next e1]
    dsimp only
    rw [e2.1]
  rw [h2]
  refine stream_writes (h := s.next) ?_ (recs := recs ++ [r]) ?_ (by simp)
  · simp [Lists.step, e2]
  · simp [Lists.step, e2, setList, e1, dmapInput]

/-! ## Writers given plain values -/

/-- The call is of writer `i`. -/
def LCall.ofWriter (i : Nat) : LCall → Prop
  | .stream j _ => j = i
  | .appendTo j _ => j = i
  | _ => False

/-- Numbers of lists that exist. -/
structure Lists.Wf (s : Lists) : Prop where
  next : 2 ≤ s.next
  mine : ∀ id ∈ s.mine, id < s.next
  held : ∀ w ∈ s.writers, w.held < s.next

theorem given_lt {s : Lists} (hs : s.Wf) {d g : Nat} (hd : d < 2) {given : Option Nat} (hg : s.given d given = some g) :
    g < s.next := by
  cases given with
  | none =>
    cases hg
    have := hs.next
    omega
  | some l => exact hs.mine _ (List.mem_of_getElem? hg)

theorem adopt_wf {s t : Lists} (hs : s.Wf) {g h : Nat} (hg : g < s.next) (ha : s.adopt g = .ok (h, t)) :
    t.Wf ∧ h < t.next ∧ t.writers = s.writers := by
  obtain ⟨h1, h2, h3⟩ := hs
  rcases adopt_cases ha with ⟨rfl, rfl⟩ | ⟨rfl, l, rfl⟩
  · exact ⟨⟨h1, h2, h3⟩, hg, rfl⟩
  · refine ⟨⟨by dsimp only; omega, fun id hid => ?_, fun w hw => ?_⟩, Nat.lt_succ_self _, rfl⟩
    · exact Nat.lt_succ_of_lt (h2 id hid)
    · exact Nat.lt_succ_of_lt (h3 w hw)

theorem step_wf {s : Lists} (hs : s.Wf) (c : LCall) : (s.step c).2.Wf := by
  cases c with
  | list recs =>
    obtain ⟨h1, h2, h3⟩ := hs
    refine ⟨Nat.le_succ_of_le h1, fun id hid => ?_, fun w hw => Nat.lt_succ_of_lt (h3 w hw)⟩
    rcases List.mem_append.1 hid with hid | hid
    · exact Nat.lt_succ_of_lt (h2 id hid)
    · cases List.mem_singleton.1 hid
      exact Nat.lt_succ_self _
  | append l rec =>
    simp only [Lists.step]
    cases s.mine[l]? with
    | none => exact hs
    | some id => exact ⟨hs.next, hs.mine, hs.held⟩
  | new given =>
    simp only [Lists.step]
    cases hg : s.given initDefault given with
    | none => exact hs
    | some g =>
      dsimp only
      cases ha : s.adopt g with
      | error e => exact hs
      | ok p =>
        obtain ⟨h, t⟩ := p
        obtain ⟨⟨h1, h2, h3⟩, h4, -⟩ := adopt_wf hs (given_lt hs (by decide) hg) ha
        refine ⟨h1, h2, fun w hw => ?_⟩
        rcases List.mem_append.1 hw with hw | hw
        · exact h3 w hw
        · cases List.mem_singleton.1 hw
          exact h4
  | stream i given =>
    simp only [Lists.step]
    cases hw : s.writers[i]? with
    | none => exact hs
    | some w =>
      cases hg : s.given streamDefault given with
      | none => exact hs
      | some g =>
        dsimp only
        cases ha : (if (s.lists w.held).isEmpty then s.adopt g else .ok (w.held, s)) with
        | error e => exact hs
        | ok p =>
          obtain ⟨h, t⟩ := p
          have ht : t.Wf ∧ h < t.next := by
            split at ha
            · have := adopt_wf hs (given_lt hs (by decide) hg) ha
              exact ⟨this.1, this.2.1⟩
            · cases ha
              exact ⟨hs, hs.held _ (List.mem_of_getElem? hw)⟩
          obtain ⟨⟨h1, h2, h3⟩, h4⟩ := ht
          have hset : ∀ b n, ∀ v ∈ t.writers.set i ⟨h, b, n⟩, v.held < t.next := by
            intro b n v hv
            rcases List.mem_or_eq_of_mem_set hv with hv | rfl
            · exact h3 v hv
            · exact h4
          dsimp only
          split
          · exact ⟨h1, h2, hset _ _⟩
          · generalize recordsToBytes 0 w.recNum w.buf (asDmapRecs (t.lists h)) = z
            obtain ⟨z1, z2, z3, z4⟩ := z
            exact ⟨h1, h2, hset _ _⟩
  | appendTo i rec =>
    simp only [Lists.step]
    cases s.writers[i]? with
    | none => exact hs
    | some w => exact ⟨hs.next, hs.mine, hs.held⟩

theorem run_wf {s : Lists} (hs : s.Wf) (cs : List LCall) : (s.run cs).Wf := by
  induction cs generalizing s with
  | nil => exact hs
  | cons c cs ih => exact ih (step_wf hs c)

theorem start_wf : Lists.start.Wf := ⟨by decide, nofun, nofun⟩

/-- Writer `i` is as it was made and alone has the list `h`, with these contents. -/
structure Lists.Own (s : Lists) (i h : Nat) (l : List (Dict PyStr InVal)) : Prop where
  low : 2 ≤ h
  made : h < s.next
  writer : s.writers[i]? = some ⟨h, [], 0⟩
  mine : ∀ id ∈ s.mine, id ≠ h
  others : ∀ j w, s.writers[j]? = some w → j ≠ i → w.held ≠ h
  contents : s.lists h = l

theorem given_ne {s : Lists} {i h : Nat} {l : List (Dict PyStr InVal)} (hs : s.Own i h l) {d g : Nat} (hd : d < 2)
    {given : Option Nat} (hg : s.given d given = some g) : g ≠ h := by
  cases given with
  | none =>
    cases hg
    have := hs.low
    omega
  | some l => exact hs.mine _ (List.mem_of_getElem? hg)

theorem adopt_own {s t : Lists} {i h g k : Nat} {l : List (Dict PyStr InVal)} (hs : s.Own i h l) (hg : g ≠ h)
    (ha : s.adopt g = .ok (k, t)) : t.Own i h l ∧ k ≠ h ∧ t.writers = s.writers := by
  obtain ⟨h1, h2, h3, h4, h5, h6⟩ := hs
  rcases adopt_cases ha with ⟨rfl, rfl⟩ | ⟨rfl, m, rfl⟩
  · exact ⟨⟨h1, h2, h3, h4, h5, h6⟩, hg, rfl⟩
  · refine ⟨⟨h1, Nat.lt_succ_of_lt h2, h3, h4, h5, ?_⟩, by omega, rfl⟩
    dsimp only
    rw [setList_ne (by omega), h6]

theorem step_own {s : Lists} {i h : Nat} {l : List (Dict PyStr InVal)} (hs : s.Own i h l) {c : LCall} (hc : ¬ c.ofWriter i) :
    (s.step c).2.Own i h l := by
  cases c with
  | list recs =>
    obtain ⟨h1, h2, h3, h4, h5, h6⟩ := hs
    refine ⟨h1, Nat.lt_succ_of_lt h2, h3, fun id hid => ?_, h5, ?_⟩
    · rcases List.mem_append.1 hid with hid | hid
      · exact h4 id hid
      · cases List.mem_singleton.1 hid
        omega
    · simp only [Lists.step]
      rw [setList_ne (by omega), h6]
  | append m rec =>
    simp only [Lists.step]
    cases hm : s.mine[m]? with
    | none => exact hs
    | some id =>
      obtain ⟨h1, h2, h3, h4, h5, h6⟩ := hs
      refine ⟨h1, h2, h3, h4, h5, ?_⟩
      dsimp only
      rw [setList_ne (h4 id (List.mem_of_getElem? hm)).symm, h6]
  | new given =>
    simp only [Lists.step]
    cases hg : s.given initDefault given with
    | none => exact hs
    | some g =>
      dsimp only
      cases ha : s.adopt g with
      | error e => exact hs
      | ok p =>
        obtain ⟨k, t⟩ := p
        obtain ⟨⟨h1, h2, h3, h4, h5, h6⟩, hk, -⟩ := adopt_own hs (given_ne hs (by decide) hg) ha
        have hi : i < t.writers.length := (List.getElem?_eq_some_iff.1 h3).1
        refine ⟨h1, h2, by dsimp only; rw [List.getElem?_append_left hi, h3], h4, ?_, h6⟩
        intro j w hw hj
        dsimp only at hw
        by_cases hl : j < t.writers.length
        · rw [List.getElem?_append_left hl] at hw
          exact h5 j w hw hj
        · have := List.mem_of_getElem? hw
          rcases List.mem_append.1 this with hm | hm
          · rw [List.getElem?_append_right (by omega)] at hw
            have h0 := List.mem_of_getElem? hw
            cases List.mem_singleton.1 h0
            exact hk
          · cases List.mem_singleton.1 hm
            exact hk
  | stream j given =>
    have hj : j ≠ i := hc
    simp only [Lists.step]
    cases hw : s.writers[j]? with
    | none => exact hs
    | some w =>
      cases hg : s.given streamDefault given with
      | none => exact hs
      | some g =>
        dsimp only
        cases ha : (if (s.lists w.held).isEmpty then s.adopt g else .ok (w.held, s)) with
        | error e => exact hs
        | ok p =>
          obtain ⟨k, t⟩ := p
          have ht : t.Own i h l ∧ k ≠ h := by
            split at ha
            · have := adopt_own hs (given_ne hs (by decide) hg) ha
              exact ⟨this.1, this.2.1⟩
            · cases ha
              exact ⟨hs, hs.others j w hw hj⟩
          obtain ⟨⟨h1, h2, h3, h4, h5, h6⟩, hk⟩ := ht
          have hset : ∀ b n m v, (t.writers.set j ⟨k, b, n⟩)[m]? = some v → m ≠ i → v.held ≠ h := by
            intro b n m v hv hm
            rw [List.getElem?_set] at hv
            split at hv
            · split at hv
              · cases hv
                exact hk
              · cases hv
            · exact h5 m v hv hm
          have hget : ∀ b n, (t.writers.set j ⟨k, b, n⟩)[i]? = some ⟨h, [], 0⟩ := fun b n => by
            rw [List.getElem?_set_ne hj, h3]
          dsimp only
          split
          · exact ⟨h1, h2, hget _ _, h4, hset _ _, h6⟩
          · generalize recordsToBytes 0 w.recNum w.buf (asDmapRecs (t.lists k)) = z
            obtain ⟨z1, z2, z3, z4⟩ := z
            refine ⟨h1, h2, hget _ _, h4, hset _ _, ?_⟩
            dsimp only
            rw [setList_ne hk.symm, h6]
  | appendTo j rec =>
    have hj : j ≠ i := hc
    simp only [Lists.step]
    cases hw : s.writers[j]? with
    | none => exact hs
    | some w =>
      obtain ⟨h1, h2, h3, h4, h5, h6⟩ := hs
      refine ⟨h1, h2, h3, h4, h5, ?_⟩
      dsimp only
      rw [setList_ne (h5 j w hw hj).symm, h6]

theorem run_own {s : Lists} {i h : Nat} {l : List (Dict PyStr InVal)} (hs : s.Own i h l) {cs : List LCall}
    (hc : ∀ c ∈ cs, ¬ c.ofWriter i) : (s.run cs).Own i h l := by
  induction cs generalizing s with
  | nil => exact hs
  | cons c cs ih => exact ih (step_own hs (hc c (by simp))) fun d hd => hc d (List.mem_cons_of_mem _ hd)

/-- **C90** (partial: the values are plain.)  Whatever program came before, a writer that is given a list of plain dictionaries
writes what `dict2dmap` made of them then, whatever is done with this list, other lists and other writers in between.  Missing:
lists of DMAP structures, see `C90_list_violation`. -/
theorem C90_plain_partial (before after : List LCall) {k : PyStr} {v : PlainVal} {d : PlainRec} {ps : List PlainRec}
    {recs : List Rec} (hr : dict2dmap (((k, v) :: d) :: ps) = .ok recs) (hne : recs ≠ [])
    (ha : ∀ c ∈ after, ¬ c.ofWriter (Lists.start.run before).writers.length) :
    let s := Lists.start.run before
    ((s.run (.list (plainInput (((k, v) :: d) :: ps)).recs :: .new (some s.mine.length) :: after)).step
      (.stream s.writers.length none)).1 = some (writeBytes recs) := by
  intro s
  have hs : s.Wf := run_wf start_wf before
  simp only [Lists.run]
  generalize ht : (s.step (.list (plainInput (((k, v) :: d) :: ps)).recs)).2 = t
  have e1 : t.lists s.next = (plainInput (((k, v) :: d) :: ps)).recs := by
    rw [← ht]
    simp [Lists.step, setList]
  have e2 : t.mine = s.mine ++ [s.next] ∧ t.writers = s.writers ∧ t.next = s.next + 1 := by
    rw [← ht]
    exact ⟨rfl, rfl, rfl⟩
  have htw : t.Wf := ht ▸ step_wf hs _
  have had : t.adopt s.next = .ok (t.next, { t with
      lists := setList t.lists t.next (dmapInput recs).recs
      next := t.next + 1 }) := by
    have e3 : asPlainRecs (plainInput (((k, v) :: d) :: ps)).recs = .ok (((k, v) :: d) :: ps) := asPlainRecs_plainInput _
    rw [← e1] at e3
    unfold Lists.adopt
    rw [e3]
    dsimp only
    rw [hr, e1]
    rfl
  have h2 : (t.step (.new (some s.mine.length))).2 = { t with
      lists := setList t.lists t.next (dmapInput recs).recs
      next := t.next + 1
      writers := t.writers ++ [⟨t.next, [], 0⟩] } := by
    simp only [Lists.step, Lists.given, e2.1, List.getElem?_concat_length]
    rw [had, e2.1]
  have hown : (t.step (.new (some s.mine.length))).2.Own s.writers.length t.next (dmapInput recs).recs := by
    rw [h2]
    refine ⟨htw.next, Nat.lt_succ_self _, by simp [e2], fun id hid => ?_, fun j w hw hj => ?_, by simp [setList]⟩
    · have := htw.mine id hid
      omega
    · rw [← e2.2.1] at hj
      have hjl := (List.getElem?_eq_some_iff.1 hw).1
      simp only [List.length_append, List.length_cons, List.length_nil] at hjl
      dsimp only at hw
      rw [List.getElem?_append_left (by omega)] at hw
      have := htw.held w (List.mem_of_getElem? hw)
      omega
  have hfin := run_own hown ha
  exact stream_writes hfin.writer hfin.contents hne

/-! ## Samples -/

/-- A list of a DMAP record, a writer that has it, and its stream. -/
def oneWriter : List LCall := [.list (dmapInput [Sample.record]).recs, .new (some 0), .stream 0 none]

example : (Lists.start.run oneWriter).writers.length = 1 ∧
    (((Lists.start.run oneWriter).step (.new none)).2.step (.stream (Lists.start.run oneWriter).writers.length none)).1 =
      some (.error .dmapDataError) :=
  ⟨by decide +kernel, C90_default_partial (cs := oneWriter) (by simp [oneWriter, LCall.toWriter])⟩

/-- A second call of the writer, with a list of the caller's that it does not take. -/
example : ∃ w, (Lists.start.run (oneWriter ++ [.list (plainInput [plainOne]).recs])).writers[0]? = some w ∧
    ∃ w', ((Lists.start.run (oneWriter ++ [.list (plainInput [plainOne]).recs])).step (.stream 0 (some 1))).2.writers[0]? = some w' := by
  have h : ((Lists.start.run (oneWriter ++ [.list (plainInput [plainOne]).recs])).writers[0]?).isSome = true := by decide +kernel
  obtain ⟨w, hw⟩ := Option.isSome_iff_exists.1 h
  have hg : ((Lists.start.run (oneWriter ++ [.list (plainInput [plainOne]).recs])).given streamDefault (some 1)).isSome = true := by
    decide +kernel
  obtain ⟨g, hg⟩ := Option.isSome_iff_exists.1 hg
  obtain ⟨-, w', h1, -⟩ := C90_agrees hw hg []
  exact ⟨w, hw, w', h1⟩

/-- `w1 = DmapWrite(); w1.dmap_records.append(record); DmapWrite().write_dmap_stream()` -/
example : ((Lists.start.run [.new none, .appendTo 0 (Sample.record.map fun p => (p.1, .dmap p.2)), .new none]).step
      (.stream 1 none)).1 = some (writeBytes [Sample.record]) ∧ (writeBytes [Sample.record]).isOk = true :=
  ⟨C90_default_violation (cs := []) nofun Sample.record, by decide +kernel⟩

/-- `l = [record]; w = DmapWrite(l); l.append(record); w.write_dmap_stream()` -/
example : ((Lists.start.run [.list (dmapInput [Sample.record]).recs, .new (some 0),
      .append 0 (Sample.record.map fun p => (p.1, .dmap p.2))]).step (.stream 0 none)).1 =
      some (writeBytes [Sample.record, Sample.record]) ∧
    (writeBytes [Sample.record]).isOk = true ∧ (writeBytes [Sample.record, Sample.record]).isOk = true :=
  ⟨(C90_list_violation [] [Sample.record] Sample.record).2, by decide +kernel, by decide +kernel⟩

/-- What is done afterwards: the list gets the record again, the first writer another one; it writes, and so does a new one with
the list. -/
def laterCalls : List LCall :=
  [.append 1 (plainOne.map fun p => (p.1, .plain p.2)), .appendTo 0 [], .stream 0 (some 1), .new (some 1), .stream 2 none]

/-- The same with plain values: neither the list nor other writers matter. -/
example : ∃ recs, dict2dmap [plainOne] = .ok recs ∧ (writeBytes recs).isOk = true ∧ (
    let s := Lists.start.run oneWriter
    ((s.run (.list (plainInput [plainOne]).recs :: .new (some s.mine.length) :: laterCalls)).step
      (.stream s.writers.length none)).1 = some (writeBytes recs)) := by
  have h0 : (match dict2dmap [plainOne] with
      | .ok r => !r.isEmpty && (writeBytes r).isOk
      | .error _ => false) = true := by decide +kernel
  have h1 : (Lists.start.run oneWriter).writers.length = 1 := by decide +kernel
  cases hr : dict2dmap [plainOne] with
  | error e => rw [hr] at h0; cases h0
  | ok recs =>
    rw [hr] at h0
    simp only [Bool.and_eq_true, Bool.not_eq_true', List.isEmpty_eq_false_iff] at h0
    refine ⟨recs, rfl, h0.2, ?_⟩
    exact C90_plain_partial oneWriter laterCalls hr h0.1 (by rw [h1]; simp [laterCalls, LCall.ofWriter])

end Verif
