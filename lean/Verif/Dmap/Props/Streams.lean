import Verif.Dmap.Model.Streams
import Verif.Dmap.Lemmas.Programs
import Verif.Dmap.Sample
/-!
# C91: a stream and the readers made from it

Specification: `readManyTimes cfg m (freshReader bs)`, a reader of these bytes that is alone in the world; the contents of a
stream before and after.
-/
namespace Verif
open Spec

/-- The contents of the caller's stream number `k`. -/
def Streams.contents (s : Streams) (k : Nat) : Option Bytes := s.mine[k]?.map s.mem

/-- Whether the call changes the caller's stream number `k`. -/
def RCall.changes (k : Nat) : RCall → Bool
  | .change k' _ => k' = k
  | _ => false

/-- Whether the call writes into arrays of reader number `n`. -/
def RCall.writes (n : Nat) : RCall → Bool
  | .write i _ => i = n
  | _ => false

/-- Whether the call is `read_records` of reader number `n`. -/
def RCall.reads (n : Nat) : RCall → Bool
  | .read i => i = n
  | _ => false

/-! ## No two objects have the same `bytearray` -/

/-- The numbers of all `bytearray`s. -/
def Streams.ids (s : Streams) : List Nat := s.mine ++ s.readers.map (·.mem)

def Streams.Apart (s : Streams) : Prop := s.ids.Nodup ∧ ∀ x ∈ s.ids, x < s.next

theorem map_mem_set {l : List SReader} {i : Nat} {r r' : SReader} (h : l[i]? = some r) (hm : r'.mem = r.mem) :
    (l.set i r').map (·.mem) = l.map (·.mem) := by
  apply List.ext_getElem?
  intro j
  rw [List.getElem?_map, List.getElem?_map, List.getElem?_set]
  by_cases hj : i = j
  · subst hj
    rw [if_pos rfl, if_pos (List.getElem?_eq_some_iff.1 h).1, h]
    exact congrArg some hm
  · simp [hj]

theorem apart_fresh {s s' : Streams} (h : s.Apart) (hp : s'.ids.Perm (s.next :: s.ids)) (hn : s'.next = s.next + 1) : s'.Apart := by
  refine ⟨hp.nodup_iff.2 (List.nodup_cons.2 ⟨fun hx => absurd (h.2 _ hx) (by omega), h.1⟩), fun x hx => ?_⟩
  rcases List.mem_cons.1 (hp.mem_iff.1 hx) with rfl | hx
  · omega
  · have := h.2 x hx; omega

theorem apart_same {s s' : Streams} (h : s.Apart) (hp : s'.ids = s.ids) (hn : s'.next = s.next) : s'.Apart := by
  unfold Streams.Apart
  rw [hp, hn]
  exact h

theorem streams_step_apart (cfg : NpCfg) {s : Streams} (h : s.Apart) (c : RCall) : (s.step cfg c).2.Apart := by
  cases c with
  | make bs =>
    refine apart_fresh h ?_ rfl
    simp only [Streams.step, Streams.ids, List.append_assoc]
    exact List.perm_middle
  | change k bs =>
    simp only [Streams.step]
    split
    · exact h
    · exact apart_same h rfl rfl
  | «open» k =>
    simp only [Streams.step]
    split
    · exact h
    · split
      · exact h
      · refine apart_fresh h ?_ rfl
        simp only [Streams.ids, List.map_append, List.map_cons, List.map_nil, ← List.append_assoc]
        exact List.perm_append_singleton _ _
  | read i =>
    simp only [Streams.step]
    split
    · exact h
    · rename_i r hr
      split
      · exact h
      · refine apart_same h ?_ rfl
        simp only [Streams.ids]
        exact congrArg (s.mine ++ ·) (map_mem_set hr rfl)
  | write i bs =>
    simp only [Streams.step]
    split
    · exact h
    · rename_i r hr
      split
      · refine apart_same h ?_ rfl
        simp only [Streams.ids]
        exact congrArg (s.mine ++ ·) (map_mem_set hr rfl)
      · exact h

theorem streams_run_append (cfg : NpCfg) (s : Streams) (cs ds : List RCall) : s.run cfg (cs ++ ds) = (s.run cfg cs).run cfg ds := by
  induction cs generalizing s with
  | nil => rfl
  | cons c cs ih => exact ih _

theorem streams_run_apart (cfg : NpCfg) {s : Streams} (h : s.Apart) (cs : List RCall) : (s.run cfg cs).Apart := by
  induction cs generalizing s with
  | nil => exact h
  | cons c cs ih => exact ih (streams_step_apart cfg h c)

theorem streams_start_apart : Streams.start.Apart := ⟨List.nodup_nil, by simp [Streams.ids, Streams.start]⟩

theorem mine_lt {s : Streams} (h : s.Apart) {k id : Nat} (hk : s.mine[k]? = some id) : id < s.next :=
  h.2 id (List.mem_append_left _ (List.mem_of_getElem? hk))

theorem reader_lt {s : Streams} (h : s.Apart) {i : Nat} {r : SReader} (hi : s.readers[i]? = some r) : r.mem < s.next :=
  h.2 _ (List.mem_append_right _ (List.mem_map.2 ⟨r, List.mem_of_getElem? hi, rfl⟩))

theorem mine_inj {s : Streams} (h : s.Apart) {k k' id : Nat} (hk : s.mine[k]? = some id) (hk' : s.mine[k']? = some id) : k = k' := by
  have hn := (List.nodup_append.1 h.1).1
  exact (List.getElem?_inj (List.getElem?_eq_some_iff.1 hk).1 hn).1 (hk.trans hk'.symm)

theorem reader_inj {s : Streams} (h : s.Apart) {i j : Nat} {r r' : SReader} (hi : s.readers[i]? = some r)
    (hj : s.readers[j]? = some r') (e : r.mem = r'.mem) : i = j := by
  have hn := (List.nodup_append.1 h.1).2.1
  have h1 : (s.readers.map (·.mem))[i]? = some r.mem := by rw [List.getElem?_map, hi]; rfl
  have h2 : (s.readers.map (·.mem))[j]? = some r'.mem := by rw [List.getElem?_map, hj]; rfl
  exact (List.getElem?_inj (List.getElem?_eq_some_iff.1 h1).1 hn).1 (by rw [h1, h2, e])

theorem reader_not_mine {s : Streams} (h : s.Apart) {k id i : Nat} {r : SReader} (hk : s.mine[k]? = some id)
    (hi : s.readers[i]? = some r) : id ≠ r.mem :=
  (List.nodup_append.1 h.1).2.2 _ (List.mem_of_getElem? hk) _ (List.mem_map.2 ⟨r, List.mem_of_getElem? hi, rfl⟩)

/-! ## The stream -/

theorem step_mine (cfg : NpCfg) {s : Streams} (h : s.Apart) {k id : Nat} (hk : s.mine[k]? = some id) {c : RCall}
    (hc : c.changes k = false) : (s.step cfg c).2.mine[k]? = some id ∧ (s.step cfg c).2.mem id = s.mem id := by
  have hlt := mine_lt h hk
  cases c with
  | make bs =>
    simp only [Streams.step, setMem]
    rw [List.getElem?_append_left (List.getElem?_eq_some_iff.1 hk).1, if_neg (by omega)]
    exact ⟨hk, rfl⟩
  | change k' bs =>
    simp only [Streams.step]
    split
    · exact ⟨hk, rfl⟩
    · rename_i id' hk'
      refine ⟨hk, ?_⟩
      simp only [setMem]
      rw [if_neg]
      rintro rfl
      simp only [RCall.changes, decide_eq_false_iff_not] at hc
      exact hc (mine_inj h hk' hk)
  | «open» k' =>
    simp only [Streams.step]
    split
    · exact ⟨hk, rfl⟩
    · split
      · exact ⟨hk, rfl⟩
      · simp only [setMem]
        rw [if_neg (by omega)]
        exact ⟨hk, rfl⟩
  | read i =>
    simp only [Streams.step]
    split
    · exact ⟨hk, rfl⟩
    · split
      · exact ⟨hk, rfl⟩
      · exact ⟨hk, rfl⟩
  | write i bs =>
    simp only [Streams.step]
    split
    · exact ⟨hk, rfl⟩
    · rename_i r hr
      split
      · simp only [setMem]
        rw [if_neg (reader_not_mine h hk hr)]
        exact ⟨hk, rfl⟩
      · exact ⟨hk, rfl⟩

theorem run_mine (cfg : NpCfg) {s : Streams} (h : s.Apart) {k id : Nat} (hk : s.mine[k]? = some id) {cs : List RCall}
    (hc : ∀ c ∈ cs, c.changes k = false) : (s.run cfg cs).mine[k]? = some id ∧ (s.run cfg cs).mem id = s.mem id := by
  induction cs generalizing s with
  | nil => exact ⟨hk, rfl⟩
  | cons c cs ih =>
    obtain ⟨h1, h2⟩ := step_mine cfg h hk (hc c (by simp))
    obtain ⟨h3, h4⟩ := ih (streams_step_apart cfg h c) h1 fun c hc' => hc c (by simp [hc'])
    exact ⟨h3, h4.trans h2⟩

/-- **C91** (the stream).  Whatever is done with readers of a stream and with the arrays they gave, and with other streams: the
contents of the stream stay as they are. -/
theorem C91_stream (cfg : NpCfg) (before after : List RCall) {k : Nat} {bs : Bytes}
    (hk : (Streams.start.run cfg before).contents k = some bs) (hc : ∀ c ∈ after, c.changes k = false) :
    (Streams.start.run cfg (before ++ after)).contents k = some bs := by
  rw [streams_run_append]
  have h := streams_run_apart cfg streams_start_apart before
  generalize Streams.start.run cfg before = s at hk h ⊢
  simp only [Streams.contents, Option.map_eq_some_iff] at hk ⊢
  obtain ⟨id, hk, rfl⟩ := hk
  exact ⟨id, run_mine cfg h hk hc⟩

/-! ## The readers -/

theorem readManyTimes_last (cfg : NpCfg) (m : Nat) (rd : Reader) :
    (readManyTimes cfg (m + 1) rd).1[m]? = some ((readManyTimes cfg m rd).2.readRecords cfg).1 ∧
      (readManyTimes cfg (m + 1) rd).2 = ((readManyTimes cfg m rd).2.readRecords cfg).2 := by
  induction m generalizing rd with
  | zero => exact ⟨rfl, rfl⟩
  | succ m ih =>
    obtain ⟨h1, h2⟩ := ih (rd.readRecords cfg).2
    rw [readManyTimes]
    exact ⟨h1, h2⟩

theorem readRecords_buf (cfg : NpCfg) (rd : Reader) : (rd.readRecords cfg).2.buf = rd.buf := by
  unfold Reader.readRecords
  cases h : rd.readLoop cfg (rd.buf.length - rd.cursor).toNat with
  | mk x r1 =>
    have := readLoop_buf _ _ _ _ _ h
    cases x with
    | error e => exact this
    | ok u =>
      dsimp only
      split
      · exact this
      · split <;> exact this

theorem readManyTimes_buf (cfg : NpCfg) (m : Nat) (rd : Reader) : (readManyTimes cfg m rd).2.buf = rd.buf := by
  induction m generalizing rd with
  | zero => rfl
  | succ m ih => exact (ih _).trans (readRecords_buf cfg rd)

/-- Reader number `n` is like one of these bytes that is alone and has read `m` times. -/
def Alone (cfg : NpCfg) (s : Streams) (n m : Nat) (bs : Bytes) : Prop :=
  ∃ r, s.readers[n]? = some r ∧ r.touched = false ∧ s.mem r.mem = bs ∧ r.reader = (readManyTimes cfg m (freshReader bs)).2

theorem alone_read {cfg : NpCfg} {s : Streams} {n m : Nat} {bs : Bytes} (h : Alone cfg s n m bs) :
    (s.step cfg (.read n)).1 = (readManyTimes cfg (m + 1) (freshReader bs)).1[m]? ∧
      Alone cfg (s.step cfg (.read n)).2 n (m + 1) bs := by
  obtain ⟨r, h1, h2, h3, h4⟩ := h
  have hb : { r.reader with buf := s.mem r.mem } = (readManyTimes cfg m (freshReader bs)).2 := by
    have := readManyTimes_buf cfg m (freshReader bs)
    rw [h3, h4]
    generalize (readManyTimes cfg m (freshReader bs)).2 = x at this
    cases x
    cases this
    rfl
  obtain ⟨k1, k2⟩ := readManyTimes_last cfg m (freshReader bs)
  simp only [Streams.step, h1, h2, hb, Bool.false_eq_true, if_false]
  exact ⟨k1.symm, ⟨((readManyTimes cfg m (freshReader bs)).2.readRecords cfg).2, r.mem, false⟩,
    List.getElem?_set_self (List.getElem?_eq_some_iff.1 h1).1, rfl, h3, k2.symm⟩

theorem alone_step {cfg : NpCfg} {s : Streams} {n m : Nat} {bs : Bytes} (ha : s.Apart) (h : Alone cfg s n m bs) {c : RCall}
    (hw : c.writes n = false) (hr : c.reads n = false) : Alone cfg (s.step cfg c).2 n m bs := by
  have h0 := h
  obtain ⟨r, h1, h2, h3, h4⟩ := h
  have hlt := reader_lt ha h1
  have hl := (List.getElem?_eq_some_iff.1 h1).1
  cases c with
  | make bs' =>
    exact ⟨r, h1, h2, by simp only [Streams.step, setMem]; rw [if_neg (by omega)]; exact h3, h4⟩
  | change k bs' =>
    simp only [Streams.step]
    split
    · exact h0
    · rename_i id hk
      exact ⟨r, h1, h2, by simp only [setMem]; rw [if_neg (reader_not_mine ha hk h1).symm]; exact h3, h4⟩
  | «open» k =>
    simp only [Streams.step]
    split
    · exact h0
    · split
      · exact h0
      · exact ⟨r, (List.getElem?_append_left hl).trans h1, h2, by simp only [setMem]; rw [if_neg (by omega)]; exact h3, h4⟩
  | read i =>
    simp only [RCall.reads, decide_eq_false_iff_not] at hr
    simp only [Streams.step]
    split
    · exact h0
    · split
      · exact h0
      · exact ⟨r, (List.getElem?_set_ne hr).trans h1, h2, h3, h4⟩
  | write i bs' =>
    simp only [RCall.writes, decide_eq_false_iff_not] at hw
    simp only [Streams.step]
    split
    · exact h0
    · rename_i r' hi
      split
      · exact ⟨r, (List.getElem?_set_ne hw).trans h1, h2,
          by simp only [setMem]; rw [if_neg (fun e => hw (reader_inj ha hi h1 e.symm))]; exact h3, h4⟩
      · exact h0

theorem alone_run {cfg : NpCfg} {s : Streams} {n m : Nat} {bs : Bytes} (ha : s.Apart) (h : Alone cfg s n m bs) {cs : List RCall}
    (hw : ∀ c ∈ cs, c.writes n = false) : Alone cfg (s.run cfg cs) n (m + cs.countP (·.reads n)) bs := by
  induction cs generalizing s m with
  | nil => exact h
  | cons c cs ih =>
    have hw' : ∀ c ∈ cs, c.writes n = false := fun c hc => hw c (by simp [hc])
    by_cases hr : c.reads n = true
    · have hc : c = .read n := by
        cases c <;> simp_all [RCall.reads]
      subst hc
      have := ih (streams_step_apart cfg ha _) (alone_read h).2 hw'
      rw [List.countP_cons, if_pos hr]
      rw [show m + (cs.countP (·.reads n) + 1) = m + 1 + cs.countP (·.reads n) by omega]
      exact this
    · have hr' : c.reads n = false := by simpa using hr
      rw [List.countP_cons, if_neg hr]
      exact ih (streams_step_apart cfg ha c) (alone_step ha h (hw c (by simp)) hr') hw'

/-- **C91** (the readers).  A reader made from a stream with contents `bs` gives, each time it reads, what a reader of `bs` gives
that is alone: whatever is done in between to the stream, to other streams, with other readers and to the arrays they gave. -/
theorem C91_read (cfg : NpCfg) (before after : List RCall) {k : Nat} {bs : Bytes} (hb : bs ≠ [])
    (hk : (Streams.start.run cfg before).contents k = some bs)
    (hw : ∀ c ∈ after, c.writes (Streams.start.run cfg before).readers.length = false) :
    let n := (Streams.start.run cfg before).readers.length
    let m := after.countP (·.reads n)
    ((Streams.start.run cfg (before ++ .open k :: after)).step cfg (.read n)).1 =
      (readManyTimes cfg (m + 1) (freshReader bs)).1[m]? := by
  dsimp only
  rw [streams_run_append]
  have ha := streams_run_apart cfg streams_start_apart before
  generalize Streams.start.run cfg before = s at hk hw ha ⊢
  simp only [Streams.contents, Option.map_eq_some_iff] at hk
  obtain ⟨id, hk, hid⟩ := hk
  have h0 : Alone cfg (s.step cfg (.open k)).2 s.readers.length 0 bs := by
    simp only [Streams.step, hk, hid, reader_new hb]
    exact ⟨⟨freshReader bs, s.next, false⟩, by simp, rfl, by simp [setMem], rfl⟩
  have := alone_run (streams_step_apart cfg ha _) h0 hw
  rw [Nat.zero_add] at this
  exact (alone_read this).1

/-- **C91** (the first reading): that of the bytes the stream had when the reader was made. -/
theorem C91_first (cfg : NpCfg) (before after : List RCall) {k : Nat} {bs : Bytes} (hb : bs ≠ [])
    (hk : (Streams.start.run cfg before).contents k = some bs)
    (hw : ∀ c ∈ after, c.writes (Streams.start.run cfg before).readers.length = false ∧
      c.reads (Streams.start.run cfg before).readers.length = false) :
    ((Streams.start.run cfg (before ++ .open k :: after)).step cfg (.read (Streams.start.run cfg before).readers.length)).1 =
      some ((readFile cfg bs).map (·.2)) := by
  have h := C91_read cfg before after hb hk fun c hc => (hw c hc).1
  have h0 : after.countP (·.reads (Streams.start.run cfg before).readers.length) = 0 := by
    rw [List.countP_eq_zero]
    intro c hc
    simp [(hw c hc).2]
  dsimp only at h
  rw [h0] at h
  rw [h]
  unfold readFile
  rw [reader_new hb]
  simp only [readManyTimes]
  cases (freshReader bs).readRecords cfg with
  | mk x r => cases x <;> rfl

/-! ## Samples -/

/-- A stream, a reader of it that has read, and another stream. -/
def someReaders : List RCall := [.make Sample.bytes2, .open 0, .read 0, .make [1, 2]]

/-- Then a second reader is made; the stream is changed, zeros are written over the memory of the first reader, a third is made
and reads. -/
def otherThings : List RCall :=
  [.change 0 [7], .write 0 (List.replicate Sample.bytes2.length 0), .open 1, .read 2, .change 1 []]

/-- Zeros in the first reader's arrays do not come into the stream. -/
example : (Streams.start.run numpy1 (someReaders ++ [.write 0 (List.replicate Sample.bytes2.length 0), .open 0, .read 1])).contents 0 =
    some Sample.bytes2 :=
  C91_stream numpy1 someReaders _ (by decide +kernel) (by simp [RCall.changes])

/-- They do come into the reader's memory. -/
example : ((Streams.start.run numpy1 (someReaders ++ [.write 0 (List.replicate Sample.bytes2.length 0)])).mem 1) ≠ Sample.bytes2 := by
  decide +kernel

/-- The second reader reads the stream as it was. -/
example : ((Streams.start.run numpy1 (someReaders ++ .open 0 :: otherThings)).step numpy1
      (.read (Streams.start.run numpy1 someReaders).readers.length)).1 = some ((readFile numpy1 Sample.bytes2).map (·.2)) ∧
    (readFile numpy1 Sample.bytes2).isOk = true ∧
    (Streams.start.run numpy1 (someReaders ++ .open 0 :: otherThings)).contents 0 = some [7] := by
  have h1 : (Streams.start.run numpy1 someReaders).readers.length = 1 := by decide +kernel
  refine ⟨C91_first numpy1 someReaders otherThings (by decide +kernel) (by decide +kernel) ?_, by decide +kernel, by decide +kernel⟩
  rw [h1]
  simp [otherThings, RCall.writes, RCall.reads]

/-- It reads again after that. -/
example : let n := (Streams.start.run numpy1 someReaders).readers.length
    let m := (RCall.read 1 :: otherThings).countP (·.reads n)
    ((Streams.start.run numpy1 (someReaders ++ .open 0 :: .read 1 :: otherThings)).step numpy1 (.read n)).1 =
      (readManyTimes numpy1 (m + 1) (freshReader Sample.bytes2)).1[m]? := by
  have h1 : (Streams.start.run numpy1 someReaders).readers.length = 1 := by decide +kernel
  refine C91_read numpy1 someReaders (.read 1 :: otherThings) (by decide +kernel) (by decide +kernel) ?_
  rw [h1]
  simp [otherThings, RCall.writes]

end Verif
