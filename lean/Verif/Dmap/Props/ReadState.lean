import Verif.Dmap.Props.Read
import Verif.Dmap.Lemmas.ReadNumber
/-!
# C68: a failing read
-/
namespace Verif
open Spec

theorem readLoop_numbered (cfg : NpCfg) (fuel : Nat) (r r' : Reader) (x : Except Err Unit) (h : r.readLoop cfg fuel = (x, r')) :
    r'.recNum + r.dmapRecords.length = r.recNum + r'.dmapRecords.length ∧ ∀ e, x = .error e → AtRecord r'.recNum e := by
  induction fuel generalizing r with
  | zero =>
    rw [Reader.readLoop.eq_def] at h
    simp only at h
    split at h <;> cases h
    · exact ⟨rfl, fun e he => by cases he; exact atRecord_none rfl⟩
    · exact ⟨rfl, nofun⟩
  | succ fuel ih =>
    by_cases hc : r.cursor < r.buf.length
    · rw [readLoop_step _ _ _ hc] at h
      cases hr : readRecord cfg r.buf r.recNum r.cursor with
      | mk y c =>
        rw [hr] at h
        cases y with
        | error e =>
          cases h
          exact ⟨rfl, fun e' he => by cases he; exact (readRecord_num r.recNum cfg r.buf r.cursor trivial).1 _ _ hr⟩
        | ok rec =>
          obtain ⟨h1, h2⟩ := ih _ h
          refine ⟨?_, h2⟩
          simp only [List.length_append, List.length_singleton] at h1
          omega
    · rw [readLoop_stop _ _ _ hc] at h
      cases h
      exact ⟨rfl, nofun⟩

/-- A failing loop has read whole blocks up to a record that cannot be read. -/
theorem readLoop_stopped (cfg : NpCfg) (fuel : Nat) (r r' : Reader) (e : Err) (hneg : ¬ NegSlist r.buf) (h0 : 0 ≤ r.cursor)
    (hf : (r.buf.length - r.cursor).toNat ≤ fuel) (h : r.readLoop cfg fuel = (.error e, r')) :
    ∃ bl bs c, FileEnc cfg.maxDims bl bs ∧ At r.buf r.cursor bs ∧ r.cursor + bs.length < r.buf.length ∧
      readRecord cfg r.buf (r.recNum + bl.length) (r.cursor + bs.length) = (.error e, c) ∧
      r' = { r.after bl bs.length with cursor := c } := by
  induction fuel generalizing r with
  | zero =>
    rw [readLoop_stop _ _ _ (by omega)] at h
    cases h
  | succ fuel ih =>
    by_cases hc : r.cursor < r.buf.length
    · rw [readLoop_step _ _ _ hc] at h
      cases hr : readRecord cfg r.buf r.recNum r.cursor with
      | mk y c =>
        rw [hr] at h
        cases y with
        | error e' =>
          cases h
          exact ⟨[], [], c, .nil, at_nil.2 ⟨h0, by omega⟩, by simpa using hc, by simpa using hr, by simp [Reader.after]⟩
        | ok rec =>
          simp only at h
          obtain ⟨b, x, hb, hat, rfl, rfl⟩ := readRecord_sound hneg h0 (by omega) hr
          have hbd := hat.bounds
          have hpos := blockEnc_pos hb
          obtain ⟨bl, bs, c', hbl, hat2, hend, hbad, rfl⟩ := ih _ (by exact hneg) (by simp only; omega) (by simp only; omega) h
          simp only at hend hbad hat2
          refine ⟨b :: bl, x ++ bs, c', .cons hb hbl, at_append.2 ⟨hat, hat2⟩, ?_, ?_, ?_⟩
          · simp only [List.length_append]; omega
          · rw [← hbad, List.length_cons, List.length_append]
            congr 1 <;> omega
          · simp only [Reader.after, List.map_cons, List.append_assoc, List.length_cons, 
              List.singleton_append, Reader.mk.injEq, true_and, and_true]
            omega
    · rw [readLoop_stop _ _ _ hc] at h
      cases h

/-- **C68** If reading a file raises, for any content: the number of the reader is that of the records read before, and an
exception that names a record names the one after them. -/
theorem C68_number (cfg : NpCfg) {bs : Bytes} {e : Err} {rd' : Reader}
    (h : (freshReader bs).readRecords cfg = (.error e, rd')) :
    rd'.recNum = rd'.dmapRecords.length ∧ AtRecord rd'.recNum e := by
  unfold Reader.readRecords at h
  cases hl : (freshReader bs).readLoop cfg ((freshReader bs).buf.length - (freshReader bs).cursor).toNat with
  | mk x r1 =>
    obtain ⟨h1, h2⟩ := readLoop_numbered cfg _ _ _ _ hl
    have h1 : r1.recNum = r1.dmapRecords.length := by simpa [freshReader] using h1
    rw [hl] at h
    cases x with
    | error e' => cases h; exact ⟨h1, h2 _ rfl⟩
    | ok u =>
      simp only at h
      split at h
      · cases h; exact ⟨h1, atRecord_some rfl⟩
      · cases hd : dmap2dict cfg r1.dmapRecords with
        | ok ds => rw [hd] at h; cases h
        | error e' =>
          rw [hd] at h
          cases h
          have hs := readLoop_shaped cfg _ _ _ _ (by simp [freshReader]) (by simp [freshReader]) (by simp [freshReader]) hl
          rw [(dmap2dict_err hs hd).1]
          exact ⟨h1, atRecord_none rfl⟩

/-- **C68** The records read before are those of the longest part of the file that consists of whole blocks: the rest does not
start with a block, or all was read and a char is no `int8`.  Partial: no negative `slist` dimension (see C22). -/
theorem C68_before_partial (cfg : NpCfg) {bs : Bytes} (hneg : ¬ NegSlist bs) {e : Err} {rd' : Reader}
    (h : (freshReader bs).readRecords cfg = (.error e, rd')) :
    ∃ bl pre rest, bs = pre ++ rest ∧ FileEnc cfg.maxDims bl pre ∧ rd'.dmapRecords = bl.map Block.record ∧ AtRecord bl.length e ∧
      ((rest = [] ∧ e = .overflowError) ∨ (rest ≠ [] ∧ ∀ b x, BlockEnc cfg.maxDims b x → ¬ x <+: rest)) := by
  have hnum := C68_number cfg h
  unfold Reader.readRecords at h
  cases hl : (freshReader bs).readLoop cfg ((freshReader bs).buf.length - (freshReader bs).cursor).toNat with
  | mk x r1 =>
    rw [hl] at h
    cases x with
    | error e' =>
      cases h
      obtain ⟨bl, pre, c, h1, h2, h3, h4, rfl⟩ := readLoop_stopped cfg _ _ _ _ (by exact hneg) (by simp [freshReader]) (Nat.le_refl _) hl
      obtain ⟨p, rest, h5, h6⟩ := h2
      have hp : p = [] := by
        simp only [freshReader] at h6
        exact List.eq_nil_of_length_eq_zero (by omega)
      subst hp
      have h5 : bs = pre ++ rest := h5
      have hlen := congrArg List.length h5
      simp only [List.length_append] at hlen
      refine ⟨bl, pre, rest, h5, h1, rfl, ?_, .inr ⟨?_, fun b x hb hx => ?_⟩⟩
      · have := hnum.2
        simpa [Reader.after, freshReader] using this
      · intro hr
        subst hr
        simp only [freshReader] at h3
        simp only [List.length_nil] at hlen
        omega
      · obtain ⟨suf, rfl⟩ := hx
        rw [readRecord_complete _ hb ⟨pre, suf, by rw [List.append_assoc]; exact h5, by simp [freshReader]⟩] at h4
        cases h4
    | ok u =>
      simp only at h
      obtain ⟨bl, pre, h1, h2, h3, rfl⟩ := readLoop_sound cfg _ _ _ (by exact hneg) (by simp [freshReader]) (by simp [freshReader]) hl
      obtain ⟨p, rest, h5, h6⟩ := h2
      have hp : p = [] := by
        simp only [freshReader] at h6
        exact List.eq_nil_of_length_eq_zero (by omega)
      subst hp
      have h5 : bs = pre ++ rest := h5
      have hlen := congrArg List.length h5
      simp only [List.length_append] at hlen
      simp only [freshReader] at h3
      rw [if_neg (by simp only [Reader.after, freshReader]; omega)] at h
      cases hd : dmap2dict cfg ((freshReader bs).after bl pre.length).dmapRecords with
      | ok ds => rw [hd] at h; cases h
      | error e' =>
        rw [hd] at h
        cases h
        have hs := readLoop_shaped cfg _ _ _ _ (by simp [freshReader]) (by simp [freshReader]) (by simp [freshReader]) hl
        have he := (dmap2dict_err hs hd).1
        refine ⟨bl, pre, rest, h5, h1, rfl, ?_, .inl ⟨List.eq_nil_of_length_eq_zero (by omega), he⟩⟩
        rw [he]
        exact atRecord_none rfl

/-- A block that declares one byte less than it has. -/
def shortBlock : Bytes :=
  [1, 0, 1, 0, 41, 0, 0, 0, 1, 0, 0, 0, 1, 0, 0, 0, 97, 0, 3, 7, 0, 0, 0, 98, 0, 8, 1, 0, 0, 0, 1, 0, 0, 0, 0, 0, 0, 0, 0, 0, 240, 63]

/-- **C68** violated: a second call of `read_records` goes on after the fields of the bad record, so it may return the records
before as if they were all. -/
theorem C68_again_violation : ∃ d, (readManyTimes numpy1 2 (freshReader (Sample.bytes2 ++ shortBlock))).1 = [.error .cursorError, .ok [d]] :=
  ⟨_, rfl⟩

example : ∃ e rd', (freshReader (Sample.bytes2 ++ [0, 0, 0, 0, 0, 0, 0, 0, 0, 0])).readRecords numpy1 = (.error e, rd') ∧ recordOf e = some 1 ∧
    rd'.dmapRecords.length = 1 := ⟨_, _, rfl, rfl, rfl⟩

example := C68_before_partial numpy1 (bs := Sample.bytes2 ++ shortBlock)
  (Sample.not_negSlist (by decide)) (e := .cursorError) (rd' := ((freshReader (Sample.bytes2 ++ shortBlock)).readRecords numpy1).2) rfl

end Verif
