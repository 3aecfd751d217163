import Verif.Dmap.Props.Read
import Verif.Dmap.Props.RoundTrip
/-!
# C92: reading after the integrity test

Specification: `sizeAt`, the size in a header; `Leads`, blocks one after the other; `Stuck`, why the next one is none.
-/
namespace Verif
open Spec

namespace Spec

/-- The size in the header of a block at `k`, if there is room for one. -/
def sizeAt (buf : Bytes) (k : Nat) : Option Int :=
  if k + 8 ≤ buf.length then some (toSigned 4 (leNat ((buf.drop (k + 4)).take 4))) else none

/-- Blocks of these sizes, from `k` to `k'`, within the bytes. -/
def Leads (buf : Bytes) : Nat → List Nat → Nat → Prop
  | k, [], k' => k = k'
  | k, n :: ns, k' => 0 < n ∧ k + n ≤ buf.length ∧ sizeAt buf k = some (n : Int) ∧ Leads buf (k + n) ns k'

/-- There is no block at `k`; the exception for it and the place of the cursor.  `rn`: record number. -/
inductive Stuck (buf : Bytes) (rn k : Nat) : Err → Int → Prop
  | cut : sizeAt buf k = none → Stuck buf rn k .cursorError (k + 4)
  | zero : sizeAt buf k = some 0 → Stuck buf rn k (.zeroByte rn) (k + 8)
  | negative (n : Int) : sizeAt buf k = some n → n < 0 → Stuck buf rn k (.negativeByte rn) (k + 8)
  | beyond (n : Int) : sizeAt buf k = some n → buf.length < k + n → 0 < n → Stuck buf rn k (.mismatchByte rn) (k + 8)

end Spec

/-! ## The loop -/

theorem readInt_size (buf : Bytes) (k : Nat) : readInt buf ((k : Int) + 4) =
    match sizeAt buf k with
    | some n => (.ok n, (k : Int) + 8)
    | none => (.error .cursorError, (k : Int) + 4) := by
  unfold sizeAt
  by_cases h : k + 8 ≤ buf.length
  · rw [if_pos h]
    dsimp only
    have hl : ((buf.drop (k + 4)).take 4).length = 4 := by
      rw [List.length_take, List.length_drop]; omega
    have hb := leNat_lt' hl
    rw [readInt_ok (by omega)]
    refine ⟨toSigned_ok hb (by decide), ?_, by omega⟩
    rw [at_iff]
    have : intLE 4 (toSigned 4 (leNat ((buf.drop (k + 4)).take 4))) = (buf.drop (k + 4)).take 4 := by
      have := intLE_toSigned ((buf.drop (k + 4)).take 4)
      rwa [hl] at this
    rw [this]
    refine ⟨by omega, by rw [hl]; omega, ?_⟩
    rw [hl, show ((k : Int) + 4).toNat = k + 4 by omega]
  · rw [if_neg h]
    dsimp only
    have hp : readPre buf 4 ((k : Int) + 4) = (.error .cursorError, (k : Int) + 4) := by
      unfold readPre
      split
      · rfl
      · rw [if_pos (by omega)]
    show (readDataN buf 4 >>= _ : Rd Int) _ = _
    show Rd.bind (Rd.bind (readPre buf 4) _) _ _ = _
    simp only [Rd.bind, hp]

/-- One turn of the loop at a block, and where there is none. -/
theorem integrityLoop_turn (buf : Bytes) (rn fuel k : Nat) (hk : k < buf.length) :
    integrityLoop buf rn (fuel + 1) k k =
      match sizeAt buf k with
      | none => (.error .cursorError, (k : Int) + 4)
      | some n =>
        if n = 0 then (.error (.zeroByte rn), (k : Int) + 8)
        else if n < 0 then (.error (.negativeByte rn), (k : Int) + 8)
        else if buf.length < k + n then (.error (.mismatchByte rn), (k : Int) + 8)
        else integrityLoop buf rn fuel ((k + n.toNat : Nat) : Int) ((k + n.toNat : Nat) : Int) := by
  rw [integrityLoop_step _ _ _ _ _ (by omega)]
  have hi := readInt_size buf k
  cases hs : sizeAt buf k with
  | none =>
    rw [hs] at hi
    rw [rd_bind_stop hi]
  | some n =>
    rw [hs] at hi
    dsimp only at hi ⊢
    rw [rd_bind_run hi]
    have hz := zeroNegativeCheck_run rn n ((k : Int) + 8)
    by_cases h0 : n = 0
    · rw [if_pos h0] at hz ⊢
      rw [rd_bind_stop hz]
    · rw [if_neg h0] at hz ⊢
      by_cases h1 : n < 0
      · rw [if_pos h1] at hz ⊢
        rw [rd_bind_stop hz]
      · rw [if_neg h1] at hz ⊢
        rw [rd_bind_run hz]
        have hb := bytesCheck_run rn (k + n) buf.length ((k : Int) + 8)
        by_cases h2 : (buf.length : Int) < k + n
        · rw [if_pos h2] at hb ⊢
          rw [rd_bind_stop hb]
        · rw [if_neg h2] at hb ⊢
          rw [rd_bind_run hb]
          show integrityLoop buf rn fuel (k + n) ((k : Int) + 8 + n - 8) = _
          congr 1 <;> omega

theorem integrityLoop_stuck (buf : Bytes) (rn fuel k : Nat) (hk : k ≤ buf.length) (hf : buf.length - k ≤ fuel) (e : Err) (c : Int) :
    integrityLoop buf rn fuel k k = (.error e, c) ↔
      ∃ sizes k', Leads buf k sizes k' ∧ k' < buf.length ∧ Stuck buf rn k' e c := by
  induction fuel generalizing k with
  | zero =>
    rw [integrityLoop_stop _ _ _ _ _ (by omega)]
    constructor
    · intro h; cases h
    · rintro ⟨sizes, k', h1, h2, -⟩
      cases sizes with
      | nil => cases h1; omega
      | cons n ns => obtain ⟨h3, h4, -⟩ := h1; omega
  | succ fuel ih =>
    by_cases hc : k < buf.length
    · rw [integrityLoop_turn _ _ _ _ hc]
      constructor
      · intro h
        cases hs : sizeAt buf k with
        | none => rw [hs] at h; cases h; exact ⟨[], k, rfl, hc, .cut hs⟩
        | some n =>
          rw [hs] at h
          dsimp only at h
          by_cases h0 : n = 0
          · rw [if_pos h0] at h; cases h; subst h0; exact ⟨[], k, rfl, hc, .zero hs⟩
          · rw [if_neg h0] at h
            by_cases h1 : n < 0
            · rw [if_pos h1] at h; cases h; exact ⟨[], k, rfl, hc, .negative n hs h1⟩
            · rw [if_neg h1] at h
              by_cases h2 : (buf.length : Int) < k + n
              · rw [if_pos h2] at h; cases h; exact ⟨[], k, rfl, hc, .beyond n hs h2 (by omega)⟩
              · rw [if_neg h2, ih _ (by omega) (by omega)] at h
                obtain ⟨sizes, k', g1, g2⟩ := h
                refine ⟨n.toNat :: sizes, k', ⟨by omega, by omega, ?_, g1⟩, g2⟩
                rw [hs, Int.toNat_of_nonneg (by omega)]
      · rintro ⟨sizes, k', h1, h2, h3⟩
        cases sizes with
        | nil =>
          cases h1
          cases h3 with
          | cut hs => rw [hs]
          | zero hs => rw [hs]; rfl
          | negative n hs hn => rw [hs]; dsimp only; rw [if_neg (by omega), if_pos hn]
          | beyond n hs hn hp => rw [hs]; dsimp only; rw [if_neg (by omega), if_neg (by omega), if_pos hn]
        | cons n ns =>
          obtain ⟨g1, g2, g3, g4⟩ := h1
          rw [g3]
          dsimp only
          rw [if_neg (by omega), if_neg (by omega), if_neg (by omega), Int.toNat_natCast]
          exact (ih _ g2 (by omega)).2 ⟨ns, k', g4, h2, h3⟩
    · rw [integrityLoop_stop _ _ _ _ _ (by omega)]
      constructor
      · intro h; cases h
      · rintro ⟨sizes, k', h1, h2, -⟩
        cases sizes with
        | nil => cases h1; omega
        | cons n ns => obtain ⟨h3, h4, -⟩ := h1; omega

/-! ## What the test leaves -/

/-- **C92** What a test that raises leaves: the reader as it was, but with the cursor four or eight bytes behind the last whole
block.  Exactly: which exception, and where the cursor is. -/
theorem C92_left (bs : Bytes) (e : Err) (rd' : Reader) :
    (freshReader bs).testIntegrity = (.error e, rd') ↔
      ∃ sizes k c, Leads bs 0 sizes k ∧ k < bs.length ∧ Stuck bs 0 k e c ∧ rd' = { freshReader bs with cursor := c } := by
  have hl := integrityLoop_stuck bs 0 bs.length 0 (Nat.zero_le _) (Nat.le_refl _)
  rw [show ((0 : Nat) : Int) = 0 from rfl] at hl
  have ha := (C10_rewound (freshReader bs)).2.1
  have e1 : (freshReader bs).testIntegrity =
      match integrityLoop bs 0 bs.length 0 0 with
      | (.error e, c) => (.error e, { freshReader bs with cursor := c })
      | (.ok total, c) =>
        if total ≠ bs.length then (.error .attributeError, { freshReader bs with cursor := c })
        else (.ok (), { freshReader bs with cursor := 0 }) := rfl
  rw [e1] at ha ⊢
  constructor
  · intro h
    cases hi : integrityLoop bs 0 bs.length 0 0 with
    | mk x c =>
      rw [hi] at h ha
      cases x with
      | error e' =>
        cases h
        obtain ⟨sizes, k, h1, h2, h3⟩ := (hl e c).1 hi
        exact ⟨sizes, k, c, h1, h2, h3, rfl⟩
      | ok t =>
        dsimp only at h ha
        split at h
        · rename_i hne
          rw [if_pos hne] at ha
          exact absurd rfl ha
        · cases h
  · rintro ⟨sizes, k, c, h1, h2, h3, rfl⟩
    rw [(hl e c).2 ⟨sizes, k, h1, h2, h3⟩]

/-- **C92** (partial: the test returned.)  Nothing has changed. -/
theorem C92_passed_partial (cfg : NpCfg) {rd rd' : Reader} (h : rd.testIntegrity = (.ok (), rd')) :
    rd'.readRecords cfg = rd.readRecords cfg := by
  rw [(C10_rewound rd).1 rd' h]

/-! ## Reading from there -/

theorem read_at_end (cfg : NpCfg) (bs : Bytes) :
    (({ freshReader bs with cursor := bs.length } : Reader).readRecords cfg).1 = .ok [] := by
  unfold Reader.readRecords
  rw [readLoop_stop _ _ _ (by simp [freshReader])]
  simp [freshReader, dmap2dict]

theorem read_beyond (cfg : NpCfg) (bs : Bytes) {c : Int} (h : bs.length < c) :
    (({ freshReader bs with cursor := c } : Reader).readRecords cfg).1 = .error (.mismatchByte 0) := by
  unfold Reader.readRecords
  rw [readLoop_stop _ _ _ (by simp [freshReader]; omega)]
  dsimp only [freshReader]
  rw [if_pos h]

theorem read_little (cfg : NpCfg) (bs : Bytes) {k : Nat} (h : k < bs.length) (hs : sizeAt bs k = none) :
    (({ freshReader bs with cursor := k } : Reader).readRecords cfg).1 = .error .cursorError := by
  have hr : readRecord cfg bs 0 k = (.error .cursorError, (k : Int) + 4) := by
    refine readRecord_short8 cfg bs 0 k ?_
    unfold sizeAt at hs
    split at hs
    · cases hs
    · omega
  unfold Reader.readRecords
  have hf : ((bs.length : Int) - (k : Int)).toNat = (bs.length - k - 1) + 1 := by omega
  dsimp only [freshReader]
  rw [hf, Reader.readLoop.eq_def]
  dsimp only
  rw [if_pos (by omega), hr]

/-- **C92** (partial: the bytes end within the first eight bytes of a block, not behind the fourth.)  What is read after the test
raised raises as well. -/
theorem C92_cut_partial (cfg : NpCfg) {bs : Bytes} {sizes : List Nat} {k : Nat} (h : Leads bs 0 sizes k) (hk : k < bs.length)
    (hs : sizeAt bs k = none) (h4 : bs.length ≠ k + 4) :
    (freshReader bs).testIntegrity.1 = .error .cursorError ∧
      ∃ e, ((freshReader bs).testIntegrity.2.readRecords cfg).1 = .error e := by
  have ht := (C92_left bs .cursorError _).2 ⟨sizes, k, _, h, hk, .cut hs, rfl⟩
  rw [ht]
  refine ⟨rfl, ?_⟩
  by_cases hl : bs.length < k + 4
  · exact ⟨_, read_beyond cfg bs (by omega)⟩
  · refine ⟨.cursorError, ?_⟩
    exact read_little cfg bs (k := k + 4) (by omega) (by
      unfold sizeAt at hs ⊢
      split at hs
      · cases hs
      · rw [if_neg (by omega)])

theorem tiles_leads {bs : Bytes} (x : Bytes) {k : Nat} {sizes : List Nat} (h : Tiles bs k sizes) : Leads (bs ++ x) k sizes bs.length := by
  induction sizes generalizing k with
  | nil => exact h
  | cons n ns ih =>
    have hsum := tiles_sum h
    obtain ⟨h1, h2, h3, h4, h5⟩ := h
    refine ⟨h1, ?_, ?_, ih h5⟩
    · simp only [List.sum_cons, List.length_append] at hsum ⊢; omega
    · unfold sizeAt
      rw [if_pos (by simp; omega), List.drop_append_of_le_length (by omega), List.take_append_of_le_length (by simp; omega), h4,
        leNat_natLE, Nat.mod_eq_of_lt (by omega)]
      unfold toSigned
      rw [if_pos (by omega)]

theorem not_passed {cfg : NpCfg} {bs : Bytes} {e : Err} (hb : bs ≠ []) (h : (freshReader bs).testIntegrity.1 = .error e) :
    ∃ e', readFile cfg bs = .error e' := by
  cases hr : readFile cfg bs with
  | error e' => exact ⟨e', rfl⟩
  | ok y =>
    have := C11_accepted_passes cfg hr
    unfold integrityOf at this
    rw [reader_new hb] at this
    dsimp only at this
    rw [h] at this
    cases this

/-- **C92** Violation: a file that passes the test, and four bytes more, whatever they are.  The test raises; after that the file
is read as one with no records, though reading it without the test raises. -/
theorem C92_violation (cfg : NpCfg) {bs x : Bytes} (h : integrityOf bs = .ok ()) (hx : x.length = 4) :
    (freshReader (bs ++ x)).testIntegrity.1 = .error .cursorError ∧
      ((freshReader (bs ++ x)).testIntegrity.2.readRecords cfg).1 = .ok [] ∧
      ∃ e, readFile cfg (bs ++ x) = .error e := by
  obtain ⟨hb, sizes, hs⟩ := (C10_integrity bs).1 h
  have ht := (C92_left (bs ++ x) .cursorError _).2 ⟨sizes, bs.length, _, tiles_leads x hs, by simp; omega,
    .cut (by unfold sizeAt; rw [if_neg (by simp; omega)]), rfl⟩
  refine ⟨by rw [ht], ?_, not_passed (by simp [hb]) (by rw [ht])⟩
  rw [ht]
  have := read_at_end cfg (bs ++ x)
  rwa [show (((bs ++ x).length : Nat) : Int) = (bs.length : Int) + 4 by simp; omega] at this

/-- **C92** Violation: the same with eight bytes of which the last four are not the size of a block of eight bytes or less. -/
theorem C92_header_violation (cfg : NpCfg) {bs x : Bytes} (h : integrityOf bs = .ok ()) (hx : x.length = 8)
    (hn : toSigned 4 (leNat (x.drop 4)) ≤ 0 ∨ 8 < toSigned 4 (leNat (x.drop 4))) :
    (∃ e, (freshReader (bs ++ x)).testIntegrity.1 = .error e) ∧
      ((freshReader (bs ++ x)).testIntegrity.2.readRecords cfg).1 = .ok [] ∧
      ∃ e, readFile cfg (bs ++ x) = .error e := by
  obtain ⟨hb, sizes, hs⟩ := (C10_integrity bs).1 h
  have hsz : sizeAt (bs ++ x) bs.length = some (toSigned 4 (leNat (x.drop 4))) := by
    unfold sizeAt
    rw [if_pos (by simp; omega), List.drop_append, List.drop_of_length_le (by omega),
      List.nil_append, Nat.add_sub_cancel_left, List.take_of_length_le (by simp; omega)]
  obtain ⟨e, hst⟩ : ∃ e, Stuck (bs ++ x) 0 bs.length e (bs.length + 8) := by
    rcases hn with hn | hn
    · by_cases h0 : toSigned 4 (leNat (x.drop 4)) = 0
      · exact ⟨_, .zero (by rw [hsz, h0])⟩
      · exact ⟨_, .negative _ hsz (by omega)⟩
    · exact ⟨_, .beyond _ hsz (by simp; omega) (by omega)⟩
  have ht := (C92_left (bs ++ x) e _).2 ⟨sizes, bs.length, _, tiles_leads x hs, by simp; omega, hst, rfl⟩
  refine ⟨⟨e, by rw [ht]⟩, ?_, not_passed (e := e) (by simp [hb]) (by rw [ht])⟩
  rw [ht]
  have := read_at_end cfg (bs ++ x)
  rwa [show (((bs ++ x).length : Nat) : Int) = (bs.length : Int) + 8 by simp; omega] at this

/-! ## Reading from behind a bad size -/

theorem not_negSlist_behind {pre rest : Bytes} (h : ¬ NegSlist (pre ++ rest)) : ¬ NegSlist rest := by
  rintro ⟨p, s, tc, dims, rfl, hd⟩
  exact h ⟨pre ++ p, s, tc, dims, by simp only [List.append_assoc], hd⟩

theorem read_behind (cfg : NpCfg) {pre rest : Bytes} (hneg : ¬ NegSlist (pre ++ rest)) (hr : rest ≠ []) (ds : List PlainRec) :
    (({ freshReader (pre ++ rest) with cursor := pre.length } : Reader).readRecords cfg).1 = .ok ds ↔
      ∃ rs, readFile cfg rest = .ok (rs, ds) := by
  constructor
  · intro h
    obtain ⟨r1, h1, h2, h3, h4⟩ := (readRecords_ok (cfg := cfg)
      (rd := { freshReader (pre ++ rest) with cursor := pre.length }) (ds := ds)
      (rd' := (({ freshReader (pre ++ rest) with cursor := pre.length } : Reader).readRecords cfg).2)).1 (Prod.ext h rfl)
    obtain ⟨bl, bs', g1, g2, g3, rfl⟩ := readLoop_sound cfg _ _ _ (by exact hneg) (by simp) (by simp [freshReader]; omega) h1
    have hb : bs' = rest := by
      rw [at_iff] at g2
      simp only [freshReader, List.length_append, Int.toNat_natCast, List.drop_left] at g2 g3
      rw [← g2.2.2]
      exact List.take_of_length_le (by omega)
    subst hb
    have hne : bl ≠ [] := by
      rintro rfl
      cases g1
      exact hr rfl
    refine ⟨bl.map Block.record, ?_⟩
    rw [readFile_fileEnc g1 hne]
    have : ((({ freshReader (pre ++ bs') with cursor := pre.length } : Reader).after bl bs'.length).dmapRecords) =
      bl.map Block.record := by simp [Reader.after, freshReader]
    rw [this] at h3
    rw [h3]
  · rintro ⟨rs, h⟩
    obtain ⟨bl, g1, rfl, g2, g3⟩ := readFile_sound (not_negSlist_behind hneg) h
    have hl := readLoop_file cfg ({ freshReader (pre ++ rest) with cursor := pre.length } : Reader) g1
      (at_iff.2 ⟨by simp, by simp [freshReader], by simp [freshReader]⟩) (by simp [freshReader])
    unfold Reader.readRecords
    rw [hl]
    have : ((({ freshReader (pre ++ rest) with cursor := pre.length } : Reader).after bl rest.length).dmapRecords) =
      bl.map Block.record := by simp [Reader.after, freshReader]
    dsimp only
    rw [if_neg (by simp [Reader.after, freshReader]), this, g3]

/-- **C92** What is read after a test that raised (no negative `slist` dimension): from the place where the test stopped, as if
the file began there.  Exactly: for every way the test can stop, which results come without an error. -/
theorem C92_after (cfg : NpCfg) {bs : Bytes} (hneg : ¬ NegSlist bs) {sizes : List Nat} {k : Nat} {e : Err} {c : Nat}
    (h : Leads bs 0 sizes k) (hk : k < bs.length) (hs : Stuck bs 0 k e c) (ds : List PlainRec) :
    (freshReader bs).testIntegrity.1 = .error e ∧
      (((freshReader bs).testIntegrity.2.readRecords cfg).1 = .ok ds ↔
        c = bs.length ∧ ds = [] ∨ c < bs.length ∧ ∃ rs, readFile cfg (bs.drop c) = .ok (rs, ds)) := by
  have ht := (C92_left bs e _).2 ⟨sizes, k, c, h, hk, hs, rfl⟩
  rw [ht]
  refine ⟨rfl, ?_⟩
  dsimp only
  rcases Nat.lt_trichotomy c bs.length with hc | hc | hc
  · have hr : bs.drop c ≠ [] := by
      intro hd
      have := congrArg List.length hd
      rw [List.length_drop, List.length_nil] at this
      omega
    have := read_behind cfg (pre := bs.take c) (rest := bs.drop c) (by rwa [List.take_append_drop]) hr ds
    rw [List.take_append_drop, List.length_take, Nat.min_eq_left (by omega)] at this
    rw [this]
    constructor
    · intro h; exact .inr ⟨hc, h⟩
    · rintro (⟨h, -⟩ | ⟨-, h⟩)
      · omega
      · exact h
  · subst hc
    rw [read_at_end]
    constructor
    · intro h; cases h; exact .inl ⟨rfl, rfl⟩
    · rintro (⟨-, rfl⟩ | ⟨h, -⟩)
      · rfl
      · omega
  · rw [read_beyond cfg bs (by omega)]
    constructor
    · intro h; cases h
    · rintro (⟨h, -⟩ | ⟨h, -⟩) <;> omega

/-- **C92** Violation: two readable files with a header in between that tells no size.  After the test has raised, the records of
the second file are read as if they were all. -/
theorem C92_skipped_violation (cfg : NpCfg) {b1 b2 x : Bytes} (hneg : ¬ NegSlist (b1 ++ x ++ b2)) (h1 : integrityOf b1 = .ok ())
    {rs : List Rec} {ds : List PlainRec} (h2 : readFile cfg b2 = .ok (rs, ds)) (hx : x.length = 8)
    (hn : toSigned 4 (leNat (x.drop 4)) ≤ 0) :
    (∃ e, (freshReader (b1 ++ x ++ b2)).testIntegrity.1 = .error e) ∧
      ((freshReader (b1 ++ x ++ b2)).testIntegrity.2.readRecords cfg).1 = .ok ds ∧
      ∃ e, readFile cfg (b1 ++ x ++ b2) = .error e := by
  obtain ⟨hb, sizes, hs⟩ := (C10_integrity b1).1 h1
  have hb2 : b2 ≠ [] := (readFile_ok.1 h2).1
  have hl2 := List.length_pos_iff.2 hb2
  have hld := tiles_leads (x ++ b2) hs
  rw [← List.append_assoc] at hld
  have hsz : sizeAt (b1 ++ x ++ b2) b1.length = some (toSigned 4 (leNat (x.drop 4))) := by
    unfold sizeAt
    rw [if_pos (by simp; omega), List.append_assoc, List.drop_append, List.drop_of_length_le (by omega),
      List.nil_append, Nat.add_sub_cancel_left, List.drop_append_of_le_length (by omega),
      List.take_append_of_le_length (by simp; omega), List.take_of_length_le (by simp; omega)]
  obtain ⟨e, hst⟩ : ∃ e, Stuck (b1 ++ x ++ b2) 0 b1.length e ((b1.length + 8 : Nat) : Int) := by
    by_cases h0 : toSigned 4 (leNat (x.drop 4)) = 0
    · exact ⟨_, .zero (by rw [hsz, h0])⟩
    · exact ⟨_, .negative _ hsz (by omega)⟩
  obtain ⟨g1, g2⟩ := C92_after cfg hneg hld (by simp; omega) hst ds
  refine ⟨⟨e, g1⟩, g2.2 (.inr ⟨by simp; omega, rs, ?_⟩), not_passed (by simp [hb]) g1⟩
  rw [show (b1 ++ x ++ b2).drop (b1.length + 8) = b2 by rw [← hx, ← List.length_append, List.drop_left]]
  exact h2

/-! ## Samples -/

/-- Two records and four bytes: no records, no error. -/
example : ((freshReader ((Sample.bytes2 ++ Sample.bytes2) ++ [1, 0, 1, 0])).testIntegrity.2.readRecords numpy1).1 = .ok [] :=
  (C92_violation numpy1 (by decide +kernel) rfl).2.1

/-- Two records and a header with size -1. -/
example : ((freshReader ((Sample.bytes2 ++ Sample.bytes2) ++ [1, 0, 1, 0, 255, 255, 255, 255])).testIntegrity.2.readRecords numpy1).1 =
    .ok [] :=
  (C92_header_violation numpy1 (by decide +kernel) rfl (by decide +kernel)).2.1

/-- A header with size 0 between two records: only the second record. -/
example : ((freshReader (Sample.bytes2 ++ [1, 0, 1, 0, 0, 0, 0, 0] ++ Sample.bytes2)).testIntegrity.2.readRecords numpy1).1 =
    .ok [plainRec Sample.record2] :=
  (C92_skipped_violation numpy1 (Sample.not_negSlist (by decide +kernel)) (by decide +kernel) bytes2_read rfl (by decide +kernel)).2.1

/-- Six bytes more: reading raises, too. -/
example : ∃ e, ((freshReader (Sample.bytes2 ++ [1, 0, 1, 0, 9, 9])).testIntegrity.2.readRecords numpy1).1 = .error e := by
  obtain ⟨-, sizes, hs⟩ := (C10_integrity Sample.bytes2).1 (by decide +kernel)
  exact (C92_cut_partial numpy1 (tiles_leads [1, 0, 1, 0, 9, 9] hs) (by simp) (by decide +kernel) (by simp)).2

/-- Zero as size of the second block: where the cursor is. -/
example : ∃ sizes k c, Leads (Sample.bytes2 ++ [1, 0, 1, 0, 0, 0, 0, 0, 7]) 0 sizes k ∧
    k < (Sample.bytes2 ++ [1, 0, 1, 0, 0, 0, 0, 0, 7]).length ∧
    Stuck (Sample.bytes2 ++ [1, 0, 1, 0, 0, 0, 0, 0, 7]) 0 k (.zeroByte 0) c ∧
    (freshReader (Sample.bytes2 ++ [1, 0, 1, 0, 0, 0, 0, 0, 7])).testIntegrity.2 =
      { freshReader (Sample.bytes2 ++ [1, 0, 1, 0, 0, 0, 0, 0, 7]) with cursor := c } :=
  (C92_left (Sample.bytes2 ++ [1, 0, 1, 0, 0, 0, 0, 0, 7]) (.zeroByte 0) _).1 (Prod.ext (by decide +kernel) rfl)

/-- A file that passes. -/
example : ∃ rd', (freshReader Sample.bytes2).testIntegrity = (.ok (), rd') ∧
    rd'.readRecords numpy1 = (freshReader Sample.bytes2).readRecords numpy1 :=
  ⟨_, Prod.ext (by decide +kernel) rfl, C92_passed_partial numpy1 (Prod.ext (by decide +kernel) rfl)⟩

end Verif
