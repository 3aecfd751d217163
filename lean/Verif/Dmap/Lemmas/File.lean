import Verif.Dmap.Lemmas.Record
/-!
# Whole files: the reading loop and the integrity test
-/
namespace Verif
open Spec

theorem at_natLE {buf : Bytes} {c : Nat} {n : Nat} :
    At buf ((c : Int) + 4) (natLE 4 n) ↔ c + 8 ≤ buf.length ∧ (buf.drop (c + 4)).take 4 = natLE 4 n := by
  rw [at_iff]
  simp only [length_natLE]
  rw [show ((c : Int) + 4).toNat = c + 4 by omega]
  constructor
  · rintro ⟨_, h1, h2⟩; exact ⟨by omega, h2⟩
  · rintro ⟨h1, h2⟩; exact ⟨by omega, by omega, h2⟩

/-- Every successful `read_record` moves the cursor forward, wherever it starts. -/
theorem readRecord_lt {cfg : NpCfg} {buf : Bytes} {rn : Nat} {c c' : Int} {r : Rec}
    (h : readRecord cfg buf rn c = (.ok r, c')) : c < c' := by
  unfold readRecord at h
  simp only [rd_bind_ok, rd_cursor_ok, rd_setCursor_ok, zeroNegativeCheck_ok, bytesCheck_ok] at h
  obtain ⟨_, c, ⟨rfl, rfl⟩, _, _, rfl, bsz, _, hbsz, _, _, ⟨rfl, rfl⟩, _, _, ⟨hle, rfl⟩, _, _, ⟨hpos, rfl⟩,
      ns, _, hns, na, _, hna, _, _, ⟨hns0, rfl⟩, _, _, ⟨hna0, rfl⟩, _, _, ⟨hsum, rfl⟩, _, c1,
      hss, _, c2, has, _, _, ⟨rfl, rfl⟩, hend⟩ := h
  split at hend
  · simp [Rd.raise] at hend
  · rw [rd_pure_ok] at hend
    obtain ⟨_, rfl⟩ := hend
    omega

theorem readLoop_stop (cfg : NpCfg) (fuel : Nat) (r : Reader) (h : ¬ r.cursor < r.buf.length) :
    r.readLoop cfg fuel = (.ok (), r) := by
  rw [Reader.readLoop.eq_def]; simp only; rw [if_neg h]

theorem readLoop_step (cfg : NpCfg) (fuel : Nat) (r : Reader) (h : r.cursor < r.buf.length) :
    r.readLoop cfg (fuel + 1) =
      match readRecord cfg r.buf r.recNum r.cursor with
      | (.error e, c) => (.error e, { r with cursor := c })
      | (.ok rec, c) => Reader.readLoop cfg fuel
          { r with cursor := c, dmapRecords := r.dmapRecords ++ [rec], recNum := r.recNum + 1 } := by
  rw [Reader.readLoop.eq_def]; simp only; rw [if_pos h]; rfl

/-- More fuel than needed changes nothing. -/
theorem readLoop_fuel (cfg : NpCfg) (f1 f2 : Nat) (r : Reader)
    (h1 : (r.buf.length - r.cursor).toNat ≤ f1) (h2 : (r.buf.length - r.cursor).toNat ≤ f2) :
    r.readLoop cfg f1 = r.readLoop cfg f2 := by
  induction f1 generalizing f2 r with
  | zero => rw [readLoop_stop _ _ _ (by omega), readLoop_stop _ _ _ (by omega)]
  | succ f1 ih =>
    by_cases hc : r.cursor < r.buf.length
    · cases f2 with
      | zero => omega
      | succ f2 =>
        rw [readLoop_step _ _ _ hc, readLoop_step _ _ _ hc]
        cases hr : readRecord cfg r.buf r.recNum r.cursor with
        | mk res c =>
          cases res with
          | error e => rfl
          | ok rec =>
            have := readRecord_lt hr
            exact ih _ _ (by simp only; omega) (by simp only; omega)
    · rw [readLoop_stop _ _ _ hc, readLoop_stop _ _ _ hc]

theorem blockEnc_pos {mr : Nat} {b : Block} {bs : Bytes} (h : BlockEnc mr b bs) : 16 ≤ bs.length := by
  obtain ⟨sb, ab, _, _, hb⟩ := h.bytes
  have := congrArg List.length hb
  simp only [List.length_append, length_natLE, h.ident] at this
  omega

/-- The reader state after reading the blocks `bl` of `n` bytes. -/
def Reader.after (r : Reader) (bl : List Block) (n : Nat) : Reader :=
  { r with cursor := r.cursor + n, dmapRecords := r.dmapRecords ++ bl.map Block.record,
           recNum := r.recNum + bl.length }

/-- Whole blocks are read one after the other. -/
theorem readLoop_seq (cfg : NpCfg) {bl : List Block} {bs : Bytes} (h : FileEnc cfg.maxDims bl bs)
    (r : Reader) (hat : At r.buf r.cursor bs) (fuel : Nat) :
    r.readLoop cfg (fuel + bl.length) = (r.after bl bs.length).readLoop cfg fuel := by
  unfold FileEnc at h
  induction h generalizing r with
  | nil => simp [Reader.after]
  | @cons b bl x bs hb hbl ih =>
    rw [at_append] at hat
    have hbd := hat.1.bounds
    have hp := blockEnc_pos hb
    rw [List.length_cons, ← Nat.add_assoc, readLoop_step _ _ _ (by omega),
      readRecord_complete _ hb hat.1]
    simp only
    rw [ih _ (by exact hat.2)]
    congr 1
    simp only [Reader.after, List.map_cons, List.append_assoc, List.length_cons, List.length_append,
      List.singleton_append, Reader.mk.injEq, true_and, and_true]
    omega

theorem fileEnc_length {mr : Nat} {bl : List Block} {bs : Bytes} (h : FileEnc mr bl bs) :
    16 * bl.length ≤ bs.length := by
  unfold FileEnc at h
  induction h with
  | nil => simp
  | cons hx _ ih => have := blockEnc_pos hx; simp; omega

/-- Reading a file of whole blocks. -/
theorem readLoop_file (cfg : NpCfg) {bl : List Block} (r : Reader) {bs : Bytes}
    (h : FileEnc cfg.maxDims bl bs) (hat : At r.buf r.cursor bs)
    (hend : r.cursor + bs.length = r.buf.length) :
    r.readLoop cfg (r.buf.length - r.cursor).toNat = (.ok (), r.after bl bs.length) := by
  have hl := fileEnc_length h
  have hb := hat.bounds
  rw [readLoop_fuel cfg _ ((r.buf.length - r.cursor).toNat + bl.length) r (by omega) (by omega),
    readLoop_seq cfg h r hat, readLoop_stop]
  simp only [Reader.after]; omega

/-- A successful loop has read whole blocks up to the end. -/
theorem readLoop_sound (cfg : NpCfg) (fuel : Nat) (r r' : Reader) (hneg : ¬ NegSlist r.buf)
    (h0 : 0 ≤ r.cursor) (h1 : r.cursor ≤ r.buf.length) (h : r.readLoop cfg fuel = (.ok (), r')) :
    ∃ bl bs, FileEnc cfg.maxDims bl bs ∧ At r.buf r.cursor bs ∧
      r.cursor + bs.length = r.buf.length ∧ r' = r.after bl bs.length := by
  induction fuel generalizing r with
  | zero =>
    by_cases hc : r.cursor < r.buf.length
    · rw [Reader.readLoop.eq_def] at h; simp only at h; rw [if_pos hc] at h; simp at h
    · rw [readLoop_stop _ _ _ hc] at h
      simp only [Prod.mk.injEq, true_and] at h
      refine ⟨[], [], .nil, at_nil.2 ⟨h0, h1⟩, by simp; omega, by simp [Reader.after, h]⟩
  | succ fuel ih =>
    by_cases hc : r.cursor < r.buf.length
    · rw [readLoop_step _ _ _ hc] at h
      cases hr : readRecord cfg r.buf r.recNum r.cursor with
      | mk res c =>
        rw [hr] at h
        cases res with
        | error e => simp at h
        | ok rec =>
          simp only at h
          obtain ⟨b, x, hb, hat, rfl, rfl⟩ := readRecord_sound hneg h0 h1 hr
          have hbd := hat.bounds
          obtain ⟨bl, bs, hbl, hat2, hend, rfl⟩ := ih _ (by exact hneg) (by simp only; omega) (by simp only; omega) h
          refine ⟨b :: bl, x ++ bs, .cons hb hbl, at_append.2 ⟨hat, hat2⟩, ?_, ?_⟩
          · simp only at hend; simp; omega
          · simp only [Reader.after, List.map_cons, List.append_assoc, List.length_cons, List.length_append,
              List.singleton_append, Reader.mk.injEq, true_and, and_true]
            omega
    · rw [readLoop_stop _ _ _ hc] at h
      simp only [Prod.mk.injEq, true_and] at h
      refine ⟨[], [], .nil, at_nil.2 ⟨h0, h1⟩, by simp; omega, by simp [Reader.after, h]⟩

/-- A successful loop has read records tiling the rest of the buffer. -/
theorem readLoop_tiles (cfg : NpCfg) (fuel : Nat) (r r' : Reader) (k : Nat) (hk : r.cursor = k)
    (h1 : k ≤ r.buf.length) (h : r.readLoop cfg fuel = (.ok (), r')) :
    ∃ sizes, Tiles r.buf k sizes ∧ r'.cursor = r.buf.length ∧ r'.buf = r.buf ∧
      r'.dmapRecords.length = r.dmapRecords.length + sizes.length ∧ r'.records = r.records := by
  induction fuel generalizing r k with
  | zero =>
    by_cases hc : r.cursor < r.buf.length
    · rw [Reader.readLoop.eq_def] at h; simp only at h; rw [if_pos hc] at h; simp at h
    · rw [readLoop_stop _ _ _ hc] at h
      simp only [Prod.mk.injEq, true_and] at h
      subst h
      exact ⟨[], by simp [Tiles]; omega, by omega, rfl, by simp, rfl⟩
  | succ fuel ih =>
    by_cases hc : r.cursor < r.buf.length
    · rw [readLoop_step _ _ _ hc] at h
      cases hr : readRecord cfg r.buf r.recNum r.cursor with
      | mk res c =>
        rw [hr] at h
        cases res with
        | error e => simp at h
        | ok rec =>
          simp only at h
          obtain ⟨n, hn, hn2, rfl, hle, h16, hat⟩ := readRecord_advance (by omega) (by omega) hr
          obtain ⟨sizes, ht, hcur, hbuf, hlen, hrec⟩ :=
            ih _ (k + n) (by simp only; omega) (by simp only; omega) h
          rw [hk, at_natLE] at hat
          refine ⟨n :: sizes, ⟨hn, hn2, hat.1, hat.2, ht⟩, hcur, hbuf, ?_, hrec⟩
          · simp only [List.length_append, List.length_singleton] at hlen
            simp only [List.length_cons]; omega
    · rw [readLoop_stop _ _ _ hc] at h
      simp only [Prod.mk.injEq, true_and] at h
      subst h
      exact ⟨[], by simp [Tiles]; omega, by omega, rfl, by simp, rfl⟩

/-- Two tilings from the same offset are equal. -/
theorem tiles_unique {buf : Bytes} {c : Nat} {s1 s2 : List Nat} (h1 : Tiles buf c s1)
    (h2 : Tiles buf c s2) : s1 = s2 := by
  induction s1 generalizing c s2 with
  | nil =>
    cases s2 with
    | nil => rfl
    | cons n ns => obtain ⟨_, _, h, _⟩ := h2; unfold Tiles at h1; omega
  | cons n ns ih =>
    cases s2 with
    | nil => obtain ⟨_, _, h, _⟩ := h1; unfold Tiles at h2; omega
    | cons m ms =>
      obtain ⟨_, a1, _, a2, a3⟩ := h1
      obtain ⟨_, b1, _, b2, b3⟩ := h2
      have := congrArg leNat (a2.symm.trans b2)
      rw [leNat_natLE, leNat_natLE, Nat.mod_eq_of_lt (by omega), Nat.mod_eq_of_lt (by omega)] at this
      subst this
      rw [ih a3 b3]

theorem tiles_sum {buf : Bytes} {c : Nat} {s : List Nat} (h : Tiles buf c s) :
    c + s.sum = buf.length := by
  induction s generalizing c with
  | nil => unfold Tiles at h; simp [h]
  | cons n ns ih =>
    obtain ⟨_, _, _, _, h⟩ := h
    have := ih h
    simp; omega

theorem integrityLoop_stop (buf : Bytes) (rn fuel : Nat) (total c : Int) (h : ¬ c < buf.length) :
    integrityLoop buf rn fuel total c = (.ok total, c) := by
  rw [integrityLoop.eq_def]; simp only; rw [if_neg h]

theorem integrityLoop_step (buf : Bytes) (rn fuel : Nat) (total c : Int) (h : c < buf.length) :
    integrityLoop buf rn (fuel + 1) total c =
      match (readInt buf >>= fun n => zeroNegativeCheck rn n >>= fun _ =>
          bytesCheck rn (total + n) buf.length >>= fun _ => (Pure.pure n : Rd Int)) (c + 4) with
      | (.error e, c') => (.error e, c')
      | (.ok n, c') => integrityLoop buf rn fuel (total + n) (c' + n - 8) := by
  rw [integrityLoop.eq_def]; simp only; rw [if_pos h]; rfl

theorem readInt_ok {buf : Bytes} {k x k' : Int} (hk : 0 ≤ k) : readInt buf k = (.ok x, k') ↔
    signedOk 4 x ∧ At buf k (intLE 4 x) ∧ k' = k + 4 := by
  by_cases hk1 : k ≤ buf.length
  · rw [readInt_exact k x k' hk hk1]
    constructor
    · rintro ⟨_, ⟨h, rfl⟩, hat, rfl⟩; exact ⟨h, hat, by simp⟩
    · rintro ⟨h, hat, rfl⟩; exact ⟨_, ⟨h, rfl⟩, hat, by simp⟩
  · constructor
    · intro h
      exfalso
      unfold readInt at h
      rw [rd_bind_ok] at h
      obtain ⟨_, _, h, _⟩ := h
      unfold readDataN at h
      rw [rd_bind_ok] at h
      obtain ⟨_, _, h, _⟩ := h
      unfold readPre at h
      rw [if_pos (by omega)] at h
      simp at h
    · rintro ⟨_, hat, _⟩
      have := hat.bounds; simp at this; omega

/-- The integrity loop succeeds exactly on tilings. -/
theorem integrityLoop_iff (buf : Bytes) (rn fuel : Nat) (k : Nat) (hk : k ≤ buf.length)
    (hf : buf.length - k ≤ fuel) (t c : Int) :
    integrityLoop buf rn fuel k k = (.ok t, c) ↔
      (∃ sizes, Tiles buf k sizes) ∧ t = buf.length ∧ c = buf.length := by
  induction fuel generalizing k with
  | zero =>
    rw [integrityLoop_stop _ _ _ _ _ (by omega)]
    have : k = buf.length := by omega
    subst this
    simp only [Prod.mk.injEq, Except.ok.injEq]
    constructor
    · rintro ⟨rfl, rfl⟩; exact ⟨⟨[], rfl⟩, rfl, rfl⟩
    · rintro ⟨_, rfl, rfl⟩; exact ⟨rfl, rfl⟩
  | succ fuel ih =>
    by_cases hc : (k : Int) < buf.length
    · rw [integrityLoop_step _ _ _ _ _ hc]
      constructor
      · intro h
        split at h
        · simp at h
        · rename_i n c' hm
          simp only [rd_bind_ok, zeroNegativeCheck_ok, bytesCheck_ok, rd_pure_ok] at hm
          obtain ⟨n, _, hn, _, _, ⟨hpos, rfl⟩, _, _, ⟨hle, rfl⟩, rfl, rfl⟩ := hm
          rw [readInt_ok (by omega)] at hn
          obtain ⟨ho, hat, rfl⟩ := hn
          unfold signedOk at ho
          obtain ⟨m, rfl⟩ : ∃ m : Nat, n = m := ⟨n.toNat, by omega⟩
          rw [intLE_natCast (by omega), at_natLE] at hat
          have h' : integrityLoop buf rn fuel ((k + m : Nat) : Int) ((k + m : Nat) : Int) = (.ok t, c) := by
            rw [← h]; congr 1 <;> omega
          rw [ih _ (by omega) (by omega)] at h'
          obtain ⟨⟨s, hs⟩, h2⟩ := h'
          exact ⟨⟨m :: s, by omega, by omega, hat.1, hat.2, hs⟩, h2⟩
      · rintro ⟨⟨s, hs⟩, rfl, rfl⟩
        cases s with
        | nil => unfold Tiles at hs; omega
        | cons m s =>
          have hsum := tiles_sum hs
          simp only [List.sum_cons] at hsum
          obtain ⟨h1, h2, h3, h4, h5⟩ := hs
          have hm : (readInt buf >>= fun n => zeroNegativeCheck rn n >>= fun _ =>
              bytesCheck rn (k + n) buf.length >>= fun _ => (Pure.pure n : Rd Int)) ((k : Int) + 4) =
              (Except.ok (m : Int), (k : Int) + 8) := by
            simp only [rd_bind_ok, zeroNegativeCheck_ok, bytesCheck_ok, rd_pure_ok]
            refine ⟨m, k + 8, ?_, (), _, ⟨by omega, rfl⟩, (), _, ⟨by omega, rfl⟩, rfl, rfl⟩
            rw [readInt_ok (by omega)]
            refine ⟨by unfold signedOk; omega, ?_, by omega⟩
            rw [intLE_natCast (by omega), at_natLE]; exact ⟨h3, h4⟩
          rw [hm]
          simp only
          have := (ih (k + m) (by omega) (by omega)).2 ⟨⟨s, h5⟩, rfl, rfl⟩
          rw [← this]; congr 1 <;> omega
    · rw [integrityLoop_stop _ _ _ _ _ hc]
      have : k = buf.length := by omega
      subst this
      simp only [Prod.mk.injEq, Except.ok.injEq]
      constructor
      · rintro ⟨rfl, rfl⟩; exact ⟨⟨[], rfl⟩, rfl, rfl⟩
      · rintro ⟨_, rfl, rfl⟩; exact ⟨rfl, rfl⟩

end Verif
