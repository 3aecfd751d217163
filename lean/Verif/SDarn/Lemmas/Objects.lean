import Verif.SDarn.Lemmas.Decide
import Verif.SDarn.Model.Objects
import Verif.Dmap.Lemmas.Programs
import Verif.Dmap.Lemmas.WriterObj
import Verif.Dmap.Lemmas.Errors
import Verif.Dmap.Lemmas.Header
import Verif.Dmap.Lemmas.Extra
/-!
# The loops of `SDarnRead` and `SDarnWrite`
-/
namespace Verif.SD
open Verif Spec

/-- The reader after consuming one record that it keeps. -/
def keep (r : Reader) (rec : Rec) (c : Int) : Reader :=
  { r with cursor := c, dmapRecords := r.dmapRecords ++ [rec], recNum := r.recNum + 1 }

theorem darnLoop_stop (cfg : NpCfg) (gs opt : List Table) (fuel : Nat) (r : Reader)
    (h : ¬ r.cursor < r.buf.length) : darnLoop cfg gs opt fuel r = (.ok (), r) := by
  rw [darnLoop.eq_def]; simp only; rw [if_neg h]

theorem darnLoop_step (cfg : NpCfg) (gs opt : List Table) (fuel : Nat) (r : Reader)
    (h : r.cursor < r.buf.length) :
    darnLoop cfg gs opt (fuel + 1) r =
      match readRecord cfg r.buf r.recNum r.cursor with
      | (.error e, c) => ((.error e : Except Err Unit), { r with cursor := c })
      | (.ok rec, c) =>
        match readCheck gs opt r.recNum rec with
        | .error e => (.error e, { r with cursor := c })
        | .ok () => darnLoop cfg gs opt fuel (keep r rec c) := by
  rw [darnLoop.eq_def]; simp only; rw [if_pos h]; rfl

/-- Records read one after the other and kept. -/
inductive Steps (cfg : NpCfg) : Reader → List Rec → Reader → Prop
  | nil (r : Reader) : Steps cfg r [] r
  | cons {r r' : Reader} {rec : Rec} {c : Int} {new : List Rec} : r.cursor < r.buf.length →
      readRecord cfg r.buf r.recNum r.cursor = (.ok rec, c) → Steps cfg (keep r rec c) new r' →
      Steps cfg r (rec :: new) r'

theorem Steps.buf {cfg : NpCfg} {r r' : Reader} {new : List Rec} (h : Steps cfg r new r') : r'.buf = r.buf := by
  induction h with
  | nil => rfl
  | cons _ _ _ ih => exact ih

theorem Steps.recNum {cfg : NpCfg} {r r' : Reader} {new : List Rec} (h : Steps cfg r new r') :
    r'.recNum = r.recNum + new.length := by
  induction h with
  | nil => rfl
  | cons _ _ _ ih => rw [ih]; simp only [keep, List.length_cons]; omega

theorem Steps.dmapRecords {cfg : NpCfg} {r r' : Reader} {new : List Rec} (h : Steps cfg r new r') :
    r'.dmapRecords = r.dmapRecords ++ new := by
  induction h with
  | nil => simp
  | cons _ _ _ ih => rw [ih]; simp [keep]

theorem Steps.records {cfg : NpCfg} {r r' : Reader} {new : List Rec} (h : Steps cfg r new r') :
    r'.records = r.records := by
  induction h with
  | nil => rfl
  | cons _ _ _ ih => rw [ih]; rfl

/-- The loop, with enough fuel, in terms of steps. -/
inductive LoopResult (cfg : NpCfg) (gs opt : List Table) (r : Reader) : Except Err Unit × Reader → Prop
  | done {new : List Rec} {r' : Reader} : Steps cfg r new r' → ¬ r'.cursor < r'.buf.length →
      (∀ j rec, new[j]? = some rec → readCheck gs opt (r.recNum + j) rec = .ok ()) →
      LoopResult cfg gs opt r (.ok (), r')
  | unread {new : List Rec} {r' : Reader} {e : Err} {c : Int} : Steps cfg r new r' →
      r'.cursor < r'.buf.length →
      (∀ j rec, new[j]? = some rec → readCheck gs opt (r.recNum + j) rec = .ok ()) →
      readRecord cfg r'.buf r'.recNum r'.cursor = (.error e, c) →
      LoopResult cfg gs opt r (.error e, { r' with cursor := c })
  | rejected {new : List Rec} {r' : Reader} {e : Err} {c : Int} {rec : Rec} : Steps cfg r new r' →
      r'.cursor < r'.buf.length →
      (∀ j rec, new[j]? = some rec → readCheck gs opt (r.recNum + j) rec = .ok ()) →
      readRecord cfg r'.buf r'.recNum r'.cursor = (.ok rec, c) →
      readCheck gs opt r'.recNum rec = .error e →
      LoopResult cfg gs opt r (.error e, { r' with cursor := c })

theorem loopResult_cons {cfg : NpCfg} {gs opt : List Table} {r : Reader} {rec : Rec} {c : Int}
    {res : Except Err Unit × Reader} (hc : r.cursor < r.buf.length)
    (hr : readRecord cfg r.buf r.recNum r.cursor = (.ok rec, c))
    (hk : readCheck gs opt r.recNum rec = .ok ())
    (h : LoopResult cfg gs opt (keep r rec c) res) : LoopResult cfg gs opt r res := by
  have all : ∀ {new : List Rec}, (∀ j x, new[j]? = some x →
      readCheck gs opt ((keep r rec c).recNum + j) x = .ok ()) →
      ∀ j x, (rec :: new)[j]? = some x → readCheck gs opt (r.recNum + j) x = .ok () := by
    intro new h j x hj
    cases j with
    | zero => simp at hj; subst hj; exact hk
    | succ j =>
      have := h j x (by simpa using hj)
      simp only [keep] at this
      rw [show r.recNum + (j + 1) = r.recNum + 1 + j by omega]
      exact this
  cases h with
  | done h1 h2 h3 => exact .done (.cons hc hr h1) h2 (all h3)
  | unread h1 h2 h3 h4 => exact .unread (.cons hc hr h1) h2 (all h3) h4
  | rejected h1 h2 h3 h4 h5 => exact .rejected (.cons hc hr h1) h2 (all h3) h4 h5

theorem darnLoop_result (cfg : NpCfg) (gs opt : List Table) (fuel : Nat) (r : Reader)
    (hf : (r.buf.length - r.cursor).toNat ≤ fuel) : LoopResult cfg gs opt r (darnLoop cfg gs opt fuel r) := by
  induction fuel generalizing r with
  | zero =>
    rw [darnLoop_stop _ _ _ _ _ (by omega)]
    exact .done (.nil r) (by omega) (by simp)
  | succ fuel ih =>
    by_cases hc : r.cursor < r.buf.length
    · rw [darnLoop_step _ _ _ _ _ hc]
      cases hr : readRecord cfg r.buf r.recNum r.cursor with
      | mk res c =>
        cases res with
        | error e => exact .unread (.nil r) hc (by simp) hr
        | ok rec =>
          simp only
          cases hk : readCheck gs opt r.recNum rec with
          | error e => exact .rejected (.nil r) hc (by simp) hr hk
          | ok u =>
            have := readRecord_lt hr
            exact loopResult_cons hc hr hk (ih _ (by simp only [keep]; omega))
    · rw [darnLoop_stop _ _ _ _ _ hc]
      exact .done (.nil r) hc (by simp)

/-- Steps can be replayed by the reading loop of `DmapRead`. -/
theorem readLoop_steps {cfg : NpCfg} {r r' : Reader} {new : List Rec} (h : Steps cfg r new r') (fuel : Nat)
    (hf : (r.buf.length - r.cursor).toNat ≤ fuel) : ∃ fuel', (r'.buf.length - r'.cursor).toNat ≤ fuel' ∧
      r.readLoop cfg fuel = r'.readLoop cfg fuel' := by
  induction h generalizing fuel with
  | nil r => exact ⟨fuel, hf, rfl⟩
  | @cons r r' rec c new hc hr _ ih =>
    cases fuel with
    | zero => omega
    | succ fuel =>
      have hlt := readRecord_lt hr
      rw [readLoop_step _ _ _ hc, hr]
      exact ih fuel (by simp only [keep]; omega)

/-- Steps can be replayed by the checking loop if the records pass. -/
theorem darnLoop_steps {cfg : NpCfg} {gs opt : List Table} {r r' : Reader} {new : List Rec}
    (h : Steps cfg r new r') (hk : ∀ j rec, new[j]? = some rec → readCheck gs opt (r.recNum + j) rec = .ok ())
    (fuel : Nat) (hf : (r.buf.length - r.cursor).toNat ≤ fuel) :
    ∃ fuel', (r'.buf.length - r'.cursor).toNat ≤ fuel' ∧
      darnLoop cfg gs opt fuel r = darnLoop cfg gs opt fuel' r' := by
  induction h generalizing fuel with
  | nil r => exact ⟨fuel, hf, rfl⟩
  | @cons r r' rec c new hc hr _ ih =>
    cases fuel with
    | zero => omega
    | succ fuel =>
      have hlt := readRecord_lt hr
      have h0 := hk 0 rec rfl
      rw [Nat.add_zero] at h0
      rw [darnLoop_step _ _ _ _ _ hc, hr]
      simp only [h0]
      refine ih (fun j x hj => ?_) fuel (by simp only [keep]; omega)
      have := hk (j + 1) x (by simpa using hj)
      simp only [keep]
      rw [show r.recNum + 1 + j = r.recNum + (j + 1) by omega]
      exact this

/-- Steps through whole blocks. -/
theorem steps_fileEnc (cfg : NpCfg) {bl : List Block} {bs : Bytes} (h : FileEnc cfg.maxDims bl bs)
    (r : Reader) (hat : At r.buf r.cursor bs) : Steps cfg r (bl.map Block.record) (r.after bl bs.length) := by
  unfold FileEnc at h
  induction h generalizing r with
  | nil => simpa [Reader.after] using Steps.nil r
  | @cons b bl x bs hb hbl ih =>
    rw [at_append] at hat
    have hbd := hat.1.bounds
    have hp := blockEnc_pos hb
    refine .cons (by omega) (readRecord_complete _ hb hat.1) ?_
    have := ih (keep r b.record (r.cursor + x.length)) (by exact hat.2)
    have he : (keep r b.record (r.cursor + x.length)).after bl bs.length = r.after (b :: bl) (x ++ bs).length := by
      simp only [Reader.after, keep, List.map_cons, List.append_assoc, List.length_cons, List.length_append,
        List.singleton_append, Reader.mk.injEq, true_and, and_true]
      omega
    rw [← he]
    exact this

/-- Steps are whole blocks if no `slist` has a negative dimension. -/
theorem steps_sound {cfg : NpCfg} {r r' : Reader} {new : List Rec} (h : Steps cfg r new r')
    (hneg : ¬ NegSlist r.buf) (h0 : 0 ≤ r.cursor) (h1 : r.cursor ≤ r.buf.length) :
    ∃ bl bs, FileEnc cfg.maxDims bl bs ∧ At r.buf r.cursor bs ∧ new = bl.map Block.record ∧
      r' = r.after bl bs.length := by
  induction h with
  | nil r => exact ⟨[], [], .nil, at_nil.2 ⟨h0, h1⟩, rfl, by simp [Reader.after]⟩
  | @cons r r' rec c new hc hr _ ih =>
    obtain ⟨b, x, hb, hat, rfl, rfl⟩ := readRecord_sound hneg h0 h1 hr
    have hbd := hat.bounds
    obtain ⟨bl, bs, hbl, hat2, rfl, rfl⟩ := ih (by exact hneg) (by simp only [keep]; omega)
      (by simp only [keep]; omega)
    refine ⟨b :: bl, x ++ bs, .cons hb hbl, at_append.2 ⟨hat, hat2⟩, rfl, ?_⟩
    simp only [Reader.after, keep, List.map_cons, List.append_assoc, List.length_cons, List.length_append,
      List.singleton_append, Reader.mk.injEq, true_and, and_true]
    omega

/-- The cursor stays inside the file. -/
theorem Steps.inside {cfg : NpCfg} {r r' : Reader} {new : List Rec} (h : Steps cfg r new r')
    (h0 : 0 ≤ r.cursor) (h1 : r.cursor ≤ r.buf.length) :
    0 ≤ r'.cursor ∧ r'.cursor ≤ r'.buf.length ∧ ∀ d ∈ new, ShapedRec d := by
  induction h with
  | nil r => exact ⟨h0, h1, by simp⟩
  | @cons r r' rec c new hc hr _ ih =>
    obtain ⟨n, _, _, e1, e2, _, _⟩ := readRecord_advance h0 h1 hr
    have := ih (by simp only [keep]; omega) (by simp only [keep]; omega)
    refine ⟨this.1, this.2.1, ?_⟩
    intro d hd
    rcases List.mem_cons.1 hd with rfl | hd
    · exact readRecord_shaped h0 h1 hr
    · exact this.2.2 d hd

/-- The loop succeeds iff the loop of `DmapRead` does and all new records pass. -/
theorem darnLoop_ok {cfg : NpCfg} {gs opt req op : List Table} (hd : Describes gs opt req op) {r r' : Reader} :
    darnLoop cfg gs opt (r.buf.length - r.cursor).toNat r = (.ok (), r') ↔
      ∃ new, Steps cfg r new r' ∧ ¬ r'.cursor < r'.buf.length ∧ ∀ d ∈ new, Satisfies req op d := by
  constructor
  · intro h
    have := darnLoop_result cfg gs opt _ r (Nat.le_refl _)
    rw [h] at this
    cases this with
    | done h1 h2 h3 =>
      refine ⟨_, h1, h2, fun d hdm => ?_⟩
      obtain ⟨j, hj⟩ := List.getElem?_of_mem hdm
      exact (readCheck_outcome hd _ d).iff.1 (h3 j d hj)
  · rintro ⟨new, h1, h2, h3⟩
    obtain ⟨f', _, h4⟩ := darnLoop_steps (gs := gs) (opt := opt) h1 (fun j d hj =>
      (readCheck_outcome hd _ d).iff.2 (h3 d (List.mem_of_getElem? hj))) _ (Nat.le_refl _)
    rw [h4, darnLoop_stop _ _ _ _ _ h2]

theorem readLoop_ok_steps {cfg : NpCfg} {r r' : Reader} :
    r.readLoop cfg (r.buf.length - r.cursor).toNat = (.ok (), r') ↔
      ∃ new, Steps cfg r new r' ∧ ¬ r'.cursor < r'.buf.length := by
  constructor
  · intro h
    have key : ∀ fuel (r : Reader), r.readLoop cfg fuel = (.ok (), r') →
        ∃ new, Steps cfg r new r' ∧ ¬ r'.cursor < r'.buf.length := by
      intro fuel
      induction fuel with
      | zero =>
        intro r h
        by_cases hc : r.cursor < r.buf.length
        · rw [Reader.readLoop.eq_def] at h; simp only at h; rw [if_pos hc] at h; simp at h
        · rw [readLoop_stop _ _ _ hc] at h
          cases h
          exact ⟨[], .nil _, hc⟩
      | succ fuel ih =>
        intro r h
        by_cases hc : r.cursor < r.buf.length
        · rw [readLoop_step _ _ _ hc] at h
          cases hr : readRecord cfg r.buf r.recNum r.cursor with
          | mk res c =>
            rw [hr] at h
            cases res with
            | error e => simp at h
            | ok rec =>
              obtain ⟨new, h1, h2⟩ := ih (keep r rec c) h
              exact ⟨rec :: new, .cons hc hr h1, h2⟩
        · rw [readLoop_stop _ _ _ hc] at h
          cases h
          exact ⟨[], .nil _, hc⟩
    exact key _ r h
  · rintro ⟨new, h1, h2⟩
    obtain ⟨f', _, h3⟩ := readLoop_steps h1 _ (Nat.le_refl _)
    rw [h3, readLoop_stop _ _ _ h2]

theorem describes_readCheck_ok {ft : FileType} {rn : Nat} {r : Rec} :
    readCheck (readGroups ft) (readOptional ft) rn r = .ok () ↔ Conforms ft r :=
  (readCheck_outcome (describes_read ft) rn r).iff

theorem read_ok {cfg : NpCfg} {ft : FileType} {rd rd' : DarnReader} {ds : List PlainRec} :
    rd.read cfg ft = (.ok ds, rd') ↔
      ∃ b new, Steps cfg { rd.base with recNum := 0 } new b ∧ ¬ b.cursor < b.buf.length ∧
        (∀ d ∈ new, Conforms ft d) ∧ dmap2dict cfg b.dmapRecords = .ok ds ∧
        rd' = ⟨b, some ds⟩ := by
  unfold DarnReader.read readDarnRecords
  cases h : darnLoop cfg (readGroups ft) (readOptional ft) (rd.base.buf.length - rd.base.cursor).toNat
      { rd.base with recNum := 0 } with
  | mk x b =>
    have hiff := @darnLoop_ok cfg _ _ _ _ (describes_read ft) { rd.base with recNum := 0 } b
    cases x with
    | error e =>
      simp only [Prod.mk.injEq, reduceCtorEq, false_and, false_iff]
      rintro ⟨b', new, h1, h2, h3, _⟩
      have := (@darnLoop_ok cfg _ _ _ _ (describes_read ft) { rd.base with recNum := 0 } b').2 ⟨new, h1, h2, h3⟩
      simp only at this
      rw [h] at this
      cases this
    | ok u =>
      obtain ⟨new, h1, h2, h3⟩ := hiff.1 h
      simp only
      constructor
      · intro hd
        cases hc : dmap2dict cfg b.dmapRecords with
        | error e => rw [hc] at hd; cases hd
        | ok ds' =>
          rw [hc] at hd
          cases hd
          exact ⟨b, new, h1, h2, h3, hc, rfl⟩
      · rintro ⟨b', new', g1, g2, g3, g4, rfl⟩
        have := (@darnLoop_ok cfg _ _ _ _ (describes_read ft) { rd.base with recNum := 0 } b').2 ⟨new', g1, g2, g3⟩
        simp only at this
        rw [h] at this
        cases this
        rw [g4]

/-- How a read method fails. -/
theorem read_error {cfg : NpCfg} {ft : FileType} {rd rd' : DarnReader} {e : Err}
    (h : rd.read cfg ft = (.error e, rd')) :
    (∃ b new, Steps cfg { rd.base with recNum := 0 } new b ∧ (∀ d ∈ new, Conforms ft d) ∧
      b.cursor < b.buf.length ∧ ∃ c, readRecord cfg b.buf b.recNum b.cursor = (.error e, c) ∧
        rd' = { rd with base := { b with cursor := c } }) ∨
    (∃ b new, Steps cfg { rd.base with recNum := 0 } new b ∧ (∀ d ∈ new, Conforms ft d) ∧
      b.cursor < b.buf.length ∧ ∃ rec c, readRecord cfg b.buf b.recNum b.cursor = (.ok rec, c) ∧
        readCheck (readGroups ft) (readOptional ft) b.recNum rec = .error e ∧
        rd' = { rd with base := { b with cursor := c } }) ∨
    (∃ b new, Steps cfg { rd.base with recNum := 0 } new b ∧ (∀ d ∈ new, Conforms ft d) ∧
      ¬ b.cursor < b.buf.length ∧ dmap2dict cfg b.dmapRecords = .error e ∧ rd' = { rd with base := b }) := by
  have all : ∀ {new : List Rec} {n : Nat}, (∀ j rec, new[j]? = some rec →
      readCheck (readGroups ft) (readOptional ft) (n + j) rec = .ok ()) → ∀ d ∈ new, Conforms ft d := by
    intro new n hk d hd
    obtain ⟨j, hj⟩ := List.getElem?_of_mem hd
    exact describes_readCheck_ok.1 (hk j d hj)
  unfold DarnReader.read readDarnRecords at h
  have hl := darnLoop_result cfg (readGroups ft) (readOptional ft) (rd.base.buf.length - rd.base.cursor).toNat
    { rd.base with recNum := 0 } (Nat.le_refl _)
  generalize darnLoop cfg (readGroups ft) (readOptional ft) (rd.base.buf.length - rd.base.cursor).toNat
    { rd.base with recNum := 0 } = res at h hl
  cases hl with
  | done h1 h2 h3 =>
    simp only at h
    split at h
    · rename_i e' hd
      cases h
      exact .inr (.inr ⟨_, _, h1, all h3, h2, hd, rfl⟩)
    · cases h
  | unread h1 h2 h3 h4 =>
    cases h
    exact .inl ⟨_, _, h1, all h3, h2, _, h4, rfl⟩
  | rejected h1 h2 h3 h4 h5 =>
    cases h
    exact .inr (.inl ⟨_, _, h1, all h3, h2, _, _, h4, h5, rfl⟩)

/-- The first rejected record stops the method. -/
theorem read_rejects {cfg : NpCfg} {ft : FileType} {rd : DarnReader} {new : List Rec} {b : Reader} {rec : Rec}
    {c : Int} {e : Err} (h : Steps cfg { rd.base with recNum := 0 } new b) (hn : ∀ d ∈ new, Conforms ft d)
    (hc : b.cursor < b.buf.length) (hr : readRecord cfg b.buf b.recNum b.cursor = (.ok rec, c))
    (hk : readCheck (readGroups ft) (readOptional ft) b.recNum rec = .error e) :
    rd.read cfg ft = (.error e, { rd with base := { b with cursor := c } }) := by
  unfold DarnReader.read readDarnRecords
  obtain ⟨f', h1, h2⟩ := darnLoop_steps (gs := readGroups ft) (opt := readOptional ft) h
    (fun j d hj => describes_readCheck_ok.2 (hn d (List.mem_of_getElem? hj)))
    (rd.base.buf.length - rd.base.cursor).toNat (Nat.le_refl _)
  rw [h2]
  cases f' with
  | zero => omega
  | succ f' =>
    rw [darnLoop_step _ _ _ _ _ hc, hr]
    simp only [hk]

/-! ## Writing -/

theorem writeCheck_ok {ft : FileType} {rn : Nat} {r : Rec} :
    writeCheck (writeGroups ft) (writeOptional ft) rn r = .ok () ↔ Conforms ft r :=
  (writeCheck_outcome (describes_write ft) rn r).iff

/-- Conforming records are encoded as by `DmapWrite`. -/
theorem darnToBytes_conform {ft : FileType} {recs : List Rec} (h : ∀ r ∈ recs, Conforms ft r) (k rn : Nat)
    (buf : Bytes) : darnToBytes (writeGroups ft) (writeOptional ft) k rn buf recs = recordsToBytes k rn buf recs := by
  induction recs generalizing k rn buf with
  | nil => rfl
  | cons r recs ih =>
    simp only [darnToBytes, recordsToBytes]
    rw [writeCheck_ok.2 (h r (by simp))]
    simp only [ih fun x hx => h x (List.mem_cons_of_mem _ hx)]
    rcases recordToBytes k buf r with ⟨x | x, b, r'⟩ <;> rfl

/-- A record that does not conform stops the writer. -/
theorem darnToBytes_stop {ft : FileType} {recs : List Rec} {k rn : Nat} {buf buf' : Bytes} {rn' : Nat}
    {recs' : List Rec} (h : darnToBytes (writeGroups ft) (writeOptional ft) k rn buf recs = (.ok (), buf', rn', recs')) :
    ∀ r ∈ recs, Conforms ft r := by
  induction recs generalizing k rn buf buf' rn' recs' with
  | nil => simp
  | cons r recs ih =>
    simp only [darnToBytes] at h
    cases hk : writeCheck (writeGroups ft) (writeOptional ft) k r with
    | error e => rw [hk] at h; cases h
    | ok u =>
      rw [hk] at h
      simp only at h
      rcases hr : recordToBytes k buf r with ⟨x, buf1, r1⟩
      rw [hr] at h
      cases x with
      | error e => cases h
      | ok u =>
        simp only at h
        rcases hl : darnToBytes (writeGroups ft) (writeOptional ft) (k + 1) k buf1 recs with ⟨x, buf2, rn2, recs2⟩
        rw [hl] at h
        cases h
        intro x hx
        rcases List.mem_cons.1 hx with rfl | hx
        · exact writeCheck_ok.1 hk
        · exact ih hl x hx

theorem conforms_map {ft : FileType} {r : Rec} (g : Field → Field) (hg : ∀ f, (g f).fmt? = f.fmt?) :
    Conforms ft (r.map fun p => (p.1, g p.2)) ↔ Conforms ft r := by
  have has : ∀ k, Has (r.map fun p => (p.1, g p.2)) k ↔ Has r k := by
    intro k
    simp only [Has, List.mem_map, Prod.mk.injEq, Prod.exists]
    constructor
    · rintro ⟨f, k', f', h, rfl, rfl⟩; exact ⟨f', h⟩
    · rintro ⟨f, h⟩; exact ⟨g f, k, f, h, rfl, rfl⟩
  have typ : ∀ k (t : Fmt), (∀ f, (k, f) ∈ (r.map fun p => (p.1, g p.2)) → f.fmt? = some t) ↔
      ∀ f, (k, f) ∈ r → f.fmt? = some t := by
    intro k t
    simp only [List.mem_map, Prod.mk.injEq, Prod.exists]
    constructor
    · intro h f hf; rw [← hg]; exact h (g f) ⟨k, f, hf, rfl, rfl⟩
    · rintro h f ⟨k', f', hf, rfl, rfl⟩; rw [hg]; exact h f' hf
  constructor
  · intro h
    refine ⟨?_, ?_, ?_⟩
    · intro g hg; have := h.complete g hg; simpa only [has] using this
    · intro k hk; exact h.known k ((has k).2 hk)
    · intro k f hf t ht; exact (typ k t).1 (fun f hf => h.typed k f hf t ht) f hf
  · intro h
    refine ⟨?_, ?_, ?_⟩
    · intro g hg; have := h.complete g hg; simpa only [has] using this
    · intro k hk; exact h.known k ((has k).1 hk)
    · intro k f hf t ht; exact (typ k t).2 (fun f hf => h.typed k f hf t ht) f hf

theorem conforms_presentRec {ft : FileType} {r : Rec} : Conforms ft (presentRec r) ↔ Conforms ft r :=
  conforms_map presentField (fun f => by cases f <;> rfl)

theorem conforms_leftRec {ft : FileType} {r : Rec} : Conforms ft (leftRec r) ↔ Conforms ft r :=
  conforms_map leftField (fun f => by
    cases f with
    | array a => simp only [leftField, leftArray, Field.fmt?]; split <;> rfl
    | _ => rfl)

end Verif.SD
