import Verif.Dmap.Lemmas.Write
import Verif.Dmap.Lemmas.Errors
/-!
# Further consequences: determinism of the encoding, truncation, result conversion
-/
namespace Verif
open Spec

theorem rd_bind_run {α β : Type} {m : Rd α} {f : α → Rd β} {c c1 : Int} {a : α}
    (h : m c = (.ok a, c1)) : (m >>= f) c = f a c1 := by
  show (match m c with
    | (.ok a, c') => f a c'
    | (.error e, c') => (.error e, c')) = _
  rw [h]

theorem rd_bind_stop {α β : Type} {m : Rd α} {f : α → Rd β} {c c1 : Int} {e : Err}
    (h : m c = (.error e, c1)) : (m >>= f) c = (.error e, c1) := by
  show (match m c with
    | (.ok a, c') => f a c'
    | (.error e, c') => (.error e, c')) = _
  rw [h]

theorem cursor_run (c : Int) : Rd.cursor c = (.ok c, c) := rfl
theorem setCursor_run (c x : Int) : Rd.setCursor x c = (.ok (), x) := rfl

/-! ## The encoding is a function -/

theorem intLE_inj {k : Nat} {v w : Int} (hv : signedOk k v) (hw : signedOk k w)
    (h : intLE k v = intLE k w) : v = w := by
  rw [← toSigned_intLE hv, h, toSigned_intLE hw]

theorem valEnc_fun' {fm : Fmt} {v w : PyVal} {b1 b2 : Bytes} (h1 : ValEnc fm v b1) (h2 : ValEnc fm w b2) (h : v = w) :
    b1.length = b2.length ∧ (NotNaN v → b1 = b2) := by
  cases h1 <;> cases h2
  case f32.f32 => exact ⟨by simp, fun hn => by rw [quiet32_inj (PyVal.f32.inj h) hn]⟩
  all_goals
    first
    | (injection h with h; subst h; exact ⟨rfl, fun _ => rfl⟩)
    | (injection h with h; have := Int.ofNat_inj.1 h; subst this; exact ⟨rfl, fun _ => rfl⟩)

theorem valEnc_len_eq {fm : Fmt} {v : PyVal} {b1 b2 : Bytes} (h1 : ValEnc fm v b1) (h2 : ValEnc fm v b2) :
    b1.length = b2.length := (valEnc_fun' h1 h2 rfl).1

theorem valEnc_fun {fm : Fmt} {v : PyVal} {b1 b2 : Bytes} (hn : NotNaN v)
    (h1 : ValEnc fm v b1) (h2 : ValEnc fm v b2) : b1 = b2 := (valEnc_fun' h1 h2 rfl).2 hn

theorem scalarEnc_fun {s : DmapScalar} {b1 b2 : Bytes} (hn : NotNaN s.value) (h1 : ScalarEnc s b1)
    (h2 : ScalarEnc s b2) : b1 = b2 := by
  obtain ⟨v1, e1, rfl⟩ := h1.bytes
  obtain ⟨v2, e2, rfl⟩ := h2.bytes
  rw [valEnc_fun hn e1 e2]

theorem scalarEnc_len_eq {s : DmapScalar} {b1 b2 : Bytes} (h1 : ScalarEnc s b1) (h2 : ScalarEnc s b2) :
    b1.length = b2.length := by
  obtain ⟨v1, e1, rfl⟩ := h1.bytes
  obtain ⟨v2, e2, rfl⟩ := h2.bytes
  simp only [List.length_append, valEnc_len_eq e1 e2]

theorem arrayEnc_fun {m1 m2 n1 n2 : Nat} {d1 d2 : Fmt → DType} {a : DmapArray} {b1 b2 : Bytes}
    (h1 : ArrayEnc m1 n1 d1 a b1) (h2 : ArrayEnc m2 n2 d2 a b2) : b1 = b2 := by
  rw [h1.bytes, h2.bytes]

theorem seqEnc_fun {α : Type} {R S : α → Bytes → Prop} {l : List α} (hR : ∀ x ∈ l, ∀ b1 b2, R x b1 → S x b2 → b1 = b2)
    {b1 b2 : Bytes} (h1 : SeqEnc R l b1) (h2 : SeqEnc S l b2) : b1 = b2 := by
  induction h1 generalizing b2 with
  | nil => cases h2; rfl
  | cons hx _ ih =>
    cases h2 with
    | cons hx' h' => rw [hR _ (by simp) _ _ hx hx', ih (fun x hx => hR x (List.mem_cons_of_mem _ hx)) h']

theorem seqEnc_len_eq {α : Type} {R S : α → Bytes → Prop} {l : List α}
    (hR : ∀ x b1 b2, R x b1 → S x b2 → b1.length = b2.length)
    {b1 b2 : Bytes} (h1 : SeqEnc R l b1) (h2 : SeqEnc S l b2) : b1.length = b2.length := by
  induction h1 generalizing b2 with
  | nil => cases h2; rfl
  | cons hx _ ih =>
    cases h2 with
    | cons hx' h' => rw [List.length_append, List.length_append, hR _ _ _ hx hx', ih h']

theorem blockEnc_len_eq {mr : Nat} {b : Block} {b1 b2 : Bytes} (h1 : BlockEnc mr b b1) (h2 : BlockEnc mr b b2) :
    b1.length = b2.length := by
  obtain ⟨s1, a1, es1, ea1, e1⟩ := h1.bytes
  obtain ⟨s2, a2, es2, ea2, e2⟩ := h2.bytes
  have hs := seqEnc_len_eq (R := ScalarEnc) (S := ScalarEnc) (fun _ _ _ h h' => scalarEnc_len_eq h h') es1 es2
  have ha := seqEnc_fun (R := ArrayEnc mr b1.length presented) (S := ArrayEnc mr b2.length presented)
    (fun _ _ _ _ h h' => arrayEnc_fun h h') ea1 ea2
  rw [e1, e2]
  simp only [List.length_append, length_natLE, hs, ha]

theorem blockEnc_fun {mr : Nat} {b : Block} {b1 b2 : Bytes} (hn : b.NoNaN) (h1 : BlockEnc mr b b1)
    (h2 : BlockEnc mr b b2) : b1 = b2 := by
  have hl := blockEnc_len_eq h1 h2
  obtain ⟨s1, a1, es1, ea1, e1⟩ := h1.bytes
  obtain ⟨s2, a2, es2, ea2, e2⟩ := h2.bytes
  have hs := seqEnc_fun (R := ScalarEnc) (S := ScalarEnc) (fun s hs _ _ h h' => scalarEnc_fun (hn s hs) h h') es1 es2
  have ha := seqEnc_fun (R := ArrayEnc mr b1.length presented) (S := ArrayEnc mr b2.length presented)
    (fun _ _ _ _ h h' => arrayEnc_fun h h') ea1 ea2
  subst hs ha
  rw [e1, e2, hl]

theorem fileEnc_len_eq {mr : Nat} {bl : List Block} {b1 b2 : Bytes} (h1 : FileEnc mr bl b1)
    (h2 : FileEnc mr bl b2) : b1.length = b2.length :=
  seqEnc_len_eq (R := BlockEnc mr) (S := BlockEnc mr) (fun _ _ _ h h' => blockEnc_len_eq h h') h1 h2

theorem fileEnc_fun {mr : Nat} {bl : List Block} {b1 b2 : Bytes} (hn : ∀ b ∈ bl, b.NoNaN) (h1 : FileEnc mr bl b1)
    (h2 : FileEnc mr bl b2) : b1 = b2 :=
  seqEnc_fun (R := BlockEnc mr) (S := BlockEnc mr) (fun b hb _ _ h h' => blockEnc_fun (hn b hb) h h') h1 h2

theorem seqEnc_append {α : Type} {R : α → Bytes → Prop} {l1 l2 : List α} {b1 b2 : Bytes}
    (h1 : SeqEnc R l1 b1) (h2 : SeqEnc R l2 b2) : SeqEnc R (l1 ++ l2) (b1 ++ b2) := by
  induction h1 with
  | nil => exact h2
  | cons hx _ ih => rw [List.cons_append, List.append_assoc]; exact .cons hx ih

/-! ## Results of the reader are always convertible, except for large chars -/

/-- Fields whose value has the kind that belongs to the format. -/
def Shaped : Field → Prop
  | .scalar s => ∃ bs, ValEnc s.fmt s.value bs
  | .array _ => True
  | .other => False

/-- All fields of a record have the right kind. -/
def ShapedRec (r : Rec) : Prop := ∀ p ∈ r, Shaped p.2

theorem shapedRec_set {r : Rec} (h : ShapedRec r) {k : PyStr} {f : Field} (hf : Shaped f) :
    ShapedRec (r.set k f) := by
  induction r with
  | nil => intro p hp; simp [Dict.set] at hp; subst hp; exact hf
  | cons q r ih =>
    obtain ⟨k', f'⟩ := q
    intro p hp
    simp only [Dict.set] at hp
    split at hp
    · rcases List.mem_cons.1 hp with rfl | hp
      · exact hf
      · exact h p (List.mem_cons_of_mem _ hp)
    · rcases List.mem_cons.1 hp with rfl | hp
      · exact h _ (by simp)
      · exact ih (fun p hp => h p (List.mem_cons_of_mem _ hp)) p hp

theorem shapedRec_addScalars {r : Rec} (h : ShapedRec r) {ss : List DmapScalar}
    (hs : ∀ s ∈ ss, Shaped (.scalar s)) : ShapedRec (addScalars r ss) := by
  unfold addScalars
  induction ss generalizing r with
  | nil => exact h
  | cons s ss ih =>
    exact ih (shapedRec_set h (hs s (by simp))) fun x hx => hs x (List.mem_cons_of_mem _ hx)

theorem shapedRec_addArrays {r : Rec} (h : ShapedRec r) {as : List DmapArray} :
    ShapedRec (addArrays r as) := by
  unfold addArrays
  induction as generalizing r with
  | nil => exact h
  | cons s ss ih => exact ih (shapedRec_set h trivial)

theorem seqEnc_mem {α : Type} {R : α → Bytes → Prop} {l : List α} {bs : Bytes} (h : SeqEnc R l bs)
    {x : α} (hx : x ∈ l) : ∃ b, R x b := by
  induction h with
  | nil => cases hx
  | cons h _ ih =>
    rcases List.mem_cons.1 hx with rfl | hx
    · exact ⟨_, h⟩
    · exact ih hx

theorem readRecord_shaped {cfg : NpCfg} {buf : Bytes} {rn : Nat} {c c' : Int} {r : Rec} (h0 : 0 ≤ c)
    (h1 : c ≤ buf.length) (h : readRecord cfg buf rn c = (.ok r, c')) : ShapedRec r := by
  obtain ⟨n, ns, na, ss, as, c1, _, _, _, _, _, _, _, hn, hat, hss, _, _, rfl⟩ := (readRecord_ok h0 h1).1 h
  have hb := hat.bounds
  simp only [List.length_append, length_natLE] at hb
  obtain ⟨bs, ⟨_, hseq⟩, _⟩ := (readScalarsL_exact rn ns _ _ _ (by omega) (by omega)).1 hss
  apply shapedRec_addArrays
  apply shapedRec_addScalars (by intro p hp; cases hp)
  intro s hs
  obtain ⟨b, hb⟩ := seqEnc_mem hseq hs
  obtain ⟨vb, hv, _⟩ := hb.bytes
  exact ⟨vb, hv⟩

/-- The only exception of the result conversion: a char of 128..255 with NumPy 2. -/
theorem fieldToPlain_err {cfg : NpCfg} {f : Field} (h : Shaped f) {e : Err}
    (he : fieldToPlain cfg f = .error e) : e = .overflowError ∧ cfg.intWraps = false := by
  cases f with
  | other => exact h.elim
  | array a => cases he
  | scalar s =>
    obtain ⟨bs, hv⟩ := h
    obtain ⟨nm, v, dt, fm⟩ := s
    simp only at hv
    have key : ∀ (sg : Bool) (k : Nat) (v : Int) (g : Int → PlainVal) (e : Err),
        (npIntCast cfg sg k v >>= fun v => (Pure.pure (g v) : Except Err PlainVal)) = .error e →
        e = .overflowError ∧ cfg.intWraps = false := by
      intro sg k v g e h
      cases hx : npIntCast cfg sg k v with
      | ok x => rw [hx] at h; cases h
      | error e' =>
        rw [hx] at h
        cases h
        unfold npIntCast at hx
        simp only [] at hx
        split at hx
        · split at hx
          · cases hx
          · split at hx
            · cases hx
            · rename_i hw
              cases hx
              exact ⟨rfl, by simpa using hw⟩
        · split at hx
          · cases hx
          · split at hx
            · cases hx
            · rename_i hw
              cases hx
              exact ⟨rfl, by simpa using hw⟩
    cases hv <;> simp only [fieldToPlain, castVal] at he
    all_goals first | exact key _ _ _ _ _ he | cases he

theorem recToPlain_err {cfg : NpCfg} {r : Rec} (h : ShapedRec r) {e : Err}
    (he : recToPlain cfg r = .error e) : e = .overflowError ∧ cfg.intWraps = false := by
  induction r with
  | nil => cases he
  | cons p r ih =>
    obtain ⟨k, f⟩ := p
    simp only [recToPlain] at he
    cases hf : fieldToPlain cfg f with
    | error e' => rw [hf] at he; cases he; exact fieldToPlain_err (h (k, f) (by simp)) hf
    | ok v =>
      cases hr : recToPlain cfg r with
      | error e' => rw [hf, hr] at he; cases he; exact ih (fun p hp => h p (List.mem_cons_of_mem _ hp)) hr
      | ok d => rw [hf, hr] at he; cases he

theorem dmap2dict_err {cfg : NpCfg} {rs : List Rec} (h : ∀ r ∈ rs, ShapedRec r) {e : Err}
    (he : dmap2dict cfg rs = .error e) : e = .overflowError ∧ cfg.intWraps = false := by
  induction rs with
  | nil => cases he
  | cons r rs ih =>
    simp only [dmap2dict] at he
    cases hf : recToPlain cfg r with
    | error e' => rw [hf] at he; cases he; exact recToPlain_err (h r (by simp)) hf
    | ok v =>
      cases hr : dmap2dict cfg rs with
      | error e' => rw [hf, hr] at he; cases he; exact ih (fun p hp => h p (List.mem_cons_of_mem _ hp)) hr
      | ok d => rw [hf, hr] at he; cases he

theorem readLoop_shaped (cfg : NpCfg) (fuel : Nat) (r r' : Reader) (x : Except Err Unit)
    (h0 : 0 ≤ r.cursor) (h1 : r.cursor ≤ r.buf.length) (hs : ∀ d ∈ r.dmapRecords, ShapedRec d)
    (h : r.readLoop cfg fuel = (x, r')) : ∀ d ∈ r'.dmapRecords, ShapedRec d := by
  induction fuel generalizing r with
  | zero =>
    by_cases hc : r.cursor < r.buf.length
    · rw [Reader.readLoop.eq_def] at h; simp only [hc, if_true] at h; cases h; exact hs
    · rw [readLoop_stop _ _ _ hc] at h; cases h; exact hs
  | succ fuel ih =>
    by_cases hc : r.cursor < r.buf.length
    · rw [readLoop_step _ _ _ hc] at h
      split at h
      · cases h; exact hs
      · rename_i rec c hrec
        obtain ⟨n, _, _, e1, e2, _, _⟩ := readRecord_advance h0 h1 hrec
        refine ih _ ?_ e2 ?_ h
        · simp only; omega
        · intro d hd
          simp only [List.mem_append, List.mem_singleton] at hd
          rcases hd with hd | rfl
          · exact hs d hd
          · exact readRecord_shaped h0 h1 hrec
    · rw [readLoop_stop _ _ _ hc] at h; cases h; exact hs

/-- `read_records` keeps the bytes. -/
theorem readLoop_buf (cfg : NpCfg) (fuel : Nat) (r r' : Reader) (x : Except Err Unit)
    (h : r.readLoop cfg fuel = (x, r')) : r'.buf = r.buf := by
  induction fuel generalizing r with
  | zero =>
    by_cases hc : r.cursor < r.buf.length
    · rw [Reader.readLoop.eq_def] at h; simp only [hc, if_true] at h; cases h; rfl
    · rw [readLoop_stop _ _ _ hc] at h; cases h; rfl
  | succ fuel ih =>
    by_cases hc : r.cursor < r.buf.length
    · rw [readLoop_step _ _ _ hc] at h
      split at h
      · cases h; rfl
      · exact (ih _ h).trans rfl
    · rw [readLoop_stop _ _ _ hc] at h; cases h; rfl

/-! ## A file cut inside a block -/

/-- At a proper non-empty prefix of a block, reading raises `CursorError` or
`MismatchByteError`. -/
theorem readRecord_cut {cfg : NpCfg} {mr : Nat} {b : Block} {bs pre : Bytes} (h : BlockEnc mr b bs)
    (rn : Nat) {rest : Bytes} (hpre : bs = pre ++ rest) (hr : rest ≠ []) {buf : Bytes} {c : Int}
    (hat : At buf c pre) (hend : c + pre.length = buf.length) :
    ∃ e c', readRecord cfg buf rn c = (.error e, c') ∧ (e = .cursorError ∨ e = .mismatchByte rn) := by
  have hb := hat.bounds
  obtain ⟨sb, ab, _, _, hbs⟩ := h.bytes
  have hsmall := h.small
  have hid := h.ident
  have hlt : pre.length < bs.length := by
    rw [hpre]; simp; exact List.length_pos_iff.2 hr
  by_cases h8 : pre.length < 8
  · refine ⟨.cursorError, c + 4, ?_, .inl rfl⟩
    have hp : readPre buf 4 (c + 4) = (.error .cursorError, c + 4) := by
      unfold readPre
      split
      · rfl
      · rw [if_pos (by omega)]
    have hn : readInt buf (c + 4) = (.error .cursorError, c + 4) :=
      rd_bind_stop (rd_bind_stop hp)
    unfold readRecord
    rw [rd_bind_run (cursor_run c), rd_bind_run (setCursor_run c (c + 4)), rd_bind_stop hn]
  · have hn4 : At buf (c + 4) (natLE 4 bs.length) := by
      have h1 : bs = b.ident ++ natLE 4 bs.length ++ (natLE 4 b.scalars.length ++ natLE 4 b.arrays.length ++ sb ++ ab) := by
        conv => lhs; rw [hbs]
        simp only [List.append_assoc]
      have h2 : pre.take 8 = b.ident ++ natLE 4 bs.length := by
        have : bs.take 8 = b.ident ++ natLE 4 bs.length := by
          rw [h1, List.take_append_of_le_length (by simp [hid])]
          rw [← h1, List.take_of_length_le (by simp [hid])]
        rw [← this, hpre, List.take_append_of_le_length (by omega)]
      have h3 : pre = (b.ident ++ natLE 4 bs.length) ++ pre.drop 8 := by
        rw [← h2, List.take_append_drop]
      rw [h3] at hat
      have h4 := (at_append.1 (at_append.1 hat).1).2
      rwa [hid] at h4
    have hok : readInt buf (c + 4) = (.ok (bs.length : Int), c + 4 + 4) := by
      rw [readInt_ok (by omega)]
      refine ⟨by unfold signedOk; omega, ?_, rfl⟩
      rw [intLE_natCast (by omega)]
      exact hn4
    refine ⟨.mismatchByte rn, c + 4 + 4, ?_, .inr rfl⟩
    have : bytesCheck rn (bs.length : Int) ((buf.length : Int) - (c + 4 + 4) + 8) (c + 4 + 4) =
        (.error (.mismatchByte rn), c + 4 + 4) := by
      unfold bytesCheck
      rw [if_pos (by omega)]
      rfl
    unfold readRecord
    rw [rd_bind_run (cursor_run c), rd_bind_run (setCursor_run c (c + 4)), rd_bind_run hok,
      rd_bind_run (cursor_run (c + 4 + 4)), rd_bind_stop this]

/-- Cutting a file: whole blocks before the cut, then a proper prefix of the next block. -/
theorem fileEnc_cut {mr : Nat} {bl : List Block} {bs : Bytes} (h : FileEnc mr bl bs) (k : Nat)
    (hk : k ≤ bs.length) :
    ∃ j b1 pre, j ≤ bl.length ∧ FileEnc mr (bl.take j) b1 ∧ bs.take k = b1 ++ pre ∧
      (pre = [] ∨ ∃ b bb rest, bl[j]? = some b ∧ BlockEnc mr b bb ∧ bb = pre ++ rest ∧ pre ≠ [] ∧ rest ≠ []) := by
  induction h generalizing k with
  | nil => exact ⟨0, [], [], by simp, .nil, by simp, .inl rfl⟩
  | @cons b bl bb bs hb hbl ih =>
    by_cases hlt : k < bb.length
    · by_cases hk0 : k = 0
      · subst hk0
        exact ⟨0, [], [], by simp, .nil, by simp, .inl rfl⟩
      · refine ⟨0, [], bb.take k, by simp, .nil, ?_, .inr ⟨b, bb, bb.drop k, by simp, hb, by simp, ?_, ?_⟩⟩
        · rw [List.take_append_of_le_length (by omega)]; simp
        · intro h
          have := congrArg List.length h
          simp only [List.length_take, List.length_nil] at this; omega
        · intro h
          have := congrArg List.length h
          simp only [List.length_drop, List.length_nil] at this; omega
    · simp only [List.length_append] at hk
      obtain ⟨j, b1, pre, h1, h2, h3, h4⟩ := ih (k - bb.length) (by omega)
      refine ⟨j + 1, bb ++ b1, pre, by simp; omega, by simpa [FileEnc] using SeqEnc.cons hb h2, ?_, ?_⟩
      · rw [List.take_append, List.take_of_length_le (by omega), h3, List.append_assoc]
      · simpa using h4

end Verif
