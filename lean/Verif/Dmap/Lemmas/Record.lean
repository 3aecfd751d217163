import Verif.Dmap.Lemmas.Array
import Verif.Dmap.Model.ReaderObj
/-!
# Records: round trip and inversion
-/
namespace Verif
open Spec

theorem rd_bind_ok {α β : Type} {m : Rd α} {f : α → Rd β} {c c' : Int} {b : β} :
    (m >>= f) c = (.ok b, c') ↔ ∃ a c1, m c = (.ok a, c1) ∧ f a c1 = (.ok b, c') := by
  show Rd.bind m f c = _ ↔ _
  unfold Rd.bind
  cases h : m c with
  | mk r c1 =>
    cases r with
    | error e => simp
    | ok a =>
      simp only [Prod.mk.injEq, Except.ok.injEq]
      constructor
      · intro h'; exact ⟨a, c1, ⟨rfl, rfl⟩, h'⟩
      · rintro ⟨_, _, ⟨rfl, rfl⟩, h'⟩; exact h'

theorem rd_pure_ok {α : Type} {a b : α} {c c' : Int} :
    (Pure.pure a : Rd α) c = (.ok b, c') ↔ b = a ∧ c' = c := by
  show (Except.ok a, c) = (Except.ok b, c') ↔ _
  simp [eq_comm]

theorem rd_cursor_ok {x c c' : Int} : Rd.cursor c = (.ok x, c') ↔ x = c ∧ c' = c := by
  simp [Rd.cursor, eq_comm]

theorem rd_setCursor_ok {x c c' : Int} {u : Unit} :
    Rd.setCursor x c = (.ok u, c') ↔ c' = x := by
  simp [Rd.setCursor, eq_comm]

theorem zeroNegativeCheck_ok {rn : Nat} {x c c' : Int} {u : Unit} :
    zeroNegativeCheck rn x c = (.ok u, c') ↔ 0 < x ∧ c' = c := by
  unfold zeroNegativeCheck
  split
  · simp [Rd.raise]; omega
  · split
    · simp [Rd.raise]; omega
    · simp [Rd.pure, eq_comm]; omega

theorem bytesCheck_ok {rn : Nat} {x b c c' : Int} {u : Unit} :
    bytesCheck rn x b c = (.ok u, c') ↔ x ≤ b ∧ c' = c := by
  unfold bytesCheck
  split
  · simp [Rd.raise]; omega
  · simp [Rd.pure, eq_comm]; omega

/-- The scalars in file order. -/
def readScalarsL (buf : Bytes) (rn : Nat) : Nat → Rd (List DmapScalar)
  | 0 => Rd.pure []
  | n + 1 => readScalar buf rn >>= fun s => readScalarsL buf rn n >>= fun ss => Pure.pure (s :: ss)

/-- The arrays in file order. -/
def readArraysL (cfg : NpCfg) (buf : Bytes) (rn : Nat) (bsz : Int) : Nat → Rd (List DmapArray)
  | 0 => Rd.pure []
  | n + 1 => readArray cfg buf rn bsz >>= fun a =>
      readArraysL cfg buf rn bsz n >>= fun as => Pure.pure (a :: as)

/-- Insert scalars one after the other. -/
def addScalars (r : Rec) (ss : List DmapScalar) : Rec :=
  (ss.map fun s => (s.name, Field.scalar s)).foldl (fun d p => Dict.set d p.1 p.2) r

/-- Insert arrays one after the other. -/
def addArrays (r : Rec) (as : List DmapArray) : Rec :=
  (as.map fun a => (a.name, Field.array a)).foldl (fun d p => Dict.set d p.1 p.2) r

theorem readScalars_eq (buf : Bytes) (rn n : Nat) (r : Rec) :
    readScalars buf rn n r = readScalarsL buf rn n >>= fun ss => Pure.pure (addScalars r ss) := by
  induction n generalizing r with
  | zero => rfl
  | succ n ih =>
    unfold readScalars readScalarsL
    simp only [rd_bind_assoc, rd_pure_bind, ih]
    rfl

theorem readArrays_eq (cfg : NpCfg) (buf : Bytes) (rn : Nat) (bsz : Int) (n : Nat) (r : Rec) :
    readArrays cfg buf rn bsz n r =
      readArraysL cfg buf rn bsz n >>= fun as => Pure.pure (addArrays r as) := by
  induction n generalizing r with
  | zero => rfl
  | succ n ih =>
    unfold readArrays readArraysL
    simp only [rd_bind_assoc, rd_pure_bind, ih]
    rfl

theorem record_eq (b : Block) : b.record = addArrays (addScalars [] b.scalars) b.arrays := by
  unfold Block.record Dict.ofList Block.fields addArrays addScalars
  rw [List.foldl_append]

theorem readScalarsL_exact {buf : Bytes} (rn n : Nat) :
    Exact buf (readScalarsL buf rn n) (fun ss bs => ss.length = n ∧ SeqEnc ScalarEnc ss bs) := by
  induction n with
  | zero =>
    refine Exact.congr (Exact.pure ([] : List DmapScalar)) (fun ss bs _ => ?_)
    constructor
    · rintro ⟨rfl, rfl⟩; exact ⟨rfl, .nil⟩
    · rintro ⟨h, h2⟩
      have := List.length_eq_zero_iff.1 h; subst this
      cases h2; exact ⟨rfl, rfl⟩
  | succ n ih =>
    have h := Exact.bind (buf := buf) (readScalar_exact rn) fun s _ =>
      Exact.bind ih fun ss _ => Exact.pure (s :: ss)
    refine Exact.congr h (fun ss bs _ => ?_)
    constructor
    · rintro ⟨s, b1, _, hs, ⟨ss, b3, _, ⟨hl, hss⟩, ⟨rfl, rfl⟩, rfl⟩, rfl⟩
      refine ⟨by simp [hl], ?_⟩
      rw [List.append_nil]; exact .cons hs hss
    · rintro ⟨hl, h2⟩
      cases h2 with
      | nil => simp at hl
      | cons hx hxs =>
        simp at hl
        exact ⟨_, _, _, hx, ⟨_, _, [], ⟨hl, hxs⟩, ⟨rfl, rfl⟩, rfl⟩, by simp⟩

theorem readArraysL_complete {cfg : NpCfg} {buf : Bytes} (rn : Nat) {n : Nat} (hn : n < 2 ^ 31)
    {as : List DmapArray} {bs : Bytes} (h : SeqEnc (ArrayEnc cfg.maxDims n presented) as bs)
    (hl : bs.length ≤ n) {c : Int} (hat : At buf c bs) :
    readArraysL cfg buf rn n as.length c = (.ok as, c + bs.length) := by
  induction h generalizing c with
  | nil => simp [readArraysL, Rd.pure]
  | @cons x xs b bs hx hxs ih =>
    rw [at_append] at hat
    simp only [List.length_append] at hl
    have hb := hat.1.bounds
    have hfit := arrayEnc_fits hx (by omega)
    have hr := ((readArray_exact (cfg := cfg) rn n hn) c x (c + b.length) hb.1 (by omega) (by
      show ∀ y ∈ x.shape, 0 ≤ y
      rw [hx.shape]; simp only [List.mem_map]; rintro _ ⟨y, _, rfl⟩; simp)).2
      ⟨b, ⟨hx, hfit⟩, hat.1, rfl⟩
    have h2 := ih (by omega) hat.2
    unfold readArraysL
    simp only [List.length_cons]
    rw [rd_bind_ok]
    refine ⟨x, _, hr, ?_⟩
    rw [rd_bind_ok]
    refine ⟨xs, _, h2, ?_⟩
    rw [rd_pure_ok]
    simp; omega

/-- Without negative `slist` dimensions in the bytes, arrays are read as written. -/
theorem readArray_nonneg {cfg : NpCfg} {buf : Bytes} (hneg : ¬ NegSlist buf) {rn n : Nat}
    {c c' : Int} {a : DmapArray} (h0 : 0 ≤ c) (h1 : c ≤ buf.length)
    (h : readArray cfg buf rn n c = (.ok a, c')) : ∀ x ∈ a.shape, 0 ≤ x := by
  rw [readArray_eq, rd_bind_ok] at h
  obtain ⟨hd, c1, hh, ht⟩ := h
  obtain ⟨bs, ⟨g1, g2, g3, g4, g5, g6, g7, g8, rfl⟩, hat, rfl⟩ := (readHead_exact rn n c hd c1 h0 h1).1 hh
  unfold readTail at ht
  rw [shape_ite g5] at ht
  split at ht
  · simp [Rd.raise] at ht
  · rename_i hc
    split at ht
    · simp [Rd.raise] at ht
    · rw [rd_bind_ok] at ht
      obtain ⟨_, _, _, ht⟩ := ht
      rw [rd_bind_ok] at ht
      obtain ⟨_, _, _, ht⟩ := ht
      split at ht
      · simp [Rd.raise] at ht
      · split at ht
        · simp [Rd.raise] at ht
        · rw [rd_bind_ok] at ht
          obtain ⟨v, _, _, ht⟩ := ht
          rw [rd_pure_ok] at ht
          rw [ht.1]
          simp only [List.mem_reverse]
          intro x hx
          refine Decidable.byContradiction fun hx0 => ?_
          have hsl : hd.name = slist := by
            refine Decidable.byContradiction fun hne => hc ⟨?_, hne⟩
            rw [List.any_eq_true]
            exact ⟨x, by simpa using hx, by simp; omega⟩
          obtain ⟨pre, suf, hbuf, _⟩ := hat
          refine hneg ⟨pre, suf, UInt8.ofNat (code hd.fmt), hd.dims, ?_, x, hx, ?_, by omega⟩
          · rw [hsl] at hbuf; exact hbuf
          · have := g8 x hx
            unfold signedOk at this; omega

theorem readArraysL_sound {cfg : NpCfg} {buf : Bytes} (hneg : ¬ NegSlist buf) (rn : Nat) {n : Nat}
    (hn : n < 2 ^ 31) (k : Nat) {c c' : Int} {as : List DmapArray} (h0 : 0 ≤ c) (h1 : c ≤ buf.length)
    (h : readArraysL cfg buf rn n k c = (.ok as, c')) :
    as.length = k ∧ ∃ bs, SeqEnc (ArrayEnc cfg.maxDims n presented) as bs ∧ At buf c bs ∧
      c' = c + bs.length := by
  induction k generalizing c as with
  | zero =>
    unfold readArraysL at h
    have := rd_pure_ok.1 h
    obtain ⟨rfl, rfl⟩ := this
    exact ⟨rfl, [], .nil, at_nil.2 ⟨h0, h1⟩, by simp⟩
  | succ k ih =>
    unfold readArraysL at h
    rw [rd_bind_ok] at h
    obtain ⟨a, c1, ha, h⟩ := h
    rw [rd_bind_ok] at h
    obtain ⟨as', c2, has, h⟩ := h
    rw [rd_pure_ok] at h
    obtain ⟨rfl, rfl⟩ := h
    obtain ⟨b, ⟨hb, _⟩, hat, rfl⟩ :=
      (readArray_exact rn n hn c a c1 h0 h1 (readArray_nonneg hneg h0 h1 ha)).1 ha
    have hbd := hat.bounds
    obtain ⟨hl, bs, hbs, hat2, rfl⟩ := ih (by omega) (by omega) has
    refine ⟨by simp [hl], b ++ bs, .cons hb hbs, at_append.2 ⟨hat, hat2⟩, by simp; omega⟩

/-- A successful `read_record` in elementary steps. -/
theorem readRecord_ok {cfg : NpCfg} {buf : Bytes} {rn : Nat} {c c' : Int} {r : Rec} (h0 : 0 ≤ c)
    (h1 : c ≤ buf.length) :
    readRecord cfg buf rn c = (.ok r, c') ↔
      ∃ (n ns na : Nat) (ss : List DmapScalar) (as : List DmapArray) (c1 : Int),
        n < 2 ^ 31 ∧ 0 < n ∧ 0 < ns ∧ 0 < na ∧ ns < 2 ^ 31 ∧ na < 2 ^ 31 ∧ ns + na ≤ n ∧
        c + n ≤ buf.length ∧ At buf (c + 4) (natLE 4 n ++ natLE 4 ns ++ natLE 4 na) ∧
        readScalarsL buf rn ns (c + 16) = (.ok ss, c1) ∧
        readArraysL cfg buf rn n na c1 = (.ok as, c') ∧ c' = c + n ∧
        r = addArrays (addScalars [] ss) as := by
  have hint : ∀ (x k : Int) (k' : Int), 0 ≤ k → (readInt buf k = (.ok x, k') ↔
      signedOk 4 x ∧ At buf k (intLE 4 x) ∧ k' = k + 4) := by
    intro x k k' hk
    by_cases hk1 : k ≤ buf.length
    · rw [readInt_exact k x k' hk hk1]
      constructor
      · rintro ⟨_, ⟨h, rfl⟩, hat, rfl⟩; exact ⟨h, hat, by simp⟩
      · rintro ⟨h, hat, rfl⟩; exact ⟨_, ⟨h, rfl⟩, hat, by simp⟩
    · constructor
      · intro h
        exfalso
        unfold readInt at h
        rw [rd_bind_ok] at h
        obtain ⟨_, _, h, _⟩ := h
        unfold readDataN at h
        rw [rd_bind_ok] at h
        obtain ⟨_, _, h, _⟩ := h
        unfold readPre at h
        rw [if_pos (by omega)] at h
        simp at h
      · rintro ⟨_, hat, _⟩
        have := hat.bounds; simp at this; omega
  unfold readRecord
  simp only [rd_bind_ok, rd_cursor_ok, rd_setCursor_ok, zeroNegativeCheck_ok, bytesCheck_ok,
    readScalars_eq, readArrays_eq, rd_pure_ok]
  constructor
  · rintro ⟨_, c, ⟨rfl, rfl⟩, _, _, rfl, bsz, _, hbsz, _, _, ⟨rfl, rfl⟩, _, _, ⟨hle, rfl⟩, _, _, ⟨hpos, rfl⟩,
      ns, _, hns, na, _, hna, _, _, ⟨hns0, rfl⟩, _, _, ⟨hna0, rfl⟩, _, _, ⟨hsum, rfl⟩, _, c1,
      ⟨ss, _, hss, rfl, rfl⟩, _, c2, ⟨as, _, has, rfl, rfl⟩, _, _, ⟨rfl, rfl⟩, hend⟩
    rw [hint _ _ _ (by omega)] at hbsz
    obtain ⟨hb1, hb2, rfl⟩ := hbsz
    rw [hint _ _ _ (by omega)] at hns
    obtain ⟨hn1, hn2, rfl⟩ := hns
    rw [hint _ _ _ (by omega)] at hna
    obtain ⟨ha1, ha2, rfl⟩ := hna
    unfold signedOk at hb1 hn1 ha1
    split at hend
    · simp [Rd.raise] at hend
    · rename_i hc
      rw [rd_pure_ok] at hend
      obtain ⟨rfl, rfl⟩ := hend
      have hbn : bsz = (bsz.toNat : Nat) := by omega
      have hnn : ns = (ns.toNat : Nat) := by omega
      have han : na = (na.toNat : Nat) := by omega
      refine ⟨bsz.toNat, ns.toNat, na.toNat, ss, as, c1, by omega, by omega, by omega, by omega, by omega,
        by omega, by omega, by omega, ?_, ?_, ?_, by omega, rfl⟩
      · rw [at_append, at_append]
        rw [hbn, intLE_natCast (by omega)] at hb2
        rw [hnn, intLE_natCast (by omega)] at hn2
        rw [han, intLE_natCast (by omega)] at ha2
        refine ⟨⟨hb2, by simpa using hn2⟩, ?_⟩
        rw [List.length_append, length_natLE, length_natLE]
        rw [show c + 4 + ((4 + 4 : Nat) : Int) = c + 4 + 4 + 4 by omega]
        exact ha2
      · rw [show c + 16 = c + 4 + 4 + 4 + 4 by omega]; exact hss
      · rw [← hbn]; exact has
  · rintro ⟨n, ns, na, ss, as, c1, g1, g2, g3, g4, g5, g6, g7, g8, hat, hss, has, rfl, rfl⟩
    rw [at_append, at_append] at hat
    obtain ⟨⟨hb2, hn2⟩, ha2⟩ := hat
    simp only [List.length_append, length_natLE] at hn2 ha2
    refine ⟨c, c, ⟨rfl, rfl⟩, (), c + 4, rfl, n, c + 8, ?_, c + 8, c + 8, ⟨rfl, rfl⟩, (), c + 8, ⟨by omega, rfl⟩,
      (), c + 8, ⟨by omega, rfl⟩, ns, c + 12, ?_, na, c + 16, ?_, (), c + 16, ⟨by omega, rfl⟩, (), c + 16,
      ⟨by omega, rfl⟩, (), c + 16, ⟨by omega, rfl⟩, _, c1, ⟨ss, c1, by simpa using hss, rfl, rfl⟩, _, c + n,
      ⟨as, c + n, by simpa using has, rfl, rfl⟩, c + n, c + n, ⟨rfl, rfl⟩, ?_⟩
    · rw [hint _ _ _ (by omega)]
      refine ⟨by unfold signedOk; omega, ?_, by omega⟩
      rw [intLE_natCast (by omega)]; exact hb2
    · rw [hint _ _ _ (by omega)]
      refine ⟨by unfold signedOk; omega, ?_, by omega⟩
      rw [intLE_natCast (by omega), show c + 8 = c + 4 + ((4 : Nat) : Int) by omega]; exact hn2
    · rw [hint _ _ _ (by omega)]
      refine ⟨by unfold signedOk; omega, ?_, by omega⟩
      rw [intLE_natCast (by omega), show c + 12 = c + 4 + ((4 + 4 : Nat) : Int) by omega]; exact ha2
    · rw [if_neg (by omega), rd_pure_ok]; exact ⟨rfl, rfl⟩

theorem encStr_pos (s : PyStr) : 1 ≤ (encStr s).length := by simp [encStr]

theorem scalarEnc_pos {s : DmapScalar} {bs : Bytes} (h : ScalarEnc s bs) : 2 ≤ bs.length := by
  obtain ⟨_, _, vb, _, rfl⟩ := h
  have := encStr_pos s.name
  simp only [List.length_append, List.length_singleton]; omega

theorem arrayEnc_pos {mr n : Nat} {dt : Fmt → DType} {a : DmapArray} {bs : Bytes}
    (h : ArrayEnc mr n dt a bs) : 2 ≤ bs.length := by
  rw [h.bytes]
  have := encStr_pos a.name
  simp only [List.length_append, List.length_singleton]; omega

theorem seqEnc_length {α : Type} {R : α → Bytes → Prop} (hR : ∀ x b, R x b → 2 ≤ b.length)
    {l : List α} {bs : Bytes} (h : SeqEnc R l bs) : 2 * l.length ≤ bs.length := by
  induction h with
  | nil => simp
  | cons hx _ ih => have := hR _ _ hx; simp; omega

/-- Round trip of one block. -/
theorem readRecord_complete {cfg : NpCfg} {buf : Bytes} (rn : Nat) {b : Block} {bs : Bytes}
    (h : BlockEnc cfg.maxDims b bs) {c : Int} (hat : At buf c bs) :
    readRecord cfg buf rn c = (.ok b.record, c + bs.length) := by
  have hbd := hat.bounds
  obtain ⟨hid, hs, ha, hsm, sb, ab, hsb, hab, hbytes⟩ := h
  have hl := congrArg List.length hbytes
  simp only [List.length_append, length_natLE, hid] at hl
  have hs2 := seqEnc_length (fun _ _ h => scalarEnc_pos h) hsb
  have ha2 := seqEnc_length (fun _ _ h => arrayEnc_pos h) hab
  have hs0 := List.length_pos_iff.2 hs
  have ha0 := List.length_pos_iff.2 ha
  rw [readRecord_ok hbd.1 (by omega)]
  have hat' := hat
  rw [hbytes] at hat'
  simp only [at_append, List.length_append, length_natLE, hid] at hat'
  obtain ⟨⟨⟨⟨⟨a1, a2⟩, a3⟩, a4⟩, a5⟩, a6⟩ := hat'
  refine ⟨bs.length, b.scalars.length, b.arrays.length, b.scalars, b.arrays, c + 16 + sb.length, hsm, by omega,
    hs0, ha0, by omega, by omega, by omega, hbd.2, ?_, ?_, ?_, rfl, record_eq b⟩
  · simp only [at_append, List.length_append, length_natLE]
    refine ⟨⟨a2, ?_⟩, ?_⟩
    · rw [show c + 4 + ((4 : Nat) : Int) = c + ((4 + 4 : Nat) : Int) by omega]; exact a3
    · rw [show c + 4 + ((4 + 4 : Nat) : Int) = c + ((4 + 4 + 4 : Nat) : Int) by omega]; exact a4
  · have a5' : At buf (c + 16) sb := a5
    have := a5'.bounds
    exact (readScalarsL_exact rn b.scalars.length (c + 16) b.scalars _ (by omega) (by omega)).2
      ⟨sb, ⟨rfl, hsb⟩, a5', rfl⟩
  · have a6' : At buf (c + 16 + sb.length) ab := by
      rw [show c + 16 + (sb.length : Int) = c + ((4 + 4 + 4 + 4 + sb.length : Nat) : Int) by omega]
      exact a6
    rw [readArraysL_complete rn hsm hab (by omega) a6']
    simp only [Prod.mk.injEq, true_and]
    omega

/-- Inversion: an accepted record is the encoding of a block. -/
theorem readRecord_sound {cfg : NpCfg} {buf : Bytes} (hneg : ¬ NegSlist buf) {rn : Nat} {c c' : Int}
    {r : Rec} (h0 : 0 ≤ c) (h1 : c ≤ buf.length) (h : readRecord cfg buf rn c = (.ok r, c')) :
    ∃ b bs, BlockEnc cfg.maxDims b bs ∧ At buf c bs ∧ c' = c + bs.length ∧ r = b.record := by
  rw [readRecord_ok h0 h1] at h
  obtain ⟨n, ns, na, ss, as, c1, g1, g2, g3, g4, g5, g6, g7, g8, hat, hss, has, rfl, rfl⟩ := h
  have hb := hat.bounds
  simp only [List.length_append, length_natLE] at hb
  obtain ⟨sb, ⟨hsl, hsb⟩, hats, rfl⟩ := (readScalarsL_exact rn ns (c + 16) ss c1 (by omega) (by omega)).1 hss
  have hsb' := hats.bounds
  obtain ⟨hal, ab, hab, hata, hend⟩ := readArraysL_sound hneg rn g1 na (by omega) (by omega) has
  have hid : At buf c ((buf.drop c.toNat).take 4) := by
    rw [at_iff]
    have : ((buf.drop c.toNat).take 4).length = 4 := by rw [List.length_take, List.length_drop]; omega
    rw [this]; exact ⟨h0, by omega, rfl⟩
  have hidl : ((buf.drop c.toNat).take 4).length = 4 := by rw [List.length_take, List.length_drop]; omega
  generalize (buf.drop c.toNat).take 4 = ident at hid hidl
  have hn : n = 16 + sb.length + ab.length := by omega
  refine ⟨⟨ident, ss, as⟩, ident ++ natLE 4 n ++ natLE 4 ns ++ natLE 4 na ++ sb ++ ab, ?_, ?_, ?_, ?_⟩
  · have hlen : (ident ++ natLE 4 n ++ natLE 4 ns ++ natLE 4 na ++ sb ++ ab).length = n := by
      simp only [List.length_append, length_natLE, hidl]; omega
    refine ⟨hidl, ?_, ?_, by rw [hlen]; exact g1, sb, ab, hsb, by rw [hlen]; exact hab, by
      simp only; rw [hlen, hsl, hal]⟩
    · intro h; simp only at h; subst h; simp at hsl; omega
    · intro h; simp only at h; subst h; simp at hal; omega
  · simp only [at_append, List.length_append, length_natLE, hidl] at hat ⊢
    obtain ⟨⟨a1, a2⟩, a3⟩ := hat
    refine ⟨⟨⟨⟨⟨hid, a1⟩, ?_⟩, ?_⟩, hats⟩, ?_⟩
    · rw [show c + ((4 + 4 : Nat) : Int) = c + 4 + ((4 : Nat) : Int) by omega]; exact a2
    · rw [show c + ((4 + 4 + 4 : Nat) : Int) = c + 4 + ((4 + 4 : Nat) : Int) by omega]; exact a3
    · rw [show c + ((4 + 4 + 4 + 4 + sb.length : Nat) : Int) = c + 16 + (sb.length : Int) by omega]
      exact hata
  · simp only [List.length_append, length_natLE, hidl]; omega
  · rw [record_eq]

/-- Every accepted record occupies the positive number of bytes its header declares. -/
theorem readRecord_advance {cfg : NpCfg} {buf : Bytes} {rn : Nat} {c c' : Int} {r : Rec}
    (h0 : 0 ≤ c) (h1 : c ≤ buf.length) (h : readRecord cfg buf rn c = (.ok r, c')) :
    ∃ n : Nat, 0 < n ∧ n < 2 ^ 31 ∧ c' = c + n ∧ c' ≤ buf.length ∧ c + 16 ≤ buf.length ∧
      At buf (c + 4) (natLE 4 n) := by
  rw [readRecord_ok h0 h1] at h
  obtain ⟨n, ns, na, ss, as, c1, g1, g2, g3, g4, g5, g6, g7, g8, hat, hss, has, rfl, rfl⟩ := h
  have hb := hat.bounds
  simp only [List.length_append, length_natLE] at hb
  refine ⟨n, g2, g1, rfl, g8, by omega, ?_⟩
  rw [at_append, at_append] at hat
  exact hat.1.1

end Verif
