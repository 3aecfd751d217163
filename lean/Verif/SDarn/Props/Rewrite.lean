import Verif.Dmap.Props.RewriteMany
import Verif.Dmap.Props.InputKinds
import Verif.SDarn.Props.Write
/-!
# C85: a SuperDARN file that was read can be written and read again
-/
namespace Verif.SD
open Spec

/-- Names of all formats are ASCII, none is stored in 64 bits, and `slist` is not made of chars. -/
theorem listed_plain {ft : FileType} {k : PyStr} {t : Fmt} (h : Lists (required ft ++ optional ft) k t) :
    Ascii k ∧ t ≠ .q ∧ t ≠ .Q ∧ (k = py! "slist" → t ≠ .c) := by
  have key : ∀ ft ∈ [FileType.iqdat, .rawacf, .fitacf, .snd, .grid, .map], ∀ g ∈ required ft ++ optional ft, ∀ p ∈ g,
      Ascii p.1 ∧ p.2 ≠ .q ∧ p.2 ≠ .Q ∧ (p.1 = py! "slist" → p.2 ≠ .c) := by decide +kernel
  obtain ⟨g, hg, hp⟩ := h
  exact key ft (by cases ft <;> decide) g hg _ hp

/-- What the format does not demand of a record, but writing it does. -/
structure Sound (r : Rec) : Prop where
  order : ScalarsFirst r
  texts : ∀ k s, (k, Field.scalar s) ∈ r → ∀ t, s.value = .str t → Ascii t
  chars : ∀ k s, (k, Field.scalar s) ∈ r → s.fmt = .c → ∀ v, s.value = .int v → v < 128
  empty : ∀ k a, (k, Field.array a) ∈ r → 0 ∈ a.value.shape → ∀ n ∈ a.value.shape, n < recBytes r

theorem block_field {mr : Nat} {b : Block} {x : Bytes} (hx : BlockEnc mr b x) {p : PyStr × Field} (hp : p ∈ b.record) :
    (∃ s, p = (s.name, .scalar s)) ∨ ∃ a y, p = (a.name, .array a) ∧ ArrayEnc mr x.length presented a y := by
  obtain ⟨sb, ab, s1, s2, -⟩ := hx.bytes
  have := Dict.mem_ofList hp
  unfold Block.fields at this
  rcases List.mem_append.1 this with hm | hm
  · obtain ⟨s, -, rfl⟩ := List.mem_map.1 hm
    exact .inl ⟨s, rfl⟩
  · obtain ⟨a, ha, rfl⟩ := List.mem_map.1 hm
    obtain ⟨y, hy⟩ := seqEnc_mem s2 ha
    exact .inr ⟨a, y, rfl, hy⟩

theorem rewritable_of {mr : Nat} {ft : FileType} {b : Block} {x : Bytes} (hx : BlockEnc mr b x) (hc : Conforms ft b.record)
    (hs : Sound b.record) : Rewritable b.record ∧ NoLong b.record := by
  have hl : ∀ k f, (k, f) ∈ b.record → ∃ t, Lists (required ft ++ optional ft) k t ∧ f.fmt? = some t := by
    intro k f hm
    obtain ⟨t, ht⟩ := hc.known k ⟨f, hm⟩
    exact ⟨t, ht, hc.typed k f hm t ht⟩
  refine ⟨⟨hs.order, fun k s hm => ?_, fun k a hm => ?_⟩, fun k a hm => ?_⟩
  · obtain ⟨t, h1, -⟩ := hl _ _ hm
    rcases block_field hx hm with ⟨s', e⟩ | ⟨a, y, e, -⟩
    · obtain rfl : s = s' := Field.scalar.inj (congrArg Prod.snd e)
      obtain rfl : k = s.name := congrArg Prod.fst e
      exact ⟨(listed_plain h1).1, hs.texts _ s hm, hs.chars _ s hm⟩
    · cases congrArg Prod.snd e
  · obtain ⟨t, h1, h2⟩ := hl _ _ hm
    rcases block_field hx hm with ⟨s', e⟩ | ⟨a', y, e, hy⟩
    · cases congrArg Prod.snd e
    · obtain rfl : a = a' := Field.array.inj (congrArg Prod.snd e)
      obtain rfl : k = a.name := congrArg Prod.fst e
      refine ⟨(listed_plain h1).1, fun hf hh => ?_, hs.empty _ a hm⟩
      have hz : 0 ∈ a.value.shape := List.mem_of_mem_head? hh
      rcases hy.dims with hd | hd
      · exact absurd (hd 0 hz) (by omega)
      · have h3 : some a.fmt = some t := h2
        exact (listed_plain h1).2.2.2 hd.1 (by rw [← Option.some.inj h3]; exact hf)
  · obtain ⟨t, h1, h2⟩ := hl _ _ hm
    have h3 : some a.fmt = some t := h2
    rw [Option.some.inj h3]
    exact ⟨(listed_plain h1).2.1, (listed_plain h1).2.2.1⟩

theorem kept_eq {r r' : Rec} (h : Pairs (fun p q => q.1 = p.1 ∧ Kept p.2 q.2) r r')
    (hc : ∀ k s, (k, Field.scalar s) ∈ r → s.fmt = .c → ∀ v, s.value = .int v → v < 128) : r' = r := by
  induction h with
  | nil => rfl
  | @cons p q xs ys h1 h2 ih =>
    rw [ih fun k s hm => hc k s (List.mem_cons_of_mem _ hm)]
    congr 1
    obtain ⟨k, f⟩ := p
    obtain ⟨k', f'⟩ := q
    obtain ⟨e1, e2⟩ := h1
    dsimp only at e1 e2
    subst e1
    cases f with
    | scalar s =>
      cases f' with
      | scalar s' =>
        obtain ⟨g1, g2, g3, g4⟩ := e2
        rcases g4 with g4 | ⟨g5, n, g6, -, g7, -⟩
        · cases s; cases s'; simp_all
        · have := hc k' s (by simp) g5 _ g7
          omega
      | array a => cases e2
      | other => cases e2
    | array a =>
      cases f' with
      | array a' => rw [show a' = a from e2]
      | scalar s => cases e2
      | other => cases e2
    | other => cases f' <;> cases e2

theorem kept_eqs {rs rs' : List Rec} (h : Pairs (Pairs fun p q => q.1 = p.1 ∧ Kept p.2 q.2) rs rs')
    (hc : ∀ r ∈ rs, ∀ k s, (k, Field.scalar s) ∈ r → s.fmt = .c → ∀ v, s.value = .int v → v < 128) : rs' = rs := by
  induction h with
  | nil => rfl
  | @cons p q xs ys h1 h2 ih =>
    rw [ih fun r hr => hc r (List.mem_cons_of_mem _ hr), kept_eq h1 (hc p (by simp))]

/-- The bytes `write_X` puts into the file for conforming records of plain values. -/
theorem darn_plain_written {cfg : NpCfg} {ft : FileType} {recs : List Rec} {ds : List PlainRec} (hne : recs ≠ [])
    (he : ∀ r ∈ recs, Encodable cfg.maxDims r) (hc : ∀ r ∈ recs, Conforms ft r) (hd : dict2dmap ds = .ok recs)
    (h0 : ds ≠ []) (h1 : ds.head? ≠ some []) (fs : FileSys) {fn0 fn fn1 : PyStr} (hfn : fn1 = if fn = [] then fn0 else fn)
    (hn : fn1 ≠ []) : ∃ w w' fs' bs, darnWriter (plainInput ds) fn0 = .ok w ∧ darnWrite ft w fs fn = (.ok (), w', fs') ∧
      fs' fn1 = some bs ∧ (∀ n, n ≠ fn1 → fs' n = fs n) ∧ writeBytes recs = .ok bs := by
  have hw : ∀ f, ({ filename := f, isList := true, recs := recs, buf := [], recNum := 0 } : Writer).emptyRecordCheck =
      .ok () := by
    intro f
    unfold Writer.emptyRecordCheck Writer.isEmptyList
    cases recs
    · exact absurd rfl hne
    · simp
  obtain ⟨bs, rn', h3, h4⟩ := recordsToBytes_ok he 0 0 []
  refine ⟨{ filename := fn0, isList := true, recs := recs, buf := [], recNum := 0 },
    { filename := fn1, isList := true, recs := recs.map leftRec, buf := bs, recNum := rn' },
    fs.write fn1 bs, bs, ?_, ?_, by simp [FileSys.write], fun n hn => by simp [FileSys.write, hn], ?_⟩
  · have hch := check_plainRecs (b := true) h0 h1
    rw [hd] at hch
    unfold darnWriter Writer.new
    rw [show plainInput ds = ⟨true, (plainInput ds).recs⟩ from rfl, hch]
    simp only [Bind.bind, Except.bind, pure, Except.pure, hw]
  · unfold darnWrite
    rw [filenameCheck_of (by unfold target; rw [← hfn]; exact hn)]
    have : target { filename := fn0, isList := true, recs := recs, buf := [], recNum := 0 } fn = fn1 := hfn.symm
    simp only [this, hw, darnStructureToBytes, darnToBytes_conform hc, h3, List.nil_append]
  · unfold writeBytes
    rw [writerNew_dmapInput]
    dsimp only
    rw [writeStream_eq hne]
    dsimp only
    rw [h3]
    rfl

theorem darn_again {cfg : NpCfg} {ft : FileType} {bs : Bytes} (hneg : ¬ NegSlist bs) {rs : List Rec} {ds : List PlainRec}
    (h : readFile cfg bs = .ok (rs, ds)) (hc : ∀ r ∈ rs, Conforms ft r) (hs : ∀ r ∈ rs, Sound r) :
    rs ≠ [] ∧ (∀ r ∈ rs, Rewritable r) ∧ (∀ r ∈ rs, Encodable cfg.maxDims r) ∧ dict2dmap ds = .ok rs ∧ ds ≠ [] ∧
      ds.head? ≠ some [] := by
  obtain ⟨bl, hf, rfl, hne, hd⟩ := readFile_sound hneg h
  have hb : ∀ r ∈ bl.map Block.record, (Rewritable r ∧ NoLong r) ∧ Encodable cfg.maxDims r := by
    intro r hr
    have hr' := hr
    obtain ⟨b, hb, rfl⟩ := List.mem_map.1 hr
    obtain ⟨x, hx⟩ := fileEnc_mem hf hb
    have hw := rewritable_of hx (hc _ hr') (hs _ hr')
    exact ⟨hw, (encodable_of_block hx hw.1).1⟩
  obtain ⟨rs', g1, g2⟩ := C31_dmap_dict_dmap_partial cfg hneg h fun r hr => (hb r hr).1.2
  rw [kept_eqs g2 fun r hr => (hs r hr).chars] at g1
  refine ⟨by simpa using hne, fun r hr => (hb r hr).1.1, fun r hr => (hb r hr).2, g1, ?_, ?_⟩
  · rintro rfl
    cases bl with
    | nil => exact hne rfl
    | cons b bl => cases g1
  · intro he
    cases ds with
    | nil => cases he
    | cons d ds =>
      cases he
      simp only [dict2dmap, plainToRec] at g1
      cases h2 : dict2dmap ds with
      | error e => rw [h2] at g1; cases g1
      | ok q =>
        rw [h2] at g1
        have hm : ([] : Rec) ∈ bl.map Block.record := by
          have := Except.ok.inj g1
          rw [← this]; exact List.mem_cons_self ..
        obtain ⟨l1, l2, e, n1, -⟩ := (hs _ hm).order
        cases l1 with
        | nil => exact n1 rfl
        | cons a l => cases e

/-- **C85** (partial: `Sound` records, no negative `slist` dimension.)  What a read method of `SDarnRead` returns can be given
to the write method for the same type, which writes one file, from which the read method returns the same. -/
theorem C85_again_partial (cfg : NpCfg) (ft : FileType) {bs : Bytes} (hneg : ¬ NegSlist bs) {ds : List PlainRec}
    (h : readDarn cfg ft bs = .ok ds) (hs : ∀ rs, readFile cfg bs = .ok (rs, ds) → ∀ r ∈ rs, Sound r) (fs : FileSys)
    {fn0 fn fn1 : PyStr} (hfn : fn1 = if fn = [] then fn0 else fn) (hn : fn1 ≠ []) :
    ∃ w w' fs' bs', darnWriter (plainInput ds) fn0 = .ok w ∧ darnWrite ft w fs fn = (.ok (), w', fs') ∧
      fs' fn1 = some bs' ∧ (∀ n, n ≠ fn1 → fs' n = fs n) ∧ readDarn cfg ft bs' = .ok ds := by
  obtain ⟨rs, h1, hc⟩ := (C29_fresh cfg ft bs ds).1 h
  obtain ⟨a1, a2, a3, a4, a5, a6⟩ := darn_again hneg h1 hc (hs rs h1)
  obtain ⟨w, w', fs', bs', b1, b2, b3, b4, b5⟩ := darn_plain_written a1 a3 hc a4 a5 a6 fs hfn hn
  obtain ⟨bs'', c1, c2⟩ := C84_again_partial cfg hneg h1 a2
  rw [b5] at c1
  cases c1
  exact ⟨w, w', fs', bs', b1, b2, b3, b4, (C29_fresh cfg ft bs' ds).2 ⟨rs, c2, hc⟩⟩

/-- **C85** (partial, as above.)  If moreover no name occurs twice in a block of the file, the identifiers are those of the
writer and no single precision scalar is a NaN, the new file is a copy of the old one. -/
theorem C85_copy_partial (cfg : NpCfg) (ft : FileType) {bl : List Block} {bs : Bytes} (hb : FileEnc cfg.maxDims bl bs)
    (hneg : ¬ NegSlist bs) (hid : ∀ b ∈ bl, b.ident = [1, 0, 1, 0]) (hnan : ∀ b ∈ bl, b.NoNaN)
    (hnd : ∀ b ∈ bl, (b.fields.map Prod.fst).Nodup) {ds : List PlainRec}
    (h : readDarn cfg ft bs = .ok ds) (hs : ∀ rs, readFile cfg bs = .ok (rs, ds) → ∀ r ∈ rs, Sound r) (fs : FileSys)
    {fn0 fn fn1 : PyStr} (hfn : fn1 = if fn = [] then fn0 else fn) (hn : fn1 ≠ []) :
    ∃ w w' fs', darnWriter (plainInput ds) fn0 = .ok w ∧ darnWrite ft w fs fn = (.ok (), w', fs') ∧
      fs' fn1 = some bs ∧ ∀ n, n ≠ fn1 → fs' n = fs n := by
  obtain ⟨rs, h1, hc⟩ := (C29_fresh cfg ft bs ds).1 h
  obtain ⟨a1, a2, a3, a4, a5, a6⟩ := darn_again hneg h1 hc (hs rs h1)
  obtain ⟨w, w', fs', bs', b1, b2, b3, b4, b5⟩ := darn_plain_written a1 a3 hc a4 a5 a6 fs hfn hn
  have c1 := C84_bytes_partial cfg hb hneg hid hnan hnd h1 a2
  rw [b5] at c1
  cases c1
  exact ⟨w, w', fs', b1, b2, b3, b4⟩

/-- A grid record as in the files of radars: times as scalars, the other main fields as arrays, for one station. -/
def gridFull : Rec :=
  fieldsOf (Sample.scalarsOf (Grid.types.take 12))
    ((Grid.types.drop 12).map fun p =>
      ⟨p.1, ⟨presented p.2, [1], [List.replicate (cellSize p.2) 1]⟩, code p.2, p.2, 1, [1]⟩)

theorem gridFull_encodable {mr : Nat} (h : 1 ≤ mr) : Encodable mr gridFull := by
  have hn : ∀ p ∈ Grid.types, (Ascii p.1 ∧ NulFree p.1) ∧ isNumeric p.2 = true := by
    unfold Ascii NulFree; decide +kernel
  refine ⟨_, _, rfl, by decide +kernel, by decide +kernel, by decide +kernel, ?_, ?_, by decide +kernel⟩
  · intro s hs
    obtain ⟨p, hp, rfl⟩ := List.mem_map.1 hs
    exact Sample.scalarOf_ok (hn p (List.mem_of_mem_take hp)).1
  · intro a ha
    obtain ⟨p, hp, rfl⟩ := List.mem_map.1 ha
    obtain ⟨h1, h2⟩ := hn p (List.mem_of_mem_drop hp)
    refine ⟨h1, h2, rfl, rfl, by simp, h, rfl, .inl (by simp), ?_, by simp, ?_, rfl, by simp⟩
    · intro n hm
      rw [List.mem_singleton.1 hm]
      decide +kernel
    · intro hf _ n
      dsimp only at hf ⊢
      rw [hf]
      nofun

theorem gridFull_conforms : Conforms .grid gridFull :=
  (describes_readCheck_ok (rn := 0)).1 (by decide +kernel)

/-- The bytes written for the sample record. -/
def gridBytes : Bytes :=
  match writeBytes [gridFull] with
  | .ok bs => bs
  | .error _ => []

theorem gridFull_sound : Sound gridFull := by
  have hk : ∀ p ∈ gridFull, (match p.2 with
      | .scalar s => (match s.value with
        | .str t => decide (Ascii t)
        | .int v => decide (s.fmt = .c → v < 128)
        | _ => true)
      | .array a => decide (0 ∉ a.value.shape)
      | .other => false) = true := by decide +kernel
  refine ⟨⟨_, _, rfl, by decide, by decide, ?_, ?_⟩, fun k s hm t ht => ?_, fun k s hm hf v hv => ?_, fun k a hm hz => ?_⟩
  · intro p hp
    obtain ⟨s, -, rfl⟩ := List.mem_map.1 hp
    exact ⟨s, rfl⟩
  · intro p hp
    obtain ⟨a, -, rfl⟩ := List.mem_map.1 hp
    exact ⟨a, rfl⟩
  · have := hk _ hm
    simp only [ht] at this
    exact of_decide_eq_true this
  · have := hk _ hm
    simp only [hv] at this
    exact of_decide_eq_true this hf
  · exact absurd hz (of_decide_eq_true (hk _ hm))

/-- The file with a grid record is read, and copied by writing what was read. -/
example : ∃ ds w w' fs', ds ≠ [] ∧ readDarn numpy2 .grid gridBytes = .ok ds ∧
    darnWriter (plainInput ds) [] = .ok w ∧ darnWrite .grid w (fun _ => none) (py! "f") = (.ok (), w', fs') ∧
    fs' (py! "f") = some gridBytes := by
  have he : ∀ r ∈ [gridFull], Encodable numpy2.maxDims r := by
    intro r hr; rw [List.mem_singleton.1 hr]; exact gridFull_encodable (by decide)
  obtain ⟨bs, h1, h2⟩ := writeBytes_ok (by decide) he
  have e : gridBytes = bs := by unfold gridBytes; rw [h1]
  rw [← e] at h2
  have h3 := readFile_written (by decide) he h2
  have hp : [gridFull].map presentRec = [gridFull] := by decide +kernel
  rw [hp] at h3
  have h4 : readDarn numpy2 .grid gridBytes = .ok ([gridFull].map plainRec) :=
    (C29_fresh _ _ _ _).2 ⟨_, h3, fun r hr => by rw [List.mem_singleton.1 hr]; exact gridFull_conforms⟩
  obtain ⟨w, w', fs', g1, g2, g3, -⟩ := C85_copy_partial numpy2 .grid h2
    (Verif.Sample.not_negSlist (by decide +kernel)) (by decide +kernel) (by decide +kernel) (by decide +kernel) h4
    (fun rs hrs r hr => by
      rw [h3] at hrs
      cases hrs
      rw [List.mem_singleton.1 hr]
      exact gridFull_sound) (fun _ => none) (fn0 := []) (fn := py! "f") rfl (by decide)
  exact ⟨_, w, w', fs', by simp, h4, g1, g2, g3⟩

/-- The bytes `write_X` puts into the file are those of `DmapWrite` for the same records. -/
theorem darn_bytes {ft : FileType} {w w' : Writer} {fs fs' : FileSys} {fn : PyStr} (hne : w.recs ≠ []) (h0 : w.buf = [])
    (h : darnWrite ft w fs fn = (.ok (), w', fs')) : writeBytes w.recs = .ok w'.buf := by
  obtain ⟨hc, ht, -⟩ := C18_darn_success h
  unfold darnWrite at h
  rw [filenameCheck_of ht] at h
  simp only at h
  split at h
  · cases h
  · unfold darnStructureToBytes at h
    simp only [darnToBytes_conform hc] at h
    unfold writeBytes
    rw [writerNew_dmapInput]
    dsimp only
    rw [writeStream_eq (w := ⟨[], true, w.recs, [], 0⟩) hne]
    dsimp only
    rw [h0] at h
    generalize recordsToBytes 0 0 [] w.recs = z at h ⊢
    obtain ⟨x, b, rn, rs⟩ := z
    cases x with
    | error e => cases h
    | ok u => cases h; rfl

theorem kept_eq_of {r r' : Rec} (h : Pairs (fun p q => q.1 = p.1 ∧ Kept p.2 q.2) r r')
    (hc : ∀ k s, (k, Field.scalar s) ∈ r' → s.fmt = .c → ∀ v, s.value = .int v → 0 ≤ v) : r' = r := by
  induction h with
  | nil => rfl
  | @cons p q xs ys h1 h2 ih =>
    rw [ih fun k s hm => hc k s (List.mem_cons_of_mem _ hm)]
    congr 1
    obtain ⟨k, f⟩ := p
    obtain ⟨k', f'⟩ := q
    obtain ⟨e1, e2⟩ := h1
    dsimp only at e1 e2
    subst e1
    cases f with
    | scalar s =>
      cases f' with
      | scalar s' =>
        obtain ⟨g1, g2, g3, g4⟩ := e2
        rcases g4 with g4 | ⟨g5, n, -, g6, -, g7⟩
        · cases s; cases s'; simp_all
        · have := hc k' s' (by simp) (g3.trans g5) _ g7
          omega
      | array a => cases e2
      | other => cases e2
    | array a =>
      cases f' with
      | array a' => rw [show a' = a from e2]
      | scalar s => cases e2
      | other => cases e2
    | other => cases f' <;> cases e2

theorem kept_eqs_of {rs rs' : List Rec} (h : Pairs (Pairs fun p q => q.1 = p.1 ∧ Kept p.2 q.2) rs rs')
    (hc : ∀ r ∈ rs', ∀ k s, (k, Field.scalar s) ∈ r → s.fmt = .c → ∀ v, s.value = .int v → 0 ≤ v) : rs' = rs := by
  induction h with
  | nil => rfl
  | @cons p q xs ys h1 h2 ih =>
    rw [ih fun r hr => hc r (List.mem_cons_of_mem _ hr), kept_eq_of h1 (hc q (by simp))]

theorem conforms_noLong {ft : FileType} {r : Rec} (hc : Conforms ft r) : NoLong r := by
  intro k a hm
  obtain ⟨t, ht⟩ := hc.known k ⟨_, hm⟩
  have h3 : some a.fmt = some t := hc.typed k _ hm t ht
  rw [Option.some.inj h3]
  exact ⟨(listed_plain ht).2.1, (listed_plain ht).2.2.1⟩

theorem read_ne {cfg : NpCfg} {bs : Bytes} (hneg : ¬ NegSlist bs) {rs : List Rec} {ds : List PlainRec}
    (h : readFile cfg bs = .ok (rs, ds)) {r : Rec} (hr : r ∈ rs) : r ≠ [] := by
  obtain ⟨bl, h1, rfl, -⟩ := readFile_sound hneg h
  obtain ⟨b, hb, rfl⟩ := List.mem_map.1 hr
  obtain ⟨x, hx⟩ := fileEnc_mem h1 hb
  have hset : ∀ (d : Rec) k f, Dict.set d k f ≠ [] := by
    intro d k f
    cases d with
    | nil => simp [Dict.set]
    | cons p d => simp only [Dict.set]; split <;> simp
  have hfold : ∀ (l : List (PyStr × Field)) (d : Rec), d ≠ [] → l.foldl (fun d p => Dict.set d p.1 p.2) d ≠ [] := by
    intro l
    induction l with
    | nil => exact fun d hd => hd
    | cons p l ih => exact fun d _ => ih _ (hset _ _ _)
  unfold Block.record Block.fields Dict.ofList
  cases hs : b.scalars with
  | nil => exact absurd hs hx.scalars
  | cons s l =>
    rw [List.map_cons, List.cons_append, List.foldl_cons]
    exact hfold _ _ (hset _ _ _)

theorem read_chars {cfg : NpCfg} {bs : Bytes} (hneg : ¬ NegSlist bs) {rs : List Rec} {ds : List PlainRec}
    (h : readFile cfg bs = .ok (rs, ds)) {r : Rec} (hr : r ∈ rs) {k : PyStr} {s : DmapScalar}
    (hm : (k, Field.scalar s) ∈ r) (hf : s.fmt = .c) {v : Int} (hv : s.value = .int v) : 0 ≤ v := by
  obtain ⟨bl, h1, rfl, -⟩ := readFile_sound hneg h
  obtain ⟨b, hb, rfl⟩ := List.mem_map.1 hr
  obtain ⟨x, hx⟩ := fileEnc_mem h1 hb
  obtain ⟨sb, ab, s1, -, -⟩ := hx.bytes
  have := Dict.mem_ofList hm
  unfold Block.fields at this
  rcases List.mem_append.1 this with hm | hm
  · obtain ⟨s', hs', e⟩ := List.mem_map.1 hm
    obtain rfl : s' = s := Field.scalar.inj (congrArg Prod.snd e)
    obtain ⟨y, hy⟩ := seqEnc_mem s1 hs'
    obtain ⟨vb, hvb, -⟩ := hy.bytes
    rw [hf, hv] at hvb
    cases hvb
    exact Int.natCast_nonneg _
  · obtain ⟨a, -, e⟩ := List.mem_map.1 hm
    cases congrArg Prod.snd e

/-- A file is read as one type, what was read is written to the file `f` as the same type, and that file is read. -/
def readAgainDarn (cfg : NpCfg) (ft : FileType) (bs : Bytes) : Except Err (List PlainRec) := do
  let ds ← readDarn cfg ft bs
  let w ← darnWriter (plainInput ds) (py! "f")
  match darnWrite ft w (fun _ => none) [] with
  | (.error e, _) => .error e
  | (.ok (), _, fs) => readDarn cfg ft ((fs (py! "f")).getD [])

/-- **C85** The condition is exact: a file read, written and read again gives the same iff its records are `Sound`, if
neither it nor what is written has a negative `slist` dimension and chars are below 128. -/
theorem C85_iff (cfg : NpCfg) (ft : FileType) {bs : Bytes} (hneg : ¬ NegSlist bs) {rs : List Rec} {ds : List PlainRec}
    (h : readFile cfg bs = .ok (rs, ds)) (hc : ∀ r ∈ rs, Conforms ft r)
    (hch : ∀ r ∈ rs, ∀ k s, (k, Field.scalar s) ∈ r → s.fmt = .c → ∀ v, s.value = .int v → v < 128)
    (hneg' : ∀ bs', writeBytes rs = .ok bs' → ¬ NegSlist bs') :
    readAgainDarn cfg ft bs = .ok ds ↔ ∀ r ∈ rs, Sound r := by
  have hr : readDarn cfg ft bs = .ok ds := (C29_fresh cfg ft bs ds).2 ⟨_, h, hc⟩
  have hne : rs ≠ [] := by
    obtain ⟨bl, -, rfl, hb, -⟩ := readFile_sound hneg h
    simpa using hb
  constructor
  · intro ha
    unfold readAgainDarn at ha
    rw [hr] at ha
    simp only [Bind.bind, Except.bind] at ha
    cases hw : darnWriter (plainInput ds) (py! "f") with
    | error e => rw [hw] at ha; cases ha
    | ok w =>
      rw [hw] at ha
      dsimp only at ha
      obtain ⟨rs1, g1, g2⟩ := C31_dmap_dict_dmap_partial cfg hneg h
        fun x hx => conforms_noLong (hc x hx)
      obtain rfl : rs1 = rs := kept_eqs g2 hch
      have hwr : w.recs = rs1 ∧ w.filename = py! "f" ∧ w.buf = [] := by
        have h0 : ds ≠ [] := by rintro rfl; cases g1; exact hne rfl
        have h1 : ds.head? ≠ some [] := by
          intro he
          cases ds with
          | nil => cases he
          | cons d ds =>
            cases he
            simp only [dict2dmap, plainToRec] at g1
            cases h2 : dict2dmap ds with
            | error e => rw [h2] at g1; cases g1
            | ok q =>
              rw [h2] at g1
              cases g1
              exact read_ne hneg h (List.mem_cons_self ..) rfl
        unfold darnWriter Writer.new at hw
        rw [show plainInput ds = ⟨true, (plainInput ds).recs⟩ from rfl, check_plainRecs (b := true) h0 h1, g1] at hw
        simp only [Bind.bind, Except.bind, pure, Except.pure] at hw
        split at hw
        · cases hw
        · cases hw; exact ⟨rfl, rfl, rfl⟩
      rcases hd : darnWrite ft w (fun _ => none) [] with ⟨x, w', fs⟩
      rw [hd] at ha
      cases x with
      | error e => cases ha
      | ok u =>
        dsimp only at ha
        obtain ⟨-, -, -, h3, -⟩ := C18_darn_success hd
        have ht : target w [] = py! "f" := by unfold target; rw [hwr.2.1]; rfl
        rw [ht] at h3
        rw [h3, Option.getD_some] at ha
        have hb := darn_bytes (by rw [hwr.1]; exact hne) hwr.2.2 hd
        rw [hwr.1] at hb
        obtain ⟨rs', h4, h5⟩ := (C29_fresh cfg ft _ ds).1 ha
        obtain ⟨rs2, g3, g4⟩ := C31_dmap_dict_dmap_partial cfg (hneg' _ hb) h4 fun x hx => conforms_noLong (h5 x hx)
        rw [g1] at g3
        cases g3
        rw [← kept_eqs_of g4 fun r hr k s hm hf v hv => read_chars hneg h hr hm hf hv] at h4
        have hg : readAgain cfg bs = .ok (rs1, ds) := by
          unfold readAgain
          rw [h]
          dsimp only
          rw [hb]
          exact h4
        intro r hr
        have R := (C84_iff_many cfg hneg h hch hneg').1 hg r hr
        exact ⟨R.order, fun k s hm => (R.scalars k s hm).2.1, hch r hr, fun k a hm => (R.arrays k a hm).2.2⟩
  · intro hs
    obtain ⟨w, w', fs', bs', b1, b2, b3, -, b5⟩ := C85_again_partial cfg ft hneg hr
      (fun rs hrs x hx => by
        rw [h] at hrs
        cases hrs
        exact hs x hx) (fun _ => none) (fn0 := py! "f") (fn := []) (fn1 := py! "f") rfl (by decide)
    unfold readAgainDarn
    rw [hr]
    simp only [Bind.bind, Except.bind, b1, b2, b3, Option.getD_some]
    exact b5

/-- The grid record satisfies the hypotheses, and reading, writing and reading again gives the same. -/
example : ∃ ds, readFile numpy2 gridBytes = .ok ([gridFull], ds) ∧
    (∀ bs', writeBytes [gridFull] = .ok bs' → ¬ NegSlist bs') ∧ readAgainDarn numpy2 .grid gridBytes = .ok ds := by
  have he : ∀ r ∈ [gridFull], Encodable numpy2.maxDims r := by
    intro r hr; rw [List.mem_singleton.1 hr]; exact gridFull_encodable (by decide)
  obtain ⟨bs, h1, h2⟩ := writeBytes_ok (by decide) he
  have e : gridBytes = bs := by unfold gridBytes; rw [h1]
  rw [← e] at h2
  have h3 := readFile_written (by decide) he h2
  have hp : [gridFull].map presentRec = [gridFull] := by decide +kernel
  rw [hp] at h3
  have hn : ¬ NegSlist gridBytes := Verif.Sample.not_negSlist (by decide +kernel)
  have hn' : ∀ bs', writeBytes [gridFull] = .ok bs' → ¬ NegSlist bs' := by
    intro bs' h
    rw [h1] at h
    cases h
    exact e ▸ hn
  exact ⟨_, h3, hn', (C85_iff numpy2 .grid hn h3 (by simpa using gridFull_conforms) (by simpa using gridFull_sound.chars) hn').2
    (by simpa using gridFull_sound)⟩

/-- **C85** violated: a fitacf file with the text `é` in `algorithm` is read and written, and then refused; one in which
`ifmode` is both a scalar and an array is read and written, and then refused as well. -/
theorem C85_violation :
    let text := pairBlock ([97, 108, 103, 111, 114, 105, 116, 104, 109, 0, 9] ++ [195, 169, 0])
      [105, 102, 109, 111, 100, 101, 0, 2, 1, 0, 0, 0, 1, 0, 0, 0, 5, 0]
    let shared := pairBlock [105, 102, 109, 111, 100, 101, 0, 2, 7, 0]
      [105, 102, 109, 111, 100, 101, 0, 2, 1, 0, 0, 0, 1, 0, 0, 0, 5, 0]
    ((readDarn numpy2 .fitacf text).isOk = true ∧ readAgainDarn numpy2 .fitacf text = .error (.mismatchByte 0)) ∧
    (readDarn numpy2 .fitacf shared).isOk = true ∧ readAgainDarn numpy2 .fitacf shared = .error (.zeroByte 0) := by
  decide +kernel

/-- So the record with the text `é` is not `Sound`. -/
example : ∃ r ds, readFile numpy2 (pairBlock ([97, 108, 103, 111, 114, 105, 116, 104, 109, 0, 9] ++ [195, 169, 0])
      [105, 102, 109, 111, 100, 101, 0, 2, 1, 0, 0, 0, 1, 0, 0, 0, 5, 0]) = .ok ([r], ds) ∧ ¬ Sound r := by
  have hk : (match readFile numpy2 (pairBlock ([97, 108, 103, 111, 114, 105, 116, 104, 109, 0, 9] ++ [195, 169, 0])
      [105, 102, 109, 111, 100, 101, 0, 2, 1, 0, 0, 0, 1, 0, 0, 0, 5, 0]) with
      | .ok ([r], _) => r.any fun p => match p.2 with
        | .scalar s => (match s.value with
          | .str t => decide (¬ Ascii t)
          | _ => false)
        | _ => false
      | _ => false) = true := by decide +kernel
  split at hk
  · rename_i r ds hf
    refine ⟨r, ds, hf, fun hs => ?_⟩
    obtain ⟨⟨k, f⟩, hm, hp⟩ := List.any_eq_true.1 hk
    cases f with
    | scalar s =>
      dsimp only at hp
      cases hv : s.value with
      | str t =>
        rw [hv] at hp
        exact absurd (hs.texts k s hm t hv) (of_decide_eq_true hp)
      | _ => rw [hv] at hp; cases hp
    | _ => cases hp
  · cases hk

end Verif.SD
