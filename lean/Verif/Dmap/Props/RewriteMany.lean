import Verif.Dmap.Props.Rewrite
import Verif.Dmap.Props.Stream
/-!
# C84 for any number of records
-/
namespace Verif
open Spec

/-- A record whose fields can be written is written as one block. -/
theorem writeBytes_one {k : Nat} {r : Rec} {data : Bytes} (h : Written k r data) (hl : data.length + 16 < 2 ^ 31)
    (h1 : (scalarsOf r).length < 2 ^ 31) (h2 : (arraysOf r).length < 2 ^ 31) :
    writeBytes [r] = .ok (blockBytes r data) := by
  refine writeBytes_iff.2 ⟨by simp, ?_⟩
  have := WrittenList.cons (h.number 0) hl h1 h2 .nil
  rwa [List.append_nil] at this

/-- If what is written for records is a file of blocks with these records, the block of each is what is written for it
alone: the second header word is the size. -/
theorem written_blocks {k : Nat} {rs : List Rec} {bs : Bytes} (h : WrittenList k rs bs) {mr : Nat} {bl : List Block}
    (hf : FileEnc mr bl bs) (he : bl.map Block.record = rs) :
    ∀ r ∈ rs, ∃ pre x suf b, bs = pre ++ x ++ suf ∧ BlockEnc mr b x ∧ b.record = r ∧ writeBytes [r] = .ok x := by
  induction h generalizing bl with
  | nil => simp
  | @cons k r rs data bs h1 h2 h3 h4 h5 ih =>
    generalize hbs : blockBytes r data ++ bs = all at hf
    cases hf with
    | nil => cases he
    | @cons b bl y ys hb hfs =>
      obtain ⟨e1, e2⟩ := List.cons.inj he
      obtain ⟨sb, ab, -, -, hy⟩ := hb.bytes
      have hlen : y.length = data.length + 16 := by
        have g := congrArg (fun l : Bytes => (l.drop 4).take 4) hbs
        rw [hy] at g
        unfold blockBytes at g
        simp only [List.append_assoc] at g
        have w1 : ∀ n, (natLE 4 n).length = 4 := fun n => by simp
        rw [List.drop_append_of_le_length (by rw [w1]; exact Nat.le_refl _), List.drop_of_length_le (by rw [w1]; exact Nat.le_refl _),
          List.nil_append, List.take_append_of_le_length (by rw [w1]; exact Nat.le_refl _), List.take_of_length_le (by rw [w1]; exact Nat.le_refl _),
          List.drop_append_of_le_length (by rw [hb.ident]; exact Nat.le_refl _), List.drop_of_length_le (by rw [hb.ident]; exact Nat.le_refl _),
          List.nil_append, List.take_append_of_le_length (by rw [w1]; exact Nat.le_refl _), List.take_of_length_le (by rw [w1]; exact Nat.le_refl _)] at g
        exact (natLE_inj h2 hb.small g).symm
      obtain ⟨g1, g2⟩ := List.append_inj hbs (by rw [hlen]; simp [blockBytes]; omega)
      intro r' hr'
      rcases List.mem_cons.1 hr' with rfl | hr'
      · exact ⟨[], y, ys, b, by simp, hb, e1, g1 ▸ writeBytes_one h1 h2 h3 h4⟩
      · obtain ⟨pre, x, suf, b', k1, k2, k3, k4⟩ := ih (g2 ▸ hfs) e2 r' hr'
        exact ⟨y ++ pre, x, suf, b', by rw [← hbs, k1, g1]; simp, k2, k3, k4⟩

theorem negSlist_part {pre x suf : Bytes} (h : NegSlist x) : NegSlist (pre ++ x ++ suf) := by
  obtain ⟨p, s, t, dims, rfl, hd⟩ := h
  exact ⟨pre ++ p, s ++ suf, t, dims, by simp, hd⟩

theorem dmap2dict_one {cfg : NpCfg} {rs : List Rec} {ds : List PlainRec} (h : dmap2dict cfg rs = .ok ds) {r : Rec}
    (hr : r ∈ rs) : ∃ d, dmap2dict cfg [r] = .ok [d] := by
  induction rs generalizing ds with
  | nil => cases hr
  | cons r0 rs ih =>
    simp only [dmap2dict, Bind.bind, Except.bind] at h
    cases h1 : recToPlain cfg r0 with
    | error e => rw [h1] at h; cases h
    | ok d =>
      rw [h1] at h
      dsimp only at h
      cases h2 : dmap2dict cfg rs with
      | error e => rw [h2] at h; cases h
      | ok ds' =>
        rcases List.mem_cons.1 hr with rfl | hr
        · exact ⟨d, by simp [dmap2dict, Bind.bind, Except.bind, h1, pure, Except.pure]⟩
        · exact ih h2 hr

/-- **C84** For any number of records the condition is exact: what is read from a file can be written and read as the same
iff every record is `Rewritable`, if neither the file nor what is written has a negative `slist` dimension and chars are
below 128. -/
theorem C84_iff_many (cfg : NpCfg) {bs : Bytes} (hneg : ¬ NegSlist bs) {rs : List Rec} {ds : List PlainRec}
    (h : readFile cfg bs = .ok (rs, ds))
    (hc : ∀ r ∈ rs, ∀ k s, (k, Field.scalar s) ∈ r → s.fmt = .c → ∀ v, s.value = .int v → v < 128)
    (hneg' : ∀ bs', writeBytes rs = .ok bs' → ¬ NegSlist bs') :
    readAgain cfg bs = .ok (rs, ds) ↔ ∀ r ∈ rs, Rewritable r := by
  have hra : readAgain cfg bs = writeThenRead cfg rs := by
    unfold readAgain writeThenRead
    rw [h]
    rfl
  rw [hra]
  unfold writeThenRead
  constructor
  · intro ha r hr
    cases hw : writeBytes rs with
    | error e => rw [hw] at ha; cases ha
    | ok bs' =>
      rw [hw] at ha
      dsimp only at ha
      have hn := hneg' _ hw
      obtain ⟨bl, h1, h2, -, h4⟩ := readFile_sound hn ha
      obtain ⟨pre, x, suf, b, k1, k2, rfl, k4⟩ := written_blocks (writeBytes_inv hw).2 h1 h2.symm r hr
      obtain ⟨d, hd⟩ := dmap2dict_one h4 hr
      have hx : readFile cfg x = .ok ([b.record], [d]) := by
        have hf : FileEnc cfg.maxDims [b] x := by
          have := SeqEnc.cons k2 (SeqEnc.nil (R := BlockEnc cfg.maxDims))
          rwa [List.append_nil] at this
        rw [readFile_fileEnc hf (by simp), List.map_singleton, hd]
      refine (C84_iff cfg (fun hs => hn (k1 ▸ negSlist_part hs)) hx (hc _ hr)).1 ?_
      unfold readAgain
      rw [hx]
      dsimp only
      rw [k4]
      exact hx
  · intro hr
    obtain ⟨bs', h1, h2⟩ := C84_again_partial cfg hneg h hr
    rw [h1]
    exact h2

/-- Two copies of the sample block satisfy the hypotheses. -/
example : ∃ ds, readFile numpy1 (Sample.bytes2 ++ Sample.bytes2) = .ok ([Sample.record2, Sample.record2], ds) ∧
    (∀ r ∈ [Sample.record2, Sample.record2], ∀ k s, (k, Field.scalar s) ∈ r → s.fmt = .c → ∀ v, s.value = .int v → v < 128) ∧
    (∀ bs', writeBytes [Sample.record2, Sample.record2] = .ok bs' → ¬ NegSlist bs') ∧
    readAgain numpy1 (Sample.bytes2 ++ Sample.bytes2) = .ok ([Sample.record2, Sample.record2], ds) := by
  refine ⟨_, rfl, ?_, ?_, ?_⟩
  · intro r hr k s hm hf
    simp only [List.mem_cons, List.not_mem_nil, or_false, or_self] at hr
    subst hr
    rcases List.mem_cons.1 hm with h | h
    · cases h; cases hf
    · cases List.mem_singleton.1 h
  · intro bs' h
    have e : writeBytes [Sample.record2, Sample.record2] = .ok (Sample.bytes2 ++ Sample.bytes2) := by decide +kernel
    rw [e] at h
    cases h
    exact Sample.not_negSlist (by decide)
  · decide +kernel

end Verif
