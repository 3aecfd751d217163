import Verif.Dmap.Lemmas.Views
import Verif.Dmap.Props.Size
/-!
# C74: the arrays that are read do not share memory
-/
namespace Verif
open Verif.Spec

/-- `mem'` is the memory after something has been written through the array with the view `v`: only bytes of `v` differ. -/
def WrittenThrough (v : View) (mem mem' : Bytes) : Prop :=
  mem'.length = mem.length ∧ ∀ i, (i < v.start ∨ v.start + v.count * v.cell ≤ i) → mem'[i]? = mem[i]?

/-- Field `k` of record `i` is an array with this view. -/
def ArrayAt (vs : List VRec) (i : Nat) (k : PyStr) (a : DmapArray) (v : View) : Prop :=
  ∃ r, vs[i]? = some r ∧ r.get? k = some (.array a, some v)

/-- The cells depend on the bytes of the view only. -/
theorem chunks_congr (sz : Nat) : ∀ (k : Nat) (bs bs' : Bytes), (∀ i, i < k * sz → bs'[i]? = bs[i]?) → chunks sz k bs' = chunks sz k bs := by
  intro k
  induction k with
  | zero => intros; rfl
  | succ k ih =>
    intro bs bs' h
    have hk : (k + 1) * sz = k * sz + sz := Nat.succ_mul k sz
    simp only [chunks]
    congr 1
    · apply List.ext_getElem?
      intro i
      simp only [List.getElem?_take]
      split
      · exact h i (by omega)
      · rfl
    · apply ih
      intro i hi
      simp only [List.getElem?_drop]
      exact h _ (by omega)

theorem cells_unchanged {v w : View} {mem mem' : Bytes} (hw : WrittenThrough v mem mem') (hd : v.stop ≤ w.start ∨ w.stop ≤ v.start) :
    w.cells mem' = w.cells mem := by
  unfold View.cells
  apply chunks_congr
  intro i hi
  simp only [List.getElem?_drop]
  apply hw.2
  simp only [View.stop] at hd
  omega

theorem readViews_same {cfg : NpCfg} {bs : Bytes} {rs : List Rec} {ds : List PlainRec} (h : readFile cfg bs = .ok (rs, ds)) :
    ∃ vs, readViews cfg bs = .ok vs ∧ rs = vs.map VRec.plain := by
  obtain ⟨hb, rd, g1, rfl⟩ := readFile_ok.1 h
  unfold Reader.readRecords at g1
  cases hl : (freshReader bs).readLoop cfg ((freshReader bs).buf.length - (freshReader bs).cursor).toNat with
  | mk x r1 =>
    rw [hl] at g1
    cases x with
    | error e => simp at g1
    | ok u =>
      obtain ⟨vs, e1, e2⟩ := readLoopV_same cfg _ _ hl
      refine ⟨vs, ?_, ?_⟩
      · unfold readViews
        rw [← e1]
        simp [freshReader]
      · have : rd.dmapRecords = r1.dmapRecords := by
          dsimp only at g1
          split at g1
          · simp at g1
          · split at g1
            · simp at g1
            · simp only [Prod.mk.injEq] at g1
              rw [← g1.2]
        rw [this, e2]
        simp [freshReader]

/-- **C74** (partial: without negative `slist` dimensions, see below.)  The reader's arrays show the bytes of the file at their
places; the places are inside the file; and whatever is written through one array leaves every other array, of this record or of
another, as it was read. -/
theorem C74_separate_partial (cfg : NpCfg) {bs : Bytes} (hneg : ¬ NegSlist bs) {rs : List Rec} {ds : List PlainRec}
    (h : readFile cfg bs = .ok (rs, ds)) :
    ∃ vs, readViews cfg bs = .ok vs ∧ rs = vs.map VRec.plain ∧
      (∀ (i : Nat) r k a, rs[i]? = some r → r.get? k = some (.array a) →
        ∃ v, ArrayAt vs i k a v ∧ a.value.cells = v.cells bs ∧ v.start + v.count * v.cell ≤ bs.length) ∧
      ∀ i j k l a b v w, ArrayAt vs i k a v → ArrayAt vs j l b w → (i, k) ≠ (j, l) →
        ∀ mem, WrittenThrough v bs mem → w.cells mem = b.value.cells := by
  obtain ⟨vs, hv, hr⟩ := readViews_same h
  have hp := readLoopV_apart hneg (Int.le_refl 0) hv
  refine ⟨vs, hv, hr, ?_, ?_⟩
  · intro i r' k a h1 h2
    rw [hr, List.getElem?_map] at h1
    cases hi : vs[i]? with
    | none => rw [hi] at h1; cases h1
    | some r =>
      rw [hi] at h1
      cases h1
      obtain ⟨lo, hi', -, b0, b1, -⟩ := hp i r hi
      rw [get?_plain] at h2
      cases hg : Dict.get? r k with
      | none => rw [hg] at h2; cases h2
      | some p =>
        obtain ⟨f, v⟩ := p
        rw [hg] at h2
        cases h2
        cases v with
        | none => exact absurd hg (b1.whole _ _)
        | some v =>
          obtain ⟨-, c1, a', e, c2⟩ := b1.place _ _ _ hg
          cases e
          simp only [View.stop] at c1
          exact ⟨v, ⟨r, hi, hg⟩, c2, by omega⟩
  · rintro i j k l a b v w ⟨r, h1, h2⟩ ⟨s, g1, g2⟩ hne mem hm
    obtain ⟨lo, hi, -, -, b1, b2⟩ := hp i r h1
    obtain ⟨lo', hi', -, -, d1, d2⟩ := hp j s g1
    obtain ⟨c0, c1, -⟩ := b1.place _ _ _ h2
    obtain ⟨e0, e1, b', e, e2⟩ := d1.place _ _ _ g2
    cases e
    rw [e2]
    apply cells_unchanged hm
    rcases Nat.lt_trichotomy i j with hij | hij | hij
    · obtain ⟨x, y, hxy, q⟩ := b2 j s hij g1
      have := (q.place _ _ _ g2).1
      exact .inl (by omega)
    · subst hij
      rw [h1] at g1
      cases g1
      exact b1.apart _ _ _ _ _ _ (fun e => hne (by rw [e])) h2 g2
    · obtain ⟨x, y, hxy, q⟩ := d2 i r hij h1
      have := (q.place _ _ _ h2).1
      exact .inr (by omega)

example := C74_separate_partial numpy1 Sample.bytes2_plain bytes2_read

/-- A record with the scalar `a` and the arrays `b` and `c` of two and of one number. -/
def twoArrays : Bytes :=
  [0, 0, 0, 0, 45, 0, 0, 0, 1, 0, 0, 0, 2, 0, 0, 0, 97, 0, 1, 5,
   98, 0, 16, 1, 0, 0, 0, 2, 0, 0, 0, 6, 7, 99, 0, 1, 1, 0, 0, 0, 1, 0, 0, 0, 8]

/-- The records and places of a file that is read. -/
def placed (bs : Bytes) : List VRec := (readViews numpy2 bs).toOption.getD []

/-- Two arrays of one record lie beside each other. -/
example : ¬ NegSlist twoArrays ∧ (∃ r, readFile numpy2 twoArrays = .ok r) ∧
    (∃ a, ArrayAt (placed twoArrays) 0 (py! "b") a ⟨31, 1, 2⟩) ∧ ∃ a, ArrayAt (placed twoArrays) 0 (py! "c") a ⟨44, 1, 1⟩ :=
  ⟨Sample.not_negSlist (by decide +kernel), ⟨_, rfl⟩, ⟨_, _, rfl, rfl⟩, ⟨_, _, rfl, rfl⟩⟩

/-- **C74** fails in general: the negative `slist` dimension of `twiceRead` gives the arrays `slist` and `c` the same bytes, and a
number written through the one changes the other. -/
theorem C74_violation : ∃ vs a b v w mem, readViews numpy2 twiceRead = .ok vs ∧ (∃ r, readFile numpy2 twiceRead = .ok r ∧ r.1 = vs.map VRec.plain) ∧
    ArrayAt vs 0 slist a v ∧ ArrayAt vs 0 (py! "c") b w ∧ WrittenThrough v twiceRead mem ∧ w.cells mem ≠ b.value.cells := by
  refine ⟨placed twiceRead, _, _, ⟨57, 1, 3⟩, ⟨42, 1, 18⟩, twiceRead.set 57 9, rfl, ⟨_, rfl, rfl⟩, ⟨_, rfl, rfl⟩, ⟨_, rfl, rfl⟩,
    ⟨by simp, fun i hi => ?_⟩, by decide +kernel⟩
  rw [List.getElem?_set_ne (by simp at hi; omega)]

end Verif
