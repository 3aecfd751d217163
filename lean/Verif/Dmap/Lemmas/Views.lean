import Verif.Dmap.Model.Views
import Verif.Dmap.Lemmas.Programs
import Verif.Dmap.Lemmas.Steps
/-!
# Lemmas: places of arrays
-/
namespace Verif
open Spec

/-- The record without the places. -/
def VRec.plain (r : VRec) : Rec := r.map fun p => (p.1, p.2.1)

/-- Less of a result. -/
def less {α β : Type} (g : α → β) : Except Err α × Int → Except Err β × Int
  | (.ok a, c) => (.ok (g a), c)
  | (.error e, c) => (.error e, c)

/-- The same run, with more in the result. -/
def SameAs {α β : Type} (x : Rd α) (y : Rd β) (g : α → β) : Prop := ∀ c, y c = less g (x c)

theorem sameAs_refl {α : Type} (x : Rd α) : SameAs x x id := by
  intro c
  cases x c with
  | mk r c' => cases r <;> rfl

theorem sameAs_pure {α β : Type} (a : α) (g : α → β) : SameAs (Pure.pure a : Rd α) (Pure.pure (g a)) g := fun _ => rfl

theorem sameAs_raise {α β : Type} (e : Err) (g : α → β) : SameAs (Rd.raise e : Rd α) (Rd.raise e) g := fun _ => rfl

theorem sameAs_bind {α β γ δ : Type} {x : Rd α} {y : Rd β} {g : α → β} {f : α → Rd γ} {f' : β → Rd δ} {g' : γ → δ}
    (h : SameAs x y g) (hf : ∀ a, SameAs (f a) (f' (g a)) g') : SameAs (x >>= f) (y >>= f') g' := by
  intro c
  show Rd.bind y f' c = _
  have e := h c
  show _ = less g' (Rd.bind x f c)
  unfold Rd.bind
  rw [e]
  cases x c with
  | mk r c' =>
    cases r with
    | error e => rfl
    | ok a => exact hf a c'

theorem sameAs_step {α γ δ : Type} (x : Rd α) {f : α → Rd γ} {f' : α → Rd δ} {g : γ → δ}
    (hf : ∀ a, SameAs (f a) (f' a) g) : SameAs (x >>= f) (x >>= f') g := sameAs_bind (sameAs_refl x) hf

theorem sameAs_ite {α β : Type} {p : Prop} [Decidable p] {x x' : Rd α} {y y' : Rd β} {g : α → β} (h : SameAs x y g)
    (h' : SameAs x' y' g) : SameAs (if p then x else x') (if p then y else y') g := by
  split
  · exact h
  · exact h'

theorem readNumericalArrayV_run (cfg : NpCfg) (buf : Bytes) (shape : List Int) (fmt : Fmt) (total : Int) (size : Nat) (c : Int) :
    readNumericalArrayV cfg buf shape fmt total size c =
      less (fun a => (a, ⟨c.toNat, size, a.cells.length⟩)) (readNumericalArray cfg buf shape fmt total size c) := by
  have : readNumericalArrayV cfg buf shape fmt total size c =
      Rd.bind (readNumericalArray cfg buf shape fmt total size) (fun a => Rd.pure (a, ⟨c.toNat, size, a.cells.length⟩)) c := rfl
  rw [this]
  unfold Rd.bind
  cases readNumericalArray cfg buf shape fmt total size c with
  | mk r c' => cases r <;> rfl

theorem same_readArrayV (cfg : NpCfg) (buf : Bytes) (rn : Nat) (z : Int) :
    SameAs (readArrayV cfg buf rn z) (readArray cfg buf rn z) Prod.fst := by
  refine sameAs_step _ fun name => sameAs_step _ fun code => sameAs_step _ fun p => sameAs_step _ fun dim =>
    sameAs_step _ fun _ => sameAs_step _ fun _ => sameAs_step _ fun dims => ?_
  refine sameAs_ite (sameAs_raise _ _) (sameAs_ite (sameAs_raise _ _) (sameAs_step _ fun _ => sameAs_step _ fun _ =>
    sameAs_ite (sameAs_raise _ _) (sameAs_ite (sameAs_raise _ _) ?_)))
  refine sameAs_bind (g := Prod.fst) ?_ fun _ => sameAs_pure _ _
  intro c
  rw [readNumericalArrayV_run]
  cases readNumericalArray cfg buf _ _ _ _ c with
  | mk r c' => cases r <;> rfl

/-- The rest of `readArrayV` after the header. -/
def readTailV (cfg : NpCfg) (buf : Bytes) (rn : Nat) (recordSize : Int) (h : ArrHead) : Rd (DmapArray × View) :=
  let shape := if h.dim > 1 then h.dims.reverse else h.dims
  if (shape.any fun x => decide (x ≤ 0)) = true ∧ h.name ≠ slist then Rd.raise .dmapDataError
  else if (shape.any fun x => decide (x ≥ recordSize)) = true then Rd.raise .dmapDataError
  else
    bytesCheck rn (prodInt shape) recordSize >>= fun _ =>
    bytesCheck rn (prodInt shape * h.size) recordSize >>= fun _ =>
    if h.fmt = .s then Rd.raise .dmapDataError
    else if h.code = 0 then Rd.raise .dmapDataError
    else
      readNumericalArrayV cfg buf shape h.fmt (prodInt shape) h.size >>= fun p =>
      Pure.pure ({ name := h.name, value := p.1, dataType := h.code, fmt := h.fmt, dimension := h.dim, shape := shape }, p.2)

theorem readArrayV_eq (cfg : NpCfg) (buf : Bytes) (rn : Nat) (z : Int) :
    readArrayV cfg buf rn z = readHead buf rn z >>= readTailV cfg buf rn z := by
  unfold readArrayV readHead
  simp only [rd_bind_assoc, rd_pure_bind]
  rfl

theorem plain_set (r : VRec) (k : PyStr) (f : Field) (v : Option View) :
    VRec.plain (Dict.set r k (f, v)) = Dict.set (VRec.plain r) k f := by
  induction r with
  | nil => rfl
  | cons p r ih =>
    obtain ⟨k', x⟩ := p
    unfold Dict.set VRec.plain
    by_cases h : k' = k
    · simp [h]
    · simp only [h, if_false, List.map_cons]
      exact congrArg _ ih

theorem get?_plain (r : VRec) (k : PyStr) : Dict.get? (VRec.plain r) k = (Dict.get? r k).map Prod.fst := by
  induction r with
  | nil => rfl
  | cons p r ih =>
    obtain ⟨k', f, v⟩ := p
    simp only [VRec.plain, List.map_cons, Dict.get?] at ih ⊢
    split <;> simp [ih]

theorem same_readScalarsV (buf : Bytes) (rn n : Nat) (r : VRec) :
    SameAs (readScalarsV buf rn n r) (readScalars buf rn n r.plain) VRec.plain := by
  induction n generalizing r with
  | zero => exact fun _ => rfl
  | succ n ih =>
    refine sameAs_step _ fun s => ?_
    rw [← plain_set r s.name (.scalar s) none]
    exact ih _

theorem same_readArraysV (cfg : NpCfg) (buf : Bytes) (rn : Nat) (z : Int) (n : Nat) (r : VRec) :
    SameAs (readArraysV cfg buf rn z n r) (readArrays cfg buf rn z n r.plain) VRec.plain := by
  induction n generalizing r with
  | zero => exact fun _ => rfl
  | succ n ih =>
    refine sameAs_bind (same_readArrayV cfg buf rn z) fun p => ?_
    rw [← plain_set r p.1.name (.array p.1) (some p.2)]
    exact ih _

theorem same_readRecordV (cfg : NpCfg) (buf : Bytes) (rn : Nat) :
    SameAs (readRecordV cfg buf rn) (readRecord cfg buf rn) VRec.plain :=
  sameAs_step _ fun _ => sameAs_step _ fun _ => sameAs_step _ fun _ => sameAs_step _ fun _ => sameAs_step _ fun _ =>
    sameAs_step _ fun _ => sameAs_step _ fun _ => sameAs_step _ fun _ => sameAs_step _ fun _ => sameAs_step _ fun _ =>
    sameAs_step _ fun _ => sameAs_bind (same_readScalarsV buf rn _ []) fun _ => sameAs_bind (same_readArraysV cfg buf rn _ _ _) fun _ =>
    sameAs_step _ fun _ => sameAs_ite (sameAs_raise _ _) (sameAs_pure _ _)

theorem readLoopV_same (cfg : NpCfg) (fuel : Nat) (r : Reader) {r' : Reader} (h : r.readLoop cfg fuel = (.ok (), r')) :
    ∃ vs, readLoopV cfg r.buf fuel r.recNum r.cursor = .ok vs ∧ r'.dmapRecords = r.dmapRecords ++ vs.map VRec.plain := by
  induction fuel generalizing r with
  | zero =>
    by_cases hc : r.cursor < r.buf.length
    · rw [Reader.readLoop.eq_def] at h; simp only at h; rw [if_pos hc] at h; simp at h
    · rw [readLoop_stop _ _ _ hc] at h
      cases h
      exact ⟨[], by rw [readLoopV, if_neg hc], by simp⟩
  | succ fuel ih =>
    by_cases hc : r.cursor < r.buf.length
    · rw [readLoop_step _ _ _ hc] at h
      have hs := same_readRecordV cfg r.buf r.recNum r.cursor
      rw [hs] at h
      cases hv : readRecordV cfg r.buf r.recNum r.cursor with
      | mk res c =>
        rw [hv] at h
        unfold less at h
        cases res with
        | error e => simp at h
        | ok rec =>
          simp only at h
          obtain ⟨vs, h1, h2⟩ := ih _ h
          refine ⟨rec :: vs, ?_, ?_⟩
          · rw [readLoopV, if_pos hc]
            simp only [hv, h1]
          · rw [h2]
            simp
    · rw [readLoop_stop _ _ _ hc] at h
      cases h
      exact ⟨[], by rw [readLoopV.eq_def]; simp only; rw [if_neg hc], by simp⟩

/-- The bytes that an array uses. -/
def View.stop (v : View) : Nat := v.start + v.count * v.cell

/-- An array lies between the position before and after reading it, and shows the bytes there. -/
theorem readArrayV_ok {cfg : NpCfg} {buf : Bytes} {rn n : Nat} {c c' : Int} {a : DmapArray} {v : View} (h0 : 0 ≤ c)
    (h1 : c ≤ buf.length) (h : readArrayV cfg buf rn n c = (.ok (a, v), c')) :
    a.value.cells = v.cells buf ∧ v.stop ≤ buf.length ∧ v.count = a.value.cells.length ∧
      ((∀ x ∈ a.shape, 0 ≤ x) → c ≤ v.start ∧ c' = v.stop) := by
  rw [readArrayV_eq, rd_bind_ok] at h
  obtain ⟨hd, c1, hh, ht⟩ := h
  obtain ⟨bs, ⟨g1, g2, g3, g4, g5, g6, g7, g8, rfl⟩, hat, rfl⟩ := (readHead_exact rn n c hd c1 h0 h1).1 hh
  unfold readTailV at ht
  generalize hs : (if hd.dim > 1 then hd.dims.reverse else hd.dims) = shape at *
  split at ht
  · simp [Rd.raise] at ht
  · split at ht
    · simp [Rd.raise] at ht
    · rw [rd_bind_ok] at ht
      obtain ⟨_, _, hb1, ht⟩ := ht
      rw [rd_bind_ok] at ht
      obtain ⟨_, _, hb2, ht⟩ := ht
      obtain ⟨-, rfl⟩ := bytesCheck_ok.1 hb1
      obtain ⟨-, rfl⟩ := bytesCheck_ok.1 hb2
      split at ht
      · simp [Rd.raise] at ht
      · split at ht
        · simp [Rd.raise] at ht
        · rw [rd_bind_ok] at ht
          obtain ⟨p, c2, hp, ht⟩ := ht
          rw [rd_pure_ok] at ht
          obtain ⟨e, rfl⟩ := ht
          cases e
          rw [readNumericalArrayV_run] at hp
          generalize hc1 : c + ((encStr hd.name ++ [UInt8.ofNat (code hd.fmt)] ++ natLE 4 hd.dims.length ++
            hd.dims.flatMap (intLE 4)).length : Nat) = c1 at *
          have hc0 : 0 ≤ c1 := by omega
          cases hr : readNumericalArray cfg buf shape hd.fmt (prodInt shape) hd.size c1 with
          | mk r c3 =>
            rw [hr] at hp
            cases r with
            | error e => simp [less] at hp
            | ok arr =>
              simp only [less, Prod.mk.injEq, Except.ok.injEq] at hp
              obtain ⟨rfl, rfl⟩ := hp
              unfold readNumericalArray at hr
              rw [rd_bind_ok] at hr
              obtain ⟨q, q', e1, hr⟩ := hr
              obtain ⟨eq, eq'⟩ := rd_cursor_ok.1 e1
              rw [eq, eq'] at hr
              rw [rd_bind_ok] at hr
              obtain ⟨cells, _, e2, hr⟩ := hr
              rw [rd_bind_ok] at hr
              obtain ⟨_, _, e3, hr⟩ := hr
              cases rd_setCursor_ok.1 e3
              rw [rd_bind_ok] at hr
              obtain ⟨shp, _, e4, hr⟩ := hr
              obtain ⟨rfl, rfl⟩ := rd_pure_ok.1 hr
              simp only [Rd.lift, Prod.mk.injEq] at e2 e4
              obtain ⟨e2, rfl⟩ := e2
              obtain ⟨-, rfl⟩ := e4
              simp only [View.cells, View.stop]
              unfold npFrombuffer at e2
              split at e2
              · cases e2
              · split at e2
                · cases e2
                · dsimp only at e2
                  have hlen := List.length_drop (i := c1.toNat) (l := buf)
                  split at e2
                  · split at e2
                    · cases e2
                    · split at e2
                      · cases e2
                      · cases e2
                        rw [length_chunks]
                        refine ⟨rfl, ?_, trivial, fun hn => ?_⟩
                        · have := Nat.div_mul_le_self (buf.drop c1.toNat).length hd.size
                          omega
                        · have := prodInt_nonneg hn
                          omega
                  · split at e2
                    · cases e2
                    · rename_i hl
                      cases e2
                      rw [length_chunks]
                      have ht : prodInt shape = ((prodInt shape).toNat : Nat) := by omega
                      have hcast : (((prodInt shape).toNat * hd.size : Nat) : Int) = prodInt shape * hd.size := by
                        rw [Int.natCast_mul, ← ht]
                      refine ⟨rfl, by omega, trivial, fun _ => ?_⟩
                      constructor
                      · omega
                      · rw [Int.natCast_add, hcast]
                        omega

/-- The arrays of a record that has been read so far: they lie between two positions, show the bytes there and do not meet. -/
structure Apart (buf : Bytes) (lo hi : Int) (r : VRec) : Prop where
  place : ∀ k f v, Dict.get? r k = some (f, some v) → lo ≤ v.start ∧ (v.stop : Int) ≤ hi ∧
    ∃ a, f = .array a ∧ a.value.cells = v.cells buf
  apart : ∀ k l f g v w, k ≠ l → Dict.get? r k = some (f, some v) → Dict.get? r l = some (g, some w) →
    v.stop ≤ w.start ∨ w.stop ≤ v.start
  whole : ∀ k a, Dict.get? r k ≠ some (.array a, none)

theorem Apart.nil (buf : Bytes) (lo hi : Int) : Apart buf lo hi [] :=
  ⟨fun _ _ _ h => by simp [Dict.get?] at h, fun _ _ _ _ _ _ _ h => by simp [Dict.get?] at h,
    fun _ _ h => by simp [Dict.get?] at h⟩

theorem Apart.scalar {buf : Bytes} {lo hi : Int} {r : VRec} (h : Apart buf lo hi r) {hi' : Int} (hh : hi ≤ hi') (k : PyStr) (s : DmapScalar) :
    Apart buf lo hi' (Dict.set r k (.scalar s, none)) := by
  constructor
  · intro k' f' v hg
    by_cases e : k = k'
    · subst e
      rw [Dict.get?_set_self] at hg
      cases hg
    · rw [Dict.get?_set_ne _ e] at hg
      obtain ⟨h1, h2, h3⟩ := h.place k' f' v hg
      exact ⟨h1, by omega, h3⟩
  · intro k1 k2 f1 f2 v w hne h1 h2
    by_cases e : k = k1
    · subst e
      rw [Dict.get?_set_self] at h1
      cases h1
    · by_cases e' : k = k2
      · subst e'
        rw [Dict.get?_set_self] at h2
        cases h2
      · rw [Dict.get?_set_ne _ e] at h1
        rw [Dict.get?_set_ne _ e'] at h2
        exact h.apart _ _ _ _ _ _ hne h1 h2
  · intro k' a hg
    by_cases e : k = k'
    · subst e
      rw [Dict.get?_set_self] at hg
      cases hg
    · rw [Dict.get?_set_ne _ e] at hg
      exact h.whole _ _ hg

theorem Apart.array {buf : Bytes} {lo hi hi' : Int} {r : VRec} (h : Apart buf lo hi r) (hl : lo ≤ hi) {a : DmapArray} {v : View}
    (h1 : hi ≤ v.start) (h2 : (v.stop : Int) ≤ hi') (h3 : a.value.cells = v.cells buf) (k : PyStr) :
    Apart buf lo hi' (Dict.set r k (.array a, some v)) := by
  have hs : v.start ≤ v.stop := Nat.le_add_right _ _
  constructor
  · intro k' f' w hg
    by_cases e : k = k'
    · subst e
      rw [Dict.get?_set_self] at hg
      cases hg
      exact ⟨by omega, h2, a, rfl, h3⟩
    · rw [Dict.get?_set_ne _ e] at hg
      obtain ⟨g1, g2, g3⟩ := h.place k' f' w hg
      exact ⟨g1, by omega, g3⟩
  · intro k1 k2 f1 f2 x y hne g1 g2
    by_cases e : k = k1
    · subst e
      rw [Dict.get?_set_self] at g1
      cases g1
      rw [Dict.get?_set_ne _ hne] at g2
      have := (h.place _ _ _ g2).2.1
      exact .inr (by omega)
    · rw [Dict.get?_set_ne _ e] at g1
      by_cases e' : k = k2
      · subst e'
        rw [Dict.get?_set_self] at g2
        cases g2
        have := (h.place _ _ _ g1).2.1
        exact .inl (by omega)
      · rw [Dict.get?_set_ne _ e'] at g2
        exact h.apart _ _ _ _ _ _ hne g1 g2
  · intro k' a hg
    by_cases e : k = k'
    · subst e
      rw [Dict.get?_set_self] at hg
      cases hg
    · rw [Dict.get?_set_ne _ e] at hg
      exact h.whole _ _ hg

theorem readScalarsV_apart {buf : Bytes} {rn n : Nat} {lo c c' : Int} {r r' : VRec} (h : Apart buf lo c r) (hl : lo ≤ c) (h0 : 0 ≤ c)
    (h1 : c ≤ buf.length) (hr : readScalarsV buf rn n r c = (.ok r', c')) : Apart buf lo c' r' ∧ c ≤ c' ∧ c' ≤ buf.length := by
  induction n generalizing r c with
  | zero =>
    obtain ⟨rfl, rfl⟩ := rd_pure_ok.1 hr
    exact ⟨h, Int.le_refl _, h1⟩
  | succ n ih =>
    unfold readScalarsV at hr
    rw [rd_bind_ok] at hr
    obtain ⟨s, c1, hs, hr⟩ := hr
    obtain ⟨bs, -, hat, rfl⟩ := (readScalar_exact rn c s c1 h0 h1).1 hs
    have := hat.bounds
    obtain ⟨g1, g2, g3⟩ := ih (h.scalar (by omega) s.name s) (by omega) (by omega) (by omega) hr
    exact ⟨g1, by omega, g3⟩

theorem readArraysV_apart {cfg : NpCfg} {buf : Bytes} (hneg : ¬ NegSlist buf) {rn n z : Nat} {lo c c' : Int} {r r' : VRec}
    (h : Apart buf lo c r) (hl : lo ≤ c) (h0 : 0 ≤ c) (h1 : c ≤ buf.length) (hr : readArraysV cfg buf rn z n r c = (.ok r', c')) :
    Apart buf lo c' r' := by
  induction n generalizing r c with
  | zero =>
    obtain ⟨rfl, rfl⟩ := rd_pure_ok.1 hr
    exact h
  | succ n ih =>
    unfold readArraysV at hr
    rw [rd_bind_ok] at hr
    obtain ⟨⟨a, v⟩, c1, hs, hr⟩ := hr
    obtain ⟨g1, g2, -, g3⟩ := readArrayV_ok h0 h1 hs
    have hs' := same_readArrayV cfg buf rn z c
    rw [hs] at hs'
    obtain ⟨g4, rfl⟩ := g3 (readArray_nonneg hneg h0 h1 hs')
    have hst : v.start ≤ v.stop := Nat.le_add_right _ _
    exact ih (h.array hl g4 (Int.le_refl _) g1 a.name) (by omega) (by omega) (by omega) hr

theorem readRecordV_apart {cfg : NpCfg} {buf : Bytes} (hneg : ¬ NegSlist buf) {rn : Nat} {c c' : Int} {r : VRec} (h0 : 0 ≤ c)
    (h1 : c ≤ buf.length) (hr : readRecordV cfg buf rn c = (.ok r, c')) : Apart buf c c' r ∧ c ≤ c' ∧ c' ≤ buf.length := by
  have hs := same_readRecordV cfg buf rn c
  rw [hr] at hs
  obtain ⟨n, -, -, -, -, -, -, -, -, -, -, -, -, g8, -, -, -, g9, -⟩ := (readRecord_ok h0 h1).1 hs
  refine ⟨?_, by omega, by omega⟩
  unfold readRecordV at hr
  simp only [rd_bind_ok, rd_cursor_ok, rd_setCursor_ok, zeroNegativeCheck_ok, bytesCheck_ok] at hr
  obtain ⟨_, c0, ⟨rfl, rfl⟩, _, _, rfl, bsz, _, hbsz, _, _, ⟨rfl, rfl⟩, _, _, ⟨hle, rfl⟩, _, _, ⟨hpos, rfl⟩,
      ns, _, hns, na, _, hna, _, _, ⟨hns0, rfl⟩, _, _, ⟨hna0, rfl⟩, _, _, ⟨hsum, rfl⟩, rs, c1, hss, ra, c2, has, _, _, ⟨rfl, rfl⟩, hend⟩ := hr
  have m1 := readInt_moves hbsz
  have m2 := readInt_moves hns
  have m3 := readInt_moves hna
  split at hend
  · simp [Rd.raise] at hend
  · obtain ⟨rfl, rfl⟩ := rd_pure_ok.1 hend
    obtain ⟨a1, a2, a3⟩ := readScalarsV_apart (Apart.nil buf c0 _) (by omega) (by omega) (by omega) hss
    have hz : bsz = (bsz.toNat : Nat) := by omega
    rw [hz] at has
    exact readArraysV_apart hneg a1 (by omega) (by omega) (by omega) has

theorem readLoopV_apart {cfg : NpCfg} {buf : Bytes} (hneg : ¬ NegSlist buf) {fuel rn : Nat} {c : Int} {vs : List VRec} (h0 : 0 ≤ c)
    (h : readLoopV cfg buf fuel rn c = .ok vs) :
    ∀ (i : Nat) (r : VRec), vs[i]? = some r → ∃ lo hi : Int, c ≤ lo ∧ hi ≤ buf.length ∧ Apart buf lo hi r ∧
      ∀ (j : Nat) (s : VRec), i < j → vs[j]? = some s → ∃ lo' hi' : Int, hi ≤ lo' ∧ Apart buf lo' hi' s := by
  induction fuel generalizing rn c vs with
  | zero =>
    rw [readLoopV.eq_def] at h
    simp only at h
    split at h
    · cases h
    · cases h
      intro i r hi
      simp at hi
  | succ fuel ih =>
    rw [readLoopV.eq_def] at h
    simp only at h
    split at h
    · rename_i hc
      cases hr : readRecordV cfg buf rn c with
      | mk res c1 =>
        rw [hr] at h
        cases res with
        | error e => cases h
        | ok r =>
          simp only at h
          cases hl : readLoopV cfg buf fuel (rn + 1) c1 with
          | error e => rw [hl] at h; cases h
          | ok rs =>
            rw [hl] at h
            cases h
            obtain ⟨a1, a2, a3⟩ := readRecordV_apart hneg h0 (by omega) hr
            have ih := ih (by omega) hl
            intro i s hi
            cases i with
            | zero =>
              cases hi
              refine ⟨c, c1, Int.le_refl _, a3, a1, ?_⟩
              intro j t hj ht
              obtain ⟨j, rfl⟩ : ∃ j', j = j' + 1 := ⟨j - 1, by omega⟩
              obtain ⟨lo, hi, b1, -, b2, -⟩ := ih j t ht
              exact ⟨lo, hi, b1, b2⟩
            | succ i =>
              obtain ⟨lo, hi', b1, b0, b2, b3⟩ := ih i s hi
              refine ⟨lo, hi', by omega, b0, b2, ?_⟩
              intro j t hj ht
              obtain ⟨j, rfl⟩ : ∃ j', j = j' + 1 := ⟨j - 1, by omega⟩
              exact b3 j t (by omega) ht
    · cases h
      intro i r hi
      simp at hi

end Verif
