import Verif.Dmap.Props.Views
/-!
# C74: every array that is read shows bytes of the file

With no condition on the file: also with negative `slist` dimensions, which move the cursor backwards and even before the first
byte, every array lies inside the file.
-/
namespace Verif
open Spec

/-- Whatever the cursor, a result that is returned has this property. -/
def RdGives {α : Type} (x : Rd α) (P : α → Prop) : Prop := ∀ c a c', x c = (.ok a, c') → P a

theorem rdGives_bind {α β : Type} {x : Rd α} {f : α → Rd β} {Q : α → Prop} {P : β → Prop} (hx : RdGives x Q)
    (hf : ∀ a, Q a → RdGives (f a) P) : RdGives (x >>= f) P := by
  intro c b c' h
  rw [rd_bind_ok] at h
  obtain ⟨a, c1, h1, h2⟩ := h
  exact hf a (hx _ _ _ h1) _ _ _ h2

theorem rdGives_step {α β : Type} {x : Rd α} {f : α → Rd β} {P : β → Prop} (hf : ∀ a, RdGives (f a) P) : RdGives (x >>= f) P :=
  rdGives_bind (Q := fun _ => True) (fun _ _ _ _ => trivial) fun a _ => hf a

theorem rdGives_raise {α : Type} {e : Err} {P : α → Prop} : RdGives (Rd.raise e : Rd α) P := by
  intro c a c' h
  simp [Rd.raise] at h

theorem rdGives_pure {α : Type} {a : α} {P : α → Prop} (h : P a) : RdGives (Pure.pure a : Rd α) P := by
  intro c b c' e
  obtain ⟨rfl, -⟩ := rd_pure_ok.1 e
  exact h

theorem rdGives_ite {α : Type} {p : Prop} [Decidable p] {x y : Rd α} {P : α → Prop} (hx : RdGives x P) (hy : RdGives y P) :
    RdGives (if p then x else y) P := by
  split
  · exact hx
  · exact hy

/-- The cells are those at the place, which is inside the file. -/
def ShowsPlace (buf : Bytes) (cells : List Bytes) (v : View) : Prop :=
  cells = v.cells buf ∧ v.start + v.count * v.cell ≤ buf.length ∧ v.count = cells.length

theorem rdGives_numericalArray (cfg : NpCfg) (buf : Bytes) (shape : List Int) (fmt : Fmt) (total : Int) (size : Nat) :
    RdGives (readNumericalArrayV cfg buf shape fmt total size) fun p => ShowsPlace buf p.1.cells p.2 := by
  intro c p c' h
  rw [readNumericalArrayV_run] at h
  cases hr : readNumericalArray cfg buf shape fmt total size c with
  | mk r c3 =>
    rw [hr] at h
    cases r with
    | error e => simp [less] at h
    | ok arr =>
      simp only [less, Prod.mk.injEq, Except.ok.injEq] at h
      obtain ⟨rfl, rfl⟩ := h
      unfold readNumericalArray at hr
      rw [rd_bind_ok] at hr
      obtain ⟨q, q', e1, hr⟩ := hr
      obtain ⟨eq, eq'⟩ := rd_cursor_ok.1 e1
      rw [eq, eq'] at hr
      rw [rd_bind_ok] at hr
      obtain ⟨cells, _, e2, hr⟩ := hr
      rw [rd_bind_ok] at hr
      obtain ⟨_, _, e3, hr⟩ := hr
      cases rd_setCursor_ok.1 e3
      rw [rd_bind_ok] at hr
      obtain ⟨shp, _, e4, hr⟩ := hr
      obtain ⟨rfl, rfl⟩ := rd_pure_ok.1 hr
      simp only [Rd.lift, Prod.mk.injEq] at e2
      obtain ⟨e2, -⟩ := e2
      simp only [ShowsPlace, View.cells]
      unfold npFrombuffer at e2
      split at e2
      · cases e2
      · split at e2
        · cases e2
        · dsimp only at e2
          have hlen := List.length_drop (i := c.toNat) (l := buf)
          split at e2
          · split at e2
            · cases e2
            · split at e2
              · cases e2
              · cases e2
                rw [length_chunks]
                refine ⟨rfl, ?_, trivial⟩
                have := Nat.div_mul_le_self (buf.drop c.toNat).length size
                omega
          · split at e2
            · cases e2
            · cases e2
              rw [length_chunks]
              have ht : total = (total.toNat : Nat) := by omega
              have hcast : ((total.toNat * size : Nat) : Int) = total * size := by
                rw [Int.natCast_mul, ← ht]
              exact ⟨rfl, by omega, trivial⟩

theorem rdGives_array (cfg : NpCfg) (buf : Bytes) (rn : Nat) (z : Int) :
    RdGives (readArrayV cfg buf rn z) fun p => ShowsPlace buf p.1.value.cells p.2 := by
  refine rdGives_step fun name => rdGives_step fun code => rdGives_step fun p => rdGives_step fun dim =>
    rdGives_step fun _ => rdGives_step fun _ => rdGives_step fun dims => ?_
  refine rdGives_ite rdGives_raise (rdGives_ite rdGives_raise (rdGives_step fun _ => rdGives_step fun _ =>
    rdGives_ite rdGives_raise (rdGives_ite rdGives_raise ?_)))
  exact rdGives_bind (rdGives_numericalArray cfg buf _ _ _ _) fun p hp => rdGives_pure hp

/-- Every array of the record has a place and shows what is there. -/
def AllShowPlaces (buf : Bytes) (r : VRec) : Prop :=
  ∀ k a v, Dict.get? r k = some (.array a, v) → ∃ w, v = some w ∧ ShowsPlace buf a.value.cells w

theorem AllShowPlaces.set {buf : Bytes} {r : VRec} (h : AllShowPlaces buf r) {k : PyStr} {f : Field} {v : Option View}
    (hf : ∀ a, f = .array a → ∃ w, v = some w ∧ ShowsPlace buf a.value.cells w) : AllShowPlaces buf (Dict.set r k (f, v)) := by
  intro k' a w hg
  by_cases e : k = k'
  · subst e
    rw [Dict.get?_set_self] at hg
    cases hg
    exact hf a rfl
  · rw [Dict.get?_set_ne _ e] at hg
    exact h k' a w hg

theorem rdGives_scalars (buf : Bytes) (rn n : Nat) {r : VRec} (h : AllShowPlaces buf r) :
    RdGives (readScalarsV buf rn n r) (AllShowPlaces buf) := by
  induction n generalizing r with
  | zero => exact rdGives_pure h
  | succ n ih => exact rdGives_step fun s => ih (h.set fun a e => by cases e)

theorem rdGives_arrays (cfg : NpCfg) (buf : Bytes) (rn : Nat) (z : Int) (n : Nat) {r : VRec} (h : AllShowPlaces buf r) :
    RdGives (readArraysV cfg buf rn z n r) (AllShowPlaces buf) := by
  induction n generalizing r with
  | zero => exact rdGives_pure h
  | succ n ih =>
    refine rdGives_bind (rdGives_array cfg buf rn z) fun p hp => ih (h.set fun a e => ?_)
    cases e
    exact ⟨_, rfl, hp⟩

theorem rdGives_record (cfg : NpCfg) (buf : Bytes) (rn : Nat) : RdGives (readRecordV cfg buf rn) (AllShowPlaces buf) :=
  rdGives_step fun _ => rdGives_step fun _ => rdGives_step fun _ => rdGives_step fun _ => rdGives_step fun _ => rdGives_step fun _ =>
    rdGives_step fun _ => rdGives_step fun _ => rdGives_step fun _ => rdGives_step fun _ => rdGives_step fun _ =>
    rdGives_bind (rdGives_scalars buf rn _ (r := []) fun _ _ _ h => by simp [Dict.get?] at h) fun _ h =>
    rdGives_bind (rdGives_arrays cfg buf rn _ _ h) fun _ h' => rdGives_step fun _ => rdGives_ite rdGives_raise (rdGives_pure h')

theorem readLoopV_shown {cfg : NpCfg} {buf : Bytes} {fuel rn : Nat} {c : Int} {vs : List VRec}
    (h : readLoopV cfg buf fuel rn c = .ok vs) : ∀ r ∈ vs, AllShowPlaces buf r := by
  induction fuel generalizing rn c vs with
  | zero =>
    rw [readLoopV] at h
    split at h
    · cases h
    · cases h; simp
  | succ fuel ih =>
    rw [readLoopV.eq_def] at h
    dsimp only at h
    split at h
    · cases hr : readRecordV cfg buf rn c with
      | mk x c' =>
        rw [hr] at h
        cases x with
        | error e => cases h
        | ok r =>
          dsimp only at h
          cases hl : readLoopV cfg buf fuel (rn + 1) c' with
          | error e => rw [hl] at h; cases h
          | ok rs =>
            rw [hl] at h
            cases h
            intro r' hm
            rcases List.mem_cons.1 hm with rfl | hm
            · exact rdGives_record cfg buf rn _ _ _ hr
            · exact ih hl r' hm
    · cases h; simp

/-- **C74** (the part without a condition on the file.)  Every array that is read, from whatever bytes, has a place inside the file
and shows the bytes there. -/
theorem C74_inside (cfg : NpCfg) {bs : Bytes} {rs : List Rec} {ds : List PlainRec} (h : readFile cfg bs = .ok (rs, ds)) :
    ∃ vs, readViews cfg bs = .ok vs ∧ rs = vs.map VRec.plain ∧
      ∀ (i : Nat) r k a, rs[i]? = some r → r.get? k = some (.array a) →
        ∃ v, ArrayAt vs i k a v ∧ a.value.cells = v.cells bs ∧ v.start + v.count * v.cell ≤ bs.length ∧
          v.count = a.value.cells.length := by
  obtain ⟨vs, hv, hr⟩ := readViews_same h
  refine ⟨vs, hv, hr, ?_⟩
  intro i r' k a h1 h2
  rw [hr, List.getElem?_map] at h1
  cases hi : vs[i]? with
  | none => rw [hi] at h1; cases h1
  | some r =>
    rw [hi] at h1
    cases h1
    rw [get?_plain] at h2
    cases hg : Dict.get? r k with
    | none => rw [hg] at h2; cases h2
    | some p =>
      obtain ⟨f, v⟩ := p
      rw [hg] at h2
      cases h2
      obtain ⟨w, rfl, h3, h4, h5⟩ := readLoopV_shown hv r (List.mem_of_getElem? hi) k a v hg
      exact ⟨w, ⟨r, hi, hg⟩, h3, h4, h5⟩

/-- **C72** (the part without a condition on the file.)  No array that is read, from whatever bytes, has more bytes than the file:
its bytes stand in the file, one after the other. -/
theorem C72_array (cfg : NpCfg) {bs : Bytes} {rs : List Rec} {ds : List PlainRec} (h : readFile cfg bs = .ok (rs, ds)) {r : Rec}
    (hr : r ∈ rs) {k : PyStr} {a : DmapArray} (ha : r.get? k = some (.array a)) :
    a.value.cells.flatten <:+: bs ∧ a.value.cells.flatten.length ≤ bs.length := by
  obtain ⟨vs, -, -, hv⟩ := C74_inside cfg h
  obtain ⟨i, hi⟩ := List.getElem?_of_mem hr
  obtain ⟨v, -, h1, h2, -⟩ := hv i r k a hi ha
  have hl : v.count * v.cell ≤ (bs.drop v.start).length := by
    rw [List.length_drop]; omega
  have hx : a.value.cells.flatten <:+: bs := by
    rw [h1, View.cells, (chunks_flatten hl).1]
    exact (List.take_prefix _ _).isInfix.trans (List.drop_suffix _ _).isInfix
  exact ⟨hx, hx.length_le⟩

/-- A file with a negative `slist` dimension that is read. -/
example : ∃ r, readFile numpy2 twiceRead = .ok r ∧ ∃ v a, ArrayAt (placed twiceRead) 0 slist a v ∧ v = ⟨57, 1, 3⟩ :=
  ⟨_, rfl, _, _, ⟨_, rfl, rfl⟩, rfl⟩

/-- Its `slist` (`C72_array`). -/
example : ∃ r rec a, readFile numpy2 twiceRead = .ok r ∧ rec ∈ r.1 ∧ Dict.get? rec slist = some (.array a) ∧
    a.value.cells.flatten.length = 3 :=
  ⟨_, _, _, rfl, List.mem_cons_self, rfl, rfl⟩

end Verif
