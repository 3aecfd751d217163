import Verif.Dmap.Lemmas.Extra
/-!
# Reading depends only on the bytes from the cursor on
-/
namespace Verif
open Spec

/-- Two buffers of the same length that agree from offset `k` on. -/
def SameFrom (k : Nat) (buf buf' : Bytes) : Prop :=
  buf.length = buf'.length ∧ buf.drop k = buf'.drop k

/-- From offset `k` on the two computations do the same and stay at or after `k`. -/
def Sim {α : Type} (k : Nat) (m m' : Rd α) : Prop :=
  ∀ c : Int, (k : Int) ≤ c → m c = m' c ∧ ∀ a c', m c = (.ok a, c') → (k : Int) ≤ c'

namespace Sim
variable {α β : Type} {k : Nat}

theorem bind {m m' : Rd α} {f f' : α → Rd β} (h : Sim k m m') (hf : ∀ a, Sim k (f a) (f' a)) :
    Sim k (m >>= f) (m' >>= f') := by
  intro c hc
  obtain ⟨h1, h2⟩ := h c hc
  cases hm : m c with
  | mk r c1 =>
    cases r with
    | error e =>
      rw [rd_bind_stop hm, rd_bind_stop (h1 ▸ hm)]
      exact ⟨rfl, fun a c' h => by cases h⟩
    | ok a =>
      rw [rd_bind_run hm, rd_bind_run (h1 ▸ hm)]
      exact hf a c1 (h2 a c1 hm)

theorem refl {m : Rd α} (h : ∀ c a c', m c = (.ok a, c') → c ≤ c') : Sim k m m := by
  intro c hc
  exact ⟨rfl, fun a c' h' => by have := h c a c' h'; omega⟩

theorem pure (a : α) : Sim k (Pure.pure a : Rd α) (Pure.pure a) :=
  refl fun c _ c' h => by rw [rd_pure_ok] at h; omega

theorem raise (e : Err) : Sim k (Rd.raise e : Rd α) (Rd.raise e) :=
  refl fun c _ c' h => by simp [Rd.raise] at h

theorem ite {p : Prop} [Decidable p] {m1 m2 m1' m2' : Rd α} (h1 : Sim k m1 m1') (h2 : Sim k m2 m2') :
    Sim k (if p then m1 else m2) (if p then m1' else m2') := by
  split
  · exact h1
  · exact h2

theorem cursor : Sim k Rd.cursor Rd.cursor := refl fun c _ c' h => by rw [rd_cursor_ok] at h; omega

theorem zeroNegativeCheck (rn : Nat) (x : Int) : Sim k (zeroNegativeCheck rn x) (zeroNegativeCheck rn x) :=
  refl fun c _ c' h => by rw [zeroNegativeCheck_ok] at h; omega

theorem bytesCheck (rn : Nat) (x b : Int) : Sim k (bytesCheck rn x b) (bytesCheck rn x b) :=
  refl fun c _ c' h => by rw [bytesCheck_ok] at h; omega

theorem checkDataType (rn n : Nat) (name : PyStr) :
    Sim k (checkDataType rn n name) (checkDataType rn n name) :=
  refl fun c p c' h => by
    unfold Verif.checkDataType at h
    cases hl : dmapDataTypes.lookup n with
    | none => rw [hl] at h; simp [Rd.raise] at h
    | some q => rw [hl] at h; simp [Rd.pure] at h; omega

end Sim

section
variable {k : Nat} {buf buf' : Bytes} (hs : SameFrom k buf buf')
include hs

theorem SameFrom.drop {n : Nat} (hn : k ≤ n) : buf.drop n = buf'.drop n := by
  have : n = k + (n - k) := by omega
  rw [this, ← List.drop_drop, ← List.drop_drop, hs.2]

theorem sim_readPre (n : Nat) : Sim k (readPre buf n) (readPre buf' n) := by
  intro c hc
  unfold readPre
  rw [hs.1]
  refine ⟨rfl, fun a c' h => ?_⟩
  split at h
  · cases h
  · split at h
    · cases h
    · cases h; exact hc

theorem pyIndex_same {c : Int} (hc : (k : Int) ≤ c) : pyIndex buf c = pyIndex buf' c := by
  unfold pyIndex
  rw [if_pos (by omega), if_pos (by omega)]
  have h := hs.drop (n := c.toNat) (by omega)
  have h1 : buf[c.toNat]? = (buf.drop c.toNat)[0]? := by simp
  have h2 : buf'[c.toNat]? = (buf'.drop c.toNat)[0]? := by simp
  rw [h1, h2, h]

theorem unpackFrom_same {n : Nat} {c : Int} (hc : (k : Int) ≤ c) : unpackFrom buf n c = unpackFrom buf' n c := by
  unfold unpackFrom
  have hc0 : ¬ c < 0 := by omega
  rw [if_neg hc0, if_neg hc0, hs.1, hs.drop (n := c.toNat) (by omega)]

theorem scanNul_same {c : Int} (hc : (k : Int) ≤ c) (fuel n : Nat) :
    scanNul buf c fuel n = scanNul buf' c fuel n := by
  induction fuel generalizing n with
  | zero => rfl
  | succ fuel ih =>
    unfold scanNul
    rw [pyIndex_same hs (c := c + n) (by omega), hs.1, ih]

theorem sim_readDataN (n : Nat) : Sim k (readDataN buf n) (readDataN buf' n) := by
  unfold readDataN
  refine (sim_readPre hs n).bind fun _ => ?_
  intro c hc
  rw [rd_bind_run (cursor_run c), rd_bind_run (cursor_run c), unpackFrom_same hs hc]
  cases unpackFrom buf' n c with
  | none => exact ⟨rfl, fun a c' h => by simp [Rd.raise] at h⟩
  | some bs =>
    refine ⟨rfl, fun a c' h => ?_⟩
    simp only [rd_bind_ok, rd_setCursor_ok, rd_pure_ok] at h
    obtain ⟨_, _, rfl, _, rfl⟩ := h
    omega

theorem sim_readInt : Sim k (readInt buf) (readInt buf') := (sim_readDataN hs 4).bind fun _ => .pure _

theorem sim_readDataC : Sim k (readDataC buf) (readDataC buf') := by
  unfold readDataC
  refine (sim_readPre hs 1).bind fun _ => ?_
  intro c hc
  rw [rd_bind_run (cursor_run c), rd_bind_run (cursor_run c), pyIndex_same hs hc]
  cases pyIndex buf' c with
  | none => exact ⟨rfl, fun a c' h => by simp [Rd.raise] at h⟩
  | some bs =>
    refine ⟨rfl, fun a c' h => ?_⟩
    simp only [rd_bind_ok, rd_setCursor_ok, rd_pure_ok] at h
    obtain ⟨_, _, rfl, _, rfl⟩ := h
    omega

theorem sim_readDataS (rn : Nat) : Sim k (readDataS buf rn) (readDataS buf' rn) := by
  unfold readDataS
  refine (sim_readPre hs 1).bind fun _ => ?_
  intro c hc
  rw [rd_bind_run (cursor_run c), rd_bind_run (cursor_run c), scanNul_same hs hc, hs.1]
  cases scanNul buf' c ((buf'.length - c).toNat + 1) 0 with
  | none => exact ⟨rfl, fun a c' h => by simp [Rd.raise] at h⟩
  | some n =>
    simp only []
    rw [unpackFrom_same hs hc]
    refine ⟨rfl, fun a c' h => ?_⟩
    rw [rd_bind_ok] at h
    obtain ⟨_, c1, hb, h⟩ := h
    rw [bytesCheck_ok] at hb
    cases hu : unpackFrom buf' n c with
    | none => rw [hu] at h; simp [Rd.raise] at h
    | some bs =>
      rw [hu] at h
      simp only [rd_bind_ok, rd_setCursor_ok] at h
      obtain ⟨_, c2, rfl, h⟩ := h
      cases hd : utf8Decode bs with
      | none => rw [hd] at h; simp [Rd.raise] at h
      | some s => rw [hd] at h; simp only [rd_pure_ok] at h; omega

theorem sim_readData (rn : Nat) (fm : Fmt) (n : Nat) :
    Sim k (readData buf rn fm n) (readData buf' rn fm n) := by
  unfold readData
  split
  · exact (sim_readDataC hs).bind fun _ => .pure _
  · exact (sim_readDataS hs rn).bind fun _ => .pure _
  · exact (sim_readDataN hs n).bind fun _ => .pure _

theorem sim_readScalar (rn : Nat) : Sim k (readScalar buf rn) (readScalar buf' rn) := by
  unfold readScalar
  refine (sim_readDataS hs rn).bind fun _ => (sim_readDataC hs).bind fun _ =>
    (Sim.checkDataType _ _ _).bind fun p => ?_
  exact .ite ((sim_readData hs _ _ _).bind fun _ => .pure _) (.raise _)

theorem sim_readInts (n : Nat) : Sim k (readInts buf n) (readInts buf' n) := by
  induction n with
  | zero => exact Sim.pure []
  | succ n ih => exact (sim_readInt hs).bind fun _ => ih.bind fun _ => .pure _

theorem sim_readHead (rn : Nat) (n : Int) : Sim k (readHead buf rn n) (readHead buf' rn n) := by
  unfold readHead
  exact (sim_readDataS hs rn).bind fun _ => (sim_readDataC hs).bind fun _ =>
    (Sim.checkDataType _ _ _).bind fun p => (sim_readInt hs).bind fun _ => (Sim.bytesCheck _ _ _).bind fun _ =>
    (Sim.zeroNegativeCheck _ _).bind fun _ => (sim_readInts hs _).bind fun _ => .pure _

theorem npFrombuffer_same {sz : Nat} {count off : Int} (h : (k : Int) ≤ off) :
    npFrombuffer buf sz count off = npFrombuffer buf' sz count off := by
  unfold npFrombuffer
  rw [hs.1, hs.drop (n := off.toNat) (by omega)]

theorem readNumericalArray_same (cfg : NpCfg) (sh : List Int) (fm : Fmt) (t : Int) (sz : Nat) {c : Int}
    (h : (k : Int) ≤ c) :
    readNumericalArray cfg buf sh fm t sz c = readNumericalArray cfg buf' sh fm t sz c := by
  unfold readNumericalArray
  rw [rd_bind_run (cursor_run c), rd_bind_run (cursor_run c), npFrombuffer_same hs h]

/-- One array is decoded in the same way (its size may be negative, so nothing is said about
where it ends). -/
theorem readArray_same (cfg : NpCfg) (rn : Nat) (n : Int) {c : Int} (h : (k : Int) ≤ c) :
    readArray cfg buf rn n c = readArray cfg buf' rn n c := by
  rw [readArray_eq, readArray_eq]
  obtain ⟨h1, h2⟩ := sim_readHead hs rn n c h
  cases hm : readHead buf rn n c with
  | mk r c1 =>
    cases r with
    | error e => rw [rd_bind_stop hm, rd_bind_stop (h1 ▸ hm)]
    | ok hd =>
      rw [rd_bind_run hm, rd_bind_run (h1 ▸ hm)]
      have hc1 := h2 hd c1 hm
      unfold readTail
      generalize (if hd.dim > 1 then hd.dims.reverse else hd.dims) = sh
      split
      · rfl
      · split
        · rfl
        · cases e1 : bytesCheck rn (prodInt sh) n c1 with
          | mk r c2 =>
            cases r with
            | error e => rw [rd_bind_stop e1, rd_bind_stop e1]
            | ok u =>
              rw [rd_bind_run e1, rd_bind_run e1]
              rw [bytesCheck_ok] at e1
              obtain ⟨_, rfl⟩ := e1
              cases e2 : bytesCheck rn (prodInt sh * hd.size) n c2 with
              | mk r c3 =>
                cases r with
                | error e => rw [rd_bind_stop e2, rd_bind_stop e2]
                | ok u =>
                  rw [rd_bind_run e2, rd_bind_run e2]
                  rw [bytesCheck_ok] at e2
                  obtain ⟨_, rfl⟩ := e2
                  split
                  · rfl
                  · split
                    · rfl
                    · have := readNumericalArray_same hs cfg sh hd.fmt (prodInt sh) hd.size hc1
                      cases e3 : readNumericalArray cfg buf sh hd.fmt (prodInt sh) hd.size c3 with
                      | mk r c4 =>
                        cases r with
                        | error e => rw [rd_bind_stop e3, rd_bind_stop (this ▸ e3)]
                        | ok v => rw [rd_bind_run e3, rd_bind_run (this ▸ e3)]

theorem sim_readArrays (hneg : ¬ NegSlist buf) (cfg : NpCfg) (rn n : Nat) (hn : n < 2 ^ 31) (j : Nat) (r : Rec)
    {c : Int} (hc : (k : Int) ≤ c) (hc1 : c ≤ buf.length) :
    readArrays cfg buf rn n j r c = readArrays cfg buf' rn n j r c := by
  induction j generalizing c r with
  | zero => rfl
  | succ j ih =>
    unfold readArrays
    have h1 := readArray_same hs cfg rn n hc
    cases hm : readArray cfg buf rn n c with
    | mk x c1 =>
      cases x with
      | error e => rw [rd_bind_stop hm, rd_bind_stop (h1 ▸ hm)]
      | ok a =>
        rw [rd_bind_run hm, rd_bind_run (h1 ▸ hm)]
        obtain ⟨b, _, hat, rfl⟩ := (readArray_exact rn n hn c a c1 (by omega) hc1
          (readArray_nonneg hneg (by omega) hc1 hm)).1 hm
        have := hat.bounds
        exact ih _ (by omega) (by omega)

theorem sim_readScalars (rn n : Nat) (r : Rec) : Sim k (readScalars buf rn n r) (readScalars buf' rn n r) := by
  induction n generalizing r with
  | zero => exact Sim.pure r
  | succ n ih => exact (sim_readScalar hs rn).bind fun _ => ih _

end

/-- `read_record` at offset `k` does not look at the first four bytes of the block. -/
theorem readRecord_same {k : Nat} {buf buf' : Bytes} (hs : SameFrom (k + 4) buf buf')
    (hneg : ¬ NegSlist buf) (cfg : NpCfg) (rn : Nat) :
    readRecord cfg buf rn k = readRecord cfg buf' rn k := by
  unfold readRecord
  rw [rd_bind_run (cursor_run _), rd_bind_run (cursor_run _), rd_bind_run (setCursor_run _ _),
    rd_bind_run (setCursor_run _ _), hs.1]
  have step : ∀ {α β : Type} {m m' : Rd α} {f f' : α → Rd β} {c : Int}, m c = m' c →
      (∀ a c', m c = (.ok a, c') → f a c' = f' a c') → (m >>= f) c = (m' >>= f') c := by
    intro α β m m' f f' c h hf
    cases hm : m c with
    | mk x c1 =>
      cases x with
      | error e => rw [rd_bind_stop hm, rd_bind_stop (h ▸ hm)]
      | ok a => rw [rd_bind_run hm, rd_bind_run (h ▸ hm)]; exact hf a c1 hm
  have c4 : ((k + 4 : Nat) : Int) ≤ (k : Int) + 4 := by omega
  refine step (sim_readInt hs _ c4).1 fun bsz c1 h1 => ?_
  obtain ⟨g1, ga, g2⟩ := (readInt_ok (by omega)).1 h1
  have hb := ga.bounds
  rw [length_intLE] at hb
  rw [rd_bind_run (cursor_run _), rd_bind_run (cursor_run _)]
  refine step rfl fun _ c2 h2 => ?_
  rw [bytesCheck_ok] at h2
  refine step rfl fun _ c3 h3 => ?_
  rw [zeroNegativeCheck_ok] at h3
  have hc3 : ((k + 4 : Nat) : Int) ≤ c3 := by omega
  refine step (sim_readInt hs _ hc3).1 fun ns c5 h5 => ?_
  have hc5 := (sim_readInt hs _ hc3).2 _ _ h5
  refine step (sim_readInt hs _ hc5).1 fun na c6 h6 => ?_
  obtain ⟨_, g6, g7⟩ := (readInt_ok (by omega)).1 h6
  have hb6 := g6.bounds
  rw [length_intLE] at hb6
  refine step rfl fun _ c7 h7 => ?_
  rw [zeroNegativeCheck_ok] at h7
  refine step rfl fun _ c8 h8 => ?_
  rw [zeroNegativeCheck_ok] at h8
  refine step rfl fun _ c9 h9 => ?_
  rw [bytesCheck_ok] at h9
  have hc9 : ((k + 4 : Nat) : Int) ≤ c9 := by omega
  refine step (sim_readScalars hs rn _ _ _ hc9).1 fun r c10 h10 => ?_
  have hc10 := (sim_readScalars hs rn _ _ _ hc9).2 _ _ h10
  have hin := (readScalars_in (buf := buf) rn ns.toNat [] c9 ⟨by omega, by omega⟩).2 _ _ h10
  obtain ⟨n, rfl⟩ : ∃ n : Nat, bsz = n := ⟨bsz.toNat, by omega⟩
  have hn : n < 2 ^ 31 := by unfold signedOk at g1; omega
  refine step (sim_readArrays hs hneg cfg rn n hn _ _ hc10 hin.2) fun r' c11 _ => ?_
  rfl

end Verif
