import Verif.Dmap.Model.Steps
import Verif.Dmap.Lemmas.Record
/-!
# Counting steps
-/
namespace Verif
open Spec

/-- The counted computation does what the other does. -/
def SameRun {α : Type} (x : RdS α) (y : Rd α) : Prop := ∀ c, (x c).1 = y c

theorem sim_pure {α : Type} (a : α) : SameRun (Pure.pure a : RdS α) (Pure.pure a) := fun _ => rfl

theorem sim_ofRd {α : Type} (y : Rd α) : SameRun (RdS.ofRd y) y := fun _ => rfl

theorem sim_bind {α β : Type} {x : RdS α} {y : Rd α} {f : α → RdS β} {g : α → Rd β} (h : SameRun x y)
    (hf : ∀ a, SameRun (f a) (g a)) : SameRun (x >>= f) (y >>= g) := by
  intro c
  show (RdS.bind x f c).1 = Rd.bind y g c
  unfold RdS.bind Rd.bind
  rw [← h c]
  cases x c with
  | mk r t =>
    cases r with
    | mk r c1 =>
      cases r with
      | error e => rfl
      | ok a => exact hf a c1

theorem sim_charge {β : Type} {n : Nat} {f : Unit → RdS β} {g : Rd β} (hf : SameRun (f ()) g) :
    SameRun (RdS.charge n >>= f) g := by
  intro c
  exact hf c

theorem sim_readDataSS (buf : Bytes) (rn : Nat) : SameRun (readDataSS buf rn) (readDataS buf rn) := fun _ => rfl

theorem sim_readDataCS (buf : Bytes) : SameRun (readDataCS buf) (readDataC buf) := sim_charge (sim_ofRd _)

theorem sim_readDataNS (buf : Bytes) (n : Nat) : SameRun (readDataNS buf n) (readDataN buf n) := sim_charge (sim_ofRd _)

theorem sim_readIntS (buf : Bytes) : SameRun (readIntS buf) (readInt buf) :=
  sim_bind (sim_readDataNS buf 4) fun _ => sim_pure _

theorem sim_readDataFS (buf : Bytes) (rn : Nat) (fmt : Fmt) (size : Nat) :
    SameRun (readDataFS buf rn fmt size) (readData buf rn fmt size) := by
  cases fmt <;> first
    | exact sim_bind (sim_readDataCS buf) fun _ => sim_pure _
    | exact sim_bind (sim_readDataSS buf rn) fun _ => sim_pure _
    | exact sim_bind (sim_readDataNS buf size) fun _ => sim_pure _

theorem sim_ite {α : Type} {p : Prop} [Decidable p] {x x' : RdS α} {y y' : Rd α} (h : SameRun x y) (h' : SameRun x' y') :
    SameRun (if p then x else x') (if p then y else y') := by
  split <;> assumption

theorem sim_readScalarS (buf : Bytes) (rn : Nat) : SameRun (readScalarS buf rn) (readScalar buf rn) :=
  sim_bind (sim_readDataSS buf rn) fun _ => sim_bind (sim_readDataCS buf) fun _ =>
    sim_bind (sim_ofRd _) fun _ => sim_ite (sim_bind (sim_readDataFS _ _ _ _) fun _ => sim_pure _) (sim_ofRd _)

theorem sim_readIntsS (buf : Bytes) (n : Nat) : SameRun (readIntsS buf n) (readInts buf n) := by
  induction n with
  | zero => exact sim_pure _
  | succ n ih => exact sim_bind (sim_readIntS buf) fun _ => sim_bind ih fun _ => sim_pure _

/-- The part of `readArrayS` before the shape checks. -/
def readHeadS (buf : Bytes) (rn : Nat) (recordSize : Int) : RdS ArrHead :=
  readDataSS buf rn >>= fun name => readDataCS buf >>= fun n =>
    RdS.ofRd (checkDataType rn n name) >>= fun p => readIntS buf >>= fun dim =>
    RdS.ofRd (bytesCheck rn dim recordSize) >>= fun _ => RdS.ofRd (zeroNegativeCheck rn dim) >>= fun _ =>
    readIntsS buf dim.toNat >>= fun dims => RdS.charge (3 * dims.length) >>= fun _ =>
    Pure.pure { name := name, code := n, fmt := p.1, size := p.2, dim := dim, dims := dims }

theorem sim_readHeadS (buf : Bytes) (rn : Nat) (z : Int) : SameRun (readHeadS buf rn z) (readHead buf rn z) :=
  sim_bind (sim_readDataSS buf rn) fun _ => sim_bind (sim_readDataCS buf) fun _ =>
    sim_bind (sim_ofRd _) fun _ => sim_bind (sim_readIntS buf) fun _ => sim_bind (sim_ofRd _) fun _ =>
    sim_bind (sim_ofRd _) fun _ => sim_bind (sim_readIntsS buf _) fun _ => sim_charge (sim_pure _)

theorem rdS_bind_assoc {α β γ : Type} (m : RdS α) (f : α → RdS β) (g : β → RdS γ) :
    (m >>= f) >>= g = m >>= fun a => f a >>= g := by
  funext c
  show RdS.bind (RdS.bind m f) g c = RdS.bind m (fun a => RdS.bind (f a) g) c
  unfold RdS.bind
  cases m c with
  | mk r t =>
    cases r with
    | mk r c1 =>
      cases r with
      | error e => rfl
      | ok a =>
        simp only
        cases f a c1 with
        | mk r t1 =>
          cases r with
          | mk r c2 =>
            cases r with
            | error e => rfl
            | ok b => simp [Nat.add_assoc]

theorem rdS_pure_bind {α β : Type} (a : α) (f : α → RdS β) : (Pure.pure a : RdS α) >>= f = f a := by
  funext c
  show (((f a) c).1, 0 + (f a c).2) = f a c
  simp

theorem ofRd_bind {α β : Type} (y : Rd α) (g : α → Rd β) :
    (RdS.ofRd y >>= fun a => RdS.ofRd (g a)) = RdS.ofRd (y >>= g) := by
  funext c
  show RdS.bind (RdS.ofRd y) _ c = (Rd.bind y g c, 0)
  unfold RdS.bind Rd.bind RdS.ofRd
  cases y c with
  | mk r c1 => cases r <;> rfl

theorem ofRd_pure {α : Type} (a : α) : (Pure.pure a : RdS α) = RdS.ofRd (Pure.pure a) := rfl

theorem ofRd_ite {α : Type} (p : Prop) [Decidable p] (x y : Rd α) :
    (if p then RdS.ofRd x else RdS.ofRd y) = RdS.ofRd (if p then x else y) := by split <;> rfl

theorem readArrayS_eq (cfg : NpCfg) (buf : Bytes) (rn : Nat) (z : Int) :
    readArrayS cfg buf rn z = readHeadS buf rn z >>= fun h => RdS.ofRd (readTail cfg buf rn z h) := by
  unfold readArrayS readHeadS
  simp only [rdS_bind_assoc, ofRd_pure, ofRd_bind, ofRd_ite]
  rfl

theorem sim_readArrayS (cfg : NpCfg) (buf : Bytes) (rn : Nat) (z : Int) :
    SameRun (readArrayS cfg buf rn z) (readArray cfg buf rn z) := by
  rw [readArrayS_eq, readArray_eq]
  exact sim_bind (sim_readHeadS _ _ _) fun _ => sim_ofRd _

theorem sim_readScalarsS (buf : Bytes) (rn n : Nat) (r : Rec) : SameRun (readScalarsS buf rn n r) (readScalars buf rn n r) := by
  induction n generalizing r with
  | zero => exact sim_pure _
  | succ n ih => exact sim_bind (sim_readScalarS _ _) fun _ => ih _

theorem sim_readArraysS (cfg : NpCfg) (buf : Bytes) (rn : Nat) (z : Int) (n : Nat) (r : Rec) :
    SameRun (readArraysS cfg buf rn z n r) (readArrays cfg buf rn z n r) := by
  induction n generalizing r with
  | zero => exact sim_pure _
  | succ n ih => exact sim_bind (sim_readArrayS _ _ _ _) fun _ => ih _

theorem sim_readRecordS (cfg : NpCfg) (buf : Bytes) (rn : Nat) : SameRun (readRecordS cfg buf rn) (readRecord cfg buf rn) :=
  sim_bind (sim_ofRd _) fun _ => sim_bind (sim_ofRd _) fun _ => sim_bind (sim_readIntS buf) fun _ =>
    sim_bind (sim_ofRd _) fun _ => sim_bind (sim_ofRd _) fun _ => sim_bind (sim_ofRd _) fun _ =>
    sim_bind (sim_readIntS buf) fun _ => sim_bind (sim_readIntS buf) fun _ => sim_bind (sim_ofRd _) fun _ =>
    sim_bind (sim_ofRd _) fun _ => sim_bind (sim_ofRd _) fun _ => sim_bind (sim_readScalarsS _ _ _ _) fun _ =>
    sim_bind (sim_readArraysS _ _ _ _ _ _) fun _ => sim_bind (sim_ofRd _) fun _ => sim_ite (sim_ofRd _) (sim_pure _)

theorem integrityLoopS_eq (buf : Bytes) (rn fuel : Nat) (total c : Int) :
    (integrityLoopS buf rn fuel total c).1 = integrityLoop buf rn fuel total c := by
  induction fuel generalizing total c with
  | zero => unfold integrityLoopS integrityLoop; split <;> rfl
  | succ n ih =>
    unfold integrityLoopS integrityLoop
    split
    · have h := sim_bind (sim_readIntS buf) (fun b => sim_bind (sim_ofRd (zeroNegativeCheck rn b)) fun _ =>
        sim_bind (sim_ofRd (bytesCheck rn (total + b) buf.length)) fun _ => sim_pure b) (c + 4)
      simp only [← h]
      split
      · rename_i heq; simp [heq]
      · rename_i heq; simp [heq, ih]
    · rfl

theorem readLoopS_eq (cfg : NpCfg) (fuel : Nat) (r : Reader) :
    (Reader.readLoopS cfg fuel r).1 = Reader.readLoop cfg fuel r := by
  induction fuel generalizing r with
  | zero => unfold Reader.readLoopS Reader.readLoop; split <;> rfl
  | succ n ih =>
    unfold Reader.readLoopS Reader.readLoop
    split
    · have h := sim_readRecordS cfg r.buf r.recNum r.cursor
      simp only [← h]
      split
      · rename_i heq; simp [heq]
      · rename_i heq; simp [heq, ih]
    · rfl

/-! ## Whatever the cursor is -/

/-- At most `k` steps. -/
def Takes {α : Type} (x : RdS α) (k : Nat) : Prop := ∀ c, (x c).2 ≤ k

namespace Takes
variable {α β : Type}

theorem pure (a : α) : Takes (Pure.pure a : RdS α) 0 := fun _ => Nat.le_refl _

theorem ofRd (y : Rd α) : Takes (RdS.ofRd y) 0 := fun _ => Nat.le_refl _

theorem charge (n : Nat) : Takes (RdS.charge n) n := fun _ => Nat.le_refl _

theorem mono {x : RdS α} {k l : Nat} (h : Takes x k) (hl : k ≤ l) : Takes x l := fun c => Nat.le_trans (h c) hl

/-- Knowing what the first computation returns. -/
theorem bind_of {x : RdS α} {f : α → RdS β} {k l : Nat} (h : Takes x k)
    (hf : ∀ c a c', (x c).1 = (.ok a, c') → ((f a) c').2 ≤ l) : Takes (x >>= f) (k + l) := by
  intro c
  have h1 := h c
  have h2 := hf c
  show (RdS.bind x f c).2 ≤ _
  unfold RdS.bind
  revert h1 h2
  cases x c with
  | mk r t =>
    cases r with
    | mk r c1 =>
      cases r with
      | error e => intro h1 _; simp at h1 ⊢; omega
      | ok a => intro h1 h2; have := h2 a c1 rfl; simp at h1 ⊢; omega

theorem bind {x : RdS α} {f : α → RdS β} {k l : Nat} (h : Takes x k) (hf : ∀ a, Takes (f a) l) :
    Takes (x >>= f) (k + l) := bind_of h fun _ a c' _ => hf a c'

end Takes

theorem scanSteps_le (buf : Bytes) (c : Int) (fuel n : Nat) : scanSteps buf c fuel n ≤ fuel := by
  induction fuel generalizing n with
  | zero => simp [scanSteps]
  | succ k ih =>
    unfold scanSteps
    split
    · omega
    · split
      · have := ih (n + 1); omega
      · omega

theorem takes_readDataSS (buf : Bytes) (rn : Nat) : Takes (readDataSS buf rn) (2 * buf.length + 2) := by
  intro c
  show 1 + (if c ≥ buf.length then 0 else scanSteps buf c ((buf.length - c).toNat + 1) 0) ≤ _
  split
  · omega
  · by_cases hc : c < -buf.length
    · have : scanSteps buf c ((buf.length - c).toNat + 1) 0 = 1 := by
        unfold scanSteps pyIndex
        rw [if_neg (by omega), if_neg (by omega)]
      omega
    · have := scanSteps_le buf c ((buf.length - c).toNat + 1) 0
      omega

theorem takes_readDataCS (buf : Bytes) : Takes (readDataCS buf) 1 := Takes.bind (Takes.charge 1) fun _ => Takes.ofRd _

theorem takes_readDataNS (buf : Bytes) (n : Nat) : Takes (readDataNS buf n) 1 :=
  Takes.bind (Takes.charge 1) fun _ => Takes.ofRd _

theorem takes_readIntS (buf : Bytes) : Takes (readIntS buf) 1 := Takes.bind (takes_readDataNS buf 4) fun _ => Takes.pure _

theorem takes_readDataFS (buf : Bytes) (rn : Nat) (fmt : Fmt) (size : Nat) :
    Takes (readDataFS buf rn fmt size) (2 * buf.length + 2) := by
  cases fmt <;> first
    | exact (Takes.bind (takes_readDataCS buf) fun _ => Takes.pure _).mono (by omega)
    | exact (Takes.bind (takes_readDataSS buf rn) fun _ => Takes.pure _).mono (by omega)
    | exact (Takes.bind (takes_readDataNS buf size) fun _ => Takes.pure _).mono (by omega)

theorem takes_readScalarS (buf : Bytes) (rn : Nat) : Takes (readScalarS buf rn) (4 * buf.length + 5) := by
  refine (Takes.bind (l := 2 * buf.length + 3) (takes_readDataSS buf rn) fun _ => (Takes.bind (l := 2 * buf.length + 2)
    (takes_readDataCS buf) fun _ => (Takes.bind (l := 2 * buf.length + 2) (Takes.ofRd _) fun _ => ?_).mono ?_).mono ?_).mono ?_
  · dsimp only
    split
    · exact (Takes.bind (l := 0) (takes_readDataFS _ _ _ _) fun _ => Takes.pure _).mono (by omega)
    · exact (Takes.ofRd _).mono (by omega)
  all_goals omega

theorem takes_readIntsS (buf : Bytes) (n : Nat) : Takes (readIntsS buf n) n := by
  induction n with
  | zero => exact Takes.pure _
  | succ n ih => exact (Takes.bind (l := n) (takes_readIntS buf) fun _ => (Takes.bind ih fun _ => Takes.pure _)).mono (by omega)

theorem readInts_length {buf : Bytes} {n : Nat} {c c' : Int} {l : List Int} (h : readInts buf n c = (.ok l, c')) :
    l.length = n := by
  induction n generalizing c l with
  | zero => cases h; rfl
  | succ n ih =>
    unfold readInts at h
    rw [rd_bind_ok] at h
    obtain ⟨x, c1, _, h⟩ := h
    rw [rd_bind_ok] at h
    obtain ⟨xs, c2, h2, h⟩ := h
    rw [rd_pure_ok] at h
    rw [h.1, List.length_cons, ih (h.2 ▸ h2)]

theorem takes_readArrayS (cfg : NpCfg) (buf : Bytes) (rn : Nat) (z : Nat) :
    Takes (readArrayS cfg buf rn z) (2 * buf.length + 4 + 4 * z) := by
  rw [readArrayS_eq]
  refine (Takes.bind (k := 2 * buf.length + 4 + 4 * z) ?_ fun _ => Takes.ofRd _).mono (by omega)
  unfold readHeadS
  refine (Takes.bind (l := 2 + 4 * z) (takes_readDataSS buf rn) fun _ => (Takes.bind (l := 1 + 4 * z)
    (takes_readDataCS buf) fun _ => (Takes.bind (l := 1 + 4 * z) (Takes.ofRd _) fun _ => (Takes.bind (l := 4 * z)
    (takes_readIntS buf) fun dim => (Takes.bind_of (l := 4 * z) (Takes.ofRd _) fun c _ c' h => ?_).mono ?_).mono ?_).mono
    ?_).mono ?_).mono ?_
  · have hd := (bytesCheck_ok.1 h).1
    refine ((Takes.bind (l := 4 * z) (Takes.ofRd _) fun _ => ((Takes.bind_of (l := 3 * z) (takes_readIntsS buf dim.toNat)
      fun c l c' h => ?_).mono ?_)).mono ?_) _
    · have hl : l.length = dim.toNat := readInts_length ((sim_readIntsS buf _ c).symm.trans h)
      refine ((Takes.bind (Takes.charge _) fun _ => Takes.pure _).mono ?_) _
      omega
    all_goals omega
  all_goals omega

theorem takes_readScalarsS (buf : Bytes) (rn n : Nat) (r : Rec) :
    Takes (readScalarsS buf rn n r) (n * (4 * buf.length + 5)) := by
  induction n generalizing r with
  | zero => exact (Takes.pure _).mono (by omega)
  | succ n ih =>
    refine (Takes.bind (takes_readScalarS buf rn) fun _ => ih _).mono ?_
    rw [Nat.add_mul n 1, Nat.one_mul]; exact Nat.le_of_eq (Nat.add_comm _ _)

theorem takes_readArraysS (cfg : NpCfg) (buf : Bytes) (rn z n : Nat) (r : Rec) :
    Takes (readArraysS cfg buf rn z n r) (n * (2 * buf.length + 4 + 4 * z)) := by
  induction n generalizing r with
  | zero => exact (Takes.pure _).mono (by omega)
  | succ n ih =>
    refine (Takes.bind (takes_readArrayS cfg buf rn z) fun _ => ih _).mono ?_
    rw [Nat.add_mul n 1, Nat.one_mul]; exact Nat.le_of_eq (Nat.add_comm _ _)

theorem readInt_moves {buf : Bytes} {c c' x : Int} (h : readInt buf c = (.ok x, c')) : c' = c + 4 ∧ c + 4 ≤ buf.length := by
  unfold readInt at h
  rw [rd_bind_ok] at h
  obtain ⟨bs, c1, h, hp⟩ := h
  rw [rd_pure_ok] at hp
  obtain ⟨_, rfl⟩ := hp
  unfold readDataN at h
  rw [rd_bind_ok] at h
  obtain ⟨_, c2, h0, h⟩ := h
  unfold readPre at h0
  split at h0
  · simp at h0
  · split at h0
    · simp at h0
    · simp only [Prod.mk.injEq, true_and] at h0
      subst h0
      rw [rd_bind_ok] at h
      obtain ⟨_, _, h1, h⟩ := h
      rw [rd_cursor_ok] at h1
      obtain ⟨e1, e2⟩ := h1
      rw [e1, e2] at h
      cases hu : unpackFrom buf 4 c with
      | none => simp [hu, Rd.raise] at h
      | some bs =>
        simp only [hu] at h
        rw [rd_bind_ok] at h
        obtain ⟨_, _, h2, h3⟩ := h
        rw [rd_setCursor_ok] at h2
        rw [rd_pure_ok] at h3
        exact ⟨by omega, by omega⟩

theorem steps_bind {α β : Type} {x : RdS α} {f : α → RdS β} {c : Int} {k l m : Nat} (h : (x c).2 ≤ k)
    (hf : ∀ a c', (x c).1 = (.ok a, c') → ((f a) c').2 ≤ l) (hm : k + l ≤ m) : ((x >>= f) c).2 ≤ m := by
  show (RdS.bind x f c).2 ≤ _
  unfold RdS.bind
  revert h hf
  cases x c with
  | mk r t =>
    cases r with
    | mk r c1 =>
      cases r with
      | error e => intro h1 _; simp at h1 ⊢; omega
      | ok a => intro h1 h2; have := h2 a c1 rfl; simp at h1 ⊢; omega

/-- The steps for one record: for each byte of the block as many as for an entry. -/
theorem readRecordS_steps (cfg : NpCfg) (buf : Bytes) (rn : Nat) {c : Int} {b : Nat} (h0 : 1 ≤ b)
    (h1 : ∀ x c', readInt buf (c + 4) = (.ok x, c') → x ≤ buf.length - c → x ≤ b ∧ x ≤ buf.length) :
    (readRecordS cfg buf rn c).2 ≤ b * (6 * buf.length + 8) := by
  have hone : 6 * buf.length + 8 ≤ b * (6 * buf.length + 8) := Nat.le_mul_of_pos_left _ (by omega)
  unfold readRecordS
  generalize hB : b * (6 * buf.length + 8) = B at hone
  refine steps_bind (k := 0) (l := B) (Takes.ofRd _ _) (fun start c1 h => ?_) (by omega)
  obtain ⟨hst, e⟩ := rd_cursor_ok.1 h
  rw [← hst] at h1 e
  refine steps_bind (k := 0) (l := B) (Takes.ofRd _ _) (fun _ c2 h => ?_) (by omega)
  obtain rfl := (rd_setCursor_ok (c := c1)).1 h
  refine steps_bind (k := 1) (l := B - 1) (takes_readIntS _ _) (fun bz c1 h => ?_) (by omega)
  have hri := (sim_readIntS buf _).symm.trans h
  obtain ⟨rfl, _⟩ := readInt_moves hri
  refine steps_bind (k := 0) (l := B - 1) (Takes.ofRd _ _) (fun _ c1 h => ?_) (by omega)
  obtain ⟨rfl, rfl⟩ := rd_cursor_ok.1 h
  refine steps_bind (k := 0) (l := B - 1) (Takes.ofRd _ _) (fun _ c1 h => ?_) (by omega)
  obtain ⟨hb, rfl⟩ := bytesCheck_ok.1 h
  refine steps_bind (k := 0) (l := B - 1) (Takes.ofRd _ _) (fun _ c1 h => ?_) (by omega)
  obtain ⟨hz, rfl⟩ := zeroNegativeCheck_ok.1 h
  refine steps_bind (k := 1) (l := B - 2) (takes_readIntS _ _) (fun ns c1 h => ?_) (by omega)
  refine steps_bind (k := 1) (l := B - 3) (takes_readIntS _ _) (fun na c1 h => ?_) (by omega)
  refine steps_bind (k := 0) (l := B - 3) (Takes.ofRd _ _) (fun _ c1 h => ?_) (by omega)
  obtain ⟨hns, rfl⟩ := zeroNegativeCheck_ok.1 h
  refine steps_bind (k := 0) (l := B - 3) (Takes.ofRd _ _) (fun _ c1 h => ?_) (by omega)
  obtain ⟨hna, rfl⟩ := zeroNegativeCheck_ok.1 h
  refine steps_bind (k := 0) (l := B - 3) (Takes.ofRd _ _) (fun _ c1 h => ?_) (by omega)
  obtain ⟨hsum, rfl⟩ := bytesCheck_ok.1 h
  have hbz : bz = (bz.toNat : Nat) := by omega
  have hle := h1 _ _ hri (by omega)
  have e1 : ns.toNat * (4 * buf.length + 5) ≤ ns.toNat * (6 * buf.length + 5) := Nat.mul_le_mul_left _ (by omega)
  have e2 : na.toNat * (2 * buf.length + 4 + 4 * bz.toNat) ≤ na.toNat * (6 * buf.length + 5) :=
    Nat.mul_le_mul_left _ (by omega)
  have e3 : (ns.toNat + na.toNat) * (6 * buf.length + 5) ≤ b * (6 * buf.length + 5) :=
    Nat.mul_le_mul_right _ (by omega)
  rw [Nat.add_mul] at e3
  have e4 : B = b * (6 * buf.length + 5) + b * 3 := by
    rw [← hB, ← Nat.mul_add]
  refine steps_bind (l := na.toNat * (6 * buf.length + 5)) (takes_readScalarsS _ _ _ _ _) (fun r c1 h => ?_) (by omega)
  rw [hbz]
  refine steps_bind (l := 0) (takes_readArraysS _ _ _ _ _ _ _) (fun r c1 h => ?_) (by omega)
  refine steps_bind (k := 0) (l := 0) (Takes.ofRd _ _) (fun _ c1 h => ?_) (by omega)
  split
  · exact Takes.ofRd _ _
  · exact Takes.pure _ _

theorem readLoopS_steps (cfg : NpCfg) (fuel : Nat) (r : Reader) (h0 : 0 ≤ r.cursor) :
    (Reader.readLoopS cfg fuel r).2 ≤ (r.buf.length - r.cursor).toNat * (6 * r.buf.length + 8) := by
  induction fuel generalizing r with
  | zero => unfold Reader.readLoopS; split <;> simp
  | succ n ih =>
    unfold Reader.readLoopS
    split
    · rename_i hc
      have hs := sim_readRecordS cfg r.buf r.recNum r.cursor
      dsimp only
      split
      · rename_i e c t heq
        have := readRecordS_steps cfg r.buf r.recNum (c := r.cursor) (b := (r.buf.length - r.cursor).toNat) (by omega)
          (fun x c' _ h => by omega)
        rw [heq] at this
        exact this
      · rename_i rec c t heq
        rw [heq] at hs
        obtain ⟨b, hb, hb2, rfl, hle, hle2, hat⟩ := readRecord_advance h0 (by omega) hs.symm
        have h1 := readRecordS_steps cfg r.buf r.recNum (c := r.cursor) (b := b) (by omega)
          (fun x c' h _ => by
            have h' := (readInt_exact (buf := r.buf) (r.cursor + 4) (b : Int) (r.cursor + 4 + 4) (by omega) (by omega)).2
              ⟨_, ⟨by unfold signedOk; omega, rfl⟩, by rw [intLE_natCast (by omega)]; exact hat, by simp⟩
            rw [h'] at h
            simp only [Prod.mk.injEq, Except.ok.injEq] at h
            omega)
        rw [heq] at h1
        have h2 := ih { r with cursor := r.cursor + b, dmapRecords := r.dmapRecords ++ [rec], recNum := r.recNum + 1 }
          (by simp; omega)
        simp only at h1 h2 ⊢
        have : (r.buf.length - r.cursor).toNat = b + (r.buf.length - (r.cursor + b)).toNat := by omega
        rw [this, Nat.add_mul]
        omega
    · exact Nat.zero_le _

/-- One step per block. -/
theorem integrityLoopS_steps (buf : Bytes) (rn fuel : Nat) (total c : Int) (h : 0 ≤ total) :
    (integrityLoopS buf rn fuel total c).2 ≤ (buf.length - total).toNat + 1 := by
  induction fuel generalizing total c with
  | zero => unfold integrityLoopS; split <;> simp
  | succ n ih =>
    unfold integrityLoopS
    split
    · have ht : Takes (do
            let blockSize ← readIntS buf
            RdS.ofRd (zeroNegativeCheck rn blockSize)
            RdS.ofRd (bytesCheck rn (total + blockSize) buf.length)
            return blockSize : RdS Int) 1 :=
        (Takes.bind (l := 0) (takes_readIntS buf) fun _ => Takes.bind (k := 0) (l := 0) (Takes.ofRd _) fun _ =>
          Takes.bind (k := 0) (l := 0) (Takes.ofRd _) fun _ => Takes.pure _)
      have h1 := ht (c + 4)
      have h2 := sim_bind (sim_readIntS buf) (fun b => sim_bind (sim_ofRd (zeroNegativeCheck rn b)) fun _ =>
        sim_bind (sim_ofRd (bytesCheck rn (total + b) buf.length)) fun _ => sim_pure b) (c + 4)
      dsimp only
      split
      · rename_i heq
        rw [heq] at h1
        simp only at h1 ⊢
        omega
      · rename_i bz c' t heq
        rw [heq] at h1 h2
        have h2 := h2.symm
        simp only [rd_bind_ok, zeroNegativeCheck_ok, bytesCheck_ok, rd_pure_ok] at h2
        obtain ⟨x, c1, _, _, c2, ⟨hx, rfl⟩, _, c3, ⟨hle, rfl⟩, rfl, rfl⟩ := h2
        have := ih (total + bz) (c' + bz - 8) (by omega)
        simp only at h1 ⊢
        omega
    · exact Nat.zero_le _

/-! ## Without negative dimensions -/

/-- Started at `c`: two steps for each byte the cursor moves; two more if it fails. -/
def PaysAt {α : Type} (buf : Bytes) (x : RdS α) (c : Int) : Prop :=
  match x c with
  | ((.ok _, c'), t) => c ≤ c' ∧ c' ≤ buf.length ∧ (t : Int) ≤ 2 * (c' - c)
  | ((.error _, _), t) => (t : Int) ≤ 2 * (buf.length - c) + 2

/-- The same for every position in the buffer. -/
def Pays {α : Type} (buf : Bytes) (x : RdS α) : Prop := ∀ c : Int, 0 ≤ c → c ≤ buf.length → PaysAt buf x c

namespace Pays
variable {α β : Type} {buf : Bytes}

theorem bind_at {x : RdS α} {f : α → RdS β} {c : Int} (hx : PaysAt buf x c)
    (hy : ∀ a c', (x c).1 = (.ok a, c') → c ≤ c' → c' ≤ buf.length → PaysAt buf (f a) c') : PaysAt buf (x >>= f) c := by
  show PaysAt buf (RdS.bind x f) c
  unfold PaysAt RdS.bind at *
  revert hx hy
  cases x c with
  | mk r t =>
    cases r with
    | mk r c1 =>
      cases r with
      | error e => intro hx _; exact hx
      | ok a =>
        intro hx hy
        simp only at hx ⊢
        have := hy a c1 rfl (by omega) (by omega)
        revert this
        cases f a c1 with
        | mk r t1 =>
          cases r with
          | mk r c2 =>
            cases r with
            | error e => intro h2; simp only at h2 ⊢; omega
            | ok b => intro h2; simp only at h2 ⊢; omega

theorem bind_of {x : RdS α} {f : α → RdS β} (h : Pays buf x)
    (hf : ∀ (c : Int) a c', 0 ≤ c → c ≤ buf.length → (x c).1 = (.ok a, c') → Pays buf (f a)) : Pays buf (x >>= f) :=
  fun c h0 h1 => bind_at (h c h0 h1) fun a c' hx h2 h3 => hf c a c' h0 h1 hx c' (by omega) h3

theorem bind {x : RdS α} {f : α → RdS β} (h : Pays buf x) (hf : ∀ a, Pays buf (f a)) : Pays buf (x >>= f) :=
  bind_of h fun _ a _ _ _ _ => hf a

theorem pure (a : α) : Pays buf (Pure.pure a : RdS α) := by
  intro c h0 h1
  show c ≤ c ∧ c ≤ buf.length ∧ ((0 : Nat) : Int) ≤ 2 * (c - c)
  omega

/-- Computations without steps that do not move the cursor backwards. -/
theorem ofRd {y : Rd α} (h : ∀ (c : Int) a c', 0 ≤ c → c ≤ buf.length → y c = (.ok a, c') → c ≤ c' ∧ c' ≤ buf.length) :
    Pays buf (RdS.ofRd y) := by
  intro c h0 h1
  have := h c
  unfold PaysAt RdS.ofRd
  revert this
  cases y c with
  | mk r c1 =>
    cases r with
    | error e => intro _; simp only; omega
    | ok a => intro hy; have := hy a c1 h0 h1 rfl; simp only; omega

/-- Exact readers with one step that read at least one byte. -/
theorem charge {y : Rd α} {R : α → Bytes → Prop} (h : Exact buf y R) (hR : ∀ a bs, R a bs → 1 ≤ bs.length) :
    Pays buf (RdS.charge 1 >>= fun _ => RdS.ofRd y) := by
  intro c h0 h1
  have hx := h c
  show match ((y c, 1 + 0) : (Except Err α × Int) × Nat) with
    | ((.ok _, c'), t) => c ≤ c' ∧ c' ≤ buf.length ∧ (t : Int) ≤ 2 * (c' - c)
    | ((.error _, _), t) => (t : Int) ≤ 2 * (buf.length - c) + 2
  revert hx
  cases y c with
  | mk r c1 =>
    cases r with
    | error e => intro _; simp only; omega
    | ok a =>
      intro hx
      obtain ⟨bs, h2, h3, h4⟩ := (hx a c1 h0 h1).1 rfl
      have := hR _ _ h2
      have := h3.bounds
      simp only; omega

end Pays

theorem pays_bytesCheck {buf : Bytes} (rn : Nat) (x b : Int) : Pays buf (RdS.ofRd (bytesCheck rn x b)) :=
  Pays.ofRd fun c a c' h0 h1 h => by have := (bytesCheck_ok.1 h).2; omega

theorem pays_zeroNegativeCheck {buf : Bytes} (rn : Nat) (x : Int) : Pays buf (RdS.ofRd (zeroNegativeCheck rn x)) :=
  Pays.ofRd fun c a c' h0 h1 h => by have := (zeroNegativeCheck_ok.1 h).2; omega

theorem pays_raise {α : Type} {buf : Bytes} (e : Err) : Pays buf (RdS.ofRd (Rd.raise e : Rd α)) :=
  Pays.ofRd fun c a c' h0 h1 h => by simp [Rd.raise] at h

theorem pays_checkDataType {buf : Bytes} (rn n : Nat) (s : PyStr) : Pays buf (RdS.ofRd (checkDataType rn n s)) :=
  Pays.ofRd fun c a c' h0 h1 h => by
    unfold checkDataType at h
    cases hl : dmapDataTypes.lookup n with
    | none => simp [hl, Rd.raise] at h
    | some p => rw [hl] at h; cases h; omega

/-- The loop stops behind the terminator. -/
theorem scanSteps_some {buf : Bytes} {c : Int} {fuel n m : Nat} (h : scanNul buf c fuel n = some m) :
    n ≤ m ∧ scanSteps buf c fuel n = m - n + 1 := by
  induction fuel generalizing n with
  | zero => simp [scanNul] at h
  | succ k ih =>
    unfold scanNul at h
    unfold scanSteps
    cases hp : pyIndex buf (c + n) with
    | none => simp [hp] at h
    | some b =>
      simp only [hp] at h ⊢
      split at h
      · rename_i hb
        rw [if_pos hb]
        have := ih h
        omega
      · rename_i hb
        rw [if_neg hb]
        simp only [Option.some.injEq] at h
        omega

/-- As many steps as bytes, and the call. -/
theorem readDataSS_ok {buf : Bytes} {rn : Nat} {c c1 : Int} {s : PyStr} (h0 : 0 ≤ c) (h1 : c ≤ buf.length)
    (hr : readDataS buf rn c = (.ok s, c1)) : readDataSS buf rn c = ((.ok s, c1), 1 + (c1 - c).toNat) := by
  obtain ⟨bs, h2, h3, h4⟩ := (readDataS_exact (buf := buf) rn c s c1 h0 h1).1 hr
  have hbd := h3.bounds
  have hl : 1 ≤ bs.length := by rw [h2.2]; simp [encStr]
  unfold readDataSS
  rw [hr, if_neg (by omega)]
  have : (scanSteps buf c ((buf.length - c).toNat + 1) 0 : Int) = c1 - c := by
    unfold readDataS at hr
    rw [rd_bind_ok] at hr
    obtain ⟨_, c2, hp, hr⟩ := hr
    have hp2 : c2 = c := by
      unfold readPre at hp
      split at hp
      · simp at hp
      · split at hp
        · simp at hp
        · simp only [Prod.mk.injEq, true_and] at hp; exact hp.symm
    subst hp2
    rw [rd_bind_ok] at hr
    obtain ⟨_, c3, hp, hr⟩ := hr
    obtain ⟨e1, e2⟩ := rd_cursor_ok.1 hp
    rw [e1, e2] at hr
    cases hsc : scanNul buf c2 ((buf.length - c2).toNat + 1) 0 with
    | none => simp [hsc, Rd.raise] at hr
    | some m =>
      have := (scanSteps_some hsc).2
      simp only [hsc] at hr
      rw [rd_bind_ok] at hr
      obtain ⟨_, c4, hp, hr⟩ := hr
      cases hu : unpackFrom buf m c2 with
      | none => simp [hu, Rd.raise] at hr
      | some bs' =>
        simp only [hu] at hr
        rw [rd_bind_ok] at hr
        obtain ⟨_, c5, hp5, hr⟩ := hr
        have h5 := rd_setCursor_ok.1 hp5
        cases hd : utf8Decode bs' with
        | none => simp [hd, Rd.raise] at hr
        | some s' =>
          simp only [hd] at hr
          have := (rd_pure_ok.1 hr).2
          omega
  congr 1
  omega

theorem pays_readDataSS {buf : Bytes} (rn : Nat) : Pays buf (readDataSS buf rn) := by
  intro c h0 h1
  have hx := readDataS_exact (buf := buf) rn c
  have hb := scanSteps_le buf c ((buf.length - c).toNat + 1) 0
  cases hr : readDataS buf rn c with
  | mk r c1 =>
    cases r with
    | error e =>
      unfold PaysAt readDataSS
      rw [hr]
      simp only
      split <;> omega
    | ok s =>
      obtain ⟨bs, h2, h3, h4⟩ := (hx s c1 h0 h1).1 hr
      have hbd := h3.bounds
      have hl : 1 ≤ bs.length := by rw [h2.2]; simp [encStr]
      unfold PaysAt
      rw [readDataSS_ok h0 h1 hr]
      simp only
      omega

theorem pays_readDataCS {buf : Bytes} : Pays buf (readDataCS buf) :=
  Pays.charge readDataC_exact fun _ _ h => by simp [h.2]

theorem pays_readDataNS {buf : Bytes} {n : Nat} (hn : 0 < n) : Pays buf (readDataNS buf n) :=
  Pays.charge (readDataN_exact hn) fun _ _ h => by have := h.2; omega

theorem pays_readIntS {buf : Bytes} : Pays buf (readIntS buf) := Pays.bind (pays_readDataNS (by omega)) fun _ => Pays.pure _

theorem pays_readDataFS {buf : Bytes} (rn : Nat) (fmt : Fmt) (size : Nat) (h : fmt ≠ .s → 0 < size) :
    Pays buf (readDataFS buf rn fmt size) := by
  cases fmt <;> first
    | exact Pays.bind pays_readDataCS fun _ => Pays.pure _
    | exact Pays.bind (pays_readDataSS rn) fun _ => Pays.pure _
    | exact Pays.bind (pays_readDataNS (h (by decide))) fun _ => Pays.pure _

theorem pays_readScalarS {buf : Bytes} (rn : Nat) : Pays buf (readScalarS buf rn) := by
  refine Pays.bind (pays_readDataSS rn) fun name => Pays.bind pays_readDataCS fun n =>
    Pays.bind_of (pays_checkDataType rn n name) fun c p c' h0 h1 h => ?_
  dsimp only
  split
  · rename_i hne
    refine Pays.bind (pays_readDataFS rn p.1 p.2 fun _ => ?_) fun _ => Pays.pure _
    obtain ⟨_, ⟨⟨_, h2⟩, _⟩, _⟩ := (checkDataType_exact rn n name c p c' h0 h1).1 h
    rw [h2]
    revert hne
    cases p.1 <;> decide
  · exact pays_raise _

theorem pays_readIntsS {buf : Bytes} (n : Nat) : Pays buf (readIntsS buf n) := by
  induction n with
  | zero => exact Pays.pure _
  | succ n ih => exact Pays.bind pays_readIntS fun _ => Pays.bind ih fun _ => Pays.pure _

theorem length_ints (l : List Int) : (l.flatMap (intLE 4)).length = 4 * l.length := by
  induction l with
  | nil => rfl
  | cons x l ih => simp only [List.flatMap_cons, List.length_append, length_intLE, List.length_cons, ih]; omega

/-- The dimensions have four bytes each, for one step to read them and three to look at them. -/
theorem pays_dims {β : Type} {buf : Bytes} (n : Nat) (g : List Int → β) :
    Pays buf (readIntsS buf n >>= fun dims => RdS.charge (3 * dims.length) >>= fun _ => Pure.pure (g dims)) := by
  intro c h0 h1
  have hp := pays_readIntsS (buf := buf) n c h0 h1
  have ht := takes_readIntsS buf n c
  have hs := sim_readIntsS buf n c
  show PaysAt buf (RdS.bind (readIntsS buf n) _) c
  unfold PaysAt RdS.bind at *
  revert hp ht hs
  cases readIntsS buf n c with
  | mk r t =>
    cases r with
    | mk r c1 =>
      cases r with
      | error e => intro hp _ _; exact hp
      | ok l =>
        intro hp ht hs
        obtain ⟨bs, ⟨hl, _, hbs⟩, hat, hc⟩ := (readInts_exact n c l c1 h0 h1).1 hs.symm
        have hbl : bs.length = 4 * l.length := by rw [hbs, length_ints]
        show c ≤ c1 ∧ c1 ≤ buf.length ∧ ((t + (3 * l.length + 0) : Nat) : Int) ≤ 2 * (c1 - c)
        simp only at hp ht
        omega

theorem pays_readHeadS {buf : Bytes} (rn : Nat) (z : Int) : Pays buf (readHeadS buf rn z) :=
  Pays.bind (pays_readDataSS rn) fun name => Pays.bind pays_readDataCS fun n =>
    Pays.bind (pays_checkDataType rn n name) fun _ => Pays.bind pays_readIntS fun _ => Pays.bind (pays_bytesCheck _ _ _) fun _ =>
    Pays.bind (pays_zeroNegativeCheck _ _) fun _ => pays_dims _ _

theorem prodInt_nonneg {l : List Int} (h : ∀ x ∈ l, 0 ≤ x) : 0 ≤ prodInt l := by
  rw [← eq_map_ofNat h, prodInt_ofNat]
  omega

theorem readTail_moves {cfg : NpCfg} {buf : Bytes} {rn : Nat} {z c c' : Int} {hd : ArrHead} {a : DmapArray}
    (h : readTail cfg buf rn z hd c = (.ok a, c')) : c' = c + prodInt a.shape * hd.size := by
  unfold readTail at h
  generalize (if hd.dim > 1 then hd.dims.reverse else hd.dims) = shape at h
  split at h
  · simp [Rd.raise] at h
  · split at h
    · simp [Rd.raise] at h
    · rw [rd_bind_ok] at h
      obtain ⟨_, c1, e1, h⟩ := h
      rw [rd_bind_ok] at h
      obtain ⟨_, c2, e2, h⟩ := h
      split at h
      · simp [Rd.raise] at h
      · split at h
        · simp [Rd.raise] at h
        · rw [rd_bind_ok] at h
          obtain ⟨v, c3, hv, h⟩ := h
          obtain ⟨rfl, rfl⟩ := rd_pure_ok.1 h
          have e1 := (bytesCheck_ok.1 e1).2
          have e2 := (bytesCheck_ok.1 e2).2
          unfold readNumericalArray at hv
          rw [rd_bind_ok] at hv
          obtain ⟨x, c4, hx, hv⟩ := hv
          obtain ⟨hx1, hx2⟩ := rd_cursor_ok.1 hx
          rw [rd_bind_ok] at hv
          obtain ⟨_, c5, h5, hv⟩ := hv
          rw [rd_bind_ok] at hv
          obtain ⟨_, c6, h6, hv⟩ := hv
          have h6 := rd_setCursor_ok.1 h6
          rw [rd_bind_ok] at hv
          obtain ⟨_, c7, h7, hv⟩ := hv
          have h8 := (rd_pure_ok.1 hv).2
          have h7 : c7 = c6 := by
            unfold Rd.lift at h7
            simp only [Prod.mk.injEq] at h7
            exact h7.2.symm
          subst h7 h8 h6
          rw [hx1, e2, e1]

theorem pays_readArrayS {cfg : NpCfg} {buf : Bytes} (hneg : ¬ NegSlist buf) {rn n : Nat} (hn : n < 2 ^ 31) :
    Pays buf (readArrayS cfg buf rn n) := by
  intro c h0 h1
  have hA : ∀ a c', readArray cfg buf rn n c = (.ok a, c') → c' ≤ buf.length ∧ ∀ x ∈ a.shape, 0 ≤ x := by
    intro a c' h
    have h2 := readArray_nonneg hneg h0 h1 h
    obtain ⟨bs, _, hat, rfl⟩ := (readArray_exact rn n hn c a c' h0 h1 h2).1 h
    exact ⟨hat.bounds.2, h2⟩
  have hs := sim_readHeadS buf rn n c
  rw [readArray_eq] at hA
  rw [readArrayS_eq]
  refine Pays.bind_at (pays_readHeadS rn n c h0 h1) fun hd c1 hh h2 h3 => ?_
  rw [hs] at hh
  unfold PaysAt RdS.ofRd
  cases ht : readTail cfg buf rn n hd c1 with
  | mk r c2 =>
    cases r with
    | error e => simp only; omega
    | ok a =>
      obtain ⟨h4, h5⟩ := hA a c2 (rd_bind_ok.2 ⟨hd, c1, hh, ht⟩)
      have h6 := readTail_moves ht
      have h7 : 0 ≤ prodInt a.shape * hd.size := Int.mul_nonneg (prodInt_nonneg h5) (by omega)
      simp only
      omega

theorem pays_readScalarsS {buf : Bytes} (rn n : Nat) (r : Rec) : Pays buf (readScalarsS buf rn n r) := by
  induction n generalizing r with
  | zero => exact Pays.pure _
  | succ n ih => exact Pays.bind (pays_readScalarS rn) fun _ => ih _

theorem pays_readArraysS {cfg : NpCfg} {buf : Bytes} (hneg : ¬ NegSlist buf) {rn z : Nat} (hz : z < 2 ^ 31) (n : Nat)
    (r : Rec) : Pays buf (readArraysS cfg buf rn z n r) := by
  induction n generalizing r with
  | zero => exact Pays.pure _
  | succ n ih => exact Pays.bind (pays_readArrayS hneg hz) fun _ => ih _

theorem ofRd_bind_run {α β : Type} {y : Rd α} {f : α → RdS β} {c c' : Int} {a : α} (h : y c = (.ok a, c')) :
    (RdS.ofRd y >>= f) c = f a c' := by
  show RdS.bind (RdS.ofRd y) f c = _
  unfold RdS.bind RdS.ofRd
  rw [h]
  simp

/-- `read_record` behind the first word. -/
def readRestS (cfg : NpCfg) (buf : Bytes) (rn : Nat) (start : Int) : RdS Rec := do
  let blockSize ← readIntS buf
  let c ← RdS.ofRd Rd.cursor
  RdS.ofRd (bytesCheck rn blockSize (buf.length - c + 8))
  RdS.ofRd (zeroNegativeCheck rn blockSize)
  let numScalars ← readIntS buf
  let numArrays ← readIntS buf
  RdS.ofRd (zeroNegativeCheck rn numScalars)
  RdS.ofRd (zeroNegativeCheck rn numArrays)
  RdS.ofRd (bytesCheck rn (numScalars + numArrays) blockSize)
  let r ← readScalarsS buf rn numScalars.toNat []
  let r ← readArraysS cfg buf rn blockSize numArrays.toNat r
  let c' ← RdS.ofRd Rd.cursor
  if c' - start ≠ blockSize then RdS.ofRd (Rd.raise .cursorError) else return r

theorem readRecordS_eq (cfg : NpCfg) (buf : Bytes) (rn : Nat) (c : Int) :
    readRecordS cfg buf rn c = readRestS cfg buf rn c (c + 4) := by
  refine (ofRd_bind_run (y := Rd.cursor) (a := c) (c' := c) rfl).trans ?_
  exact ofRd_bind_run (y := Rd.setCursor (c + 4)) (a := ()) (c' := c + 4) rfl

theorem pays_readRestS {cfg : NpCfg} {buf : Bytes} (hneg : ¬ NegSlist buf) (rn : Nat) (start : Int) :
    Pays buf (readRestS cfg buf rn start) := by
  have hcur : Pays buf (RdS.ofRd Rd.cursor) := Pays.ofRd fun c a c' h0 h1 h => by
    have := (rd_cursor_ok.1 h).2; omega
  refine Pays.bind_of pays_readIntS fun k bz k' g0 g1 hbz => Pays.bind hcur fun _ => Pays.bind (pays_bytesCheck _ _ _) fun _ =>
    Pays.bind_of (pays_zeroNegativeCheck _ _) fun _ _ _ _ _ hz => Pays.bind pays_readIntS fun ns =>
    Pays.bind pays_readIntS fun na => Pays.bind (pays_zeroNegativeCheck _ _) fun _ =>
    Pays.bind (pays_zeroNegativeCheck _ _) fun _ => Pays.bind (pays_bytesCheck _ _ _) fun _ =>
    Pays.bind (pays_readScalarsS rn _ _) fun r => Pays.bind ?_ fun r => Pays.bind hcur fun _ => ?_
  · have hz := (zeroNegativeCheck_ok.1 hz).1
    obtain ⟨_, ⟨hs, _⟩, _⟩ := (readInt_exact k bz k' g0 g1).1 ((sim_readIntS buf _).symm.trans hbz)
    unfold signedOk at hs
    rw [show bz = (bz.toNat : Nat) by omega]
    exact pays_readArraysS hneg (by omega) _ _
  · split
    · exact pays_raise _
    · exact Pays.pure _

/-- Two steps for each byte of a record. -/
theorem readRecordS_ok {cfg : NpCfg} {buf : Bytes} (hneg : ¬ NegSlist buf) (rn : Nat) {c c' : Int} {r : Rec} {t : Nat}
    (h0 : 0 ≤ c) (h1 : c + 4 ≤ buf.length) (h : readRecordS cfg buf rn c = ((.ok r, c'), t)) : (t : Int) ≤ 2 * (c' - c) := by
  have hp := pays_readRestS (cfg := cfg) hneg rn c (c + 4) (by omega) h1
  unfold PaysAt at hp
  rw [← readRecordS_eq, h] at hp
  simp only at hp
  omega

theorem readRecordS_error {cfg : NpCfg} {buf : Bytes} (hneg : ¬ NegSlist buf) (rn : Nat) {c c' : Int} {e : Err} {t : Nat}
    (h0 : 0 ≤ c) (h1 : c < buf.length) (h : readRecordS cfg buf rn c = ((.error e, c'), t)) :
    (t : Int) ≤ 2 * (buf.length - c) + 2 := by
  by_cases hc : c + 4 ≤ buf.length
  · have hp := pays_readRestS (cfg := cfg) hneg rn c (c + 4) (by omega) hc
    unfold PaysAt at hp
    rw [← readRecordS_eq, h] at hp
    simp only at hp
    omega
  · have hs : (readRestS cfg buf rn c (c + 4)).2 ≤ 1 := by
      refine steps_bind (k := 1) (l := 0) (takes_readIntS _ _) (fun bz c1 h => ?_) (by omega)
      have := (readInt_moves ((sim_readIntS buf _).symm.trans h)).2
      omega
    rw [← readRecordS_eq, h] at hs
    simp only at hs
    omega

theorem readLoopS_linear {cfg : NpCfg} (fuel : Nat) (r : Reader) (hneg : ¬ NegSlist r.buf) (h0 : 0 ≤ r.cursor) :
    (Reader.readLoopS cfg fuel r).2 ≤ 2 * (r.buf.length - r.cursor).toNat + 2 := by
  induction fuel generalizing r with
  | zero => unfold Reader.readLoopS; split <;> simp
  | succ n ih =>
    unfold Reader.readLoopS
    split
    · rename_i hc
      have hs := sim_readRecordS cfg r.buf r.recNum r.cursor
      dsimp only
      split
      · rename_i e c t heq
        have hp := readRecordS_error hneg r.recNum h0 hc heq
        simp only
        omega
      · rename_i rec c t heq
        rw [heq] at hs
        obtain ⟨b, hb, hb2, rfl, hle, hle2, hat⟩ := readRecord_advance h0 (by omega) hs.symm
        have hp := readRecordS_ok hneg r.recNum h0 (by omega) heq
        have h2 := ih { r with cursor := r.cursor + b, dmapRecords := r.dmapRecords ++ [rec], recNum := r.recNum + 1 }
          hneg (by simp; omega)
        simp only at hp h2 ⊢
        omega
    · exact Nat.zero_le _

end Verif
