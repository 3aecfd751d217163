import Verif.Dmap.Lemmas.Steps
import Verif.Dmap.Lemmas.Header
/-!
# A file that is read many times
-/
namespace Verif
open Spec

/-- The name of the array of `againFile`. -/
def longName (m : Nat) : PyStr := List.replicate m 'b'

/-- An array of one byte with a long name. -/
def againArray (m : Nat) : Bytes := encStr (longName m) ++ [1] ++ natLE 4 1 ++ natLE 4 1 ++ [0]

/-- An array `slist` that moves the cursor back to the beginning of the array before it. -/
def againBack (m : Nat) : Bytes := encStr (py! "slist") ++ [1] ++ natLE 4 1 ++ intLE 4 (-(m + 26))

/-- A record with one scalar and these two arrays, which has to be read over and over again as the header tells many arrays. -/
def againFile (m : Nat) : Bytes :=
  [0, 0, 0, 0] ++ natLE 4 (m + 46) ++ natLE 4 1 ++ natLE 4 (2 * (m / 2)) ++ [97, 0, 1, 0] ++ againArray m ++ againBack m

theorem utf8_long (m : Nat) : (utf8Encode (longName m)).length = m := by
  induction m with
  | zero => rfl
  | succ m ih =>
    unfold longName at *
    rw [List.replicate_succ]
    unfold utf8Encode at *
    rw [List.flatMap_cons, List.length_append, ih]
    have : (utf8EncodeChar 'b').length = 1 := by decide
    omega

theorem length_againArray (m : Nat) : (againArray m).length = m + 11 := by
  simp [againArray, encStr, utf8_long, length_natLE]

theorem length_againBack (m : Nat) : (againBack m).length = 15 := by
  simp only [againBack, List.length_append, length_natLE, length_intLE]
  rfl

theorem length_againFile (m : Nat) : (againFile m).length = m + 46 := by
  simp [againFile, length_againArray, length_againBack, length_natLE]; omega

theorem long_nulFree (m : Nat) : NulFree (longName m) := by
  unfold NulFree longName
  intro h
  have := List.eq_of_mem_replicate h
  revert this
  decide

/-- What comes before the arrays. -/
def againHead (m : Nat) : Bytes :=
  [0, 0, 0, 0] ++ natLE 4 (m + 46) ++ natLE 4 1 ++ natLE 4 (2 * (m / 2)) ++ [97, 0, 1, 0]

theorem againFile_eq (m : Nat) : againFile m = againHead m ++ againArray m ++ againBack m := rfl

theorem length_againHead (m : Nat) : (againHead m).length = 20 := by
  simp [againHead, length_natLE]

theorem at_array (m : Nat) : At (againFile m) 20 (againArray m) :=
  ⟨againHead m, againBack m, rfl, by rw [length_againHead]; rfl⟩

theorem at_back (m : Nat) : At (againFile m) (20 + (m + 11)) (againBack m) :=
  ⟨againHead m ++ againArray m, [], by simp [againFile_eq], by
    rw [List.length_append, length_againHead, length_againArray]; omega⟩

/-- The array is read. -/
theorem readArray_again {cfg : NpCfg} (hc : 1 ≤ cfg.maxDims) {m : Nat} (hm : m < 2 ^ 30) (rn : Nat) :
    ∃ a : DmapArray, readArray cfg (againFile m) rn ((m + 46 : Nat) : Int) 20 = (Except.ok a, (20 + (m + 11) : Int)) := by
  let v : NdArr := ⟨.int8, [1], [[0]]⟩
  let a : DmapArray := ⟨longName m, v, 1, .c, 1, [1]⟩
  refine ⟨a, ?_⟩
  have hl := length_againFile m
  refine (readArray_exact rn (m + 46) (by omega) 20 a _ (by omega) (by omega) (by simp [a])).2
    ⟨againArray m, ⟨?_, by simp [a, v], by simp [a, v, prod], by simp [a, v, prod, cellSize]⟩, at_array m, by
      rw [length_againArray]; omega⟩
  exact { name := long_nulFree m, numeric := rfl, code := rfl, dtype := rfl, rank := rfl, rankPos := by simp [a, v],
          rankMax := hc, shape := rfl, dims := .inl (by simp [a, v]), dimsSmall := by simp [a, v], count := rfl,
          cells := by simp [a, v, cellSize], bytes := by simp [a, v, againArray, Spec.code] }

theorem slist_nulFree : NulFree (py! "slist") := by decide

/-- The cursor is moved back. -/
theorem readArray_back {cfg : NpCfg} (hc : 1 ≤ cfg.maxDims) {m : Nat} (hm : m < 2 ^ 30) (rn : Nat) :
    ∃ a : DmapArray, readArray cfg (againFile m) rn ((m + 46 : Nat) : Int) (20 + (m + 11)) = (Except.ok a, (20 : Int)) := by
  have hl := length_againFile m
  let hd : ArrHead := { name := py! "slist", code := 1, fmt := .c, size := 1, dim := 1, dims := [-(m + 26)] }
  have h1 : readHead (againFile m) rn ((m + 46 : Nat) : Int) (20 + (m + 11)) = (Except.ok hd, (20 + (m + 11) + 15 : Int)) := by
    refine (readHead_exact rn _ (20 + (m + 11)) hd _ (by omega) (by omega)).2 ⟨againBack m, ⟨slist_nulFree, rfl, rfl, ?_, rfl,
      by simp [hd], by simp [hd], ?_, ?_⟩, at_back m, by rw [length_againBack]; rfl⟩
    · show (1 : Int) ≤ _; omega
    · intro x hx
      simp only [hd, List.mem_singleton] at hx
      unfold signedOk; omega
    · simp [hd, againBack, Spec.code]
  refine ⟨⟨py! "slist", ⟨.int8, [0], []⟩, 1, .c, 1, [-(m + 26)]⟩, ?_⟩
  rw [readArray_eq]
  refine rd_bind_ok.2 ⟨hd, _, h1, ?_⟩
  unfold readTail
  have e1 : (if hd.dim > 1 then hd.dims.reverse else hd.dims) = [-(m + 26 : Int)] := by simp [hd]
  rw [e1]
  rw [if_neg (by simp [hd, slist]), if_neg (by simp; omega)]
  have e2 : prodInt [-(m + 26 : Int)] = -(m + 26) := by simp [prodInt]
  rw [e2]
  refine rd_bind_ok.2 ⟨(), _, bytesCheck_ok.2 ⟨by omega, rfl⟩, rd_bind_ok.2 ⟨(), _, bytesCheck_ok.2 ⟨?_, rfl⟩, ?_⟩⟩
  · simp [hd]; omega
  rw [if_neg (by simp [hd]), if_neg (by simp [hd])]
  refine rd_bind_ok.2 ⟨⟨.int8, [0], []⟩, 20, ?_, rfl⟩
  unfold readNumericalArray
  refine rd_bind_ok.2 ⟨_, _, rd_cursor_ok.2 ⟨rfl, rfl⟩, ?_⟩
  refine rd_bind_ok.2 ⟨[], 20 + (m + 11) + 15, ?_, ?_⟩
  · unfold Rd.lift npFrombuffer
    rw [if_neg (by omega), if_neg (by omega)]
    have : (againFile m).drop (20 + ((m : Int) + 11) + 15).toNat = [] := by
      rw [List.drop_eq_nil_iff]; omega
    simp only [this, hd]
    rw [if_pos (by omega)]
    rfl
  · refine rd_bind_ok.2 ⟨(), 20, rd_setCursor_ok.2 (by simp [hd]; omega), ?_⟩
    refine rd_bind_ok.2 ⟨[0], 20, ?_, rfl⟩
    unfold Rd.lift npReshape
    rw [if_neg (by simp; omega)]
    have e3 : ([-(m + 26 : Int)].filter (· < 0)) = [-(m + 26 : Int)] := by simp; omega
    have e4 : ([-(m + 26 : Int)].filter (0 ≤ ·)) = [] := by simp; omega
    rw [e3, e4]
    have : -(m + 26 : Int) < 0 := by omega
    simp [prodInt, npShape, npBytes, hd]
    rw [if_pos (by rw [if_pos (by omega)]; omega), if_pos (by omega)]

/-! ## How many steps that takes -/

/-- At least the steps of the first part. -/
theorem least_first {α β : Type} {x : RdS α} {f : α → RdS β} {c : Int} {k : Nat} (h : k ≤ (x c).2) : k ≤ ((x >>= f) c).2 := by
  show k ≤ (RdS.bind x f c).2
  unfold RdS.bind
  revert h
  cases x c with
  | mk r t =>
    cases r with
    | mk r c1 =>
      cases r with
      | error e => exact id
      | ok a => intro h; simp only at h ⊢; omega

/-- The steps of both parts. -/
theorem least_both {α β : Type} {x : RdS α} {f : α → RdS β} {c c' : Int} {a : α} (h : (x c).1 = (.ok a, c')) :
    ((x >>= f) c).2 = (x c).2 + ((f a) c').2 := by
  show (RdS.bind x f c).2 = _
  unfold RdS.bind
  revert h
  cases x c with
  | mk r t =>
    rintro h
    simp only at h
    subst h
    rfl

/-- At least the steps of the second part. -/
theorem least_second {α β : Type} {x : RdS α} {f : α → RdS β} {c c' : Int} {a : α} {k : Nat} (h : (x c).1 = (.ok a, c'))
    (hk : k ≤ ((f a) c').2) : k ≤ ((x >>= f) c).2 := by
  rw [least_both h]
  omega

theorem readArrayS_again (cfg : NpCfg) (m rn : Nat) (z : Int) : m ≤ (readArrayS cfg (againFile m) rn z 20).2 := by
  refine least_first ?_
  have hat := (at_append.1 (at_append.1 (at_append.1 (at_append.1 (at_array m)).1).1).1).1
  have hr := readDataS_run rn (long_nulFree m) hat
  have hl := length_againFile m
  have hp := readDataSS_ok (rn := rn) (by omega) (by omega) hr
  rw [hp]
  simp [encStr, utf8_long]
  omega

/-- Reading the two arrays `k` times. -/
theorem readArraysS_again {cfg : NpCfg} (hc : 1 ≤ cfg.maxDims) {m : Nat} (hm : m < 2 ^ 30) (rn k : Nat) (r : Rec) :
    k * m ≤ (readArraysS cfg (againFile m) rn ((m + 46 : Nat) : Int) (2 * k) r 20).2 := by
  induction k generalizing r with
  | zero => omega
  | succ k ih =>
    rw [show 2 * (k + 1) = 2 * k + 1 + 1 by omega]
    unfold readArraysS
    obtain ⟨a, ha⟩ := readArray_again hc hm rn
    obtain ⟨b, hb⟩ := readArray_back hc hm rn
    rw [least_both ((sim_readArrayS _ _ _ _ _).trans ha)]
    unfold readArraysS
    rw [least_both ((sim_readArrayS _ _ _ _ _).trans hb)]
    have h1 := readArrayS_again cfg m rn ((m + 46 : Nat) : Int)
    have h2 := ih ((r.set a.name (.array a)).set b.name (.array b))
    rw [Nat.add_mul]
    omega

theorem readRecordS_again {cfg : NpCfg} (hc : 1 ≤ cfg.maxDims) {m : Nat} (h2 : 2 ≤ m) (hm : m < 2 ^ 30) :
    m / 2 * m ≤ (readRecordS cfg (againFile m) 0 0).2 := by
  rw [readRecordS_eq]
  unfold readRestS
  have hl := length_againFile m
  have hat : At (againFile m) 4 (intLE 4 ((m + 46 : Nat) : Int) ++ intLE 4 ((1 : Nat) : Int) ++ intLE 4 ((2 * (m / 2) : Nat) : Int)) := by
    rw [intLE_natCast (by omega), intLE_natCast (by omega), intLE_natCast (by omega)]
    exact ⟨[0, 0, 0, 0], [97, 0, 1, 0] ++ againArray m ++ againBack m, by simp [againFile], rfl⟩
  obtain ⟨hat, hat3⟩ := at_append.1 hat
  obtain ⟨hat1, hat2⟩ := at_append.1 hat
  have hat2 : At (againFile m) 8 (intLE 4 ((1 : Nat) : Int)) := by simpa using hat2
  have hat3 : At (againFile m) 12 (intLE 4 ((2 * (m / 2) : Nat) : Int)) := by simpa using hat3
  refine least_second (c' := 8) ((sim_readIntS _ _).trans (readInt_at (by unfold signedOk; omega) hat1)) ?_
  refine least_second (x := RdS.ofRd Rd.cursor) (a := 8) (c' := 8) rfl ?_
  refine least_second (x := RdS.ofRd _) (a := ()) (c' := 8) (bytesCheck_ok.2 ⟨by omega, rfl⟩) ?_
  refine least_second (x := RdS.ofRd _) (a := ()) (c' := 8) ((zeroNegativeCheck_ok (rn := 0) (x := ((m + 46 : Nat) : Int)) (c := 8)).2 ⟨by omega, rfl⟩) ?_
  refine least_second (c' := 12) ((sim_readIntS _ _).trans (readInt_at (by unfold signedOk; omega) hat2)) ?_
  refine least_second (c' := 16) ((sim_readIntS _ _).trans (readInt_at (by unfold signedOk; omega) hat3)) ?_
  refine least_second (x := RdS.ofRd _) (a := ()) (c' := 16) ((zeroNegativeCheck_ok (rn := 0) (x := ((1 : Nat) : Int)) (c := 16)).2 ⟨by omega, rfl⟩) ?_
  refine least_second (x := RdS.ofRd _) (a := ()) (c' := 16) ((zeroNegativeCheck_ok (rn := 0) (x := ((2 * (m / 2) : Nat) : Int)) (c := 16)).2 ⟨by omega, rfl⟩) ?_
  refine least_second (x := RdS.ofRd _) (a := ()) (c' := 16) (bytesCheck_ok.2 ⟨by omega, rfl⟩) ?_
  have hs := readScalars_run (buf := againFile m) 0 (ss := [⟨['a'], .int 0, 1, .c⟩]) (sb := [97, 0, 1, 0])
    (SeqEnc.cons (b := [97, 0, 1, 0]) (bs := []) ⟨by decide, rfl, [0], ValEnc.char (n := 0) (by omega), rfl⟩ .nil) (c := 16)
    ⟨[0, 0, 0, 0] ++ natLE 4 (m + 46) ++ natLE 4 1 ++ natLE 4 (2 * (m / 2)), againArray m ++ againBack m, by simp [againFile],
      by simp [length_natLE]⟩ []
  refine least_second (c' := 20) ((sim_readScalarsS _ _ _ _ _).trans hs) ?_
  refine least_first ?_
  exact readArraysS_again hc hm 0 (m / 2) _

end Verif
