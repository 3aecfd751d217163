import Verif.Py.Str
/-!
# `struct` packing of integers (little-endian machine) and Python indexing
-/
namespace Verif

/-- Value of a little-endian byte string. -/
def leNat : Bytes → Nat
  | [] => 0
  | b :: bs => b.toNat + 256 * leNat bs

/-- The `k` little-endian bytes of `n` (reduced modulo `256 ^ k`). -/
def natLE : Nat → Nat → Bytes
  | 0, _ => []
  | k + 1, n => UInt8.ofNat (n % 256) :: natLE k (n / 256)

/-- Two's complement reading of an unsigned `k`-byte number. -/
def toSigned (k : Nat) (n : Nat) : Int :=
  if 2 * n < 256 ^ k then (n : Int) else (n : Int) - (256 ^ k : Nat)

/-- Bytes of a signed number in two's complement. -/
def intLE (k : Nat) (v : Int) : Bytes := natLE k (v % (256 ^ k : Nat)).toNat

@[simp] theorem length_natLE (k n : Nat) : (natLE k n).length = k := by
  induction k generalizing n with
  | zero => rfl
  | succ k ih => simp [natLE, ih]

@[simp] theorem length_intLE (k : Nat) (v : Int) : (intLE k v).length = k := by
  simp [intLE]

theorem leNat_natLE (k n : Nat) : leNat (natLE k n) = n % 256 ^ k := by
  induction k generalizing n with
  | zero => simp [natLE, leNat, Nat.mod_one]
  | succ k ih =>
    have h : (UInt8.ofNat (n % 256)).toNat = n % 256 := toNat_ofNat_lt (Nat.mod_lt _ (by omega))
    rw [natLE, leNat, ih, h, Nat.pow_succ, Nat.mul_comm (256 ^ k) 256, Nat.mod_mul]

theorem leNat_lt (bs : Bytes) : leNat bs < 256 ^ bs.length := by
  induction bs with
  | nil => simp [leNat]
  | cons b bs ih =>
    have := b.toNat_lt
    simp only [leNat, List.length_cons, Nat.pow_succ]
    omega

theorem natLE_leNat (bs : Bytes) : natLE bs.length (leNat bs) = bs := by
  induction bs with
  | nil => rfl
  | cons b bs ih =>
    have hb := b.toNat_lt
    simp only [List.length_cons, natLE, leNat]
    have h1 : (b.toNat + 256 * leNat bs) % 256 = b.toNat := by omega
    have h2 : (b.toNat + 256 * leNat bs) / 256 = leNat bs := by omega
    rw [h1, h2, ih]
    simp

theorem pow256_pos (k : Nat) : 0 < 256 ^ k := Nat.pow_pos (by omega)

/-- Range of a `k`-byte signed integer. -/
def signedOk (k : Nat) (v : Int) : Prop := -(256 ^ k : Nat) ≤ 2 * v ∧ 2 * v < (256 ^ k : Nat)

/-- Decided on natural numbers, so that symbolic values do not make the kernel count
down from `256 ^ k`. -/
instance signedOk.dec (k : Nat) : (v : Int) → Decidable (signedOk k v)
  | .ofNat n => decidable_of_iff (2 * n < 256 ^ k) (by
      unfold signedOk; simp only [Int.ofNat_eq_natCast]; omega)
  | .negSucc n => decidable_of_iff (2 * (n + 1) ≤ 256 ^ k) (by
      unfold signedOk; omega)

theorem toSigned_intLE {k : Nat} {v : Int} (h : signedOk k v) :
    toSigned k (leNat (intLE k v)) = v := by
  have hp := pow256_pos k
  unfold signedOk at h
  unfold intLE toSigned
  rw [leNat_natLE]
  generalize 256 ^ k = M at *
  have hm := Int.emod_lt_of_pos v (b := (M : Int)) (by omega)
  have hm0 := Int.emod_nonneg v (b := (M : Int)) (by omega)
  have hlt : (v % (M : Int)).toNat < M := by omega
  rw [Nat.mod_eq_of_lt hlt]
  by_cases hv : 0 ≤ v
  · have : v % (M : Int) = v := Int.emod_eq_of_lt hv (by omega)
    rw [this, if_pos (by omega)]
    omega
  · have : v % (M : Int) = v + M := by
      rw [← Int.add_emod_right, Int.emod_eq_of_lt (by omega) (by omega)]
    rw [this, if_neg (by omega)]
    omega

theorem toSigned_ok {k n : Nat} (hn : n < 256 ^ k) (h2 : 256 ^ k % 2 = 0) :
    signedOk k (toSigned k n) := by
  unfold signedOk toSigned
  generalize 256 ^ k = M at *
  split <;> omega

theorem intLE_toSigned (bs : Bytes) :
    intLE bs.length (toSigned bs.length (leNat bs)) = bs := by
  have hlt := leNat_lt bs
  have hp := pow256_pos bs.length
  conv => rhs; rw [← natLE_leNat bs]
  unfold intLE toSigned
  congr 1
  generalize leNat bs = n at *
  generalize 256 ^ bs.length = M at *
  split
  · rw [Int.emod_eq_of_lt (by omega) (by omega)]; omega
  · rw [← Int.add_emod_right, Int.emod_eq_of_lt (by omega) (by omega)]; omega

theorem intLE_natCast {k n : Nat} (h : n < 256 ^ k) : intLE k (n : Int) = natLE k n := by
  unfold intLE
  rw [Int.emod_eq_of_lt (by omega) (by omega)]
  simp

end Verif
