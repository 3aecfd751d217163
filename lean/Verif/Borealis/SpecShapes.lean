import Verif.Borealis.Model.Restructure
/-!
# Specification of the records of one slice

What the fields of Borealis records look like: every dimension of a field counts something (beams,
sequences, ranges, …), and the numbers of beams, sequences and blanked samples may differ from
record to record.  Nothing here uses the dimension functions of the formats.
-/
namespace Verif.Bor
open Verif

/-- What a dimension of a field counts. -/
inductive Q
  | seqs | beams | blanked | ranges | lags | arrays | samps | antennas | pulses | none
  deriving DecidableEq, Repr

/-- How `pulse_phase_offset` is given: not at all (an empty array), for every sequence and pulse,
or for every pulse. -/
inductive Ppo
  | none | perSeq | flat
  deriving DecidableEq, Repr

/-- The dimensions of `pulse_phase_offset`. -/
def Ppo.shape : Ppo → List Q
  | .none => [.none]
  | .perSeq => [.seqs, .pulses]
  | .flat => [.pulses]

/-- The dimensions of the other fields that can differ between records. -/
def shapeTable : FType → Dict PyStr (List Q)
  | .rawacf =>
    [(py! "sqn_timestamps", [.seqs]), (py! "noise_at_freq", [.seqs]),
     (py! "main_acfs", [.beams, .ranges, .lags]), (py! "intf_acfs", [.beams, .ranges, .lags]),
     (py! "xcfs", [.beams, .ranges, .lags]), (py! "beam_nums", [.beams]), (py! "beam_azms", [.beams]),
     (py! "blanked_samples", [.blanked]), (py! "tx_antenna_phases", [.antennas])]
  | .bfiq =>
    [(py! "sqn_timestamps", [.seqs]), (py! "noise_at_freq", [.seqs]),
     (py! "data", [.arrays, .seqs, .beams, .samps]), (py! "beam_nums", [.beams]),
     (py! "beam_azms", [.beams]), (py! "blanked_samples", [.blanked]),
     (py! "tx_antenna_phases", [.antennas])]
  | .antennasIq =>
    [(py! "sqn_timestamps", [.seqs]), (py! "noise_at_freq", [.seqs]),
     (py! "data", [.antennas, .seqs, .samps]), (py! "beam_nums", [.beams]),
     (py! "beam_azms", [.beams]), (py! "blanked_samples", [.blanked]),
     (py! "tx_antenna_phases", [.antennas])]
  | .rawrf => []

/-- The dimensions of a field. -/
def shapeOf (o : Ppo) (t : FType) (k : PyStr) : List Q :=
  if k = py! "pulse_phase_offset" then o.shape else ((shapeTable t).get? k).getD []

/-- The field with the data of the file. -/
def mainField : FType → PyStr
  | .rawacf => py! "main_acfs"
  | _ => py! "data"

/-- The dimensions of the data of the file. -/
def mainShape (t : FType) : List Q := ((shapeTable t).get? (mainField t)).getD []

/-- The names of the dimensions of the data of the file. -/
def dimNames : FType → List PyStr
  | .rawacf => [py! "num_beams", py! "num_ranges", py! "num_lags"]
  | .bfiq => [py! "num_antenna_arrays", py! "num_sequences", py! "num_beams", py! "num_samps"]
  | _ => [py! "num_antennas", py! "num_sequences", py! "num_samps"]

/-- The fields that are stored flat in a site record. -/
def flatFields : Version → FType → List PyStr
  | .v07, .rawacf => []
  | _, .rawacf => [py! "main_acfs", py! "intf_acfs", py! "xcfs"]
  | _, .rawrf => []
  | _, _ => [py! "data"]

/-- The fields with the dimensions of the data. -/
def dimFields : List PyStr := [py! "correlation_dimensions", py! "data_dimensions"]

/-- The fields with the names of the dimensions of the data. -/
def descriptorFields : List PyStr := [py! "correlation_descriptors", py! "data_descriptors"]

/-- What is the same in all records of a slice. -/
structure Common where
  ranges : Nat
  lags : Nat
  arrays : Nat
  samps : Nat
  antennas : Nat
  pulses : Nat

/-- There is at least one of everything. -/
def Common.Pos (c : Common) : Prop :=
  0 < c.ranges ∧ 0 < c.lags ∧ 0 < c.arrays ∧ 0 < c.samps ∧ 0 < c.antennas ∧ 0 < c.pulses

/-- The number of sequences of a record. -/
def seqsOf (r : Rec) : Nat :=
  match r.get? (py! "num_sequences") with
  | some (.np _ (.int i)) => i.toNat
  | _ => 0

/-- The length of a field of a record. -/
def lenOf (k : PyStr) (r : Rec) : Nat :=
  match r.get? k with
  | some (.arr a) => a.shape.headD 0
  | _ => 0

/-- The number of beams of a record. -/
def beamsOf : Rec → Nat := lenOf (py! "beam_nums")

/-- The number of blanked samples of a record. -/
def blankedOf : Rec → Nat := lenOf (py! "blanked_samples")

/-- How many there are in a record. -/
def Q.size (c : Common) (r : Rec) : Q → Nat
  | .seqs => seqsOf r
  | .beams => beamsOf r
  | .blanked => blankedOf r
  | .ranges => c.ranges
  | .lags => c.lags
  | .arrays => c.arrays
  | .samps => c.samps
  | .antennas => c.antennas
  | .pulses => c.pulses
  | .none => 0

/-- How many there are at most in a record. -/
def Q.max (c : Common) (rs : Records) (q : Q) : Nat :=
  rs.foldl (fun m p => Nat.max m (q.size c p.2)) 0

/-- The value of a field that is no array: a numpy scalar of its type, or a string of at most 256
characters that does not end in a NUL. -/
def ScalarOK (ty : Ty) (v : Val) : Prop :=
  if ty = .str then ∃ s : PyStr, v = .py .str (.str s) ∧ s.length ≤ 256 ∧ s.getLast? ≠ some '\x00'
  else ∃ e, v = .np ty e

/-- A one-dimensional array of `uint32`. -/
def numbers (l : List Nat) : Val := .arr ⟨.u32, [l.length], l.map fun n => .int (Int.ofNat n)⟩

/-- The shape of a field of a record, where the fields in `flat` are stored with one dimension. -/
def storedShape (flat : List PyStr) (k : PyStr) (s : List Nat) : List Nat :=
  if k ∈ flat then [prod s] else s

/-- A record of a slice: the fields that can differ between records have their type and their
dimensions. -/
structure SiteRec (f : Format) (t : FType) (o : Ppo) (c : Common) (flat : List PyStr) (r : Rec) :
    Prop where
  seqs : ∃ n : Nat, 0 < n ∧ r.get? (py! "num_sequences") = some (.np .i64 (.int n))
  beams : 0 < beamsOf r
  scalar : ∀ k ty, k ∈ f.unshared → f.single.get? k = some ty → ∃ v, r.get? k = some v ∧ ScalarOK ty v
  array : ∀ k ty, k ∈ f.unshared → f.single.get? k = none → f.arrays.get? k = some ty →
    ∃ a, r.get? k = some (.arr a) ∧ a.ty = ty ∧ a.WF ∧
      a.shape = storedShape flat k ((shapeOf o t k).map (Q.size c r))
  dims : ∀ k ∈ dimFields, k ∈ f.arrays.keys →
    r.get? k = some (numbers ((mainShape t).map (Q.size c r)))
  shared : ∀ k ∈ f.shared, k ∈ r.keys

/-- The records of a slice, as they are in memory after reading a site file. -/
structure SiteRecords (f : Format) (t : FType) (o : Ppo) (c : Common) (flat : List PyStr)
    (rs : Records) : Prop where
  nonempty : rs ≠ []
  pos : c.Pos
  recs : ∀ p ∈ rs, SiteRec f t o c flat p.2
  blanked : (∀ p ∈ rs, blankedOf p.2 = 0) ∨ ∀ p ∈ rs, blankedOf p.2 ≠ 0

/-- The records are those of one slice: their shared fields are equal, their names are made of
their first timestamp, and they have no other fields. -/
structure OneSlice (tkey : Elt → Except Err PyStr) (f : Format) (t : FType) (rs : Records) : Prop where
  names : rs.NodupKeys
  times : ∀ p ∈ rs, ∃ a e, p.2.get? (py! "sqn_timestamps") = some (.arr a) ∧ a.data.head? = some e ∧
    tkey e = .ok p.1
  shared : ∀ p ∈ rs, ∀ q ∈ rs, ∀ k ∈ f.shared, k ∉ f.unshared → p.2.get? k = q.2.get? k
  descriptors : ∀ p ∈ rs, ∀ k ∈ descriptorFields, ∀ ty, f.arrays.get? k = some ty →
    p.2.get? k = some (vec ty ((dimNames t).map (constElt ty)))
  only : ∀ p ∈ rs, ∀ k ∈ p.2.keys, k ∈ f.siteFields

/-- Phase offsets for every pulse come back only if there are at most as many pulses as sequences
in a record, and at least as many in all records. -/
def FlatPpoOK (o : Ppo) (c : Common) (rs : Records) : Prop :=
  o = .flat → ∀ p ∈ rs, c.pulses ≤ seqsOf p.2 ∧ seqsOf p.2 ≤ rs.length * c.pulses

/-- The value `np.nan`, zero or minus one that marks elements without data. -/
def padding : Ty → Elt
  | .i64 => .int (-1)
  | .u32 | .u8 => .int 0
  | .f32 => .flt nan32
  | .c64 => .cpx nan32 0
  | _ => .flt nan64

end Verif.Bor
