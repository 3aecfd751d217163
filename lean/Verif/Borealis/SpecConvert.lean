import Verif.Borealis.Spec
import Verif.Borealis.SpecShapes
import Verif.Borealis.Model.Convert
import Verif.Dmap.WriteSpec
/-!
# Specification of the conversion to DMAP

What a Borealis record holds, what RST expects in an iqdat or rawacf record, and which patterns of
blanked samples are allowed.  Nothing here uses the functions of the conversion; floating point
operations are the parameters of `Ops`.
-/
namespace Verif.Bor
open Verif

/-! ## DMAP records -/

/-- The signed integer in an array with elements of `k` bytes. -/
def signedAt (d : DType) (k : Nat) (a : Verif.NdArr) (idx : List Nat) : Option Int :=
  if a.dtype = d then (Spec.elementAt a idx).map fun b => toSigned k (leNat b) else none

/-- The element of an array of int16. -/
def i16At : Verif.NdArr → List Nat → Option Int := signedAt .int16 2

/-- The element of an array of int32. -/
def i32At : Verif.NdArr → List Nat → Option Int := signedAt .int32 4

/-- The element of an array of float32. -/
def f32At (a : Verif.NdArr) (idx : List Nat) : Option (BitVec 32) :=
  if a.dtype = .float32 then (Spec.elementAt a idx).map fun b => BitVec.ofNat 32 (leNat b) else none

/-- An integer field. -/
def intField (d : PlainRec) (k : PyStr) : Option Int :=
  match Dict.get? d k with
  | some (.scalar _ (.int v)) => some v
  | _ => none

/-- A float32 field. -/
def f32Field (d : PlainRec) (k : PyStr) : Option (BitVec 32) :=
  match Dict.get? d k with
  | some (.scalar (.np .float32) (.f32 b)) => some b
  | _ => none

/-- No float32 number of the record is a signalling NaN. -/
def QuietNumbers (d : PlainRec) : Prop := ∀ k b, (k, .scalar (.np .float32) (.f32 b)) ∈ d → ¬ IsSNaN b

/-- Rounding to float32 gives no signalling NaN. -/
def QuietOps (ops : Ops) : Prop := ∀ e, ¬ IsSNaN (ops.toF32 e)

/-- A text field. -/
def textField (d : PlainRec) (k : PyStr) : Option PyStr :=
  match Dict.get? d k with
  | some (.scalar .str (.str s)) => some s
  | _ => none

/-- An array field. -/
def arrField (d : PlainRec) (k : PyStr) : Option Verif.NdArr :=
  match Dict.get? d k with
  | some (.arr a) => some a
  | _ => none

/-- The value is in the range of its type; an array has as many cells as its shape says, of the size of its type. -/
def FitsType : PlainVal → Prop
  | .scalar (.np .int8) v => ∃ n, v = .int n ∧ -2 ^ 7 ≤ n ∧ n < 2 ^ 7
  | .scalar (.np .int16) v => ∃ n, v = .int n ∧ -2 ^ 15 ≤ n ∧ n < 2 ^ 15
  | .scalar (.np .int32) v => ∃ n, v = .int n ∧ -2 ^ 31 ≤ n ∧ n < 2 ^ 31
  | .scalar (.np .float32) v => ∃ b, v = .f32 b
  | .scalar .str v => ∃ t, v = .str t
  | .scalar _ _ => False
  | .arr a => a.cells.length = Spec.prod a.shape ∧ ∀ c ∈ a.cells, c.length = a.dtype.size

/-! ## Borealis records -/

/-- Arrays have as many elements as their shapes say (true of every numpy array). -/
def WFRec (r : Rec) : Prop := ∀ k a, Dict.get? r k = some (.arr a) → a.WF

/-- Element of an array that is stored flat, at an index of the shape. -/
def NdArr.shaped (a : NdArr) (dims idx : List Nat) : Option Elt := NdArr.get? ⟨a.ty, dims, a.data⟩ idx

/-- A bfiq record with `na` antenna arrays, `nq` sequences, the given beams and `ns` samples. -/
structure BfiqRec (r : Rec) (a : NdArr) (norm : Val) (beams : List Elt) (na nq ns : Nat) : Prop where
  data : Dict.get? r (py! "data") = some (.arr a)
  size : a.data.length = na * (nq * (beams.length * ns))
  dims : Dict.get? r (py! "data_dimensions") = some (numbers [na, nq, beams.length, ns])
  norm : Dict.get? r (py! "data_normalization_factor") = some norm
  order : ∃ o, Dict.get? r (py! "antenna_arrays_order") = some (.arr o) ∧ o.shape = [na]
  samps : Dict.get? r (py! "num_samps") = some (.np .u32 (.int ns))
  seqs : Dict.get? r (py! "num_sequences") = some (.np .i64 (.int nq))
  beams : ∃ o, Dict.get? r (py! "beam_nums") = some (.arr o) ∧ o.shape = [beams.length] ∧ o.data = beams

/-- A rawacf record with the given beams, `nr` ranges and `nl` lags (the last of which is the
alternate lag zero). -/
structure RawacfRec (r : Rec) (m x : NdArr) (norm : Val) (beams : List Elt) (nr nl : Nat) : Prop where
  main : Dict.get? r (py! "main_acfs") = some (.arr m)
  cross : Dict.get? r (py! "xcfs") = some (.arr x)
  mainSize : m.data.length = beams.length * (nr * nl)
  crossSize : x.data.length = beams.length * (nr * nl)
  dims : Dict.get? r (py! "correlation_dimensions") = some (numbers [beams.length, nr, nl]) ∨
    Dict.get? r (py! "correlation_dimensions") = none ∧
    Dict.get? r (py! "data_dimensions") = some (numbers [beams.length, nr, nl])
  norm : Dict.get? r (py! "data_normalization_factor") = some norm
  beams : ∃ o, Dict.get? r (py! "beam_nums") = some (.arr o) ∧ o.shape = [beams.length] ∧ o.data = beams

/-- The types of integers. -/
def intTy (t : Ty) : Bool := t ∈ [.npBool, .u8, .u16, .u32, .i16, .i32, .i64]

/-- A value that exists: Python objects have Python types, strings are text, NumPy integers are numbers,
arrays have as many elements as their shapes say. -/
def RealVal : Val → Prop
  | .py t e => t = .pyInt ∨ t = .pyFloat ∨ t = .str ∧ ∃ s, e = .str s
  | .np t e => t ≠ .str ∧ (intTy t = true → ∃ n, e = .int n)
  | .arr a => a.WF

/-- All values of a record exist. -/
def RealRec (r : Rec) : Prop := ∀ k v, Dict.get? r k = some v → RealVal v

/-- A vector of `n` elements. -/
def IsVector (v : Option Val) (n : Nat) : Prop := ∃ a, v = some (.arr a) ∧ a.shape = [n]

/-- A text field of a Borealis record. -/
def IsText (v : Option Val) (s : PyStr) : Prop := v = some (.py .str (.str s))

/-- The number fits int16. -/
def Is16 (n : Int) : Prop := -2 ^ 15 ≤ n ∧ n < 2 ^ 15

/-- What a conversion needs beyond the types of the fields: a version tag, a known station, a date, a
noise level, as many directions as beams, tables that are not too long, rounded distances and a slice
number that fit their types. -/
structure Convertible (ops : Ops) (slice : Val) (r : Rec) (nb : Nat) : Prop where
  tag : ∃ (v : Version) (s : PyStr), IsText (Dict.get? r (py! "borealis_git_hash")) (v.name ++ s) ∧ VersionTail s
  station : ∃ s n, IsText (Dict.get? r (py! "station")) s ∧ (s, n) ∈ codeToStid
  time : ∃ a n e, Dict.get? r (py! "sqn_timestamps") = some (.arr a) ∧ a.shape = [n] ∧ a.data[0]? = some e ∧
    (∃ d, ops.utc e = .ok d) ∧ ∀ e ∈ a.data, (∃ t, ops.tsc e = .ok t) ∧ ∃ t, ops.tus e = .ok t
  noise : ∃ n, IsVector (Dict.get? r (py! "noise_at_freq")) (n + 1)
  azms : IsVector (Dict.get? r (py! "beam_azms")) nb
  pulses : ∃ n, IsVector (Dict.get? r (py! "pulses")) n ∧ n < 2 ^ 15
  lags : ∃ a n ds, Dict.get? r (py! "lags") = some (.arr a) ∧ a.shape = n :: ds ∧ n ≤ 2 ^ 15
  distances : ∀ k ∈ [py! "first_range", py! "range_sep"], ∀ t e, Dict.get? r k = some (.np t e) →
    ∃ n, ops.round e = .ok n ∧ Is16 n
  slice : (∃ t n, slice = .np t (.int n) ∧ intTy t = true) ∨ ∃ n, slice = .py .pyInt (.int n) ∧ Is16 n

/-! ## Header -/

/-- Fields of a DMAP record that are a number of the Borealis record. -/
def sameNumber : List (PyStr × PyStr) :=
  [(py! "cp", py! "experiment_id"), (py! "nave", py! "num_sequences"), (py! "scan", py! "scan_start_marker"),
   (py! "txpl", py! "tx_pulse_len"), (py! "mpinc", py! "tau_spacing"), (py! "tfreq", py! "freq")]

/-- Fields of a DMAP record that are a number of the Borealis record, or zero if that is missing. -/
def statusNumber : List (PyStr × PyStr) :=
  [(py! "stat.agc", py! "agc_status_word"), (py! "stat.lopwr", py! "lp_status_word")]

/-- Fields of a DMAP record that are always the same. -/
def constantNumbers : List (PyStr × Int) :=
  [(py! "origin.code", 100), (py! "atten", 0), (py! "ercod", 0), (py! "offset", 0), (py! "rxrise", 0),
   (py! "mxpwr", -1), (py! "lvmax", 20000)]

/-- The value is a number of an integer type. -/
def IsInt (v : Option Val) (n : Int) : Prop := ∃ t, v = some (.np t (.int n)) ∧ intTy t = true

/-- The value is a floating point number. -/
def IsFloat (v : Option Val) (e : Elt) : Prop := v = some (.np .f32 e) ∨ v = some (.np .f64 e)

/-- The first element of a vector. -/
def IsFirst (v : Option Val) (e : Elt) : Prop :=
  ∃ a n, v = some (.arr a) ∧ a.shape = [n] ∧ a.data[0]? = some e

/-- The date in the header of a DMAP record. -/
def DateIs (d : PlainRec) (x : Date) : Prop :=
  textField d (py! "origin.time") = some x.text ∧
  intField d (py! "time.yr") = some x.year.toInt ∧ intField d (py! "time.mo") = some x.month.toInt ∧
  intField d (py! "time.dy") = some x.day.toInt ∧ intField d (py! "time.hr") = some x.hour.toInt ∧
  intField d (py! "time.mt") = some x.minute.toInt ∧ intField d (py! "time.sc") = some x.second.toInt ∧
  intField d (py! "time.us") = some x.micro.toInt

/-- The array of a DMAP record has the shape of the one in the Borealis record, and the same numbers if they fit
int16. -/
def SameTable (v : Option Val) (x : Option Verif.NdArr) : Prop :=
  ∃ a b, v = some (.arr a) ∧ x = some b ∧ b.shape = a.shape ∧
    ∀ idx n, a.get? idx = some (.int n) → Is16 n → i16At b idx = some n

/-- What the header of a DMAP record has to say of a Borealis record. -/
structure HeaderOf (ops : Ops) (s : Source) (d : PlainRec) : Prop where
  numbers : ∀ p ∈ sameNumber, ∀ n, IsInt (Dict.get? s.fields p.2) n → Is16 n → intField d p.1 = some n
  status : ∀ p ∈ statusNumber, (∀ n, IsInt (Dict.get? s.fields p.2) n → Is16 n → intField d p.1 = some n) ∧
    (Dict.get? s.fields p.2 = none → intField d p.1 = some 0)
  constants : ∀ p ∈ constantNumbers, intField d p.1 = some p.2
  date : ∃ e x, IsFirst (Dict.get? s.fields (py! "sqn_timestamps")) e ∧ ops.utc e = .ok x ∧ DateIs d x
  station : ∀ c, IsText (Dict.get? s.fields (py! "station")) c →
    ∃ n, (c, n) ∈ codeToStid ∧ intField d (py! "stid") = some n
  pulses : SameTable (Dict.get? s.fields (py! "pulses")) (arrField d (py! "ptab"))
  pulseCount : ∀ n, IsVector (Dict.get? s.fields (py! "pulses")) n → n < 2 ^ 15 →
    intField d (py! "mppul") = some (n : Int)
  lags : SameTable (Dict.get? s.fields (py! "lags")) (arrField d (py! "ltab"))
  lagCount : ∀ a n, Dict.get? s.fields (py! "lags") = some (.arr a) → a.shape = [n, 2] → n < 2 ^ 15 →
    intField d (py! "mplgs") = some ((n : Int) - 1)
  noise : ∃ e, IsFirst (Dict.get? s.fields (py! "noise_at_freq")) e ∧
    f32Field d (py! "noise.search") = some (ops.toF32 e)
  noiseMean : f32Field d (py! "noise.mean") = some 0
  slice : (∀ n, IsInt (some s.slice) n → Is16 n → intField d (py! "channel") = some n)
  firstLag : ∀ e, IsFloat (Dict.get? s.fields (py! "first_range_rtt")) e →
    intField d (py! "lagfr") = some (ops.toI16 e).toInt
  rate : ∀ e, IsFloat (Dict.get? s.fields (py! "rx_sample_rate")) e →
    intField d (py! "smsep") = some (ops.period e).toInt
  time : ∀ e, IsFloat (Dict.get? s.fields (py! "int_time")) e →
    intField d (py! "intt.sc") = some (ops.floor e).toInt ∧ intField d (py! "intt.us") = some (ops.micros e).toInt
  distances : ∀ p ∈ [(py! "frang", py! "first_range"), (py! "rsep", py! "range_sep")], ∀ e n,
    IsFloat (Dict.get? s.fields p.2) e → ops.round e = .ok n → Is16 n → intField d p.1 = some n
  command : ∀ h e, IsText (Dict.get? s.fields (py! "borealis_git_hash")) h →
    IsText (Dict.get? s.fields (py! "experiment_name")) e →
    textField d (py! "origin.command") = some (py! "Borealis " ++ h ++ py! " " ++ e)
  comment : ∀ e c, IsText (Dict.get? s.fields (py! "experiment_comment")) e →
    IsText (Dict.get? s.fields (py! "slice_comment")) c →
    ∃ t, textField d (py! "combf") = some (py! "Converted from Borealis file: " ++ s.origin ++ py! " record " ++ s.name ++
      t ++ py! " ; " ++ e ++ py! " ; " ++ c)

/-! ## Clamping -/

/-- The float64 is neither infinite nor a NaN. -/
def f64Finite (b : BitVec 64) : Prop := b.toNat / 2 ^ 52 % 2 ^ 11 ≠ 2047

/-- The number that a finite float64 stands for, times `2 ^ 1074`. -/
def f64Scaled (b : BitVec 64) : Int :=
  let e := b.toNat / 2 ^ 52 % 2 ^ 11
  let m := b.toNat % 2 ^ 52
  let v : Nat := if e = 0 then m else (2 ^ 52 + m) * 2 ^ (e - 1)
  if b.toNat / 2 ^ 63 = 0 then v else -v

/-- The number rounded towards zero, the nearest 16-bit integer if it is out of range. -/
def nearest16 (b : BitVec 64) : Int := max (-32768) (min 32767 ((f64Scaled b).tdiv (2 ^ 1074)))

/-! ## Times -/

/-- The element is a whole number as float64. -/
def IsWhole (e : Elt) (n : Nat) : Prop :=
  ∃ b : BitVec 64, e = .flt b.toNat ∧ f64Finite b ∧ f64Scaled b = n * 2 ^ 1074

/-- The operations behind `tsc` and `tus` give the right result for whole numbers: `floor(n / 1000)` and
`fmod(n, 1000) * 1000`. -/
def RightTimes (ops : Ops) : Prop :=
  ∀ e n, IsWhole e n → n < 2 ^ 31 →
    ops.tsc e = .ok (BitVec.ofNat 32 (n / 1000)) ∧ ops.tus e = .ok (BitVec.ofNat 32 (n % 1000 * 1000))

/-! ## Blanked samples -/

/-- In ascending order. -/
def Ascending : List Nat → Prop
  | [] => True
  | a :: l => (∀ b ∈ l, a ≤ b) ∧ Ascending l

/-- The samples at which the pulses are sent, where there are `t / l` samples in a pulse spacing. -/
def atPulses (ps : List Nat) (t l : Nat) : List Nat := ps.map fun p => p * (t / l)

/-- The pulse samples, or in ascending order the pulse samples and the one after each. -/
def Blanked (ps : List Nat) (t l : Nat) (bs : List Nat) : Prop :=
  bs = atPulses ps t l ∨
  Ascending bs ∧ bs.Perm (atPulses ps t l ++ (atPulses ps t l).map (· + 1))

/-- What the check of blanked samples looks at. -/
structure BlankedRec (r : Rec) (ps bs : List Nat) (t l : Nat) : Prop where
  pulses : Dict.get? r (py! "pulses") = some (numbers ps)
  blanked : Dict.get? r (py! "blanked_samples") = some (numbers bs)
  tau : Dict.get? r (py! "tau_spacing") = some (.np .u32 (.int t))
  len : Dict.get? r (py! "tx_pulse_len") = some (.np .u32 (.int l))
  pos : 0 < l
  fits : ∀ p ∈ ps, p * (t / l) + 1 < 2 ^ 32

/-- A version can be read from the hash: it is not empty, and if it starts with `v` there is a dot before the
first dash. -/
def HasVersion (h : PyStr) : Prop := h ≠ [] ∧ (h.head? = some 'v' → '.' ∈ h.takeWhile (· ≠ '-'))

/-- A record that can be checked: `blanked` says whether its blanked samples are allowed. -/
def Checkable (r : Rec) (blanked : Prop) : Prop :=
  ∃ ps bs t l h, BlankedRec r ps bs t l ∧ IsText (Dict.get? r (py! "borealis_git_hash")) h ∧ HasVersion h ∧
    (blanked ↔ Blanked ps t l bs)

/-- The record has a vector of phase offsets; `zero` says whether all are zero. -/
def PhasesRec (ops : Ops) (r : Rec) (zero : Prop) : Prop :=
  ∃ a n, Dict.get? r (py! "pulse_phase_offset") = some (.arr a) ∧ a.shape = [n] ∧ a.WF ∧
    (zero ↔ ∀ e ∈ a.data, ops.isZero e = true)

/-! ## Files -/

/-- Bytes that a value takes in a DMAP record after its name and type. -/
def bytesOf : PlainVal → Nat
  | .scalar _ (.str t) => t.length + 1
  | .scalar (.np dt) _ => dt.size
  | .scalar _ _ => 0
  | .arr a => 4 + 4 * a.shape.length + Spec.prod a.shape * a.dtype.size

/-- Bytes that a DMAP record takes. -/
def recordBytes (d : PlainRec) : Nat := 16 + (d.map fun p => p.1.length + 2 + bytesOf p.2).sum

/-- What a Borealis record needs so that its converted records survive in a file: a version tag, texts that
DMAP can hold, tables that are not empty. -/
structure Writable (s : Source) : Prop where
  tag : ∃ (v : Version) (t : PyStr), IsText (Dict.get? s.fields (py! "borealis_git_hash")) (v.name ++ t) ∧ VersionTail t
  texts : ∀ k ∈ [py! "borealis_git_hash", py! "experiment_name", py! "experiment_comment", py! "slice_comment"],
    ∃ t, IsText (Dict.get? s.fields k) t ∧ Spec.PlainText t
  origin : Spec.PlainText s.origin
  name : Spec.PlainText s.name
  pulses : ∃ n, IsVector (Dict.get? s.fields (py! "pulses")) n ∧ 1 ≤ n
  lags : ∃ a n m, Dict.get? s.fields (py! "lags") = some (.arr a) ∧ a.shape = [n, m] ∧ 1 ≤ n ∧ 1 ≤ m

/-- There is at least one antenna array, sequence and sample, or one range and two lags. -/
def NotEmpty : Target → Rec → Prop
  | .iqdat, r => ∃ a norm beams na nq ns, BfiqRec r a norm beams na nq ns ∧ 1 ≤ na ∧ 1 ≤ nq ∧ 1 ≤ ns
  | .rawacf, r => ∃ m x norm beams nr nl, RawacfRec r m x norm beams nr nl ∧ 1 ≤ nr ∧ 2 ≤ nl

/-- Dates are plain texts. -/
def PlainDates (ops : Ops) : Prop := ∀ e x, ops.utc e = .ok x → Spec.PlainText x.text

/-- The same value: the same number, text or array.  NumPy and Python types of scalars may differ. -/
def SameValue : PlainVal → PlainVal → Prop
  | .scalar _ v, .scalar _ w => w = v
  | .arr a, .arr b => b = a
  | _, _ => False

/-- The same fields in the same order with the same values. -/
def SameRecord (d e : PlainRec) : Prop := Spec.Pairs (fun p q => q.1 = p.1 ∧ SameValue p.2 q.2) d e

end Verif.Bor
