import Verif.Borealis.SpecConvert
/-!
# Sample records for the conversion
-/
namespace Verif.Bor
open Verif

/-- Operations for samples: numbers stand for themselves. -/
def sampleOps : Ops where
  iq e _ _ := match e with
    | .cpx re im => (BitVec.ofNat 64 re, BitVec.ofNat 64 im)
    | _ => (0, 0)
  acf e _ _ := match e with
    | .cpx re im => (BitVec.ofNat 32 re, BitVec.ofNat 32 im)
    | _ => (0, 0)
  power e _ _ := match e with
    | .cpx re _ => BitVec.ofNat 32 re
    | _ => 0
  toI16 _ := 3
  toF32 e := match e with
    | .flt b => quiet32 (BitVec.ofNat 32 b)
    | _ => 0
  period _ := 300
  floor _ := 3
  micros _ := 5
  round _ := .ok 45
  quot _ _ := 4
  tsc _ := .ok 15
  tus _ := .ok 16
  isOn e := e ≠ .cpx 0 0
  isZero e := e = .flt 0
  utc _ := .ok ⟨py! "Wed Jan  1 00:00:00 2020", 2020, 1, 1, 0, 0, 0, 0⟩
  nan16 := 0

/-- A value of a type. -/
def sampleScalar : Ty → Val
  | .str => .py .str (.str (py! "text"))
  | .f32 => .np .f32 (.flt 7)
  | .f64 => .np .f64 (.flt 7)
  | t => .np t (.int 1)

/-- The fields of a table with the given values, and others of the type. -/
def fillRec (A D : TyTable) (o : Rec) : Rec :=
  A.map (fun p => (p.1, (Dict.get? o p.1).getD (sampleScalar p.2))) ++
  D.map fun p => (p.1, (Dict.get? o p.1).getD (.arr ⟨p.2, [2], [.flt 0, .flt 0]⟩))

/-- Values of a record with two beams, the pulses 0, 9 and 12, and 8 samples in a pulse spacing. -/
def sampleCommonFields (hash : PyStr) : Rec :=
  [(py! "borealis_git_hash", .py .str (.str hash)),
   (py! "station", .py .str (.str (py! "sas"))),
   (py! "beam_nums", numbers [3, 7]),
   (py! "pulses", numbers [0, 9, 12]),
   (py! "blanked_samples", numbers [0, 1, 72, 73, 96, 97]),
   (py! "tau_spacing", .np .u32 (.int 2400)),
   (py! "tx_pulse_len", .np .u32 (.int 300)),
   (py! "freq", .np .u32 (.int 10500)),
   (py! "data_normalization_factor", .np .f64 (.flt 9)),
   (py! "num_sequences", .np .i64 (.int 2)),
   (py! "lags", .arr ⟨.u32, [3, 2], [.int 0, .int 0, .int 9, .int 12, .int 12, .int 12]⟩)]

/-- A bfiq record: 2 antenna arrays, 2 sequences, 2 beams, 3 samples. -/
def sampleBfiq (v : Version) (tail : PyStr) : Rec :=
  let f := formatOf v .bfiq
  fillRec f.siteSingleTypes f.siteArrayTypes
    (sampleCommonFields (v.name ++ tail) ++
    [(py! "data", .arr ⟨.c64, [24], (List.range 24).map fun n => .cpx (0x4059000000000000 + n * 0x1000000000000) n⟩),
     (py! "data_dimensions", numbers [2, 2, 2, 3]),
     (py! "antenna_arrays_order", .arr ⟨(Dict.get? f.arrays (py! "antenna_arrays_order")).getD .npStr, [2],
       if v = .v07 then [.bytes [109], .bytes [105]] else [.str (py! "main"), .str (py! "intf")]⟩),
     (py! "num_samps", .np .u32 (.int 3))])

/-- A rawacf record: 2 beams, 2 ranges, 3 lags. -/
def sampleRawacf (v : Version) (tail : PyStr) : Rec :=
  let f := formatOf v .rawacf
  let a : Nat → Val := fun k => .arr ⟨.c64, [12], (List.range 12).map fun n => .cpx (k + n) (2 * k + n)⟩
  fillRec f.siteSingleTypes f.siteArrayTypes
    (sampleCommonFields (v.name ++ tail) ++
    [(py! "main_acfs", a 100), (py! "intf_acfs", a 200), (py! "xcfs", a 300),
     (py! "correlation_dimensions", numbers [2, 2, 3]),
     (py! "data_dimensions", numbers [2, 2, 3])])

/-- What is converted. -/
def sampleSource (r : Rec) : Source := ⟨.np .u32 (.int 0), py! "1577836800000", r, py! "20200101.sas.h5", 1⟩

end Verif.Bor
