import Verif.SDarn.Props.Checks
/-!
# C26: how the tables of the file types belong together
-/
namespace Verif.SD

/-- All fields of a file type, with their data types. -/
def listed (ft : FileType) : Table := (required ft ++ optional ft).flatten

theorem mem_listed {ft : FileType} {k : PyStr} {t : Fmt} : (k, t) ∈ listed ft ↔ Lists (required ft ++ optional ft) k t := by
  simp only [listed, List.mem_flatten, Lists]

/-- **C26** (maps).  A map file has all fields of a grid file. -/
theorem C26_grid_in_map {k : PyStr} {t : Fmt} (h : Lists (required .grid ++ optional .grid) k t) :
    Lists (required .map ++ optional .map) k t :=
  mem_listed.1 ((by decide +kernel : ∀ p ∈ listed .grid, p ∈ listed .map) _ (mem_listed.2 h))

example : Lists (required .grid ++ optional .grid) (py! "vector.wdt.sd") .f :=
  ⟨Grid.extraFields, by decide +kernel, by decide +kernel⟩

/-- **C26** (sounding files).  All fields of a sounding file but its own revision are fields of a fitted file. -/
theorem C26_snd_in_fitacf {k : PyStr} {t : Fmt} (h : Lists (required .snd ++ optional .snd) k t) :
    k = py! "snd.revision.major" ∨ k = py! "snd.revision.minor" ∨ Lists (required .fitacf ++ optional .fitacf) k t := by
  have := (by decide +kernel : ∀ p ∈ listed .snd, p.1 = py! "snd.revision.major" ∨ p.1 = py! "snd.revision.minor" ∨ p ∈ listed .fitacf)
    _ (mem_listed.2 h)
  rwa [← mem_listed]

example : Lists (required .snd ++ optional .snd) (py! "phi0_e") .f :=
  ⟨Snd.xcfFields, by decide +kernel, by decide +kernel⟩

/-- The fields of correlations, which only rawacf files have. -/
def onlyRawacf : List PyStr :=
  [py! "rawacf.revision.major", py! "rawacf.revision.minor", py! "thr", py! "acfd", py! "xcfd"]

/-- The fields of samples, which only iqdat files have. -/
def onlyIqdat : List PyStr :=
  [py! "iqdata.revision.major", py! "iqdata.revision.minor", py! "seqnum", py! "chnnum", py! "smpnum", py! "skpnum",
   py! "tsc", py! "tus", py! "tatten", py! "tnoise", py! "toff", py! "tsze", py! "data"]

/-- The fields of range gates and of modes that iqdat files do not have. -/
def notIqdat : List PyStr := [py! "ifmode", py! "mplgexs", py! "slist", py! "pwr0"]

/-- **C26** (radar parameters).  The files made one from the other — samples, correlations, fits — have the same fields for the
parameters of the radar: those of an iqdat file but the samples' are in rawacf and fitacf files; those of a rawacf file but the
correlations' are in fitacf files and, but for four, in iqdat files. -/
theorem C26_parameters {k : PyStr} {t : Fmt} :
    (Lists (required .iqdat ++ optional .iqdat) k t → k ∈ onlyIqdat ∨
      (Lists (required .rawacf ++ optional .rawacf) k t ∧ Lists (required .fitacf ++ optional .fitacf) k t)) ∧
    (Lists (required .rawacf ++ optional .rawacf) k t → k ∈ onlyRawacf ∨
      (Lists (required .fitacf ++ optional .fitacf) k t ∧ (k ∈ notIqdat ∨ Lists (required .iqdat ++ optional .iqdat) k t))) := by
  simp only [← mem_listed]
  exact ⟨fun h => (by decide +kernel : ∀ p ∈ listed .iqdat, p.1 ∈ onlyIqdat ∨ (p ∈ listed .rawacf ∧ p ∈ listed .fitacf)) _ h,
    fun h => (by decide +kernel : ∀ p ∈ listed .rawacf, p.1 ∈ onlyRawacf ∨ (p ∈ listed .fitacf ∧ (p.1 ∈ notIqdat ∨ p ∈ listed .iqdat))) _ h⟩

example : Lists (required .iqdat ++ optional .iqdat) (py! "tfreq") .h ∧ Lists (required .rawacf ++ optional .rawacf) (py! "ltab") .h :=
  ⟨⟨Iqdat.types, by decide +kernel, by decide +kernel⟩, ⟨Rawacf.types, by decide +kernel, by decide +kernel⟩⟩

/-- **C26** (own fields).  Each of these names belongs to one file type only. -/
theorem C26_own : (∀ k ∈ onlyRawacf, ∀ ft t, Lists (required ft ++ optional ft) k t → ft = .rawacf) ∧
    (∀ k ∈ onlyIqdat, ∀ ft t, Lists (required ft ++ optional ft) k t → ft = .iqdat) := by
  refine ⟨fun k hk ft t h => ?_, fun k hk ft t h => ?_⟩
  · cases ft <;> first | rfl | exact absurd hk ((by decide +kernel : ∀ p ∈ listed _, p.1 ∉ onlyRawacf) _ (mem_listed.2 h))
  · cases ft <;> first | rfl | exact absurd hk ((by decide +kernel : ∀ p ∈ listed _, p.1 ∉ onlyIqdat) _ (mem_listed.2 h))

example : py! "acfd" ∈ onlyRawacf ∧ Lists (required .rawacf ++ optional .rawacf) (py! "acfd") .f :=
  ⟨by decide +kernel, ⟨Rawacf.correlationField, by decide +kernel, by decide +kernel⟩⟩

/-- Whenever a name with the one ending is listed, the name with the other ending is, with the same data type. -/
def Endings (ft : FileType) (a b : PyStr) : Prop :=
  ∀ k t, Lists (required ft ++ optional ft) (k ++ a) t → Lists (required ft ++ optional ft) (k ++ b) t

theorem endings_of {ft : FileType} {a b : PyStr}
    (h : ∀ p ∈ listed ft, a <:+ p.1 → (p.1.take (p.1.length - a.length) ++ b, p.2) ∈ listed ft) : Endings ft a b := by
  intro k t hk
  have := h _ (mem_listed.2 hk) (List.suffix_append k a)
  rw [← mem_listed]
  simpa using this

/-- The same with beginnings. -/
def Beginnings (ft : FileType) (a b : PyStr) : Prop :=
  ∀ k t, Lists (required ft ++ optional ft) (a ++ k) t → Lists (required ft ++ optional ft) (b ++ k) t

theorem beginnings_of {ft : FileType} {a b : PyStr}
    (h : ∀ p ∈ listed ft, a <+: p.1 → (b ++ p.1.drop a.length, p.2) ∈ listed ft) : Beginnings ft a b := by
  intro k t hk
  have := h _ (mem_listed.2 hk) (List.prefix_append a k)
  rw [← mem_listed]
  simpa using this

/-- **C26** (counterparts).  Fields that belong together are all listed, with the same data type: to the error `k_e` and to the
field `x_k` of the interferometer the field `k`; minimum and maximum; begin and end; major and minor revision; latitude and
longitude; in maps, the error `k.err` and `k`; in grids, median and deviation; in fitted files, the lambda and sigma fits and all that
is fitted for both arrays. -/
theorem C26_counterparts :
    (∀ ft, Endings ft (py! "_e") [] ∧ Beginnings ft (py! "x_") []) ∧
    (∀ ft, Endings ft (py! ".min") (py! ".max") ∧ Endings ft (py! ".max") (py! ".min")) ∧
    (∀ ft, Beginnings ft (py! "start.") (py! "end.") ∧ Beginnings ft (py! "end.") (py! "start.")) ∧
    (∀ ft, Endings ft (py! ".major") (py! ".minor") ∧ Endings ft (py! ".minor") (py! ".major")) ∧
    (∀ ft, Beginnings ft (py! "major.") (py! "minor.") ∧ Beginnings ft (py! "minor.") (py! "major.")) ∧
    (∀ ft, Endings ft (py! ".mlat") (py! ".mlon") ∧ Endings ft (py! ".mlon") (py! ".mlat")) ∧
    (∀ k t, Lists (required .map ++ optional .map) (k ++ py! ".err") t → k = py! "rms" ∨ Lists (required .map ++ optional .map) k t) ∧
    Endings .grid (py! ".median") (py! ".sd") ∧
    (Beginnings .fitacf (py! "w_") (py! "p_") ∧ Beginnings .fitacf (py! "p_") (py! "w_")) ∧
    (Endings .fitacf (py! "_l") (py! "_s") ∧ Endings .fitacf (py! "_s") (py! "_l")) ∧
    (Endings .fitacf (py! "_l_e") (py! "_s_e") ∧ Endings .fitacf (py! "_s_e") (py! "_l_e")) ∧
    (Endings .fitacf (py! "_low") (py! "_high") ∧ Endings .fitacf (py! "_high") (py! "_low")) ∧
    ∀ k t, (k, t) ∈ Fitacf.fittedFields → k = py! "slist" ∨ k = py! "nlag" ∨ Lists (required .fitacf) (py! "x_" ++ k) t := by
  refine ⟨?_, ?_, ?_, ?_, ?_, ?_, ?_, endings_of (by decide +kernel), ⟨beginnings_of (by decide +kernel), beginnings_of (by decide +kernel)⟩,
    ⟨endings_of (by decide +kernel), endings_of (by decide +kernel)⟩, ⟨endings_of (by decide +kernel), endings_of (by decide +kernel)⟩,
    ⟨endings_of (by decide +kernel), endings_of (by decide +kernel)⟩, ?_⟩
  · intro ft; cases ft <;> exact ⟨endings_of (by decide +kernel), beginnings_of (by decide +kernel)⟩
  · intro ft; cases ft <;> exact ⟨endings_of (by decide +kernel), endings_of (by decide +kernel)⟩
  · intro ft; cases ft <;> exact ⟨beginnings_of (by decide +kernel), beginnings_of (by decide +kernel)⟩
  · intro ft; cases ft <;> exact ⟨endings_of (by decide +kernel), endings_of (by decide +kernel)⟩
  · intro ft; cases ft <;> exact ⟨beginnings_of (by decide +kernel), beginnings_of (by decide +kernel)⟩
  · intro ft; cases ft <;> exact ⟨endings_of (by decide +kernel), endings_of (by decide +kernel)⟩
  · intro k t h
    have := (by decide +kernel : ∀ p ∈ listed .map, py! ".err" <:+ p.1 → p.1.take (p.1.length - 4) = py! "rms" ∨
      (p.1.take (p.1.length - 4), p.2) ∈ listed .map) _ (mem_listed.2 h) (List.suffix_append k _)
    rw [← mem_listed]
    simpa using this
  · intro k t h
    have := (by decide +kernel : ∀ p ∈ Fitacf.fittedFields, p.1 = py! "slist" ∨ p.1 = py! "nlag" ∨
      ∃ g ∈ required .fitacf, (py! "x_" ++ p.1, p.2) ∈ g) _ h
    exact this

/-- The pairs are there. -/
example : Lists (required .fitacf ++ optional .fitacf) (py! "x_" ++ py! "w_l" ++ py! "_e") .f ∧
    Lists (required .map ++ optional .map) (py! "pot.max" ++ py! ".err") .d ∧
    Lists (required .grid ++ optional .grid) (py! "v" ++ py! ".min") .f ∧
    Lists (required .map ++ optional .map) (py! "boundary" ++ py! ".mlat") .f :=
  ⟨⟨Fitacf.xcfFieldsFitacf2, by decide +kernel, by decide +kernel⟩, ⟨Map.types, by decide +kernel, by decide +kernel⟩,
    ⟨Grid.types, by decide +kernel, by decide +kernel⟩, ⟨Map.hmbFields, by decide +kernel, by decide +kernel⟩⟩

end Verif.SD
