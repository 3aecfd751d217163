import Verif.Dmap.Model.Types
/-!
# Field tables of the SuperDARN file types

Transcription of /repo/pydarnio/dmap/superdarn_formats.py: every class attribute is a
dictionary from field name to format character, here an association list in
the order of the source.
-/
namespace Verif.SD

/-- A field table: name ↦ format character. -/
abbrev Table := Dict PyStr Fmt

/-- `Rawacf.types` (/repo/pydarnio/dmap/superdarn_formats.py:18-70). -/
def Rawacf.types : Table :=
  [(py! "radar.revision.major", .c), (py! "radar.revision.minor", .c), (py! "origin.code", .c),
   (py! "origin.time", .s), (py! "origin.command", .s), (py! "cp", .h), (py! "stid", .h),
   (py! "time.yr", .h), (py! "time.mo", .h), (py! "time.dy", .h), (py! "time.hr", .h),
   (py! "time.mt", .h), (py! "time.sc", .h), (py! "time.us", .i), (py! "txpow", .h),
   (py! "nave", .h), (py! "atten", .h), (py! "lagfr", .h), (py! "smsep", .h),
   (py! "ercod", .h), (py! "stat.agc", .h), (py! "stat.lopwr", .h), (py! "noise.search", .f),
   (py! "noise.mean", .f), (py! "channel", .h), (py! "bmnum", .h), (py! "bmazm", .f),
   (py! "scan", .h), (py! "offset", .h), (py! "rxrise", .h), (py! "intt.sc", .h),
   (py! "intt.us", .i), (py! "txpl", .h), (py! "mpinc", .h), (py! "mppul", .h),
   (py! "mplgs", .h), (py! "nrang", .h), (py! "frang", .h), (py! "rsep", .h), (py! "xcf", .h),
   (py! "tfreq", .h), (py! "mxpwr", .i), (py! "lvmax", .i), (py! "rawacf.revision.major", .i),
   (py! "rawacf.revision.minor", .i), (py! "combf", .s), (py! "thr", .f), (py! "ptab", .h),
   (py! "ltab", .h), (py! "slist", .h), (py! "pwr0", .f)]

/-- `Rawacf.correlation_field` (/repo/pydarnio/dmap/superdarn_formats.py:71-73). -/
def Rawacf.correlationField : Table :=
  [(py! "acfd", .f)]

/-- `Rawacf.digitizing_field` (/repo/pydarnio/dmap/superdarn_formats.py:74-76). -/
def Rawacf.digitizingField : Table :=
  [(py! "ifmode", .h)]

/-- `Rawacf.fittex_field` (/repo/pydarnio/dmap/superdarn_formats.py:77-79). -/
def Rawacf.fittexField : Table :=
  [(py! "mplgexs", .h)]

/-- `Rawacf.cross_correlation_field` (/repo/pydarnio/dmap/superdarn_formats.py:80-82). -/
def Rawacf.crossCorrelationField : Table :=
  [(py! "xcfd", .f)]

/-- `Rawacf.optional_fields` (/repo/pydarnio/dmap/superdarn_formats.py:83). -/
def Rawacf.optionalFields : Table :=
  []

/-- `Fitacf.types` (/repo/pydarnio/dmap/superdarn_formats.py:91-143). -/
def Fitacf.types : Table :=
  [(py! "radar.revision.major", .c), (py! "radar.revision.minor", .c), (py! "origin.code", .c),
   (py! "origin.time", .s), (py! "origin.command", .s), (py! "cp", .h), (py! "stid", .h),
   (py! "time.yr", .h), (py! "time.mo", .h), (py! "time.dy", .h), (py! "time.hr", .h),
   (py! "time.mt", .h), (py! "time.sc", .h), (py! "time.us", .i), (py! "txpow", .h),
   (py! "nave", .h), (py! "atten", .h), (py! "lagfr", .h), (py! "smsep", .h),
   (py! "ercod", .h), (py! "stat.agc", .h), (py! "stat.lopwr", .h), (py! "noise.search", .f),
   (py! "noise.mean", .f), (py! "channel", .h), (py! "bmnum", .h), (py! "bmazm", .f),
   (py! "scan", .h), (py! "offset", .h), (py! "rxrise", .h), (py! "intt.sc", .h),
   (py! "intt.us", .i), (py! "txpl", .h), (py! "mpinc", .h), (py! "mppul", .h),
   (py! "mplgs", .h), (py! "nrang", .h), (py! "frang", .h), (py! "rsep", .h), (py! "xcf", .h),
   (py! "tfreq", .h), (py! "mxpwr", .i), (py! "lvmax", .i), (py! "combf", .s),
   (py! "fitacf.revision.major", .i), (py! "fitacf.revision.minor", .i), (py! "noise.sky", .f),
   (py! "noise.lag0", .f), (py! "noise.vel", .f), (py! "ptab", .h), (py! "ltab", .h),
   (py! "pwr0", .f)]

/-- `Fitacf.optional_fields` (/repo/pydarnio/dmap/superdarn_formats.py:144-148). -/
def Fitacf.optionalFields : Table :=
  [(py! "ifmode", .h), (py! "mplgexs", .h), (py! "tdiff", .f), (py! "algorithm", .s)]

/-- `Fitacf.fitted_fields` (/repo/pydarnio/dmap/superdarn_formats.py:151-168). -/
def Fitacf.fittedFields : Table :=
  [(py! "slist", .h), (py! "nlag", .h), (py! "qflg", .c), (py! "gflg", .c), (py! "p_l", .f),
   (py! "p_l_e", .f), (py! "p_s", .f), (py! "p_s_e", .f), (py! "v", .f), (py! "v_e", .f),
   (py! "w_l", .f), (py! "w_l_e", .f), (py! "w_s", .f), (py! "w_s_e", .f), (py! "sd_l", .f),
   (py! "sd_s", .f), (py! "sd_phi", .f)]

/-- `Fitacf.xcf_fields` (/repo/pydarnio/dmap/superdarn_formats.py:170-175). -/
def Fitacf.xcfFields : Table :=
  [(py! "phi0", .f), (py! "phi0_e", .f), (py! "elv", .f), (py! "x_sd_phi", .f)]

/-- `Fitacf.xcf_fields_fitacf3` (/repo/pydarnio/dmap/superdarn_formats.py:178-181). -/
def Fitacf.xcfFieldsFitacf3 : Table :=
  [(py! "elv_fitted", .f), (py! "elv_error", .f)]

/-- `Fitacf.xcf_fields_fitacf2` (/repo/pydarnio/dmap/superdarn_formats.py:184-201). -/
def Fitacf.xcfFieldsFitacf2 : Table :=
  [(py! "x_qflg", .c), (py! "x_gflg", .c), (py! "x_p_l", .f), (py! "x_p_l_e", .f),
   (py! "x_p_s", .f), (py! "x_p_s_e", .f), (py! "x_v", .f), (py! "x_v_e", .f),
   (py! "x_w_l", .f), (py! "x_w_l_e", .f), (py! "x_w_s", .f), (py! "x_w_s_e", .f),
   (py! "elv_low", .f), (py! "elv_high", .f), (py! "x_sd_l", .f), (py! "x_sd_s", .f)]

/-- `Grid.types` (/repo/pydarnio/dmap/superdarn_formats.py:210-240). -/
def Grid.types : Table :=
  [(py! "start.year", .h), (py! "start.month", .h), (py! "start.day", .h),
   (py! "start.hour", .h), (py! "start.minute", .h), (py! "start.second", .d),
   (py! "end.year", .h), (py! "end.month", .h), (py! "end.day", .h), (py! "end.hour", .h),
   (py! "end.minute", .h), (py! "end.second", .d), (py! "stid", .h), (py! "channel", .h),
   (py! "nvec", .h), (py! "freq", .f), (py! "major.revision", .h), (py! "minor.revision", .h),
   (py! "program.id", .h), (py! "noise.mean", .f), (py! "noise.sd", .f), (py! "gsct", .h),
   (py! "v.min", .f), (py! "v.max", .f), (py! "p.min", .f), (py! "p.max", .f),
   (py! "w.min", .f), (py! "w.max", .f), (py! "ve.min", .f), (py! "ve.max", .f)]

/-- `Grid.fitted_fields` (/repo/pydarnio/dmap/superdarn_formats.py:243-250). -/
def Grid.fittedFields : Table :=
  [(py! "vector.mlat", .f), (py! "vector.vel.median", .f), (py! "vector.channel", .h),
   (py! "vector.stid", .h), (py! "vector.vel.sd", .f), (py! "vector.index", .i),
   (py! "vector.kvect", .f), (py! "vector.mlon", .f)]

/-- `Grid.extra_fields` (/repo/pydarnio/dmap/superdarn_formats.py:252-257). -/
def Grid.extraFields : Table :=
  [(py! "vector.pwr.median", .f), (py! "vector.pwr.sd", .f), (py! "vector.wdt.median", .f),
   (py! "vector.wdt.sd", .f)]

/-- `Grid.optional_fields` (/repo/pydarnio/dmap/superdarn_formats.py:258). -/
def Grid.optionalFields : Table :=
  []

/-- `Map.types` (/repo/pydarnio/dmap/superdarn_formats.py:266-328). -/
def Map.types : Table :=
  [(py! "start.year", .h), (py! "start.month", .h), (py! "start.day", .h),
   (py! "start.hour", .h), (py! "start.minute", .h), (py! "start.second", .d),
   (py! "end.year", .h), (py! "end.month", .h), (py! "end.day", .h), (py! "end.hour", .h),
   (py! "end.minute", .h), (py! "end.second", .d), (py! "map.major.revision", .h),
   (py! "map.minor.revision", .h), (py! "doping.level", .h), (py! "model.wt", .h),
   (py! "error.wt", .h), (py! "IMF.flag", .h), (py! "IMF.delay", .h), (py! "IMF.Bx", .d),
   (py! "IMF.By", .d), (py! "IMF.Bz", .d), (py! "IMF.Vx", .d), (py! "IMF.tilt", .d),
   (py! "IMF.Kp", .d), (py! "hemisphere", .h), (py! "noigrf", .h), (py! "fit.order", .h),
   (py! "latmin", .f), (py! "chi.sqr", .d), (py! "chi.sqr.dat", .d), (py! "rms.err", .d),
   (py! "lon.shft", .f), (py! "lat.shft", .f), (py! "mlt.start", .d), (py! "mlt.end", .d),
   (py! "mlt.av", .d), (py! "pot.drop", .d), (py! "pot.drop.err", .d), (py! "pot.max", .d),
   (py! "pot.max.err", .d), (py! "pot.min", .d), (py! "pot.min.err", .d), (py! "stid", .h),
   (py! "channel", .h), (py! "nvec", .h), (py! "freq", .f), (py! "major.revision", .h),
   (py! "minor.revision", .h), (py! "program.id", .h), (py! "noise.mean", .f),
   (py! "noise.sd", .f), (py! "gsct", .h), (py! "v.min", .f), (py! "v.max", .f),
   (py! "p.min", .f), (py! "p.max", .f), (py! "w.min", .f), (py! "w.max", .f),
   (py! "ve.min", .f), (py! "ve.max", .f)]

/-- `Map.partial_fields` (/repo/pydarnio/dmap/superdarn_formats.py:329-338). -/
def Map.partialFields : Table :=
  [(py! "vector.mlat", .f), (py! "vector.mlon", .f), (py! "vector.kvect", .f),
   (py! "vector.stid", .h), (py! "vector.channel", .h), (py! "vector.index", .i),
   (py! "vector.vel.median", .f), (py! "vector.vel.sd", .f)]

/-- `Map.hmb_fields` (/repo/pydarnio/dmap/superdarn_formats.py:340-347). -/
def Map.hmbFields : Table :=
  [(py! "model.mlat", .f), (py! "model.mlon", .f), (py! "model.kvect", .f),
   (py! "model.vel.median", .f), (py! "boundary.mlat", .f), (py! "boundary.mlon", .f)]

/-- `Map.model_fields` (/repo/pydarnio/dmap/superdarn_formats.py:349-354). -/
def Map.modelFields : Table :=
  [(py! "model.angle", .s), (py! "model.level", .s), (py! "model.tilt", .s),
   (py! "model.name", .s)]

/-- `Map.fit_fields` (/repo/pydarnio/dmap/superdarn_formats.py:356-362). -/
def Map.fitFields : Table :=
  [(py! "source", .s), (py! "N", .d), (py! "N+1", .d), (py! "N+2", .d), (py! "N+3", .d)]

/-- `Map.extra_fields` (/repo/pydarnio/dmap/superdarn_formats.py:365-370). -/
def Map.extraFields : Table :=
  [(py! "vector.pwr.median", .f), (py! "vector.pwr.sd", .f), (py! "vector.wdt.median", .f),
   (py! "vector.wdt.sd", .f)]

/-- `Map.optional_fields` (/repo/pydarnio/dmap/superdarn_formats.py:371). -/
def Map.optionalFields : Table :=
  []

/-- `Iqdat.types` (/repo/pydarnio/dmap/superdarn_formats.py:379-439). -/
def Iqdat.types : Table :=
  [(py! "radar.revision.major", .c), (py! "radar.revision.minor", .c), (py! "origin.code", .c),
   (py! "origin.time", .s), (py! "origin.command", .s), (py! "cp", .h), (py! "stid", .h),
   (py! "time.yr", .h), (py! "time.mo", .h), (py! "time.dy", .h), (py! "time.hr", .h),
   (py! "time.mt", .h), (py! "time.sc", .h), (py! "time.us", .i), (py! "txpow", .h),
   (py! "nave", .h), (py! "atten", .h), (py! "lagfr", .h), (py! "smsep", .h),
   (py! "ercod", .h), (py! "stat.agc", .h), (py! "stat.lopwr", .h), (py! "noise.search", .f),
   (py! "noise.mean", .f), (py! "channel", .h), (py! "bmnum", .h), (py! "bmazm", .f),
   (py! "scan", .h), (py! "offset", .h), (py! "rxrise", .h), (py! "intt.sc", .h),
   (py! "intt.us", .i), (py! "txpl", .h), (py! "mpinc", .h), (py! "mppul", .h),
   (py! "mplgs", .h), (py! "nrang", .h), (py! "frang", .h), (py! "rsep", .h), (py! "xcf", .h),
   (py! "tfreq", .h), (py! "mxpwr", .i), (py! "lvmax", .i), (py! "iqdata.revision.major", .i),
   (py! "iqdata.revision.minor", .i), (py! "combf", .s), (py! "seqnum", .i),
   (py! "chnnum", .i), (py! "smpnum", .i), (py! "skpnum", .i), (py! "ptab", .h),
   (py! "ltab", .h), (py! "tsc", .i), (py! "tus", .i), (py! "tatten", .h), (py! "tnoise", .f),
   (py! "toff", .i), (py! "tsze", .i), (py! "data", .h)]

/-- `Iqdat.optional_fields` (/repo/pydarnio/dmap/superdarn_formats.py:440). -/
def Iqdat.optionalFields : Table :=
  []

/-- `Snd.types` (/repo/pydarnio/dmap/superdarn_formats.py:449-486). -/
def Snd.types : Table :=
  [(py! "radar.revision.major", .c), (py! "radar.revision.minor", .c), (py! "origin.code", .c),
   (py! "origin.time", .s), (py! "origin.command", .s), (py! "cp", .h), (py! "stid", .h),
   (py! "time.yr", .h), (py! "time.mo", .h), (py! "time.dy", .h), (py! "time.hr", .h),
   (py! "time.mt", .h), (py! "time.sc", .h), (py! "time.us", .i), (py! "nave", .h),
   (py! "lagfr", .h), (py! "smsep", .h), (py! "noise.search", .f), (py! "noise.mean", .f),
   (py! "channel", .h), (py! "bmnum", .h), (py! "bmazm", .f), (py! "scan", .h),
   (py! "rxrise", .h), (py! "intt.sc", .h), (py! "intt.us", .i), (py! "nrang", .h),
   (py! "frang", .h), (py! "rsep", .h), (py! "xcf", .h), (py! "tfreq", .h),
   (py! "noise.sky", .f), (py! "combf", .s), (py! "fitacf.revision.major", .i),
   (py! "fitacf.revision.minor", .i), (py! "snd.revision.major", .h),
   (py! "snd.revision.minor", .h)]

/-- `Snd.fitted_fields` (/repo/pydarnio/dmap/superdarn_formats.py:489-496). -/
def Snd.fittedFields : Table :=
  [(py! "slist", .h), (py! "qflg", .c), (py! "gflg", .c), (py! "v", .f), (py! "v_e", .f),
   (py! "p_l", .f), (py! "w_l", .f)]

/-- `Snd.xcf_fields` (/repo/pydarnio/dmap/superdarn_formats.py:498-502). -/
def Snd.xcfFields : Table :=
  [(py! "x_qflg", .c), (py! "phi0", .f), (py! "phi0_e", .f)]

/-- `Snd.optional_fields` (/repo/pydarnio/dmap/superdarn_formats.py:503). -/
def Snd.optionalFields : Table :=
  []

end Verif.SD
