import Verif.Borealis.Lemmas.ArgumentMessages
import Verif.Borealis.Lemmas.ArrayChecks
import Verif.Borealis.Lemmas.ArrayFile
import Verif.Borealis.Lemmas.ArrayFileRows
import Verif.Borealis.Lemmas.ArrayTabled
import Verif.Borealis.Lemmas.ArrayToSite
import Verif.Borealis.Lemmas.Calendar
import Verif.Borealis.Lemmas.Checks
import Verif.Borealis.Lemmas.Clamp
import Verif.Borealis.Lemmas.Coherent
import Verif.Borealis.Lemmas.Convert
import Verif.Borealis.Lemmas.ConvertBfiq
import Verif.Borealis.Lemmas.ConvertCheck
import Verif.Borealis.Lemmas.ConvertEncode
import Verif.Borealis.Lemmas.ConvertFits
import Verif.Borealis.Lemmas.ConvertHeader
import Verif.Borealis.Lemmas.ConvertMessages
import Verif.Borealis.Lemmas.ConvertQuiet
import Verif.Borealis.Lemmas.ConvertRawacf
import Verif.Borealis.Lemmas.ConvertSamples
import Verif.Borealis.Lemmas.ConvertSuccess
import Verif.Borealis.Lemmas.ConvertTypes
import Verif.Borealis.Lemmas.Dims
import Verif.Borealis.Lemmas.FileWrites
import Verif.Borealis.Lemmas.Files
import Verif.Borealis.Lemmas.Fill
import Verif.Borealis.Lemmas.Hdf5
import Verif.Borealis.Lemmas.Hdf5Groups
import Verif.Borealis.Lemmas.Header
import Verif.Borealis.Lemmas.Keys
import Verif.Borealis.Lemmas.MaxDims
import Verif.Borealis.Lemmas.Maxima
import Verif.Borealis.Lemmas.Memory
import Verif.Borealis.Lemmas.Nd
import Verif.Borealis.Lemmas.PpoCongr
import Verif.Borealis.Lemmas.RawRecords
import Verif.Borealis.Lemmas.Reshape
import Verif.Borealis.Lemmas.RestructureMessages
import Verif.Borealis.Lemmas.RoundTrip
import Verif.Borealis.Lemmas.Samples
import Verif.Borealis.Lemmas.Scale
import Verif.Borealis.Lemmas.SiteFile
import Verif.Borealis.Lemmas.SiteFileArrays
import Verif.Borealis.Lemmas.SiteToArray
import Verif.Borealis.Lemmas.StackCongr
import Verif.Borealis.Lemmas.Tabled
import Verif.Borealis.Lemmas.Tables
import Verif.Borealis.Lemmas.Times
import Verif.Borealis.Lemmas.Versions
import Verif.Borealis.Lemmas.WrittenArrays
import Verif.Borealis.Lemmas.WrittenFiles
import Verif.Borealis.Model.ArgumentMessages
import Verif.Borealis.Model.Checks
import Verif.Borealis.Model.Convert
import Verif.Borealis.Model.ConvertMessages
import Verif.Borealis.Model.ConvertObject
import Verif.Borealis.Model.FileRestructure
import Verif.Borealis.Model.Formats
import Verif.Borealis.Model.Hdf5
import Verif.Borealis.Model.Header
import Verif.Borealis.Model.Memory
import Verif.Borealis.Model.Messages
import Verif.Borealis.Model.Objects
import Verif.Borealis.Model.Restructure
import Verif.Borealis.Model.RestructureMessages
import Verif.Borealis.Model.Scale
import Verif.Borealis.Model.Texts
import Verif.Borealis.Model.Times
import Verif.Borealis.Model.Values
import Verif.Borealis.Props.ArgumentMessages
import Verif.Borealis.Props.Arguments
import Verif.Borealis.Props.Checks
import Verif.Borealis.Props.ConvertCheck
import Verif.Borealis.Props.ConvertFile
import Verif.Borealis.Props.ConvertFlaws
import Verif.Borealis.Props.ConvertHeader
import Verif.Borealis.Props.ConvertIqdat
import Verif.Borealis.Props.ConvertMessages
import Verif.Borealis.Props.ConvertRawacf
import Verif.Borealis.Props.ConvertSplit
import Verif.Borealis.Props.ConvertStructure
import Verif.Borealis.Props.ConvertStructureFiles
import Verif.Borealis.Props.ConvertTypes
import Verif.Borealis.Props.Dispatch
import Verif.Borealis.Props.FileAppend
import Verif.Borealis.Props.FileDisagree
import Verif.Borealis.Props.FileDisagreeSite
import Verif.Borealis.Props.FileRestructure
import Verif.Borealis.Props.FileRestructureSite
import Verif.Borealis.Props.FileRoundTrip
import Verif.Borealis.Props.FileTypes
import Verif.Borealis.Props.Files
import Verif.Borealis.Props.Formats
import Verif.Borealis.Props.Header
import Verif.Borealis.Props.HeaderSpecial
import Verif.Borealis.Props.Kinds
import Verif.Borealis.Props.Memory
import Verif.Borealis.Props.Messages
import Verif.Borealis.Props.Restructure
import Verif.Borealis.Props.RestructureBack
import Verif.Borealis.Props.RestructureErrors
import Verif.Borealis.Props.RestructureMessages
import Verif.Borealis.Props.RestructureTypes
import Verif.Borealis.Props.Rewrite
import Verif.Borealis.Props.Scale
import Verif.Borealis.Props.Texts
import Verif.Borealis.Props.Times
import Verif.Borealis.SampleConvert
import Verif.Borealis.SampleFiles
import Verif.Borealis.SamplePlain
import Verif.Borealis.SampleRestructure
import Verif.Borealis.Spec
import Verif.Borealis.SpecArguments
import Verif.Borealis.SpecConvert
import Verif.Borealis.SpecFiles
import Verif.Borealis.SpecHeader
import Verif.Borealis.SpecRestructure
import Verif.Borealis.SpecRestructureMessages
import Verif.Borealis.SpecScale
import Verif.Borealis.SpecShapes
import Verif.Borealis.SpecTimes
import Verif.Dmap.Lemmas.Array
import Verif.Dmap.Lemmas.Char
import Verif.Dmap.Lemmas.Double
import Verif.Dmap.Lemmas.Errors
import Verif.Dmap.Lemmas.Exact
import Verif.Dmap.Lemmas.Extra
import Verif.Dmap.Lemmas.File
import Verif.Dmap.Lemmas.Header
import Verif.Dmap.Lemmas.Local
import Verif.Dmap.Lemmas.Messages
import Verif.Dmap.Lemmas.Programs
import Verif.Dmap.Lemmas.ReadNumber
import Verif.Dmap.Lemmas.Record
import Verif.Dmap.Lemmas.Sayings
import Verif.Dmap.Lemmas.Scalar
import Verif.Dmap.Lemmas.Steps
import Verif.Dmap.Lemmas.StepsBad
import Verif.Dmap.Lemmas.Survive
import Verif.Dmap.Lemmas.Views
import Verif.Dmap.Lemmas.Write
import Verif.Dmap.Lemmas.WriteErrors
import Verif.Dmap.Lemmas.WriteMessages
import Verif.Dmap.Lemmas.WriterObj
import Verif.Dmap.Lemmas.Written
import Verif.Dmap.Model.Arrays
import Verif.Dmap.Model.ArraysAgain
import Verif.Dmap.Model.Conversions
import Verif.Dmap.Model.Lists
import Verif.Dmap.Model.Messages
import Verif.Dmap.Model.Open
import Verif.Dmap.Model.ReadAgain
import Verif.Dmap.Model.Reader
import Verif.Dmap.Model.ReaderObj
import Verif.Dmap.Model.Session
import Verif.Dmap.Model.SharedShapes
import Verif.Dmap.Model.Steps
import Verif.Dmap.Model.Streams
import Verif.Dmap.Model.Texts
import Verif.Dmap.Model.Types
import Verif.Dmap.Model.Views
import Verif.Dmap.Model.WriteMessages
import Verif.Dmap.Model.Writer
import Verif.Dmap.Programs
import Verif.Dmap.Props.AfterTest
import Verif.Dmap.Props.Arrays
import Verif.Dmap.Props.ArraysAgain
import Verif.Dmap.Props.Convert
import Verif.Dmap.Props.Corrupt
import Verif.Dmap.Props.FarCursor
import Verif.Dmap.Props.Floats
import Verif.Dmap.Props.InputKinds
import Verif.Dmap.Props.Inside
import Verif.Dmap.Props.Lists
import Verif.Dmap.Props.Messages
import Verif.Dmap.Props.NearCursor
import Verif.Dmap.Props.Read
import Verif.Dmap.Props.ReadAgain
import Verif.Dmap.Props.ReadState
import Verif.Dmap.Props.Rewrite
import Verif.Dmap.Props.RewriteMany
import Verif.Dmap.Props.RoundTrip
import Verif.Dmap.Props.Sayings
import Verif.Dmap.Props.Session
import Verif.Dmap.Props.SharedLeft
import Verif.Dmap.Props.SharedShapes
import Verif.Dmap.Props.Size
import Verif.Dmap.Props.Steps
import Verif.Dmap.Props.Stream
import Verif.Dmap.Props.Streams
import Verif.Dmap.Props.Text
import Verif.Dmap.Props.Texts
import Verif.Dmap.Props.Values
import Verif.Dmap.Props.Views
import Verif.Dmap.Props.Write
import Verif.Dmap.Props.WriteErrors
import Verif.Dmap.Props.WriteMessages
import Verif.Dmap.Sample
import Verif.Dmap.Spec
import Verif.Dmap.SpecMessages
import Verif.Dmap.SpecSayings
import Verif.Dmap.SpecWriteMessages
import Verif.Dmap.WriteSpec
import Verif.Py.Dict
import Verif.Py.Float
import Verif.Py.FloatIeee
import Verif.Py.Ieee
import Verif.Py.IeeeError
import Verif.Py.IeeeLemmas
import Verif.Py.IeeeNearest
import Verif.Py.IeeeRoot
import Verif.Py.IeeeSqrt
import Verif.Py.Repr
import Verif.Py.Str
import Verif.Py.Struct
import Verif.SDarn.Lemmas.Checks
import Verif.SDarn.Lemmas.Decide
import Verif.SDarn.Lemmas.Objects
import Verif.SDarn.Lemmas.Tables
import Verif.SDarn.Model.Checks
import Verif.SDarn.Model.Formats
import Verif.SDarn.Model.Messages
import Verif.SDarn.Model.Objects
import Verif.SDarn.Model.ReadAgain
import Verif.SDarn.Model.Session
import Verif.SDarn.Programs
import Verif.SDarn.Props.Checks
import Verif.SDarn.Props.Groups
import Verif.SDarn.Props.Kinds
import Verif.SDarn.Props.Messages
import Verif.SDarn.Props.Objects
import Verif.SDarn.Props.Open
import Verif.SDarn.Props.ReadAgain
import Verif.SDarn.Props.Readable
import Verif.SDarn.Props.Rewrite
import Verif.SDarn.Props.Session
import Verif.SDarn.Props.Tables
import Verif.SDarn.Props.Write
import Verif.SDarn.Sample
import Verif.SDarn.Spec
