import Verif.Props.IbmFloat
import Verif.Props.Sequences
import Verif.Props.Util
import Verif.Props.Catalog
import Verif.Props.Packer
import Verif.Props.Header
import Verif.Props.Text
import Verif.Props.TextFormat
import Verif.Props.Samples
import Verif.Props.Scan
import Verif.Props.Reader
import Verif.Props.Opening
import Verif.Props.Writer
import Verif.Props.Cache
import Verif.Props.CacheFiles
import Verif.Props.CacheLimits
import Verif.Props.Numpy
import Verif.Props.Extract
import Verif.Props.ExtractHeaders
import Verif.Props.ExtractTrace
import Verif.Props.Copy
import Verif.Props.Transform
import Verif.Props.Scaling
import Verif.Props.Coordinates
import Verif.Props.Reel
import Verif.Model.Cli
import Verif.Spec.Reel
import Verif.Spec.Cli
import Verif.Props.Cli
import Verif.Model.Examples
import Verif.Spec.Examples
import Verif.Props.Examples
import Verif.Model.CustomFormats
import Verif.Lemmas.CustomFormats
import Verif.Props.CustomFormats
import Verif.Model.IbmArith
import Verif.Spec.IbmArith
import Verif.Lemmas.IbmArith
import Verif.Lemmas.IbmArith2
import Verif.Props.IbmArith
import Verif.Props.IbmRounding
import Verif.Model.TimedReader
import Verif.Spec.Growing
import Verif.Lemmas.Growing
import Verif.Props.Growing
import Verif.Model.Threads
import Verif.Props.Threads
import Verif.Props.HeaderMemory
import Verif.Props.SharedCache
import Verif.Props.Standard
import Verif.Model.Update
import Verif.Spec.Update
import Verif.Lemmas.Update
import Verif.Props.Update
import Verif.Lemmas.ReelUpdate
import Verif.Props.ReelUpdate
import Verif.Model.NumpyScripts
import Verif.Props.NumpyScripts
import Verif.Model.Append
import Verif.Spec.Append
import Verif.Lemmas.Append
import Verif.Props.Append
import Verif.Model.Subset
import Verif.Spec.Subset
import Verif.Lemmas.Subset
import Verif.Props.Subset
import Verif.Model.SetMethods
import Verif.Spec.SetMethods
import Verif.Lemmas.SetMethods
import Verif.Props.SetMethods
import Verif.Model.ReelSizes
import Verif.Model.Builder
import Verif.Spec.Builder
import Verif.Lemmas.Builder
import Verif.Props.Builder
import Verif.Model.Scripts
import Verif.Spec.Scripts
import Verif.Lemmas.Scripts
import Verif.Props.ReelSizes
import Verif.Props.Scripts
import Verif.Spec.CopyBytes
import Verif.Lemmas.CopyBytes
import Verif.Props.CopyBytes
import Verif.Spec.Opens
import Verif.Lemmas.Opens
import Verif.Props.Opens
import Verif.Model.ReadScripts
import Verif.Spec.ReadScripts
import Verif.Props.ReadScripts
import Verif.Model.IbmObject
import Verif.Props.IbmObject
import Verif.Props.IbmText
import Verif.Spec.Placed
import Verif.Lemmas.Placed
import Verif.Props.Placed
import Verif.Model.Progress
import Verif.Spec.Progress
import Verif.Lemmas.Progress
import Verif.Lemmas.ProgressWrite
import Verif.Props.Progress
import Verif.Model.IbmPow
import Verif.Spec.IbmPow
import Verif.Lemmas.IbmPow
import Verif.Props.IbmPow
