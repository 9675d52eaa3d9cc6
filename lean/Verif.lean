import Verif.Props.Api
import Verif.Props.Witness32
import Verif.Props.Color
import Verif.Props.Quant
import Verif.Props.QuantSmall
import Verif.Props.Coding
import Verif.Props.Fdct
import Verif.Props.Writer
import Verif.Spec.Image
import Verif.Proofs.File
import Verif.Proofs.Header
import Verif.Proofs.Parse
import Verif.Proofs.Image
import Verif.Proofs.Blocks
import Verif.Proofs.Scans
import Verif.Proofs.Interleaved
import Verif.Proofs.Tables
import Verif.Proofs.Decode
import Verif.Proofs.Layout
import Verif.Proofs.Encode
import Verif.Props.Session
import Verif.Proofs.Avx2Fdct
import Verif.Proofs.Final
import Verif.Props.RoundTrip
import Verif.Props.File
import Verif.Props.Independence
import Verif.Props.Bits
import Verif.Proofs.Reduce
import Verif.Proofs.Merge
import Verif.Proofs.Limit
import Verif.Proofs.Optimized
import Verif.Proofs.Stats
import Verif.Proofs.OptTables
import Verif.Proofs.Bundle
import Verif.Proofs.Symbols
import Verif.Props.Tables
import Verif.Props.BestCode
import Verif.Props.Witness10
import Verif.Props.Accuracy
import Verif.Props.Standard
import Verif.Model.NewFile
import Verif.Proofs.NewFile
import Verif.Props.NewFile
import Verif.Spec.Cost
import Verif.Proofs.Optimal
import Verif.Props.Optimal
import Verif.Props.Local
import Verif.Spec.Rgb
import Verif.Props.Rgb
import Verif.Props.Grey
import Verif.Spec.Stream
import Verif.Props.Stream
import Verif.Spec.Size
import Verif.Proofs.Size
import Verif.Props.Size
import Verif.Proofs.Safe
import Verif.Proofs.SafeEncode
import Verif.Proofs.SafeImages
import Verif.Proofs.Terminates
import Verif.Props.Safety
import Verif.Props.Simd
import Verif.Props.Sections
import Verif.Props.Errors
import Verif.Props.Order
import Verif.Props.Restarts
import Verif.Props.Metadata
import Verif.Props.RgbAny
import Verif.Props.Requests
import Verif.Props.LongInterval
import Verif.Props.IccTwice
import Verif.Props.Memory
import Verif.Props.Refine
import Verif.Model.Live
import Verif.Spec.Live
import Verif.Proofs.Live
import Verif.Props.Live
import Verif.Spec.Progress
import Verif.Proofs.Progress
import Verif.Props.Progress
import Verif.Spec.AnyImage
import Verif.Proofs.AnyImage
import Verif.Props.AnyImage
import Verif.Proofs.Checked
import Verif.Proofs.DebugWorks
import Verif.Props.DebugOk
import Verif.Proofs.Loose
import Verif.Props.Release
import Verif.Spec.Preview
import Verif.Props.Preview
import Verif.Spec.Cmyk
import Verif.Props.Cmyk
import Verif.Props.CmykSubsampled
import Verif.Props.Tiles
import Verif.Spec.Damage
import Verif.Proofs.Damage
import Verif.Props.Damage
import Verif.Props.SameFile
import Verif.Props.Generation
import Verif.Conformance
import Verif.RealFile
import Verif.Proofs.Structure
import Verif.Props.Structure
import Verif.Model.IoWrite
import Verif.Proofs.IoWrite
import Verif.Props.IoWrite
import Verif.Model.Free
import Verif.Proofs.Free
import Verif.Props.Free
import Verif.Model.Fuzz
import Verif.Props.Fuzz
import Verif.Props.Subsampled
import Verif.Props.GraySampling
import Verif.Props.CoarseTables
import Verif.Props.Complete
import Verif.Props.PanicImage
import Verif.Props.AnyOutcome
import Verif.Props.Resources
import Verif.Props.Padding
import Verif.Props.Lent
import Verif.Props.Finer
import Verif.Props.Components
import Verif.Props.Content
import Verif.Spec.ExactSize
import Verif.Proofs.ExactSize
import Verif.Proofs.Gain
import Verif.Props.ExactSize
import Verif.Props.Gain
import Verif.Proofs.RestartCost
import Verif.Props.RestartCost
import Verif.Props.SameProgram
import Verif.Props.Apart
import Verif.Props.Pixel
import Verif.Props.AnyDecoder
import Verif.Props.Entropy
import Verif.Props.EntropySize
import Verif.Props.AnyEntropy
import Verif.Props.DebugDecides
