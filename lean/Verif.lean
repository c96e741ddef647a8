import Verif.Basic
import Verif.Spec.YEnc
import Verif.Spec.Lines
import Verif.Model.EncoderScalar
import Verif.Model.DecoderScalar
import Verif.Model.Bindings
import Verif.Model.Legacy
import Verif.Model.JsChunk
import Verif.Model.DecoderMask
import Verif.Model.DecoderSimd
import Verif.Model.Vec
import Verif.Model.DecoderX86
import Verif.Model.DecoderNeon
import Verif.Model.DecoderRvv
import Verif.Model.EncoderSimd
import Verif.Model.EncoderX86
import Verif.Model.EncoderEol
import Verif.Model.VecNeon
import Verif.Model.EncoderNeon
import Verif.Model.VecRvv
import Verif.Model.EncoderRvv
import Verif.Model.Dispatch
import Verif.Spec.Crc
import Verif.Model.Crc
import Verif.Model.Clmul
import Verif.Model.CrcX86
import Verif.Model.CrcArm
import Verif.Model.CrcRiscv
import Verif.Model.CrcBindings
import Verif.Spec.Post
import Verif.Spec.Header
import Verif.Model.JsText
import Verif.Model.JsPost
import Verif.Props.Encode
import Verif.Props.Incremental
import Verif.Props.Decode
import Verif.Props.Crc
import Verif.Props.CrcHw
import Verif.Props.Crcutil
import Verif.Props.Post
import Verif.Props.FromPost
import Verif.Props.Header
import Verif.Props.InPlace
import Verif.Props.Simd
import Verif.Props.SimdEnc
import Verif.Spec.Cpu
import Verif.Model.Startup
import Verif.Props.Startup
import Verif.Model.Platform
import Verif.Props.Platform
import Verif.Props.Counts
import Verif.Props.Name
import Verif.Props.Number
import Verif.Props.Threads
import Verif.Props.Find
import Verif.Props.Around
import Verif.Props.Wide
import Verif.Props.Ints
import Verif.Props.Long
import Verif.Props.Retry
import Verif.Props.Data
import Verif.Props.Damage
import Verif.Props.Stuffed
import Verif.Props.Assemble
import Verif.Props.Ratio
import Verif.Props.Heap
import Verif.Props.Stream
import Verif.Props.WideLoop
import Verif.Props.CrcCount
import Verif.Props.Shared
import Verif.Props.SharedSimd
import Verif.Props.SharedEnc
import Verif.Props.SharedCrc
import Verif.Props.SharedPost
import Verif.Props.Charset
import Verif.Props.CrcFew
import Verif.Props.Args
import Verif.Props.This
import Verif.Props.Sizes
import Verif.Props.Recipe
import Verif.Model.JsRegex
import Verif.Lemmas.JsRegex
import Verif.Lemmas.JsRegexPost
import Verif.Props.Regex
import Verif.Spec.Interop
import Verif.Lemmas.Interop
import Verif.Props.Interop
import Verif.Lemmas.Work
import Verif.Lemmas.WorkEnc
import Verif.Lemmas.WorkCrc
import Verif.Props.Work
import Verif.Lemmas.EncRange
import Verif.Props.EncRange
import Verif.Model.JsMessage
import Verif.Spec.Message
import Verif.Lemmas.JsMessage
import Verif.Props.Message
import Verif.Props.Reassemble
import Verif.Props.Undefined
import Verif.Props.DamageMarker
import Verif.Props.Legacy
import Verif.Props.UndefinedIncr
import Verif.Model.LegacyData
import Verif.Props.LegacyData
import Verif.Model.LegacyEffects
import Verif.Props.LegacyEffects
import Verif.Props.CrcFive
import Verif.Props.CrcSix
import Verif.Axioms
