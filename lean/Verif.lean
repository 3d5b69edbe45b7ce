import Verif.Basic
import Verif.Model.Config
import Verif.Model.BufferWriter
import Verif.Model.BufferReader
import Verif.Model.SideInfo
import Verif.Model.ArithDecode
import Verif.Model.BitstreamEnc
import Verif.Lemmas.Bytes
import Verif.Lemmas.FrameInv
import Verif.Lemmas.RangeEnc
import Verif.Lemmas.RangeFinish
import Verif.Lemmas.RangeFinish2
import Verif.Model.SnsPack
import Verif.Spec.Coding
import Verif.Spec.Frame
import Verif.Lemmas.Events
import Verif.Lemmas.DecStep
import Verif.Lemmas.TableFacts
import Verif.Lemmas.SpecEvents
import Verif.Lemmas.PairEvents
import Verif.Lemmas.TailFields
import Verif.Lemmas.SideInfo
import Verif.Lemmas.TnsEvents
import Verif.Lemmas.PtrInv
import Verif.Lemmas.FrameBody
import Verif.Lemmas.FrameDec
import Verif.Lemmas.BitField
import Verif.Spec.Bits
import Verif.Props.BitFields
import Verif.Spec.Symbols
import Verif.Model.ReadFrame
import Verif.Lemmas.SymbRun
import Verif.Lemmas.SideIndep
import Verif.Lemmas.FrameLsb
import Verif.Lemmas.FrameRead
import Verif.Props.RangeCoder
import Verif.Props.FrameRoundTrip
import Verif.Lemmas.Safe
import Verif.Lemmas.SafeRead
import Verif.Lemmas.SafeFrame
import Verif.Tables.SnsFloat
import Verif.Tables.LtpfFloat
import Verif.Tables.Windows
import Verif.Model.Scalar
import Verif.Model.DecSpectrum
import Verif.Model.SnsDec
import Verif.Model.Plc
import Verif.Model.Fft
import Verif.Model.MdctDec
import Verif.Model.LtpfDec
import Verif.Model.Decoder
import Verif.Lemmas.ListM
import Verif.Lemmas.Deenum
import Verif.Lemmas.SafeSpectrum
import Verif.Lemmas.SafeMdct
import Verif.Spec.Ltpf
import Verif.Lemmas.Ltpf
import Verif.Lemmas.Ltpf2
import Verif.Lemmas.Ltpf3
import Verif.Lemmas.NoErr
import Verif.Lemmas.SafeDecoder
import Verif.Lemmas.ShortFrames
import Verif.Spec.Decoder
import Verif.Model.ScalarReal
import Verif.Props.OverflowWitness
import Verif.Props.DecoderSafety
import Verif.Model.F32
import Verif.Lemmas.F32
import Verif.Spec.Concealment
import Verif.Props.Concealment
import Verif.Spec.Spectrum
import Verif.Props.DecoderSpectrum
import Verif.Props.PostFilter
import Verif.Model.EncResidual
import Verif.Spec.Residual
import Verif.Props.Residual
import Verif.Model.EncDetect
import Verif.Model.EncQuant
import Verif.Spec.EncDetect
import Verif.Props.EncDetect
import Verif.Spec.Quant
import Verif.Lemmas.EncQuant
import Verif.Props.EncQuant
import Verif.Props.EncLimiter
import Verif.Model.EncSns
import Verif.Lemmas.SnsEnum
import Verif.Lemmas.SnsPulses
import Verif.Lemmas.F32Err
import Verif.Props.SnsIndex
import Verif.Lemmas.F32Eval
import Verif.Props.SnsPulses
import Verif.Model.Wav
import Verif.Spec.Wav
import Verif.Props.Wav
import Verif.Model.EncLtpf
import Verif.Spec.PitchLag
import Verif.Lemmas.EncLtpf
import Verif.Props.EncLtpf
import Verif.Props.EncLtpfRun
import Verif.Model.EncTns
import Verif.Spec.Tns
import Verif.Lemmas.EncTns
import Verif.Lemmas.TnsCast
import Verif.Props.Tns
import Verif.Props.TnsWitness
import Verif.Model.EncMdct
import Verif.Model.Encoder
import Verif.Props.Encoder
import Verif.Spec.Context
import Verif.Model.Traced
import Verif.Lemmas.Traced
import Verif.Props.Context
import Verif.Spec.Fourier
import Verif.Spec.Overlap
import Verif.Lemmas.Fft
import Verif.Lemmas.Dct
import Verif.Lemmas.Mdct
import Verif.Lemmas.MdctFrames
import Verif.Lemmas.MdctWindow
import Verif.Props.Transform
import Verif.Props.Reconstruction
import Verif.Lemmas.SnsInverse
import Verif.Props.SnsInverse
import Verif.Spec.EncoderFrame
import Verif.Props.EncoderFrame
import Verif.Lemmas.DecLinear
import Verif.Props.CodecError
import Verif.Spec.BitCost
import Verif.Lemmas.BitCost
import Verif.Lemmas.EstCost
import Verif.Lemmas.BodyCost
import Verif.Props.BitCost
import Verif.Spec.RangeDecoder
import Verif.Props.RangeDecoder
import Verif.Lemmas.TnsReturns
import Verif.Lemmas.EncReturns
import Verif.Lemmas.SilenceFront
import Verif.Lemmas.SilenceQuant
import Verif.Lemmas.SilenceFrame
import Verif.Lemmas.SilenceDec
import Verif.Spec.Silence
import Verif.Props.Silence
import Verif.Lemmas.SeedBound
import Verif.Props.OverflowChecks
import Verif.Spec.Distance
import Verif.Lemmas.MdctError
import Verif.Props.TimeError
import Verif.Spec.Resync
import Verif.Props.Resync
import Verif.Spec.FilterStable
import Verif.Lemmas.LtpfStable
import Verif.Props.FilterStable
import Verif.Spec.Attack
import Verif.Props.Attack
import Verif.Spec.Bandwidth
import Verif.Props.Bandwidth
import Verif.Spec.SnsQuant
import Verif.Lemmas.SnsGreedy
import Verif.Lemmas.SnsRotation
import Verif.Props.SnsQuant
import Verif.Spec.Rate
import Verif.Props.Rate
import Verif.Spec.LinearPrediction
import Verif.Lemmas.Levinson
import Verif.Props.Levinson
import Verif.Lemmas.TnsStable
import Verif.Props.TnsStable
import Verif.Props.TnsPanic
import Verif.Spec.Pitch
import Verif.Lemmas.PitchSignal
import Verif.Lemmas.PitchSearch
import Verif.Lemmas.PitchFacts
import Verif.Props.Pitch
import Verif.Props.PitchFacts
import Verif.Props.LsbError
import Verif.Props.SnsTarget
import Verif.Model.Files
import Verif.Spec.Files
import Verif.Lemmas.EncLength
import Verif.Lemmas.Files
import Verif.Lemmas.FilesDec
import Verif.Props.Files
import Verif.Spec.Rounding
import Verif.Lemmas.F32Cx
import Verif.Lemmas.FftErr
import Verif.Lemmas.DctErr
import Verif.Lemmas.MdctErr
import Verif.Lemmas.MdctErr2
import Verif.Lemmas.MdctErr3
import Verif.Props.Rounding
import Verif.Spec.Shaping
import Verif.Props.Shaping
import Verif.Spec.Finite
import Verif.Lemmas.F32Fin
import Verif.Lemmas.FinDequant
import Verif.Lemmas.FinTns
import Verif.Lemmas.FinTnsBand
import Verif.Lemmas.FinSns
import Verif.Lemmas.FinShape
import Verif.Lemmas.FinImdct
import Verif.Lemmas.FinLtpf
import Verif.Lemmas.FinLtpfRun
import Verif.Lemmas.FinDecoder
import Verif.Props.Finite
import Verif.Spec.FiniteEnc
import Verif.Lemmas.FinEncLtpf
import Verif.Lemmas.FinEncAct
import Verif.Lemmas.FinEncState
import Verif.Props.FiniteEnc
import Verif.Spec.Generator
import Verif.Lemmas.Generator
import Verif.Props.Generator
import Verif.Lemmas.SnsTiny
import Verif.Lemmas.EncF32
import Verif.Spec.Gain32
import Verif.Lemmas.Gain32
import Verif.Props.Gain32
import Verif.Props.EncoderFrame32
import Verif.Spec.EncFunctions
import Verif.Spec.Encodable
import Verif.Lemmas.EncReturns32
import Verif.Lemmas.FinEncLines
import Verif.Lemmas.FinEncSns
import Verif.Lemmas.FinEncTns
import Verif.Lemmas.TnsIndex32
import Verif.Lemmas.EncAnalyse32
import Verif.Lemmas.EncNoErr
import Verif.Props.EncoderReturns32
import Verif.Props.CodecError32
import Verif.Lemmas.Silence32Dec
import Verif.Spec.Silence32
import Verif.Lemmas.Silence32Enc
import Verif.Lemmas.Silence32Sns
import Verif.Lemmas.Silence32Tns
import Verif.Lemmas.Silence32Frame
import Verif.Props.Silence32
import Verif.Lemmas.BitCost32
import Verif.Props.BitCost32
import Verif.Lemmas.FftSizes
import Verif.Props.FftSizes
import Verif.Lemmas.TimeErr32
import Verif.Props.TimeError32
import Verif.Spec.MachineInt
import Verif.Lemmas.MachineInt
import Verif.Props.MachineInt
import Verif.Spec.Powers
import Verif.Lemmas.ShapeNear
import Verif.Lemmas.ShapeGain
import Verif.Lemmas.TargetBd
import Verif.Props.Shaping32
import Verif.Props.Memory
import Verif.Lemmas.ShapeEnc
import Verif.Props.ShapingPair32
import Verif.Spec.LineError
import Verif.Props.EndToEnd32
import Verif.Model.NoAlloc
import Verif.Props.NoAlloc
import Verif.Lemmas.LtpfPair
import Verif.Lemmas.LtpfPair2
import Verif.Lemmas.LtpfPair3
import Verif.Props.PostFilter32
import Verif.Props.Stream32
import Verif.Model.LtpfMachine
import Verif.Lemmas.LtpfMachine
import Verif.Props.LtpfMachine
import Verif.Model.F64
import Verif.Spec.F64
import Verif.Lemmas.F64
import Verif.Props.F64
import Verif.Model.Examples
import Verif.Props.Examples
import Verif.Model.ExampleArm
import Verif.Props.ExampleArm
import Verif.Props.FftInverse
import Verif.Props.NoiseLevel
import Verif.Props.NoiseLevel32
import Verif.Spec.TnsFilter
import Verif.Spec.TnsRanges
import Verif.Props.TnsFilter
import Verif.Props.TnsGain
import Verif.Props.LsbMode
import Verif.Props.TnsRun
import Verif.Props.BudgetTight
import Verif.Props.Truncation
import Verif.Props.TnsBoth
import Verif.Props.RateMono
import Verif.Props.AttackScale
import Verif.Props.TnsScale
import Verif.Props.Polarity
import Verif.Props.LostFilter
