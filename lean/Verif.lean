import Verif.Base
import Verif.Cli.AdmMix
import Verif.Cli.AdmToMetadata
import Verif.Cli.AmbisonicsMixer
import Verif.Cli.BlockGenerator
import Verif.Cli.BlockMetadata
import Verif.Cli.CodecGenerator
import Verif.Cli.Decoder
import Verif.Cli.DecoderEnd
import Verif.Cli.DecoderForward
import Verif.Cli.DecoderPlay
import Verif.Cli.DecoderTool
import Verif.Cli.DecoderTrace
import Verif.Cli.DecoderWhole
import Verif.Cli.Demix
import Verif.Cli.Descriptors
import Verif.Cli.ElementGenerator
import Verif.Cli.Encoder
import Verif.Cli.Finalizer
import Verif.Cli.FrameGenerator
import Verif.Cli.Labels
import Verif.Cli.Listener
import Verif.Cli.Lpcm
import Verif.Cli.MetadataBuilder
import Verif.Cli.MixGain
import Verif.Cli.MixGenerator
import Verif.Cli.MixRender
import Verif.Cli.ObuGenerator
import Verif.Cli.Output
import Verif.Cli.Parameters
import Verif.Cli.Partition
import Verif.Cli.Pipeline
import Verif.Cli.Processor
import Verif.Cli.ProcessorProofs
import Verif.Cli.ProcessorTrace
import Verif.Cli.ProcessorWhole
import Verif.Cli.ProcessorWritten
import Verif.Cli.Profile
import Verif.Cli.ReconGain
import Verif.Cli.Render
import Verif.Cli.Selection
import Verif.Cli.Sequencer
import Verif.Cli.SubstreamFrames
import Verif.Cli.TemporalUnit
import Verif.Cli.Timing
import Verif.Cli.UserMetadata
import Verif.Cli.Wav
import Verif.Cli.WavWriter
import Verif.Leb
import Verif.Obu.AudioElement
import Verif.Obu.AudioElementProofs
import Verif.Obu.Auto
import Verif.Obu.Bounded
import Verif.Obu.Codec
import Verif.Obu.CodecProofs
import Verif.Obu.Header
import Verif.Obu.HeaderProofs
import Verif.Obu.Inv
import Verif.Obu.Local
import Verif.Obu.Logic
import Verif.Obu.Mix
import Verif.Obu.MixProofs
import Verif.Obu.Params
import Verif.Obu.ParamsProofs
import Verif.Obu.Simple
import Verif.Obu.Stream
import Verif.Obu.Wire
import Verif.Prim
import Verif.Props.AdmMix
import Verif.Props.AdmToMetadata
import Verif.Props.AmbisonicsMixer
import Verif.Props.AmbisonicsRender
import Verif.Props.AudioElement
import Verif.Props.Bits
import Verif.Props.BlockGenerator
import Verif.Props.BlockMetadata
import Verif.Props.BufferSize
import Verif.Props.BufferSizeExamples
import Verif.Props.Choice
import Verif.Props.ChoiceExamples
import Verif.Props.Codec
import Verif.Props.CodecAccept
import Verif.Props.CodecGenerator
import Verif.Props.Contained
import Verif.Props.ContainedExamples
import Verif.Props.Decoder
import Verif.Props.DecoderTool
import Verif.Props.DecoderToolExamples
import Verif.Props.Demix
import Verif.Props.Descriptors
import Verif.Props.ElementGenerator
import Verif.Props.Encoder
import Verif.Props.EncoderExamples
import Verif.Props.EncoderKeeps
import Verif.Props.EncoderLife
import Verif.Props.EncoderOutput
import Verif.Props.EncoderRun
import Verif.Props.EncoderSpec
import Verif.Props.EncoderSteps
import Verif.Props.EncoderStory
import Verif.Props.EncoderTiming
import Verif.Props.EndToEnd
import Verif.Props.EndToEndExamples
import Verif.Props.Finalizer
import Verif.Props.FinalizerCalls
import Verif.Props.Generator
import Verif.Props.GeneratorCalls
import Verif.Props.GeneratorCreate
import Verif.Props.GeneratorElement
import Verif.Props.GeneratorEncode
import Verif.Props.GeneratorExamples
import Verif.Props.GeneratorLpcm
import Verif.Props.GeneratorMaybe
import Verif.Props.GeneratorMixing
import Verif.Props.GeneratorOutput
import Verif.Props.GeneratorPop
import Verif.Props.GeneratorQueue
import Verif.Props.GeneratorRound
import Verif.Props.GeneratorRun
import Verif.Props.GeneratorState
import Verif.Props.History
import Verif.Props.Labels
import Verif.Props.LabelsExact
import Verif.Props.Listening
import Verif.Props.LoudnessExamples
import Verif.Props.LoudnessOfInput
import Verif.Props.Lpcm
import Verif.Props.MetadataBuilder
import Verif.Props.Mix
import Verif.Props.MixGain
import Verif.Props.MixGenerator
import Verif.Props.MixRender
import Verif.Props.NoCrash
import Verif.Props.NoCrashExamples
import Verif.Props.Obu
import Verif.Props.ObuGenerator
import Verif.Props.ObuSimple
import Verif.Props.Output
import Verif.Props.Parameters
import Verif.Props.Params
import Verif.Props.Parse
import Verif.Props.Partition
import Verif.Props.Pipeline
import Verif.Props.PipelineExamples
import Verif.Props.Processor
import Verif.Props.ProcessorExamples
import Verif.Props.Profile
import Verif.Props.ReconGain
import Verif.Props.Render
import Verif.Props.Reorder
import Verif.Props.Reset
import Verif.Props.RoundTrip
import Verif.Props.RoundTripCalls
import Verif.Props.RoundTripExamples
import Verif.Props.RoundTripUnits
import Verif.Props.SafeInit
import Verif.Props.SafeRender
import Verif.Props.SafeUnit
import Verif.Props.Selection
import Verif.Props.Sequencer
import Verif.Props.SequencerExamples
import Verif.Props.SetUp
import Verif.Props.SetUpParams
import Verif.Props.Sleb
import Verif.Props.SubstreamFrames
import Verif.Props.Tables
import Verif.Props.TemporalUnit
import Verif.Props.Timing
import Verif.Props.Tool
import Verif.Props.UserMetadata
import Verif.Props.Wav
import Verif.Props.WavExamples
import Verif.Props.WavOfMix
import Verif.Props.WavOfMixExamples
import Verif.Props.WavRoundTrip
import Verif.Props.WavToWav
import Verif.Props.WavWriter
import Verif.Props.Wire
import Verif.Props.WireCodec
import Verif.Props.WireElement
import Verif.Props.WireMix
import Verif.Props.WireParams
import Verif.ReadBuf
import Verif.WriteBuf
