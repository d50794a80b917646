import Verif.Obu.Codec
import Verif.Cli.Output
/-
  LPCM: iamf/cli/codec/lpcm_encoder.{h,cc}, lpcm_decoder.{h,cc}, encoder_base.{h,cc}, decoder_base.h,
  iamf/obu/substream_channel_count.{h,cc} and two functions of iamf/common/utils/numeric_utils.cc.
-/
namespace Iamf

/-- The loop of `LittleEndianBytesToInt32` (numeric_utils.cc:81-84), from the shift of the next byte on. -/
def packBytes : Nat → List UInt8 → UInt32
  | _, [] => 0
  | shift, b :: bs => (b.toUInt32 <<< UInt32.ofNat shift) ||| packBytes (shift + 8) bs

/-- `LittleEndianBytesToInt32` (numeric_utils.cc:70-87). -/
def littleEndianToInt32 (bytes : List UInt8) : Except Err Int32 :=
  if bytes.length > 4 ∨ bytes.length < 1 then .error .invalidArgument
  else .ok (packBytes (8 * (4 - bytes.length)) bytes).toInt32

/-- `BigEndianBytesToInt32` (numeric_utils.cc:90-99). -/
def bigEndianToInt32 (bytes : List UInt8) : Except Err Int32 := littleEndianToInt32 bytes.reverse

/-- `SubstreamChannelCount::Create` (substream_channel_count.cc:30-40). -/
def substreamChannelCount (n : Nat) : Except Err Nat := if n = 1 then .ok 1 else if n = 2 then .ok 2 else .error .invalidArgument

/-! ### The decoder -/

/-- `LpcmDecoder` with its base (lpcm_decoder.h, decoder_base.h:62-72), without the samples of the last frame, which `decode`
returns. -/
structure LpcmDecoder where
  channels : Nat
  samplesPerFrame : UInt32
  littleEndian : Bool
  bytesPerSample : Nat
  deriving DecidableEq, Repr

/-- `LpcmDecoderConfig::IsLittleEndian` (lpcm_decoder_config.cc:82-85). -/
def LpcmConfig.littleEndian (c : LpcmConfig) : Bool := c.formatFlags &&& 1 != 0

/-- `LpcmDecoder::Create` (lpcm_decoder.cc:37-60) for a `SubstreamChannelCount`. -/
def LpcmDecoder.create (c : LpcmConfig) (channels : Nat) (samplesPerFrame : UInt32) : Except Err LpcmDecoder := do
  c.validate 0
  if !lpcmSampleSizeOk c.sampleSize then .error .invalidArgument
  else if c.sampleSize.toNat % 8 ≠ 0 then .error .invalidArgument
  else .ok ⟨channels, samplesPerFrame, c.littleEndian, c.sampleSize.toNat / 8⟩

/-- One sample (lpcm_decoder.cc:90-101). -/
def LpcmDecoder.sample (d : LpcmDecoder) (frame : List UInt8) (c t : Nat) : Except Err Rat := do
  let bytes := (frame.drop ((t * d.channels + c) * d.bytesPerSample)).take d.bytesPerSample
  let v ← (if d.littleEndian then littleEndianToInt32 bytes else bigEndianToInt32 bytes)
  .ok (int32ToNormalized v)

/-- `LpcmDecoder::DecodeAudioFrame` (lpcm_decoder.cc:62-104), then `ValidDecodedSamples` (decoder_base.h:56-59). -/
def LpcmDecoder.decode (d : LpcmDecoder) (frame : List UInt8) : Except Err (List (List Rat)) :=
  if frame.length % d.bytesPerSample ≠ 0 ∨ frame.length / d.bytesPerSample % d.channels ≠ 0 then .error .invalidArgument
  else if frame.length / d.bytesPerSample / d.channels > d.samplesPerFrame.toNat then .error .invalidArgument
  else (List.range d.channels).mapM fun c => (List.range (frame.length / d.bytesPerSample / d.channels)).mapM fun t =>
    d.sample frame c t

/-! ### The encoder -/

/-- `LpcmEncoder` with its base (lpcm_encoder.h, encoder_base.h:150-225).  A frame that goes in comes with data of any kind, which
is passed along (`partial_audio_frame_with_data`). -/
structure LpcmEncoder (α : Type) where
  config : LpcmConfig
  channels : Nat
  samplesPerFrame : UInt32
  done : List (α × List UInt8)
  finished : Bool

namespace LpcmEncoder
variable {α : Type}

/-- The constructor and `Initialize` (lpcm_encoder.h:36-41, encoder_base.cc:27-35, lpcm_encoder.cc:29-61). -/
def create (c : LpcmConfig) (channels : Nat) (samplesPerFrame : UInt32) : Except Err (LpcmEncoder α) :=
  if c.sampleSize.toNat % 8 ≠ 0 then .error .invalidArgument
  else if c.formatFlags ≠ 0 ∧ c.formatFlags ≠ 1 then .error .invalidArgument
  else .ok ⟨c, channels, samplesPerFrame, [], false⟩

/-- `Finished` (encoder_base.h:126-129). -/
def isFinished (e : LpcmEncoder α) : Bool := e.finished && e.done.isEmpty

/-- `ValidateInputSamples` (encoder_base.cc:37-55): only the first channel is looked at. -/
def validateInput (e : LpcmEncoder α) (samples : List (List Int32)) : Except Err Unit :=
  if samples.length ≠ e.channels then .error .invalidArgument
  else match samples with
    | [] => .error .invalidArgument
    | s :: _ => if s.length ≠ e.samplesPerFrame.toNat then .error .invalidArgument else .ok ()

/-- `LpcmEncoder::EncodeAudioFrame` (lpcm_encoder.cc:63-82). -/
def encode (e : LpcmEncoder α) (samples : List (List Int32)) (data : α) : Except Err (LpcmEncoder α) := do
  if e.isFinished then .error .invalidArgument
  else do
    e.validateInput samples
    let bytes ← writePcmFrame samples e.config.sampleSize (!e.config.littleEndian)
    .ok { e with done := e.done ++ [(data, bytes)] }

/-- `Pop` (encoder_base.h:96-103): the frames that are added to the list, and the encoder. -/
def pop (e : LpcmEncoder α) : List (α × List UInt8) × LpcmEncoder α := match e.done with
  | [] => ([], e)
  | f :: fs => ([f], { e with done := fs })

/-- `Finalize` (encoder_base.h:115-119). -/
def finalize (e : LpcmEncoder α) : LpcmEncoder α := { e with finished := true }

end LpcmEncoder

end Iamf
