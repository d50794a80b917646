import Verif.Cli.Finalizer
/-
  iamf/cli/wav_writer.cc, with the checks of iamf/cli/sample_processor_base.cc, and
  iamf/cli/proto_conversion/output_audio_format_utils.cc: WAV files that samples are written to.

  The file can be opened, and the disk takes all that is written to it.  The header is written by a library (audio_to_tactile), which is a
  parameter.
-/
namespace Iamf

/-- `WriteWavHeader`, `WriteWavHeader24Bit` and `WriteWavHeader32Bit` of the library: the header for a bit depth, a number of samples (of
all channels), a sample rate and a number of channels, or `none` if it fails. -/
abbrev WavHeaders := UInt8 → Nat → UInt32 → Nat → Option (List UInt8)

/-- `WavWriter` (wav_writer.h:30-125).  `content` is what is in the file, `none` if it has been removed; `opened` is false if `file_` is
null; `header` is true if `wav_header_writer_` is not empty; `taking` is the state of the base class. -/
structure WavWriter where
  channels : Nat
  rate : UInt32
  depth : UInt8
  most : Nat
  total : Nat
  header : Bool
  opened : Bool
  taking : Bool
  content : Option (List UInt8)
  deriving DecidableEq, Repr

namespace WavWriter

/-- `WavWriter::Create` (wav_writer.cc:121-170): the writer, if there is one, and what is on the disk.  `channels` and `rate` are
`int`: they are taken to be in range. -/
def create (H : WavHeaders) (channels : Nat) (rate : UInt32) (depth : UInt8) (most : Nat) (header : Bool) :
    Option WavWriter × Option (List UInt8) :=
  if depth = 16 ∨ depth = 24 ∨ depth = 32 then
    if header then match H depth 0 rate channels with
      | none => (none, some [])
      | some h => (some ⟨channels, rate, depth, most, 0, true, true, true, some h⟩, some h)
    else (some ⟨channels, rate, depth, most, 0, false, true, true, some []⟩, some [])
  else (none, none)

/-- `WriteSamplesInternal` (wav_writer.cc:53-100).  A remainder of a division by zero is undefined. -/
def write (bytes : List UInt8) (w : WavWriter) : Except Err Unit × WavWriter :=
  if !w.opened then (.error .failedPrecondition, w)
  else if bytes.length = 0 then (.ok (), w)
  else if w.depth.toNat * w.channels / 8 = 0 then (.error .ub, w)
  else if bytes.length % (w.depth.toNat * w.channels / 8) ≠ 0 then (.error .invalidArgument, w)
  else if bytes.length / (w.depth.toNat / 8) / w.channels > w.most then (.error .invalidArgument, w)
  else (.ok (), { w with total := w.total + bytes.length / (w.depth.toNat / 8), content := w.content.map (· ++ bytes) })

/-- `MaybeFinalizeFile` (wav_writer.cc:102-117): the header is written over the beginning of the file. -/
def finalize (H : WavHeaders) (w : WavWriter) : WavWriter :=
  if !w.opened then w
  else { w with
    opened := false
    content := if w.header then match H w.depth w.total w.rate w.channels with
      | none => w.content
      | some h => w.content.map fun c => h ++ c.drop h.length
    else w.content }

/-- `SampleProcessorBase::PushFrame` and `WavWriter::PushFrameDerived` (sample_processor_base.cc:29-58, wav_writer.cc:178-211).  Writing
past the end of the reused buffer is undefined. -/
def pushFrame (frame : Rendered) (w : WavWriter) : Except Err Unit × WavWriter :=
  if !w.taking then (.error .failedPrecondition, w)
  else if frame.length ≠ w.channels then (.error .invalidArgument, w)
  else if frame.any (fun c => c.length ≠ (frame.headD []).length ∨ c.length > w.most) then (.error .invalidArgument, w)
  else match writeTicks (fun x => .ok (normalizedToInt32 x)) w.depth false frame 0 (frame.headD []).length with
    | .error e => (.error e, w)
    | .ok bytes =>
      if bytes.length > w.channels * w.most * (w.depth.toNat / 8) then (.error .ub, w)
      else w.write bytes

/-- `SampleProcessorBase::Flush` and `WavWriter::FlushDerived` (sample_processor_base.cc:60-71, wav_writer.cc:213-218). -/
def flush (H : WavHeaders) (w : WavWriter) : Except Err Unit × WavWriter :=
  if !w.taking then (.error .failedPrecondition, w)
  else (.ok (), { w with taking := false }.finalize H)

/-- `Abort` (wav_writer.cc:226-230): closing a null pointer is undefined. -/
def abort (w : WavWriter) : Except Err Unit × WavWriter :=
  if !w.opened then (.error .ub, w)
  else (.ok (), { w with opened := false, content := none })

end WavWriter

/-- A call of a method of a `WavWriter`. -/
inductive WavCall where
  | pushFrame (frame : Rendered)
  | writePcm (bytes : List UInt8)
  | flush
  | abort

/-- One call; `WritePcmSamples` (wav_writer.cc:220-224) is `WriteSamplesInternal`. -/
def WavWriter.call (H : WavHeaders) (c : WavCall) (w : WavWriter) : Except Err Unit × WavWriter :=
  match c with
  | .pushFrame frame => w.pushFrame frame
  | .writePcm bytes => w.write bytes
  | .flush => w.flush H
  | .abort => w.abort

/-- A history of calls: what they returned, and the writer afterwards. -/
def WavWriter.calls (H : WavHeaders) : List WavCall → WavWriter → List (Except Err Unit) × WavWriter
  | [], w => ([], w)
  | c :: cs, w => ((w.call H c).1 :: (calls H cs (w.call H c).2).1, (calls H cs (w.call H c).2).2)

/-- The factory of the program (encoder_main_lib.cc:267-281): every layout is written to a file of its own, with a header.  The names of the
files are not modelled.  A `WavWriter` has no output samples (wav_writer.cc:49-51). -/
def wavFiles (H : WavHeaders) : PostProcessors where
  State := WavWriter
  create _ _ _ _ channels rate depth frameSize := (WavWriter.create H channels.toNat rate depth frameSize.toNat true).1
  push w frame := w.pushFrame frame
  flush w := w.flush H
  output w := List.replicate w.channels []

/-- `ProduceNoSampleProcessors` (rendering_mix_presentation_finalizer.h:125-131). -/
def noFiles (S : PostProcessors) : PostProcessors := { S with create := fun _ _ _ _ _ _ _ _ => none }

/-- `ApplyOutputAudioFormatToSampleProcessorFactory` (output_audio_format_utils.cc:34-80) of an `OutputAudioFormat`
(output_audio_format.proto: 0 invalid, 1 none, 2 automatic, 3 sixteen, 4 twenty-four, 5 thirty-two bits). -/
def outputFormat (format : Nat) (S : PostProcessors) : PostProcessors :=
  if format = 2 then S
  else if format = 3 then { S with create := fun id i j l n r _ f => S.create id i j l n r 16 f }
  else if format = 4 then { S with create := fun id i j l n r _ f => S.create id i j l n r 24 f }
  else if format = 5 then { S with create := fun id i j l n r _ f => S.create id i j l n r 32 f }
  else noFiles S

end Iamf
