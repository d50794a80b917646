import Verif.Cli.Decoder
import Verif.Cli.WavWriter
/-
  The decoder program: iamf/cli/decoder_main.cc and iamf/api/internal_utils/internal_utils.cc.

  The input file can be read.  The program ends with `ABSL_LOG(FATAL)` at every error: this is reported as `abort`.
-/
namespace Iamf

variable {B : Backend}

/-- `ABSL_LOG(FATAL)` at an error. -/
def fatally (e : Err) : Err := if e.fatal then e else .abort

/-- `SetupAfterDescriptors` (internal_utils.cc:32-86): the writer of the output file and the size of the buffer.  The size is computed with
32 bits without sign (`uint32_t` times `int` times `int`). -/
def setUpOutput (H : WavHeaders) (d : Decoder B) : Except Err (WavWriter × Nat) := do
  let frameSize ← d.getFrameSize
  if bytesPerSample d.settings.sampleType = 0 then .error .unknown
  else do
    let channels ← d.getNumberOfOutputChannels
    let rate ← d.getSampleRate
    match (WavWriter.create H channels.toNat rate (UInt8.ofNat (bytesPerSample d.settings.sampleType * 8)) frameSize.toNat true).1 with
    | none => .error .unknown
    | some w => .ok (w, frameSize.toNat * channels.toNat * bytesPerSample d.settings.sampleType % 4294967296)

/-- `DumpPendingTemporalUnitsToWav` (internal_utils.cc:88-114).  The first argument bounds the number of iterations; running out of it is
reported as divergence. -/
def dumpUnits (size : Nat) : Nat → Decoder B → WavWriter → Except Err (Decoder B × WavWriter)
  | 0, _, _ => .error .diverge
  | fuel + 1, d, w =>
    if d.isUnitAvailable then match d.getOutput size with
      | (.error e, _) => .error (fatally e)
      | (.ok bytes, d) => match w.write bytes with
        | (.error e, _) => .error (fatally e)
        | (.ok (), w) => dumpUnits size fuel d w
    else .ok (d, w)

/-- The decoder after a block of the file has been read (decoder_main.cc:238-256); `eof`: it is the last one. -/
def feedBlock (block : List UInt8) (eof : Bool) (d : Decoder B) : Except Err (Decoder B) :=
  match d.decode block with
  | (.error e, _) => .error (fatally e)
  | (.ok (), d) =>
    if eof then match d.signalEnd with
      | (.error e, _) => .error (fatally e)
      | (.ok (), d) => .ok d
    else .ok d

/-- The output file, if there is one now (decoder_main.cc:258-270), with the call of `LogSelectedMix` (decoder_main.cc:150-168). -/
def outputOf (H : WavHeaders) (d : Decoder B) : Option (WavWriter × Nat) → Except Err (Option (WavWriter × Nat))
  | some w => .ok (some w)
  | none =>
    if d.isDescriptorProcessingComplete then match setUpOutput H d with
      | .error e => .error (fatally e)
      | .ok w => match d.getOutputMix with
        | .error e => .error (fatally e)
        | .ok _ => .ok (some w)
    else .ok none

/-- What is available is written to the output file (decoder_main.cc:271-287). -/
def dumpAvailable (fuel : Nat) (d : Decoder B) : Option (WavWriter × Nat) → Except Err (Decoder B × Option (WavWriter × Nat))
  | none => .ok (d, none)
  | some w => match dumpUnits w.2 fuel d w.1 with
    | .error e => .error e
    | .ok (d, x) => .ok (d, some (x, w.2))

/-- The loop of `main` (decoder_main.cc:235-288).  `ReadChunk` (decoder_main.cc:177-186) reads a block, or what is left of the file: then
the end of the file has been reached.  The first two arguments bound the numbers of iterations. -/
def playLoop (H : WavHeaders) (units block : Nat) : Nat → List UInt8 → Decoder B → Option (WavWriter × Nat) →
    Except Err (Decoder B × Option (WavWriter × Nat))
  | 0, _, _, _ => .error .diverge
  | fuel + 1, rest, d, w =>
    match feedBlock (rest.take block) (rest.length < block) d with
    | .error e => .error e
    | .ok d => match outputOf H d w with
      | .error e => .error e
      | .ok w => match dumpAvailable units d w with
        | .error e => .error e
        | .ok (d, w) => if rest.length < block then .ok (d, w) else playLoop H units block fuel (rest.drop block) d w

/-- `main` (decoder_main.cc:188-294): what is in the output file at the end; `none` if there is none.  `WavWriter` is destroyed at the
end. -/
def playFile (B : Backend) (H : WavHeaders) (s : DecoderSettings) (posValid : Bool) (units fuel block : Nat) (file : List UInt8) :
    Except Err (Option (List UInt8)) :=
  match playLoop (B := B) H units block fuel file (Decoder.create s posValid) none with
  | .error e => .error e
  | .ok (_, none) => .ok none
  | .ok (_, some w) => .ok (w.1.finalize H).content

end Iamf
