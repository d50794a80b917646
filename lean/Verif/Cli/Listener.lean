import Verif.Cli.Encoder
import Verif.Cli.Finalizer
import Verif.Cli.Pipeline
/-
  How the encoder of iamf/cli/iamf_encoder.cc listens to its own frames: decoding, demixing and measuring loudness, as an instance of the
  `EncoderParts` that `Cli/Encoder` is generic in.
-/
namespace Iamf

/-- `audio_frame_decoder_` and `demixing_manager_` of the encoder. -/
structure Listener (C : Codecs) where
  decoders : List (UInt32 × SubstreamDecoder C)
  demixing : List DemixEntry

/-- `InitAudioFrameDecoderForAllAudioElements` (iamf_encoder.cc:83-97) and `DemixingManager::Create` (demixing_manager.cc:385-414) for all audio
elements.  (The code makes all entries of the demixing manager first: of two errors, another may be reported.) -/
def listenTo (C : Codecs) : List (UInt32 × ElementWithData) → Listener C → Except Err (Listener C)
  | [], l => .ok l
  | (id, e) :: es, l => do
    let x ← createDemixEntry id e
    match e.codec with
    | none => listenTo C es ⟨l.decoders, l.demixing ++ [x]⟩
    | some c => do
      let ds ← initDecoders C c e.data.labels l.decoders
      listenTo C es ⟨ds, l.demixing ++ [x]⟩

/-- A generated frame, for decoding and demixing (audio_frame_with_data.h:27-53). -/
def GenFrame.proc (f : GenFrame × List UInt8) : ProcFrame := ⟨GenFrame.withData [] f, f.1.mixing, []⟩

/-- The loop that decodes all frames (iamf_encoder.cc:620-624). -/
def decodeGenerated {C : Codecs} : List (GenFrame × List UInt8) → List (UInt32 × SubstreamDecoder C) →
    Except Err (List Rendered × List (UInt32 × SubstreamDecoder C))
  | [], ds => .ok ([], ds)
  | f :: fs, ds => match decodeFrame (GenFrame.proc f) ds with
    | (.error e, _) => .error e
    | (.ok r, ds) => do
      let x ← decodeGenerated fs ds
      .ok (r :: x.1, x.2)

/-- The results of `DemixOriginalAudioSamples` and `DemixDecodedAudioSamples`. -/
structure HeardFrames where
  original : List (UInt32 × RenderFrame)
  decoded : List (UInt32 × RenderFrame)

/-- Decoding and demixing in `OutputTemporalUnit` (iamf_encoder.cc:618-637). -/
def Listener.analyse {C : Codecs} (l : Listener C) (fs : List (GenFrame × List UInt8)) : Except Err (HeardFrames × Listener C) := do
  let r ← decodeGenerated fs l.decoders
  let original ← demixAll (fs.map fun f => (GenFrame.proc f, f.1.samples)) l.demixing
  let decoded ← demixAll ((fs.map GenFrame.proc).zip r.1) l.demixing
  .ok (⟨original, decoded⟩, ⟨r.2, l.demixing⟩)

/-- The parts of the encoder.  The recon gain generator is a parameter (`recon`). -/
def standardParts (M : GainMath Rat) (C : Codecs) (Q : Meters) (S : PostProcessors) (validate : Bool)
    (recon : HeardFrames → UInt32 → ReconSource) : EncoderParts where
  Decoders := Listener C
  Frames := HeardFrames
  Finalizer := Finalizer Q S
  analyse := Listener.analyse
  source := recon
  push f a start stop blocks := match f.push M ⟨fun id => a.original.lookup id, start, stop, blocks⟩ with
    | (.ok (), f) => .ok f
    | (.error e, _) => .error e
  finish f := match f.finish with
    | (.error e, _) => .error e
    | (.ok (), f) => (f.get validate).1

end Iamf
