import Verif.Cli.MixRender
import Verif.Cli.Lpcm
import Verif.Cli.Decoder
/-
  Decoding and rendering a temporal unit: iamf/cli/audio_frame_decoder.cc and the rendering part of iamf/cli/obu_processor.cc, as a
  backend of the decoder.
-/
namespace Iamf

/-- The codecs other than LPCM, which are not modelled: `Create` for a channel count, and `DecodeAudioFrame` with
`ValidDecodedSamples`. -/
structure Codecs where
  State : Type
  create : CodecObu → Nat → Except Err State
  decode : State → List UInt8 → Except Err Rendered × State

/-- A decoder of one substream. -/
inductive SubstreamDecoder (C : Codecs) where
  | lpcm (d : LpcmDecoder)
  | other (s : C.State)

/-- `CreateDecoder` (audio_frame_decoder.cc:53-101).  The alternative of the config decides: it agrees with the codec id (C29). -/
def createDecoder (C : Codecs) (c : CodecObu) (channels : Nat) : Except Err (SubstreamDecoder C) :=
  match c.config.decoderConfig with
  | .lpcm l => do
    let d ← LpcmDecoder.create l channels c.config.numSamplesPerFrame
    .ok (.lpcm d)
  | _ => do
    let s ← C.create c channels
    .ok (.other s)

/-- `AudioFrameDecoder::InitDecodersForSubstreams` (audio_frame_decoder.cc:107-136). -/
def initDecoders (C : Codecs) (c : CodecObu) : SubstreamLabels → List (UInt32 × SubstreamDecoder C) →
    Except Err (List (UInt32 × SubstreamDecoder C))
  | [], ds => .ok ds
  | (id, labels) :: m, ds =>
    if (ds.lookup id).isSome then .error .invalidArgument
    else do
      let n ← substreamChannelCount labels.length
      let d ← createDecoder C c n
      initDecoders C c m (ds ++ [(id, d)])

/-- Decoding by one decoder. -/
def SubstreamDecoder.decode {C : Codecs} (d : SubstreamDecoder C) (frame : List UInt8) : Except Err Rendered × SubstreamDecoder C :=
  match d with
  | .lpcm l => (l.decode frame, .lpcm l)
  | .other s => match C.decode s frame with
    | (r, s) => (r, .other s)

/-- Replace the decoder of a substream. -/
def setDecoder {C : Codecs} (id : UInt32) (d : SubstreamDecoder C) :
    List (UInt32 × SubstreamDecoder C) → List (UInt32 × SubstreamDecoder C)
  | [] => []
  | (i, x) :: l => if i = id then (i, d) :: l else (i, x) :: setDecoder id d l

/-- `AudioFrameDecoder::Decode` (audio_frame_decoder.cc:138-156). -/
def decodeFrame {C : Codecs} (f : ProcFrame) (ds : List (UInt32 × SubstreamDecoder C)) :
    Except Err Rendered × List (UInt32 × SubstreamDecoder C) :=
  match ds.lookup f.frame.frame.substreamId with
  | none => (.error .invalidArgument, ds)
  | some d => match d.decode f.frame.frame.audioFrame with
    | (r, d) => (r, setDecoder f.frame.frame.substreamId d ds)

/-- `LookupLabelsToReconstruct` (demixing_manager.cc:326-356). -/
def elementLabelsToReconstruct (e : AudioElement) : Except Err (List Label) :=
  if e.elementType = 0 then
    match e.config with
    | .scalable c => labelsToReconstruct c.layers
    | _ => .error .abort
  else if e.elementType = 1 ∨ e.elementType = 2 then .ok []
  else .error .unimplemented

/-- What the `DemixingManager` keeps for an audio element. -/
structure DemixEntry where
  id : UInt32
  demixers : List DemixOp
  labels : SubstreamLabels

/-- One audio element in `DemixingManager::Create` (demixing_manager.cc:394-410). -/
def createDemixEntry (id : UInt32) (e : ElementWithData) : Except Err DemixEntry := do
  let ls ← elementLabelsToReconstruct e.obu
  .ok ⟨id, demixers ls e.data.labels, e.data.labels⟩

/-- A frame with its decoded samples; none for substreams that are not relevant. -/
abbrev DecodedFrame := ProcFrame × Rendered

/-- What demixing looks at. -/
def DecodedFrame.input (f : DecodedFrame) : LabeledInput :=
  ⟨f.1.frame.frame.substreamId, f.1.frame.start, f.2, f.1.mixing.factors⟩

/-- One audio element in `DemixDecodedAudioSamples` (demixing_manager.cc:437-459) together with `ConfigureLabeledFrame` (178-185): the
numbers of samples to trim and the parameters are those of the last frame that belongs to the element. -/
def demixDecoded (fs : List DecodedFrame) (d : DemixEntry) : Except Err (Option RenderFrame) := do
  match ← demixElement d.demixers d.labels (fs.map DecodedFrame.input) with
  | none => .ok none
  | some l => match fs.reverse.find? fun f => (d.labels.lookup f.1.frame.frame.substreamId).isSome with
    | none => .ok none
    | some f => .ok (some ⟨l.samples, f.1.frame.header.trimStart, f.1.frame.header.trimEnd, f.1.mixing⟩)

/-- `DemixDecodedAudioSamples` for all audio elements. -/
def demixAll (fs : List DecodedFrame) : List DemixEntry → Except Err (List (UInt32 × RenderFrame))
  | [] => .ok []
  | d :: ds => do
    let r ← demixDecoded fs d
    let rs ← demixAll fs ds
    match r with
    | none => .ok rs
    | some f => .ok ((d.id, f) :: rs)

/-- `ObuProcessor::RenderingModels` (obu_processor.h). -/
structure RenderingModels (C : Codecs) where
  relevant : List UInt32
  decoders : List (UInt32 × SubstreamDecoder C)
  demixing : List DemixEntry
  mix : Option (List (List LayoutState))

/-- The loop of `ConfigureSimplifiedAudioProcessingPipeline` over the relevant audio elements (obu_processor.cc:747-763), with the
entries of the demixing manager.  (The code makes those after the loop: of two errors, another may be reported.) -/
def configureElements (C : Codecs) : List (UInt32 × ElementWithData) → RenderingModels C → Except Err (RenderingModels C)
  | [], m => .ok m
  | (id, e) :: l, m => match e.codec with
    | none => .error .ub
    | some c => do
      let ds ← initDecoders C c e.data.labels m.decoders
      let x ← createDemixEntry id e
      configureElements C l ⟨m.relevant ++ e.obu.substreamIds, ds, m.demixing ++ [x], m.mix⟩

/-- `ObuProcessor::ConfigureSimplifiedAudioProcessingPipeline` (obu_processor.cc:726-791). -/
def configurePipeline (E : RenderEnv) (C : Codecs) (t : TrimmingSettings) (elements : List (UInt32 × ElementWithData))
    (m : MixPresentation) : Except Err (RenderingModels C) := do
  let ids := subMixElementIds m.subMixes
  let r ← configureElements C (elements.filter fun e => ids.contains e.1) ⟨[], [], [], none⟩
  let mix ← createMix E t elements m
  .ok ⟨r.relevant, r.decoders, r.demixing, mix⟩

/-- The loop of `RenderTemporalUnitAndMeasureLoudness` (obu_processor.cc:666-687): the frames with their samples, and the end of the
unit. -/
def decodeFrames {C : Codecs} (relevant : List UInt32) (start : Int) : List ProcFrame → Option Int → List (UInt32 × SubstreamDecoder C) →
    Except Err (List DecodedFrame × Option Int) × List (UInt32 × SubstreamDecoder C)
  | [], stop, ds => (.ok ([], stop), ds)
  | f :: fs, stop, ds =>
    if !relevant.contains f.frame.frame.substreamId then
      match decodeFrames relevant start fs stop ds with
      | (.error e, ds) => (.error e, ds)
      | (.ok (r, stop), ds) => (.ok ((f, []) :: r, stop), ds)
    else
      let s := stop.getD f.frame.stop
      if start ≠ f.frame.start then (.error .invalidArgument, ds)
      else if s ≠ f.frame.stop then (.error .invalidArgument, ds)
      else match decodeFrame f ds with
        | (.error e, ds) => (.error e, ds)
        | (.ok x, ds) => match decodeFrames relevant start fs (some s) ds with
          | (.error e, ds) => (.error e, ds)
          | (.ok (r, stop), ds) => (.ok ((f, x) :: r, stop), ds)

/-- `ObuProcessor::RenderTemporalUnitAndMeasureLoudness` (obu_processor.cc:649-724) for a unit with audio frames. -/
def renderUnit (M : GainMath Rat) {C : Codecs} (st : RenderingModels C) (u : OutputUnit) : Except Err Rendered × RenderingModels C :=
  match decodeFrames st.relevant u.timestamp u.frames none st.decoders with
  | (.error e, ds) => (.error e, ⟨st.relevant, ds, st.demixing, st.mix⟩)
  | (.ok (_, none), ds) => (.error .invalidArgument, ⟨st.relevant, ds, st.demixing, st.mix⟩)
  | (.ok (fs, some stop), ds) => match demixAll fs st.demixing with
    | .error e => (.error e, ⟨st.relevant, ds, st.demixing, st.mix⟩)
    | .ok frames => match pushRenderUnit M (fun id => frames.lookup id) u.timestamp stop u.blocks st.mix with
      | (.error e, mix) => (.error e, ⟨st.relevant, ds, st.demixing, mix⟩)
      | (.ok (), mix) => (renderedSamples mix 0 0, ⟨st.relevant, ds, st.demixing, mix⟩)

/-- The backend of the decoder that the code has, for what remains open: the tables of gains and binaural renderers, the other codecs,
and the mathematical functions. -/
def standardBackend (M : GainMath Rat) (E : RenderEnv) (C : Codecs) (t : TrimmingSettings) : Backend where
  State := RenderingModels C
  configure := configurePipeline E C t
  render := renderUnit M

end Iamf
