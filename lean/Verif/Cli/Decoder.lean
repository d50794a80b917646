import Verif.Cli.Processor
import Verif.Cli.Profile
import Verif.Cli.Selection
import Verif.Cli.Output
/-
  The decoder: iamf/api/decoder/iamf_decoder.cc, with `CreateForRendering` of iamf/cli/obu_processor.cc.
-/
namespace Iamf

/-- What the decoder uses and this model leaves open: codecs, demixing and rendering.  Each is a function of what the code gives to
it and of a state of its own.
 * `configure`: `ConfigureSimplifiedAudioProcessingPipeline` (obu_processor.cc:722-780);
 * `render`: `RenderTemporalUnitAndMeasureLoudness` for a unit with audio frames (obu_processor.cc:660-720). -/
structure Backend where
  State : Type
  configure : List (UInt32 × ElementWithData) → MixPresentation → Except Err State
  render : State → OutputUnit → Except Err Rendered × State

/-- What the user of a decoder asks for (`IamfDecoder::Settings`, iamf_decoder_interface.h): the profiles, mix presentation and
layout to look for, whether channels go in the order for Android, and the `OutputSampleType`. -/
structure DecoderSettings where
  profiles : List UInt8
  mixId : Option UInt32
  layout : Option Layout
  android : Bool
  sampleType : Nat

/-- An `ObuProcessor` created for rendering, with the layout and the mix presentation id that were selected, and the sample rate and
frame size if they are known. -/
structure Processor (B : Backend) where
  context : ProcContext
  state : ProcState
  renderer : B.State
  mixId : UInt32
  layout : Layout
  rate : Option (UInt32 × UInt32)

/-- `GetSampleRateAndFrameSize` (obu_processor.cc:216-231): only when there is exactly one codec config. -/
def sampleRateAndFrameSize (d : Descriptors) : Option (UInt32 × UInt32) := match d.codecs with
  | [c] => some (c.2.outputRate, c.2.config.numSamplesPerFrame)
  | _ => none

/-- `GetSupportedMixPresentations` (obu_processor.cc:193-216).  The requested profiles are a set. -/
def supportedMixes (s : DecoderSettings) (d : Descriptors) : List MixPresentation :=
  d.mixes.filter fun m => match (filterMix d.elements m s.profiles).1 with
    | .ok () => true
    | .error _ => false

/-- `ObuProcessor::InitializeForRendering` (obu_processor.cc:523-579). -/
def initRendering {B : Backend} (s : DecoderSettings) (d : Descriptors) (p : ProcContext × ProcState) : Except Err (Processor B) :=
  if d.mixes.isEmpty then .error .invalidArgument
  else if d.elements.isEmpty then .error .invalidArgument
  else if (supportedMixes s d).isEmpty then .error .notFound
  else do
    let sel ← findMixAndLayout (d.elements.map fun e => (e.1, e.2.obu)) (supportedMixes s d) s.layout s.mixId
    match sel.mixes[sel.mix]? with
    | none => .error .ub
    | some m => do
      let simple ← simplifyMix m sel.subMixIndex sel.layoutIndex
      let r ← B.configure d.elements simple
      .ok ⟨p.1, p.2, r, m.id, sel.layout, sampleRateAndFrameSize d⟩

/-- `ObuProcessor::CreateForRendering` after the descriptors have been parsed (obu_processor.cc:459-493). -/
def initAll {B : Backend} (s : DecoderSettings) (d : Descriptors) : Except Err (Processor B) := do
  let p ← initProcessor d
  initRendering s d p

/-- `DecoderState::CreateObuProcessor` (iamf_decoder.cc:135-177) up to the call of `Flush`: the processor and the bytes of the
descriptors, or `none` for ResourceExhausted. -/
def createProcessor {B : Backend} (s : DecoderSettings) (fromDescriptors : Bool) : Rd (Option (Processor B × List UInt8)) :=
  .tell fun start => .attempt (parseDescriptors fromDescriptors) fun
    | .error _ => .fail .invalidArgument
    | .ok none => if fromDescriptors then .fail .invalidArgument else .ret none
    | .ok (some d) => match initAll s d with
      | .error e => if e.fatal then .fail e else .fail .invalidArgument
      | .ok p => .tell fun fin => .seek start ((rBytes ((fin - start) / 8).toNat).bind fun bytes => .ret (some (p, bytes)))

/-- `api::OutputLayout` (iamf_tools_api_types.h:67-130): sound systems, numbered as in the bitstream (0 to 13), and binaural. -/
inductive OutputLayout where
  | soundSystem (s : Fin 14)
  | binaural
  deriving DecidableEq

/-- `ApiToInternalType` (mix_presentation_conversion.cc:107-146). -/
def OutputLayout.toLayout : OutputLayout → Layout
  | .soundSystem s => ⟨2, .soundSystem (UInt8.ofNat s.val) 0⟩
  | .binaural => ⟨3, .other 0⟩

/-- `InternalToApiType` (mix_presentation_conversion.cc:28-94, 148-155). -/
def Layout.toOutput (l : Layout) : Except Err OutputLayout := match l.specific with
  | .other _ => if l.type = 3 then .ok .binaural else .error .invalidArgument
  | .soundSystem s _ =>
    if l.type ≠ 2 then .error .invalidArgument
    else if h : s.toNat < 14 then .ok (.soundSystem ⟨s.toNat, h⟩)
    else .error .invalidArgument

/-- `IamfDecoder::DecoderState` (iamf_decoder.cc:61-130).  `reorderer` is the sound system the channel reorderer was made for. -/
structure Decoder (B : Backend) where
  settings : DecoderSettings
  fromDescriptors : Bool
  buffer : RBuf
  processor : Option (Processor B)
  pending : Rendered
  ended : Bool
  reorderer : Option UInt8
  descriptors : List UInt8

namespace Decoder
variable {B : Backend}

/-- `kInitialBufferSize` (iamf_decoder.cc:183). -/
def kInitialBufferSize : Nat := 1024

/-- `IamfDecoder::Create` (iamf_decoder.cc:340-366).  `is_position_valid_` of the new buffer is not initialized. -/
def create (s : DecoderSettings) (posValid : Bool) : Decoder B :=
  ⟨s, false, RBuf.create kInitialBufferSize [] posValid, none, [], false, none, []⟩

/-- `CreateObuProcessor` with its effect on the decoder (iamf_decoder.cc:135-177); `false` for ResourceExhausted. -/
def setUp (d : Decoder B) : Except Err Bool × Decoder B :=
  match (createProcessor d.settings d.fromDescriptors).run d.buffer with
  | (.error e, b) => (.error e, { d with buffer := b })
  | (.ok none, b) => (.ok false, { d with buffer := b })
  | (.ok (some (p, bytes)), b) => match b.flush with
    | (.error e, b) => (.error e, { d with buffer := b })
    | (.ok (), b) => (.ok true, { d with buffer := b, processor := some p, descriptors := bytes })

/-- `RenderTemporalUnitAndMeasureLoudness` (obu_processor.cc:649-720): nothing is rendered without audio frames. -/
def render (s : B.State) (u : OutputUnit) : Except Err Rendered × B.State :=
  if u.frames.isEmpty then (.ok [], s) else B.render s u

/-- What becomes of rendered samples (iamf_decoder.cc:234-238); a reorderer that refuses them is fatal. -/
def reordered (d : Decoder B) (samples : Rendered) : Except Err Rendered :=
  match d.reorderer with
  | none => .ok samples
  | some system => match reorderChannels d.settings.android system samples with
    | .ok s => .ok s
    | .error _ => .error .abort

/-- `DecodeOneTemporalUnit` (iamf_decoder.cc:205-243). -/
def decodeOne (eos : Bool) (d : Decoder B) : Except Err Unit × Decoder B :=
  match d.processor with
  | none => (.error .unknown, d)
  | some p =>
    match (processUnit p.context eos p.state).run d.buffer with
    | (.error e, b) => (.error e, { d with buffer := b })
    | (.ok (.error e, st), b) => (.error e, { d with buffer := b, processor := some { p with state := st } })
    | (.ok (.ok (none, _), st), b) => match b.flush with
      | (r, b) => (r, { d with buffer := b, processor := some { p with state := st } })
    | (.ok (.ok (some u, _), st), b) => match render p.renderer u with
      | (.error e, rs) => (.error e, { d with buffer := b, processor := some { p with state := st, renderer := rs } })
      | (.ok samples, rs) => match d.reordered samples with
        | .error e => (.error e, { d with buffer := b, processor := some { p with state := st, renderer := rs }, pending := samples })
        | .ok samples => match b.flush with
          | (r, b) => (r, { d with buffer := b, processor := some { p with state := st, renderer := rs }, pending := samples })

/-- The sound system of a layout, if it follows a sound system convention (iamf_decoder.cc:420-428). -/
def soundSystem (l : Layout) : Option UInt8 := match l.specific with
  | .soundSystem s _ => some s
  | .other _ => none

/-- `IamfDecoder::Decode` (iamf_decoder.cc:391-438). -/
def decode (bytes : List UInt8) (d : Decoder B) : Except Err Unit × Decoder B :=
  if d.ended then (.error .failedPrecondition, d)
  else match d.buffer.pushBytes bytes with
    | (.error e, b) => (.error e, { d with buffer := b })
    | (.ok (), b) =>
      match d.processor with
      | none => match setUp { d with buffer := b } with
        | (.error e, d) => (.error e, d)
        | (.ok _, d) => (.ok (), d)
      | some p =>
        let d := { d with buffer := b, reorderer := match soundSystem p.layout with
          | some s => some s
          | none => d.reorderer }
        if d.pending.isEmpty then decodeOne d.fromDescriptors d else (.ok (), d)

/-- `IamfDecoder::GetOutputTemporalUnit` (iamf_decoder.cc:440-466): the bytes that were written. -/
def getOutput (size : Nat) (d : Decoder B) : Except Err (List UInt8) × Decoder B :=
  if d.pending.isEmpty then (.ok [], d)
  else
    let w := writeFrameToSpan d.pending d.settings.sampleType size
    let d := match w with
      | .ok _ => { d with pending := [] }
      | .error _ => d
    match decodeOne (d.fromDescriptors || d.ended) d with
    | (.error e, d) => (.error e, d)
    | (.ok (), d) => (w, d)

/-- `IamfDecoder::SignalEndOfDecoding` (iamf_decoder.cc:592-608). -/
def signalEnd (d : Decoder B) : Except Err Unit × Decoder B :=
  let d := { d with ended := true }
  if !d.fromDescriptors && d.pending.isEmpty && d.processor.isSome then decodeOne true d else (.ok (), d)

/-- `IamfDecoder::IsTemporalUnitAvailable` (iamf_decoder.cc:468-470). -/
def isUnitAvailable (d : Decoder B) : Bool := !d.pending.isEmpty

/-- `IamfDecoder::IsDescriptorProcessingComplete` (iamf_decoder.cc:472-474). -/
def isDescriptorProcessingComplete (d : Decoder B) : Bool := d.processor.isSome

/-- `IamfDecoder::CreateFromDescriptors` (iamf_decoder.cc:368-389). -/
def createFromDescriptors (s : DecoderSettings) (posValid : Bool) (bytes : List UInt8) : Except Err Unit × Decoder B :=
  match (RBuf.create kInitialBufferSize [] posValid).pushBytes bytes with
  | (.error e, _) => (.error e, create s posValid)
  | (.ok (), b) => match setUp ⟨s, true, b, none, [], false, none, []⟩ with
    | (.error e, d) => (.error e, d)
    | (.ok _, d) => (.ok (), d)

/-- `IamfDecoder::Reset` (iamf_decoder.cc:538-569).  The old processor stays until the new one has been made. -/
def reset (posValid : Bool) (d : Decoder B) : Except Err Unit × Decoder B :=
  if !d.fromDescriptors then (.error .failedPrecondition, d)
  else
    let d := { d with pending := [], reorderer := none, ended := false, buffer := RBuf.create kInitialBufferSize [] posValid }
    match d.buffer.pushBytes d.descriptors with
    | (.error e, b) => (.error e, { d with buffer := b })
    | (.ok (), b) => match setUp { d with buffer := b } with
      | (.error e, d) => (.error e, d)
      | (.ok _, d) => (.ok (), d)

/-- `IamfDecoder::GetOutputMix` (iamf_decoder.cc:476-490). -/
def getOutputMix (d : Decoder B) : Except Err (UInt32 × OutputLayout) := match d.processor with
  | none => .error .failedPrecondition
  | some p => do
    let l ← p.layout.toOutput
    .ok (p.mixId, l)

/-- `IamfDecoder::GetNumberOfOutputChannels` (iamf_decoder.cc:492-501). -/
def getNumberOfOutputChannels (d : Decoder B) : Except Err Int := match d.processor with
  | none => .error .failedPrecondition
  | some p => numChannelsFromLayout p.layout

/-- `IamfDecoder::GetSampleRate` (iamf_decoder.cc:507-521); `ValidateHasValue` reports InvalidArgument. -/
def getSampleRate (d : Decoder B) : Except Err UInt32 := match d.processor with
  | none => .error .failedPrecondition
  | some p => match p.rate with
    | none => .error .invalidArgument
    | some r => .ok r.1

/-- `IamfDecoder::GetFrameSize` (iamf_decoder.cc:523-536). -/
def getFrameSize (d : Decoder B) : Except Err UInt32 := match d.processor with
  | none => .error .failedPrecondition
  | some p => match p.rate with
    | none => .error .invalidArgument
    | some r => .ok r.2

/-- `IamfDecoder::ResetWithNewMix` (iamf_decoder.cc:571-590): the selected mix and layout.  The mix that is asked for is kept even if
there is an error. -/
def resetWithNewMix (posValid : Bool) (mixId : Option UInt32) (layout : Option OutputLayout) (d : Decoder B) :
    Except Err (UInt32 × OutputLayout) × Decoder B :=
  if !d.fromDescriptors then (.error .failedPrecondition, d)
  else match reset posValid { d with settings := { d.settings with mixId := mixId, layout := layout.map OutputLayout.toLayout } } with
    | (.error e, d) => (.error e, d)
    | (.ok (), d) => (getOutputMix d, d)

end Decoder

/-! ### Histories of calls -/

/-- A call of the interface. -/
inductive DecoderCall where
  | decode (bytes : List UInt8)
  | getOutput (size : Nat)
  | signalEnd
  deriving DecidableEq

namespace Decoder
variable {B : Backend}

/-- What a call returns: its status and the bytes that were written. -/
def call (c : DecoderCall) (d : Decoder B) : Except Err (List UInt8) × Decoder B :=
  match c with
  | .decode bytes => match d.decode bytes with
    | (.ok (), d) => (.ok [], d)
    | (.error e, d) => (.error e, d)
  | .getOutput size => d.getOutput size
  | .signalEnd => match d.signalEnd with
    | (.ok (), d) => (.ok [], d)
    | (.error e, d) => (.error e, d)

/-- A history of calls: what each returned, and the decoder afterwards. -/
def calls : List DecoderCall → Decoder B → List (Except Err (List UInt8)) × Decoder B
  | [], d => ([], d)
  | c :: cs, d => ((d.call c).1 :: (calls cs (d.call c).2).1, (calls cs (d.call c).2).2)

end Decoder

end Iamf
