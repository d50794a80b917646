import Verif.Cli.Demix
import Verif.Cli.Output
import Verif.Obu.Mix
/-
  Rendering one audio element to a layout: iamf/cli/sample_processing_utils.cc, iamf/cli/renderer_factory.cc,
  iamf/cli/renderer/audio_element_renderer_{base,passthrough,channel_to_channel,ambisonics_to_channel}.cc,
  loudspeakers_renderer.cc, renderer_utils.cc and the channel orders of iamf/cli/channel_label.cc.

  Samples and gains are `double`s in the code; here they are rational numbers.
-/
namespace Iamf

/-! ### Channel orders -/

/-- `k9_1_6ChannelOrder` (channel_label.cc:82-84). -/
def order9_1_6 : List Label :=
  [.fl, .fr, .fc, .lfe, .bl, .br, .flc, .frc, .sil, .sir, .tpfl, .tpfr, .tpbl, .tpbr, .tpsil, .tpsir]

/-- `k10_2_9_3ChannelOrder` (channel_label.cc:85-89). -/
def order10_2_9_3 : List Label :=
  [.fl, .fr, .fc, .lfe, .bl, .br, .flc, .frc, .bc, .lfe2, .sil, .sir, .tpfl, .tpfr, .tpfc, .tpc, .tpbl, .tpbr, .tpsil, .tpsir,
    .tpbc, .btfc, .btfl, .btfr]

/-- `k7_1_5_4ChannelOrder` (channel_label.cc:90-93). -/
def order7_1_5_4 : List Label :=
  [.l7, .r7, .centre, .lfe, .lss7, .rss7, .lrs7, .rrs7, .ltf4, .rtf4, .ltb4, .rtb4, .tpc, .btfl, .btfr, .btbl, .btbr]

/-- `SetLabelsToOmittedExceptFor` (channel_label.cc:67-75). -/
def omitExcept (keep : List Label) (ordered : List Label) : List Label :=
  ordered.map fun l => if keep.contains l then l else .omitted

/-- `LookupEarChannelOrderFromExpandedLoudspeakerLayout` (channel_label.cc:77-197). -/
def expandedLayoutLabels (expanded : UInt8) : Except Err (List Label) :=
  match expanded.toNat with
  | 0 => do .ok (omitExcept [.lfe] (← plainLayoutLabels 7))
  | 1 => do .ok (omitExcept [.ls5, .rs5] (← plainLayoutLabels 4))
  | 2 => do .ok (omitExcept [.lss7, .rss7] (← plainLayoutLabels 7))
  | 3 => do .ok (omitExcept [.lrs7, .rrs7] (← plainLayoutLabels 7))
  | 4 => do .ok (omitExcept [.ltf4, .rtf4] (← plainLayoutLabels 7))
  | 5 => do .ok (omitExcept [.ltb4, .rtb4] (← plainLayoutLabels 7))
  | 6 => do .ok (omitExcept [.ltf4, .rtf4, .ltb4, .rtb4] (← plainLayoutLabels 7))
  | 7 => do .ok (omitExcept [.l7, .r7, .centre] (← plainLayoutLabels 7))
  | 8 => .ok order9_1_6
  | 9 => .ok (omitExcept [.fl, .fr] order9_1_6)
  | 10 => .ok (omitExcept [.sil, .sir] order9_1_6)
  | 11 => .ok (omitExcept [.tpsil, .tpsir] order9_1_6)
  | 12 => .ok (omitExcept [.tpfl, .tpfr, .tpsil, .tpsir, .tpbl, .tpbr] order9_1_6)
  | 13 => .ok order10_2_9_3
  | 14 => .ok (omitExcept [.lfe, .lfe2] order10_2_9_3)
  | 15 => .ok (omitExcept [.btfc, .btfl, .btfr] order10_2_9_3)
  | 16 => .ok order7_1_5_4
  | 17 => .ok (omitExcept [.btfl, .btfr, .btbl, .btbr] order7_1_5_4)
  | 18 => .ok (omitExcept [.tpc] order7_1_5_4)
  | 19 => .ok (omitExcept [.ltf4, .rtf4, .ltb4, .rtb4, .tpc] order7_1_5_4)
  | _ => .error .invalidArgument

/-- `LookupEarChannelOrderFromScalableLoudspeakerLayout` (channel_label.cc:437-451) for the layout of a layer. -/
def ChannelLayer.orderedLabels (l : ChannelLayer) : Except Err (List Label) :=
  if l.layout = kLayoutExpanded then
    match l.expanded with
    | none => .error .invalidArgument
    | some e => expandedLayoutLabels e
  else plainLayoutLabels l.layout

/-! ### Arranging and trimming samples -/

/-- `TrimmingSettings` (sample_processing_utils.h / types.h): whether to trim at the start and at the end. -/
structure TrimmingSettings where
  beginning : Bool
  ending : Bool
  deriving DecidableEq, Repr

/-- `LabeledFrame` (labeled_frame.h:32-45): the samples by label, the numbers of samples to trim, and the parameters. -/
structure RenderFrame where
  samples : SamplesMap
  trimStart : UInt32
  trimEnd : UInt32
  mixing : DownMixingParams

/-- The loop of `GetCommonNumTrimmedTimeTicks` (sample_processing_utils.cc:43-63): the number of samples that all channels have. -/
def rawTicks (m : SamplesMap) : List Label → Option Nat → Except Err Nat
  | [], none => .error .invalidArgument
  | [], some n => .ok n
  | l :: ls, n =>
    if l = .omitted then rawTicks m ls n
    else do
      let s ← findSamples l m
      match n with
      | none => rawTicks m ls (some s.length)
      | some k => if k ≠ s.length then .error .invalidArgument else rawTicks m ls (some k)

/-- The samples to trim that the settings let through (sample_processing_utils.cc:72-76, 113-115). -/
def TrimmingSettings.atStart (t : TrimmingSettings) (f : RenderFrame) : UInt32 := if t.beginning then f.trimStart else 0

def TrimmingSettings.atEnd (t : TrimmingSettings) (f : RenderFrame) : UInt32 := if t.ending then f.trimEnd else 0

/-- `GetCommonNumTrimmedTimeTicks` (sample_processing_utils.cc:38-91); the empty channel has `frameSize` samples. -/
def trimmedTicks (f : RenderFrame) (labels : List Label) (frameSize : Nat) (t : TrimmingSettings) : Except Err Nat := do
  let raw ← rawTicks f.samples labels none
  if frameSize < raw then .error .invalidArgument
  else do
    let total ← addUint32CheckOverflow (t.atStart f) (t.atEnd f)
    if raw < total.toNat then .error .invalidArgument
    else .ok (raw - (t.atStart f).toNat - (t.atEnd f).toNat)

/-- The samples of one channel (sample_processing_utils.cc:117-134). -/
def arrangeChannel (f : RenderFrame) (frameSize : Nat) (t : TrimmingSettings) (n : Nat) (l : Label) : Except Err Samples := do
  let s ← (if l = .omitted then .ok (List.replicate frameSize 0) else findSamples l f.samples)
  .ok ((s.drop (t.atStart f).toNat).take n)

/-- `ArrangeSamples` (sample_processing_utils.cc:95-137): the samples to render and the number of ticks.  Without labels neither is
touched; they are empty and 0 then. -/
def arrangeSamples (f : RenderFrame) (labels : List Label) (frameSize : Nat) (t : TrimmingSettings) : Except Err (Rendered × Nat) :=
  if labels = [] then .ok ([], 0)
  else do
    let n ← trimmedTicks f labels frameSize t
    let s ← labels.mapM (arrangeChannel f frameSize t n)
    .ok (s, n)

/-! ### Matrices -/

/-- Rows are input channels, columns are output channels. -/
abbrev GainMatrix := List (List Rat)

/-- The loop over input channels of `RenderSamplesUsingGains` (loudspeakers_renderer.cc:135-142) for one output channel; a row that
is too short is read out of bounds. -/
def addScaled (o : Nat) : Rendered → GainMatrix → Samples → Except Err Samples
  | [], _, acc => .ok acc
  | _ :: _, [], _ => .error .ub
  | s :: ss, row :: rows, acc => match row[o]? with
    | none => .error .ub
    | some g => addScaled o ss rows (List.zipWith (fun a x => a + x * g) acc s)

/-- `RenderSamplesUsingGains` (loudspeakers_renderer.cc:114-146). -/
def renderWithGains (input : Rendered) (gains : GainMatrix) : Except Err Rendered :=
  let ticks := (input.head?.getD []).length
  if gains = [] ∨ gains.length < input.length then .error .invalidArgument
  else if input.any (fun c => c.length ≠ ticks) then .error .invalidArgument
  else (List.range (gains.head?.getD []).length).mapM fun o => addScaled o input gains (List.replicate ticks 0)

/-! ### Which gains -/

/-- The strings that stand for layouts, such as "0+2+0" (audio_element_renderer_channel_to_channel.cc:47-58,
renderer_utils.cc:140-156) and "A1" for first order ambisonics. -/
inductive LayoutKey where
  | k0_1_0 | k0_2_0 | k0_5_0 | k2_5_0 | k4_5_0 | k4_5_1 | k3_7_0 | k4_9_0 | k9_10_3 | k0_7_0 | k4_7_0 | k7_1_2 | k3_1_2 | k9_1_6
  | k7_1_5_4
  | ambisonics (order : Nat)
  deriving DecidableEq, Repr

/-- `LookupInputKeyFromLoudspeakerLayout` for an expanded layout (audio_element_renderer_channel_to_channel.cc:62-96). -/
def expandedInputKey (expanded : UInt8) : Except Err LayoutKey :=
  match expanded.toNat with
  | 1 => .ok .k4_5_0
  | 0 | 2 | 3 | 4 | 5 | 6 | 7 => .ok .k4_7_0
  | 8 | 9 | 10 | 11 | 12 => .ok .k9_1_6
  | 13 | 14 | 15 => .ok .k9_10_3
  | 16 | 17 | 18 | 19 => .ok .k7_1_5_4
  | _ => .error .invalidArgument

/-- `LookupInputKeyFromLoudspeakerLayout` (audio_element_renderer_channel_to_channel.cc:98-127). -/
def ChannelLayer.inputKey (l : ChannelLayer) : Except Err LayoutKey :=
  if l.layout = kLayoutExpanded then
    match l.expanded with
    | none => .error .invalidArgument
    | some e => expandedInputKey e
  else match l.layout.toNat with
    | 0 => .ok .k0_1_0
    | 1 => .ok .k0_2_0
    | 2 => .ok .k0_5_0
    | 3 => .ok .k2_5_0
    | 4 => .ok .k4_5_0
    | 5 => .ok .k0_7_0
    | 6 => .ok .k7_1_2
    | 7 => .ok .k4_7_0
    | 8 => .ok .k3_1_2
    | _ => .error .notFound

/-- `kSoundSystemToOutputKey` (renderer_utils.cc:138-156). -/
def soundSystemKey (system : UInt8) : Except Err LayoutKey :=
  match system.toNat with
  | 0 => .ok .k0_2_0
  | 1 => .ok .k0_5_0
  | 2 => .ok .k2_5_0
  | 3 => .ok .k4_5_0
  | 4 => .ok .k4_5_1
  | 5 => .ok .k3_7_0
  | 6 => .ok .k4_9_0
  | 7 => .ok .k9_10_3
  | 8 => .ok .k0_7_0
  | 9 => .ok .k4_7_0
  | 10 => .ok .k7_1_2
  | 11 => .ok .k3_1_2
  | 12 => .ok .k0_1_0
  | 13 => .ok .k9_1_6
  | 14 => .ok .k7_1_5_4
  | _ => .error .notFound

/-- `LookupOutputKeyFromPlaybackLayout` (renderer_utils.cc:129-172); `std::get` on another alternative throws. -/
def Layout.outputKey (l : Layout) : Except Err LayoutKey :=
  if l.type = 2 then
    match l.specific with
    | .soundSystem s _ => soundSystemKey s
    | .other _ => .error .abort
  else .error .unimplemented

/-- `ComputeGains` (loudspeakers_renderer.cc:34-94). -/
def computeGains (input output : LayoutKey) (p : MixFactors) : Option GainMatrix :=
  if input = .k4_7_0 ∧ output = .k3_1_2 then
    some [
      [1, 0, 0, 0, 0, 0],
      [0, 1, 0, 0, 0, 0],
      [0, 0, 1, 0, 0, 0],
      [0, 0, 0, 1, 0, 0],
      [p.alpha * p.delta, 0, 0, 0, p.alpha * p.w * p.delta, 0],
      [0, p.alpha * p.delta, 0, 0, 0, p.alpha * p.w * p.delta],
      [p.beta * p.delta, 0, 0, 0, p.beta * p.w * p.delta, 0],
      [0, p.beta * p.delta, 0, 0, 0, p.beta * p.w * p.delta],
      [0, 0, 0, 0, 1, 0],
      [0, 0, 0, 0, 0, 1],
      [0, 0, 0, 0, p.gamma, 0],
      [0, 0, 0, 0, 0, p.gamma]]
  else if input = .k4_7_0 ∧ output = .k7_1_2 then
    some [
      [1, 0, 0, 0, 0, 0, 0, 0, 0, 0],
      [0, 1, 0, 0, 0, 0, 0, 0, 0, 0],
      [0, 0, 1, 0, 0, 0, 0, 0, 0, 0],
      [0, 0, 0, 1, 0, 0, 0, 0, 0, 0],
      [0, 0, 0, 0, 1, 0, 0, 0, 0, 0],
      [0, 0, 0, 0, 0, 1, 0, 0, 0, 0],
      [0, 0, 0, 0, 0, 0, 1, 0, 0, 0],
      [0, 0, 0, 0, 0, 0, 0, 1, 0, 0],
      [0, 0, 0, 0, 0, 0, 0, 0, 1, 0],
      [0, 0, 0, 0, 0, 0, 0, 0, 0, 1],
      [0, 0, 0, 0, 0, 0, 0, 0, p.gamma, 0],
      [0, 0, 0, 0, 0, 0, 0, 0, 0, p.gamma]]
  else none

/-- `LayoutStringHasHeightChannels` (loudspeakers_renderer.cc:96-112). -/
def LayoutKey.hasHeight : LayoutKey → Bool
  | .k4_7_0 | .k7_1_2 | .k4_5_0 | .k2_5_0 | .k3_1_2 => true
  | _ => false

/-- `MaybeComputeDynamicGains` (loudspeakers_renderer.cc:159-182). -/
def dynamicGains (p : DownMixingParams) (input output : LayoutKey) : Option GainMatrix :=
  if !p.inBitstream then none
  else if !output.hasHeight && input.hasHeight then none
  else computeGains input output p.factors

/-! ### Renderers of one element -/

/-- `AudioElementRendererBase` and what is derived from it.
 * `passThrough`: `AudioElementRendererPassThrough`;
 * `channels`: `AudioElementRendererChannelToChannel`, with its keys and precomputed gains;
 * `scene`: `AudioElementRendererAmbisonicsToChannel`, with its combined gains;
 * `binaural`: `AudioElementRendererBinaural`, which is not modelled: any function of the frame, without a state. -/
inductive ElementRenderer where
  | passThrough (labels : List Label)
  | channels (labels : List Label) (input output : LayoutKey) (gains : GainMatrix)
  | scene (labels : List Label) (gains : GainMatrix)
  | binaural (render : RenderFrame → Except Err (Rendered × Nat))

/-- `RenderLabeledFrame` (audio_element_renderer_base.cc:42-56) and the `RenderSamples` of the derived classes
(audio_element_renderer_passthrough.cc:194-203, audio_element_renderer_channel_to_channel.cc:204-224,
audio_element_renderer_ambisonics_to_channel.cc:229-234), then `Flush`: the rendered samples and the number of ticks.  A renderer
holds no samples between two frames (`FlushUntilNonEmptyOrTimeout` follows at once). -/
def ElementRenderer.render (frameSize : Nat) (t : TrimmingSettings) (f : RenderFrame) : ElementRenderer → Except Err (Rendered × Nat)
  | .passThrough labels => arrangeSamples f labels frameSize t
  | .channels labels input output gains => do
    let (s, n) ← arrangeSamples f labels frameSize t
    let r ← renderWithGains s ((dynamicGains f.mixing input output).getD gains)
    .ok (r, n)
  | .scene labels gains => do
    let (s, n) ← arrangeSamples f labels frameSize t
    let r ← renderWithGains s gains
    .ok (r, n)
  | .binaural r => r f

/-! ### Making renderers -/

/-- `IsLoudspeakerLayoutEquivalentToSoundSystem` (audio_element_renderer_passthrough.cc:43-68): the layout that a sound system is
equivalent to. -/
def equivalentLayout (system : UInt8) : Except Err UInt8 :=
  match system.toNat with
  | 12 => .ok 0
  | 0 => .ok 1
  | 1 => .ok 2
  | 2 => .ok 3
  | 3 => .ok 4
  | 8 => .ok 5
  | 10 => .ok 6
  | 9 => .ok 7
  | 11 => .ok 8
  | _ => .error .notFound

/-- `IsExpandedLoudspeakerLayoutBasedOnSoundSystem` (audio_element_renderer_passthrough.cc:74-111): the sound system that an expanded
layout is based on. -/
def baseSystem (expanded : UInt8) : Except Err UInt8 :=
  match expanded.toNat with
  | 1 => .ok 3
  | 0 | 2 | 3 | 4 | 5 | 6 | 7 => .ok 9
  | 8 | 9 | 10 | 11 | 12 => .ok 13
  | 13 | 14 | 15 => .ok 7
  | 16 | 17 | 18 | 19 => .ok 14
  | _ => .error .invalidArgument

/-- `CanChannelAudioLayerConfigPassThroughToLayout` (audio_element_renderer_passthrough.cc:113-145). -/
def ChannelLayer.canPassThrough (l : ChannelLayer) (d : Layout) : Except Err Bool :=
  if d.type = 2 then
    match d.specific with
    | .other _ => .error .abort
    | .soundSystem s _ =>
      if l.layout = kLayoutBinaural ∧ s = 0 then .ok true
      else if l.layout = kLayoutExpanded then
        match l.expanded with
        | none => .error .invalidArgument
        | some e => do
          let b ← baseSystem e
          .ok (s == b)
      else do
        let q ← equivalentLayout s
        .ok (q == l.layout)
  else if d.type = 3 then .ok (l.layout == kLayoutBinaural)
  else .error .invalidArgument

/-- `FindEquivalentLayer` (audio_element_renderer_passthrough.cc:147-168). -/
def findEquivalentLayer (d : Layout) : List ChannelLayer → Except Err ChannelLayer
  | [] => .error .invalidArgument
  | l :: ls => do
    let b ← l.canPassThrough d
    if b then .ok l else findEquivalentLayer d ls

/-- A status that is only looked at to return a null pointer; what ends the program still does. -/
def orNull {α : Type} (r : Except Err α) : Except Err (Option α) := match r with
  | .ok a => .ok (some a)
  | .error e => if e.fatal then .error e else .ok none

/-- `AudioElementRendererPassThrough::CreateFromScalableChannelLayoutConfig` (audio_element_renderer_passthrough.cc:172-192). -/
def createPassThrough (c : ScalableLayout) (d : Layout) : Except Err (Option ElementRenderer) := orNull do
  let l ← findEquivalentLayer d c.layers
  let labels ← l.orderedLabels
  .ok (.passThrough labels)

/-- What the renderers get from outside: `GetGainsForLayoutPair` (the tables of precomputed gains in iamf/cli/renderer/gains), and
the binaural renderers. -/
structure RenderEnv where
  gains : LayoutKey → LayoutKey → Except Err GainMatrix
  binaural : ElementConfig → Option (RenderFrame → Except Err (Rendered × Nat))

/-- `AudioElementRendererChannelToChannel::CreateFromScalableChannelLayoutConfig`
(audio_element_renderer_channel_to_channel.cc:151-202). -/
def createChannels (E : RenderEnv) (c : ScalableLayout) (d : Layout) : Except Err (Option ElementRenderer) :=
  match c.layers.getLast? with
  | none => .ok none
  | some l => orNull do
    let labels ← l.orderedLabels
    let i ← l.inputKey
    let o ← d.outputKey
    let g ← E.gains i o
    let _ ← numChannelsFromLayout d
    .ok (.channels labels i o g)

/-- The labels of `GetChannelLabelsFromAmbisonicsMonoConfig` (renderer_utils.cc:40-84). -/
def monoLabels (ids : List UInt32) (sub : SubstreamLabels) (c : AmbisonicsMono) : Except Err (List Label) :=
  if c.substreamCount.toNat ≠ ids.length then .error .invalidArgument
  else c.channelMapping.mapM fun (v : UInt8) =>
    if v = 255 then .ok .omitted
    else match ids[v.toNat]? with
      | none => .error .ub
      | some s => match sub.lookup s with
        | none => .error .notFound
        | some [l] => .ok l
        | some _ => .error .invalidArgument

/-- The labels of `GetChannelLabelsFromAmbisonicsProjectionConfig` (renderer_utils.cc:86-125). -/
def projectionLabels (ids : List UInt32) (sub : SubstreamLabels) (c : AmbisonicsProjection) : Except Err (List Label) :=
  if c.substreamCount.toNat ≠ ids.length then .error .invalidArgument
  else do
    let ls ← ids.mapM fun s => match sub.lookup s with
      | none => .error .notFound
      | some ls => .ok ls
    if ls.flatten.length ≠ c.substreamCount.toNat + c.coupledSubstreamCount.toNat then .error .invalidArgument
    else .ok ls.flatten

/-- `GetAmbisonicsOrder` (renderer_utils.cc:174-193). -/
def ambisonicsOrder (channels : UInt8) : Except Err Nat :=
  match (List.range 15).find? fun i => channels.toNat = (i + 1) * (i + 1) with
  | some i => .ok i
  | none => .error .invalidArgument

/-- `Q15ToSignedDouble` (audio_element_renderer_ambisonics_to_channel.cc:42-44). -/
def q15 (v : Int16) : Rat := (v.toInt : Rat) / 32768

/-- One entry of the combined gains (audio_element_renderer_ambisonics_to_channel.cc:115-122). -/
def combinedGain (matrix : List Int16) (gains : GainMatrix) (projected i k : Nat) : Except Err Rat :=
  (List.range projected).foldlM (fun acc j => match matrix[i * projected + j]?, (gains[j]?).bind (·[k]?) with
    | some q, some g => .ok (acc + q15 q * g)
    | none, _ => .error .abort
    | _, none => .error .ub) 0

/-- `GetCombinedGains` (audio_element_renderer_ambisonics_to_channel.cc:90-126). -/
def combinedGains (c : AmbisonicsProjection) (gains : GainMatrix) : Except Err GainMatrix :=
  let outputs := (gains.head?.getD []).length
  if gains.length ≠ c.outputChannelCount.toNat then .error .invalidArgument
  else if gains.any (fun r => r.length ≠ outputs) then .error .invalidArgument
  else (List.range (c.substreamCount.toNat + c.coupledSubstreamCount.toNat)).mapM fun i =>
    (List.range outputs).mapM fun k => combinedGain c.demixingMatrix gains c.outputChannelCount.toNat i k

/-- The rows of the active channels in mono mode (audio_element_renderer_ambisonics_to_channel.cc:190-203); that there is none is
fatal. -/
def activeGains (labels : List Label) (gains : GainMatrix) : Except Err (List Label × GainMatrix) :=
  if gains.length ≠ labels.length then .error .invalidArgument
  else
    let active := (labels.zip gains).filter fun p => p.1 ≠ .omitted
    if active = [] then .error .abort else .ok (active.map (·.1), active.map (·.2))

/-- `AudioElementRendererAmbisonicsToChannel::CreateFromAmbisonicsConfig`
(audio_element_renderer_ambisonics_to_channel.cc:130-227). -/
def createScene (E : RenderEnv) (c : Ambisonics) (ids : List UInt32) (sub : SubstreamLabels) (d : Layout) :
    Except Err (Option ElementRenderer) := orNull do
  match c with
  | .mono m => do
    let labels ← monoLabels ids sub m
    let o ← d.outputKey
    let order ← ambisonicsOrder (UInt8.ofNat m.channelMapping.length)
    let g ← E.gains (.ambisonics order) o
    let _ ← numChannelsFromLayout d
    let (ls, g) ← activeGains labels g
    .ok (.scene ls g)
  | .projection p => do
    let labels ← projectionLabels ids sub p
    let o ← d.outputKey
    let order ← ambisonicsOrder p.outputChannelCount
    let g ← E.gains (.ambisonics order) o
    let _ ← numChannelsFromLayout d
    let g ← combinedGains p g
    .ok (.scene labels g)

/-- `Layout` for stereo, as made by `CreateRendererForLayout` (renderer_factory.cc:142-146). -/
def stereoLayout : Layout := ⟨2, .soundSystem 0 0⟩

/-- `RendererFactory::CreateRendererForLayout` (renderer_factory.cc:125-172). -/
def createRenderer (E : RenderEnv) (e : AudioElement) (sub : SubstreamLabels) (r : RenderingConfig) (loudness : Layout) :
    Except Err (Option ElementRenderer) :=
  let useBinaural := r.headphonesMode == 1 && loudness.type == 3
  let d := if !useBinaural && loudness.type == 3 then stereoLayout else loudness
  if e.elementType = 1 then
    match e.config with
    | .ambisonics c =>
      if useBinaural then .ok ((E.binaural e.config).map .binaural)
      else createScene E c e.substreamIds sub d
    | _ => .ok none
  else if e.elementType = 0 then
    match e.config with
    | .scalable c => do
      match ← createPassThrough c d with
      | some p => .ok (some p)
      | none =>
        if useBinaural then .ok ((E.binaural e.config).map .binaural)
        else createChannels E c d
    | _ => .ok none
  else .ok none

end Iamf
