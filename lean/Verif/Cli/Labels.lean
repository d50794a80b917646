import Verif.Obu.AudioElement
import Verif.Obu.Codec
/-
  Channel labels of the substreams of an audio element: iamf/cli/obu_with_data_generator.cc,
  iamf/cli/channel_label.h and iamf/cli/audio_element_with_data.h.
-/
namespace Iamf

/-- `ChannelLabel::Label` (channel_label.h:36-144).  `kA0` … `kA24` are `a n`; that `n ≤ 24` is enforced where they are
made (`ambisonicsLabel`). -/
inductive Label where
  | omitted | mono | l2 | r2 | demixedR2 | object0 | object1 | centre | lfe
  | l3 | r3 | ltf3 | rtf3 | demixedL3 | demixedR3
  | l5 | r5 | ls5 | rs5 | demixedL5 | demixedR5 | demixedLs5 | demixedRs5
  | ltf2 | rtf2 | demixedLtf2 | demixedRtf2
  | ltf4 | rtf4 | ltb4 | rtb4 | demixedLtb4 | demixedRtb4
  | l7 | r7 | lss7 | rss7 | lrs7 | rrs7 | demixedL7 | demixedR7 | demixedLrs7 | demixedRrs7
  | flc | fc | frc | fl | fr | sil | sir | bl | br | tpfl | tpfr | tpsil | tpsir | tpbl | tpbr
  | bc | lfe2 | tpfc | tpc | tpbc | btfc | btfl | btfr | btbl | btbr
  | a (n : Nat)
  deriving DecidableEq, Repr

/-- `ChannelLabel::AmbisonicsChannelNumberToLabel` (channel_label.cc:201-216): the 25 channels up to fourth order. -/
def ambisonicsLabel (n : Nat) : Except Err Label := if n ≤ 24 then .ok (.a n) else .error .notFound

/-- `ChannelNumbers` (recon_gain_param_definition.h:27-39), never negative. -/
structure ChannelNumbers where
  surround : Nat
  lfe : Nat
  height : Nat
  bottom : Nat
  deriving DecidableEq, Repr

/-- All channels of a layer. -/
def ChannelNumbers.total (c : ChannelNumbers) : Nat := c.surround + c.lfe + c.height + c.bottom

/-- `LoudspeakerLayoutToChannels` (obu_with_data_generator.cc:60-100). -/
def layoutChannels (layout : UInt8) : Except Err ChannelNumbers :=
  match layout.toNat with
  | 0 => .ok ⟨1, 0, 0, 0⟩
  | 1 => .ok ⟨2, 0, 0, 0⟩
  | 2 => .ok ⟨5, 1, 0, 0⟩
  | 3 => .ok ⟨5, 1, 2, 0⟩
  | 4 => .ok ⟨5, 1, 4, 0⟩
  | 5 => .ok ⟨7, 1, 0, 0⟩
  | 6 => .ok ⟨7, 1, 2, 0⟩
  | 7 => .ok ⟨7, 1, 4, 0⟩
  | 8 => .ok ⟨3, 1, 2, 0⟩
  | 9 => .ok ⟨2, 0, 0, 0⟩
  | _ => .error .invalidArgument

/-- The labels of one channel group: coupled (in pairs) and not coupled. -/
structure GroupLabels where
  coupled : List Label
  single : List Label
  deriving DecidableEq, Repr

/-- `CollectBaseChannelGroupLabels` (obu_with_data_generator.cc:105-183). -/
def baseGroup (c : ChannelNumbers) : Except Err GroupLabels := do
  let s : GroupLabels ← (match c.surround with
    | 1 => .ok ⟨[], [.mono]⟩
    | 2 => .ok ⟨[.l2, .r2], []⟩
    | 3 => .ok ⟨[.l3, .r3], [.centre]⟩
    | 5 => .ok ⟨[.l5, .r5, .ls5, .rs5], [.centre]⟩
    | 7 => .ok ⟨[.l7, .r7, .lss7, .rss7, .lrs7, .rrs7], [.centre]⟩
    | _ => .error .invalidArgument)
  let h : List Label ← (match c.height with
    | 0 => .ok []
    | 2 => .ok (if c.surround = 3 then [.ltf3, .rtf3] else [.ltf2, .rtf2])
    | 4 => .ok [.ltf4, .rtf4, .ltb4, .rtb4]
    | _ => .error .invalidArgument)
  let e : List Label ← (match c.lfe with
    | 0 => .ok []
    | 1 => .ok [.lfe]
    | _ => .error .invalidArgument)
  .ok ⟨s.coupled ++ h, s.single ++ e⟩

/-- `CollectChannelLayersAndLabelsForExpandedLoudspeakerLayout` (obu_with_data_generator.cc:185-307). -/
def expandedGroup (layerIndex : Nat) (expanded : Option UInt8) : Except Err (ChannelNumbers × GroupLabels) :=
  if layerIndex ≠ 0 then .error .invalidArgument
  else match expanded with
    | none => .error .invalidArgument
    | some e => match e.toNat with
      | 0 => .ok (⟨0, 1, 0, 0⟩, ⟨[], [.lfe]⟩)
      | 1 => .ok (⟨2, 0, 0, 0⟩, ⟨[.ls5, .rs5], []⟩)
      | 2 => .ok (⟨2, 0, 0, 0⟩, ⟨[.lss7, .rss7], []⟩)
      | 3 => .ok (⟨2, 0, 0, 0⟩, ⟨[.lrs7, .rrs7], []⟩)
      | 4 => .ok (⟨0, 0, 2, 0⟩, ⟨[.ltf4, .rtf4], []⟩)
      | 5 => .ok (⟨0, 0, 2, 0⟩, ⟨[.ltb4, .rtb4], []⟩)
      | 6 => .ok (⟨0, 0, 4, 0⟩, ⟨[.ltf4, .rtf4, .ltb4, .rtb4], []⟩)
      | 7 => .ok (⟨3, 0, 0, 0⟩, ⟨[.l7, .r7], [.centre]⟩)
      | 8 => .ok (⟨9, 1, 6, 0⟩, ⟨[.flc, .frc, .fl, .fr, .sil, .sir, .bl, .br, .tpfl, .tpfr, .tpsil, .tpsir, .tpbl, .tpbr],
          [.fc, .lfe]⟩)
      | 9 => .ok (⟨2, 0, 0, 0⟩, ⟨[.fl, .fr], []⟩)
      | 10 => .ok (⟨2, 0, 0, 0⟩, ⟨[.sil, .sir], []⟩)
      | 11 => .ok (⟨0, 0, 2, 0⟩, ⟨[.tpsil, .tpsir], []⟩)
      | 12 => .ok (⟨0, 0, 6, 0⟩, ⟨[.tpfl, .tpfr, .tpsil, .tpsir, .tpbl, .tpbr], []⟩)
      | 13 => .ok (⟨10, 2, 9, 3⟩, ⟨[.flc, .frc, .fl, .fr, .sil, .sir, .bl, .br, .tpfl, .tpfr, .tpsil, .tpsir, .tpbl, .tpbr,
          .btfl, .btfr], [.fc, .bc, .tpfc, .tpc, .tpbc, .btfc, .lfe, .lfe2]⟩)
      | 14 => .ok (⟨0, 2, 0, 0⟩, ⟨[], [.lfe, .lfe2]⟩)
      | 15 => .ok (⟨0, 0, 0, 3⟩, ⟨[.btfl, .btfr], [.btfc]⟩)
      | 16 => .ok (⟨7, 1, 5, 4⟩, ⟨[.l7, .r7, .lss7, .rss7, .lrs7, .rrs7, .ltf4, .rtf4, .ltb4, .rtb4, .btfl, .btfr, .btbl,
          .btbr], [.centre, .tpc, .lfe]⟩)
      | 17 => .ok (⟨0, 0, 0, 4⟩, ⟨[.btfl, .btfr, .btbl, .btbr], []⟩)
      | 18 => .ok (⟨0, 0, 1, 0⟩, ⟨[], [.tpc]⟩)
      | 19 => .ok (⟨0, 0, 5, 0⟩, ⟨[.ltf4, .rtf4, .ltb4, .rtb4], [.tpc]⟩)
      | 20 => .ok (⟨0, 0, 0, 0⟩, ⟨[], []⟩)
      | 255 => .ok (⟨0, 0, 0, 0⟩, ⟨[], []⟩)
      | _ => .error .invalidArgument

/-- The loop over the surround channels of `CollectDemixedChannelGroupLabels` (obu_with_data_generator.cc:318-348), for
`n` channels from `s` on: the labels and whether `kL2` is to be pushed at the end. -/
def demixedSurround : Nat → Nat → Except Err (GroupLabels × Bool)
  | 0, _ => .ok (⟨[], []⟩, false)
  | n + 1, s => do
    let (g, b) : GroupLabels × Bool ← (match s with
      | 2 => .ok (⟨[], []⟩, true)
      | 3 => .ok (⟨[], [.centre]⟩, false)
      | 5 => .ok (⟨[.l5, .r5], []⟩, false)
      | 7 => .ok (⟨[.lss7, .rss7], []⟩, false)
      | _ => if s > 7 then .error .invalidArgument else .ok (⟨[], []⟩, false))
    let (g', b') ← demixedSurround n (s + 1)
    .ok (⟨g.coupled ++ g'.coupled, g.single ++ g'.single⟩, b || b')

/-- `CollectDemixedChannelGroupLabels` (obu_with_data_generator.cc:312-393). -/
def demixedGroup (acc layer : ChannelNumbers) : Except Err GroupLabels := do
  let (s, l2) ← demixedSurround (layer.surround - acc.surround) (acc.surround + 1)
  let h : List Label ← (
    if layer.height > acc.height then
      if acc.height = 0 then
        if layer.height = 4 then .ok [.ltf4, .rtf4, .ltb4, .rtb4]
        else if layer.height = 2 then .ok (if layer.surround = 3 then [.ltf3, .rtf3] else [.ltf2, .rtf2])
        else .error .invalidArgument
      else if acc.height = 2 then .ok [.ltf4, .rtf4]
      else .error .invalidArgument
    else .ok [])
  let e : List Label ← (
    if layer.lfe > acc.lfe then
      if layer.lfe = 1 then .ok [.lfe] else .error .invalidArgument
    else .ok [])
  .ok ⟨s.coupled ++ h, s.single ++ e ++ (if l2 then [.l2] else [])⟩

/-- `CollectChannelLayersAndLabelsForLoudspeakerLayout` (obu_with_data_generator.cc:565-600). -/
def layoutGroup (layerIndex : Nat) (layout : UInt8) (acc : ChannelNumbers) : Except Err (ChannelNumbers × GroupLabels) := do
  let c ← layoutChannels layout
  if c.surround < acc.surround ∨ c.lfe < acc.lfe ∨ c.height < acc.height then .error .invalidArgument
  else
    let g ← (if layerIndex = 0 then baseGroup c else demixedGroup acc c)
    .ok (c, g)

/-- The case distinction in the loop of `FinalizeScalableChannelLayoutConfig` (obu_with_data_generator.cc:725-736). -/
def layerGroup (layerIndex : Nat) (layer : ChannelLayer) (acc : ChannelNumbers) : Except Err (ChannelNumbers × GroupLabels) :=
  if layer.layout = kLayoutExpanded then expandedGroup layerIndex layer.expanded
  else layoutGroup layerIndex layer.layout acc

/-- `SubstreamIdLabelsMap` (audio_element_with_data.h:28-29), with distinct keys, in insertion order. -/
abbrev SubstreamLabels := List (UInt32 × List Label)

/-- `substream_id_to_labels[id].push_back(…)` for each of `ls`. -/
def pushLabels (id : UInt32) (ls : List Label) : SubstreamLabels → SubstreamLabels
  | [] => [(id, ls)]
  | (i, l) :: m => if i = id then (i, l ++ ls) :: m else (i, l) :: pushLabels id ls m

/-- The loop over the coupled labels (obu_with_data_generator.cc:413-425).  An odd number of labels is excluded by the
`ABSL_CHECK` on line 400; the index is always in range (line 405), an index out of range would be undefined. -/
def addCoupled (ids : List UInt32) : List Label → SubstreamLabels → Nat → Except Err (SubstreamLabels × Nat)
  | a :: b :: l, m, i => match ids[i]? with
    | none => .error .ub
    | some s => addCoupled ids l (pushLabels s [a, b] m) (i + 1)
  | [_], _, _ => .error .abort
  | [], m, i => .ok (m, i)

/-- The loop over the other labels (obu_with_data_generator.cc:428-434). -/
def addSingle (ids : List UInt32) : List Label → SubstreamLabels → Nat → Except Err (SubstreamLabels × Nat)
  | a :: l, m, i => match ids[i]? with
    | none => .error .ub
    | some s => addSingle ids l (pushLabels s [a] m) (i + 1)
  | [], m, i => .ok (m, i)

/-- `AddSubstreamLabels` (obu_with_data_generator.cc:395-436). -/
def addSubstreamLabels (g : GroupLabels) (ids : List UInt32) (m : SubstreamLabels) (i : Nat) :
    Except Err (SubstreamLabels × Nat) :=
  if g.coupled.length % 2 ≠ 0 then .error .abort
  else if i + (g.coupled.length / 2 + g.single.length) > ids.length then .error .outOfRange
  else do
    let (m, i) ← addCoupled ids g.coupled m i
    addSingle ids g.single m i

/-- `ValidateSubstreamCounts` (obu_with_data_generator.cc:438-473). -/
def substreamCountsOk (g : GroupLabels) (layer : ChannelLayer) : Bool :=
  layer.coupledSubstreamCount.toNat == g.coupled.length / 2 &&
  layer.substreamCount.toNat == g.single.length + g.coupled.length / 2

/-- `OutputGainApplies` (obu_with_data_generator.cc:475-498). -/
def outputGainApplies (flag : UInt8) (l : Label) : Bool :=
  match l with
  | .mono | .l2 | .l3 => flag.toNat.testBit 5
  | .r2 | .r3 => flag.toNat.testBit 4
  | .ls5 => flag.toNat.testBit 3
  | .rs5 => flag.toNat.testBit 2
  | .ltf2 | .ltf3 => flag.toNat.testBit 1
  | .rtf2 | .rtf3 => flag.toNat.testBit 0
  | _ => false

/-- `LabelGainMap` (audio_element_with_data.h:30); the gain is kept as the Q7.8 number it is converted from. -/
abbrev LabelGains := List (Label × Int16)

/-- `label_to_output_gain[label] = gain` -/
def setGain (l : Label) (g : Int16) : LabelGains → LabelGains
  | [] => [(l, g)]
  | (k, v) :: m => if k = l then (k, g) :: m else (k, v) :: setGain l g m

/-- The output gains of a layer (obu_with_data_generator.cc:749-767), for the given substream ids.  A substream without
labels makes `at` throw. -/
def layerGains (layer : ChannelLayer) (m : SubstreamLabels) : List UInt32 → LabelGains → Except Err LabelGains
  | [], gs => .ok gs
  | s :: l, gs => match m.lookup s with
    | none => .error .abort
    | some ls => layerGains layer m l
        (ls.foldl (fun gs x => if outputGainApplies layer.outputGainFlag x then setGain x layer.outputGain gs else gs) gs)

/-- What `FinalizeScalableChannelLayoutConfig` fills in. -/
structure ElementLabels where
  labels : SubstreamLabels
  gains : LabelGains
  layers : List ChannelNumbers
  deriving DecidableEq, Repr

/-- The loop of `FinalizeScalableChannelLayoutConfig` (obu_with_data_generator.cc:718-768): the layers from number
`index` on, with the accumulated channels, the substream index and the results so far. -/
def finalizeLayers (ids : List UInt32) : List ChannelLayer → Nat → ChannelNumbers → Nat → ElementLabels →
    Except Err ElementLabels
  | [], _, _, _, r => .ok r
  | layer :: ls, index, acc, si, r => do
    let (c, g) ← layerGroup index layer acc
    let (m, si') ← addSubstreamLabels g ids r.labels si
    if !substreamCountsOk g layer then .error .invalidArgument
    else
      let gs ← (if layer.outputGainPresent then layerGains layer m ((ids.drop si).take (si' - si)) r.gains else .ok r.gains)
      finalizeLayers ids ls (index + 1) c si' ⟨m, gs, r.layers ++ [c]⟩

/-- `ObuWithDataGenerator::FinalizeScalableChannelLayoutConfig` (obu_with_data_generator.cc:705-776).  `GetNumLayers` is
narrowed to `uint8_t`. -/
def finalizeScalable (ids : List UInt32) (c : ScalableLayout) : Except Err ElementLabels :=
  if ¬ ids.Nodup then .error .invalidArgument
  else do
    let r ← finalizeLayers ids (c.layers.take c.numLayers.toNat) 0 ⟨0, 0, 0, 0⟩ 0 ⟨[], [], []⟩
    if ids.length ≠ r.labels.length then .error .invalidArgument else .ok r

/-- `FinalizeAmbisonicsMonoConfig` (obu_with_data_generator.cc:500-529), from ambisonics channel number `n` on. -/
def finalizeMono (ids : List UInt32) : List UInt8 → Nat → SubstreamLabels → Except Err SubstreamLabels
  | [], _, m => .ok m
  | v :: l, n, m =>
    if v = 255 then finalizeMono ids l (n + 1) m
    else match ids[v.toNat]? with
      | none => .error .ub
      | some s => do
        let x ← ambisonicsLabel n
        finalizeMono ids l (n + 1) (pushLabels s [x] m)

/-- The ambisonics channels of substream `i` in projection mode (obu_with_data_generator.cc:547-550). -/
def projectionChannels (coupled i : Nat) : List Nat := if i < coupled then [2 * i, 2 * i + 1] else [coupled + i]

/-- `FinalizeAmbisonicsProjectionConfig` (obu_with_data_generator.cc:545-562), from substream `i` on. -/
def finalizeProjection (coupled : Nat) : List UInt32 → Nat → SubstreamLabels → Except Err SubstreamLabels
  | [], _, m => .ok m
  | s :: ids, i, m => do
    let ls ← (projectionChannels coupled i).mapM ambisonicsLabel
    finalizeProjection coupled ids (i + 1) (pushLabels s ls m)

/-- `ObuWithDataGenerator::FinalizeAmbisonicsConfig` (obu_with_data_generator.cc:780-808).  `std::get` on another
alternative throws. -/
def finalizeAmbisonics (e : AudioElement) : Except Err SubstreamLabels :=
  if e.elementType ≠ 1 then .error .invalidArgument
  else match e.config with
  | .ambisonics (.mono c) => finalizeMono e.substreamIds c.channelMapping 0 []
  | .ambisonics (.projection c) =>
    if UInt32.ofNat e.substreamIds.length ≠ c.substreamCount.toUInt32 then .error .invalidArgument
    else finalizeProjection c.coupledSubstreamCount.toNat e.substreamIds 0 []
  | _ => .error .abort

/-- `ObuWithDataGenerator::FinalizeObjectsConfig` (obu_with_data_generator.cc:810-839). -/
def finalizeObjects (e : AudioElement) : Except Err SubstreamLabels :=
  if e.elementType ≠ 2 then .error .invalidArgument
  else match e.config with
    | .objects c => match e.substreamIds with
      | [s] =>
        if c.numObjects = 1 then .ok [(s, [.object0])]
        else if c.numObjects = 2 then .ok [(s, [.object0, .object1])]
        else .error .invalidArgument
      | _ => .error .invalidArgument
    | _ => .error .invalidArgument

/-- `CodecConfigObu` with the rates computed when it was created (codec_config.h). -/
structure CodecObu where
  config : CodecConfig
  outputRate : UInt32
  inputRate : UInt32
  bitDepth : UInt8
  deriving DecidableEq, Repr

/-- `AudioElementWithData` (audio_element_with_data.h:32-40).  A null `codec_config` is `none`. -/
structure ElementWithData where
  obu : AudioElement
  codec : Option CodecObu
  data : ElementLabels
  deriving DecidableEq, Repr

/-- `ObuWithDataGenerator::GenerateAudioElementWithData` (obu_with_data_generator.cc:604-642).  Objects and extensions get no
labels. -/
def generateElement (codecs : List (UInt32 × CodecObu)) (e : AudioElement) : Except Err ElementWithData := do
  let d : ElementLabels ← (
    if e.elementType = 0 then
      match e.config with
      | .scalable c => finalizeScalable e.substreamIds c
      | _ => .error .invalidArgument
    else if e.elementType = 1 then do
      let m ← finalizeAmbisonics e
      .ok ⟨m, [], []⟩
    else .ok ⟨[], [], []⟩)
  match codecs.lookup e.codecConfigId with
  | none => .error .invalidArgument
  | some c => .ok ⟨e, some c, d⟩

end Iamf
