import Verif.Cli.Labels
import Verif.Cli.Parameters
import Mathlib.Data.Rat.Defs
/-
  Down-mixing to substreams and reconstruction: iamf/cli/downmixer.cc, downmixer_factory.cc, downmixer_manager.cc,
  demixer.cc, demixing_manager.cc, labeled_frame.cc.

  Samples are `double`s in the code; here they are rational numbers, so rounding is not modelled.
-/
namespace Iamf

/-- The samples of one channel. -/
abbrev Samples := List Rat

/-- `LabelSamplesMap` (labeled_frame.h:30). -/
abbrev SamplesMap := Label → Option Samples

def SamplesMap.empty : SamplesMap := fun _ => none

/-- `m[l] = s` -/
def SamplesMap.set (m : SamplesMap) (l : Label) (s : Samples) : SamplesMap := fun k => if k = l then some s else m k

/-- Sample number `i` of a channel. -/
def SamplesMap.at (m : SamplesMap) (i : Nat) (l : Label) : Rat := ((m l).getD []).getD i 0

/-- The factors in `DownMixingParams` that the mixers use. -/
structure MixFactors where
  alpha : Rat
  beta : Rat
  gamma : Rat
  delta : Rat
  w : Rat
  deriving DecidableEq

/-- `DownMixingParams` holds the factors in units of 1/10000. -/
def DownMixingParams.factors (p : DownMixingParams) : MixFactors :=
  ⟨p.alpha / 10000, p.beta / 10000, p.gamma / 10000, p.delta / 10000, p.w / 10000⟩

/-- `ChannelLabel::GetDemixedLabel` (channel_label.cc:413-435). -/
def demixedLabel : Label → Except Err Label
  | .r2 => .ok .demixedR2
  | .l3 => .ok .demixedL3
  | .r3 => .ok .demixedR3
  | .l5 => .ok .demixedL5
  | .r5 => .ok .demixedR5
  | .ls5 => .ok .demixedLs5
  | .rs5 => .ok .demixedRs5
  | .ltf2 => .ok .demixedLtf2
  | .rtf2 => .ok .demixedRtf2
  | .ltb4 => .ok .demixedLtb4
  | .rtb4 => .ok .demixedRtb4
  | .l7 => .ok .demixedL7
  | .r7 => .ok .demixedR7
  | .lrs7 => .ok .demixedLrs7
  | .rrs7 => .ok .demixedRrs7
  | _ => .error .notFound

/-- `FindSamplesOrDemixedSamples` (labeled_frame.cc:25-45). -/
def findSamples (l : Label) (m : SamplesMap) : Except Err Samples :=
  match m l with
  | some s => .ok s
  | none => do
    let d ← demixedLabel l
    match m d with
    | some s => .ok s
    | none => .error .invalidArgument

/-- `GetCommonNumTicks` (sample_processing_utils.h:62-70). -/
def commonTicks : List Samples → Except Err Nat
  | [] => .ok 0
  | s :: ss => if ss.all (fun t => t.length == s.length) then .ok s.length else .error .invalidArgument

/-! ### Down-mixers -/

/-- A function of type `DownMixer` (downmixer.h): the channels it requires and the channels it computes, with the
formula for each sample. -/
structure DownMix where
  inputs : List Label
  outputs : List (Label × (MixFactors → (Label → Rat) → Rat))

/-- `S7ToS5DownMixer` (downmixer.cc:29-63). -/
def s7ToS5 : DownMix where
  inputs := [.l7, .r7, .lss7, .lrs7, .rss7, .rrs7]
  outputs := [(.l5, fun _ x => x .l7), (.r5, fun _ x => x .r7),
    (.ls5, fun p x => p.alpha * x .lss7 + p.beta * x .lrs7), (.rs5, fun p x => p.alpha * x .rss7 + p.beta * x .rrs7)]

/-- `S5ToS3DownMixer` (downmixer.cc:65-90). -/
def s5ToS3 : DownMix where
  inputs := [.l5, .r5, .ls5, .rs5]
  outputs := [(.l3, fun p x => x .l5 + p.delta * x .ls5), (.r3, fun p x => x .r5 + p.delta * x .rs5)]

/-- `S3ToS2DownMixer` (downmixer.cc:92-116). -/
def s3ToS2 : DownMix where
  inputs := [.l3, .r3, .centre]
  outputs := [(.l2, fun _ x => x .l3 + 707 / 1000 * x .centre), (.r2, fun _ x => x .r3 + 707 / 1000 * x .centre)]

/-- `S2ToS1DownMixer` (downmixer.cc:118-138). -/
def s2ToS1 : DownMix where
  inputs := [.l2, .r2]
  outputs := [(.mono, fun _ x => 1 / 2 * (x .l2 + x .r2))]

/-- `T4ToT2DownMixer` (downmixer.cc:140-167). -/
def t4ToT2 : DownMix where
  inputs := [.ltf4, .rtf4, .ltb4, .rtb4]
  outputs := [(.ltf2, fun p x => x .ltf4 + p.gamma * x .ltb4), (.rtf2, fun p x => x .rtf4 + p.gamma * x .rtb4)]

/-- `T2ToTf2DownMixer` (downmixer.cc:169-198). -/
def t2ToTf2 : DownMix where
  inputs := [.ltf2, .ls5, .rtf2, .rs5]
  outputs := [(.ltf3, fun p x => x .ltf2 + p.w * p.delta * x .ls5), (.rtf3, fun p x => x .rtf2 + p.w * p.delta * x .rs5)]

/-- The channels that are computed, stored one after the other.  No formula uses a channel that is computed by the same
mixer, so all can be computed from the map before. -/
def storeOutputs (p : MixFactors) (x : Nat → Label → Rat) (n : Nat) (outs : List (Label × (MixFactors → (Label → Rat) → Rat)))
    (m : SamplesMap) : SamplesMap :=
  outs.foldl (fun m o => m.set o.1 ((List.range n).map fun i => o.2 p (x i))) m

/-- `CheckPresenceAndGetCommonNumTicks` (sample_processing_utils.cc:139-156): the samples of all labels. -/
def presentSamples (m : SamplesMap) : List Label → Except Err (List Samples)
  | [] => .ok []
  | l :: ls => match m l with
    | none => .error .invalidArgument
    | some s => do
      let ss ← presentSamples m ls
      .ok (s :: ss)

/-- Calling a down-mixer. -/
def DownMix.run (d : DownMix) (p : MixFactors) (m : SamplesMap) : Except Err SamplesMap := do
  let ss ← presentSamples m d.inputs
  let n ← commonTicks ss
  .ok (storeOutputs p m.at n d.outputs m)

/-! ### Demixers -/

/-- A function of type `Demixer` (demixer.h): the factor it divides by, the channels it requires (as they are or demixed)
and the channels it computes. -/
structure DemixOp where
  divisor : MixFactors → Option Rat
  inputs : List Label
  outputs : List (Label × (MixFactors → (Label → Rat) → Rat))

/-- `S5ToS7Demixer` (demixer.cc:34-88). -/
def s5ToS7 : DemixOp where
  divisor p := some p.beta
  inputs := [.l5, .ls5, .lss7, .r5, .rs5, .rss7]
  outputs := [(.demixedL7, fun _ x => x .l5), (.demixedR7, fun _ x => x .r5),
    (.demixedLrs7, fun p x => (x .ls5 - p.alpha * x .lss7) / p.beta),
    (.demixedRrs7, fun p x => (x .rs5 - p.alpha * x .rss7) / p.beta)]

/-- `S3ToS5Demixer` (demixer.cc:90-127). -/
def s3ToS5 : DemixOp where
  divisor p := some p.delta
  inputs := [.l3, .l5, .r3, .r5]
  outputs := [(.demixedLs5, fun p x => (x .l3 - x .l5) / p.delta), (.demixedRs5, fun p x => (x .r3 - x .r5) / p.delta)]

/-- `S2ToS3Demixer` (demixer.cc:129-160). -/
def s2ToS3 : DemixOp where
  divisor _ := none
  inputs := [.l2, .r2, .centre]
  outputs := [(.demixedL3, fun _ x => x .l2 - 707 / 1000 * x .centre), (.demixedR3, fun _ x => x .r2 - 707 / 1000 * x .centre)]

/-- `S1ToS2Demixer` (demixer.cc:162-186). -/
def s1ToS2 : DemixOp where
  divisor _ := none
  inputs := [.l2, .mono]
  outputs := [(.demixedR2, fun _ x => 2 * x .mono - x .l2)]

/-- `T2ToT4Demixer` (demixer.cc:188-227). -/
def t2ToT4 : DemixOp where
  divisor p := some p.gamma
  inputs := [.ltf2, .ltf4, .rtf2, .rtf4]
  outputs := [(.demixedLtb4, fun p x => (x .ltf2 - x .ltf4) / p.gamma), (.demixedRtb4, fun p x => (x .rtf2 - x .rtf4) / p.gamma)]

/-- `Tf2ToT2Demixer` (demixer.cc:229-271). -/
def tf2ToT2 : DemixOp where
  divisor _ := none
  inputs := [.ltf3, .l3, .l5, .rtf3, .r3, .r5]
  outputs := [(.demixedLtf2, fun p x => x .ltf3 - p.w * (x .l3 - x .l5)), (.demixedRtf2, fun p x => x .rtf3 - p.w * (x .r3 - x .r5))]

/-- `std::abs(x) < 1e-5` -/
def nearZero (x : Rat) : Bool := decide (-(1 / 100000) < x) && decide (x < 1 / 100000)

/-- The calls of `FindSamplesOrDemixedSamples`. -/
def findAll (m : SamplesMap) : List Label → Except Err (List Samples)
  | [] => .ok []
  | l :: ls => do
    let s ← findSamples l m
    let ss ← findAll m ls
    .ok (s :: ss)

/-- Sample number `i` of a channel that may have been demixed. -/
def foundAt (m : SamplesMap) (i : Nat) (l : Label) : Rat :=
  match findSamples l m with
  | .ok s => s.getD i 0
  | .error _ => 0

/-- Calling a demixer. -/
def DemixOp.run (d : DemixOp) (p : MixFactors) (m : SamplesMap) : Except Err SamplesMap :=
  if (d.divisor p).any nearZero then .error .invalidArgument
  else do
    let ss ← findAll m d.inputs
    let n ← commonTicks ss
    .ok (storeOutputs p (foundAt m) n d.outputs m)

/-! ### Which mixers -/

/-- The label that stands for a surround number (downmixer_factory.cc:117-128). -/
def surroundTable : List (Label × Nat) := [(.l7, 7), (.l5, 5), (.l3, 3), (.l2, 2), (.mono, 1)]

/-- The label that stands for a height number (downmixer_factory.cc:176-184). -/
def heightTable : List (Label × Nat) := [(.ltf4, 4), (.ltf2, 2), (.ltf3, 1)]

/-- "Find the input surround number", "… height number" (downmixer_factory.cc:116-128, 174-184). -/
def inputNumber (table : List (Label × Nat)) (labels : List Label) : Nat :=
  match table.find? (fun t => labels.contains t.1) with
  | some t => t.2
  | none => 0

/-- "Find the lowest output … number" (downmixer_factory.cc:130-153, 186-202), for the number `cur` so far. -/
def lowestNumber (table : List (Label × Nat)) : SubstreamLabels → Nat → Nat
  | [], cur => cur
  | (_, ls) :: m, cur => match table.find? (fun t => ls.contains t.1 && decide (t.2 < cur)) with
    | none => lowestNumber table m cur
    | some t => if t.2 = 1 then 1 else lowestNumber table m t.2

/-- `INT_MAX` -/
def kIntMax : Nat := 2147483647

/-- `for (n = input; n > lowest; n--)`, adding what `f n` says. -/
def countDown {α : Type} (f : Nat → Option α) (lowest : Nat) : Nat → List α
  | 0 => []
  | n + 1 => if n + 1 > lowest then (f (n + 1)).toList ++ countDown f lowest n else []

/-- downmixer_factory.cc:156-171. -/
def surroundDownMixer : Nat → Option DownMix
  | 7 => some s7ToS5
  | 5 => some s5ToS3
  | 3 => some s3ToS2
  | 2 => some s2ToS1
  | _ => none

/-- downmixer_factory.cc:207-217. -/
def heightDownMixer : Nat → Option DownMix
  | 4 => some t4ToT2
  | 2 => some t2ToTf2
  | _ => none

/-- `DownmixerFactory::CreateScalableChannelDownmixers` (downmixer_factory.cc:109-213). -/
def downMixers (labels : List Label) (m : SubstreamLabels) : List DownMix :=
  countDown surroundDownMixer (lowestNumber surroundTable m kIntMax) (inputNumber surroundTable labels) ++
  countDown heightDownMixer (lowestNumber heightTable m kIntMax) (inputNumber heightTable labels)

/-- demixing_manager.cc:113-126. -/
def surroundDemixer : Nat → Option DemixOp
  | 7 => some s5ToS7
  | 5 => some s3ToS5
  | 3 => some s2ToS3
  | 2 => some s1ToS2
  | _ => none

/-- demixing_manager.cc:165-172. -/
def heightDemixer : Nat → Option DemixOp
  | 4 => some t2ToT4
  | 2 => some tf2ToT2
  | _ => none

/-- `FillRequiredDemixingMetadata` (demixing_manager.cc:56-176): each list is built from the front. -/
def demixers (labels : List Label) (m : SubstreamLabels) : List DemixOp :=
  (countDown surroundDemixer (lowestNumber surroundTable m kIntMax) (inputNumber surroundTable labels)).reverse ++
  (countDown heightDemixer (lowestNumber heightTable m kIntMax) (inputNumber heightTable labels)).reverse

/-- `LookupEarChannelOrderFromNonExpandedLoudspeakerLayout` (channel_label.cc:35-64). -/
def plainLayoutLabels (layout : UInt8) : Except Err (List Label) :=
  match layout.toNat with
  | 0 => .ok [.mono]
  | 1 => .ok [.l2, .r2]
  | 2 => .ok [.l5, .r5, .centre, .lfe, .ls5, .rs5]
  | 3 => .ok [.l5, .r5, .centre, .lfe, .ls5, .rs5, .ltf2, .rtf2]
  | 4 => .ok [.l5, .r5, .centre, .lfe, .ls5, .rs5, .ltf4, .rtf4, .ltb4, .rtb4]
  | 5 => .ok [.l7, .r7, .centre, .lfe, .lss7, .rss7, .lrs7, .rrs7]
  | 6 => .ok [.l7, .r7, .centre, .lfe, .lss7, .rss7, .lrs7, .rrs7, .ltf2, .rtf2]
  | 7 => .ok [.l7, .r7, .centre, .lfe, .lss7, .rss7, .lrs7, .rrs7, .ltf4, .rtf4, .ltb4, .rtb4]
  | 8 => .ok [.l3, .r3, .centre, .lfe, .ltf3, .rtf3]
  | 9 => .ok [.l2, .r2]
  | _ => .error .notFound

/-- `LookupLabelsToReconstruct` for a channel-based element (demixing_manager.cc:326-349 and channel_label.cc:455-478). -/
def labelsToReconstruct (layers : List ChannelLayer) : Except Err (List Label) :=
  match layers.getLast? with
  | none => .error .invalidArgument
  | some l =>
    if l.layout = kLayoutExpanded then
      match l.expanded with
      | none => .error .invalidArgument
      | some _ => .ok []
    else plainLayoutLabels l.layout

/-! ### The managers -/

def runDownMixers (p : MixFactors) : List DownMix → SamplesMap → Except Err SamplesMap
  | [], m => .ok m
  | d :: ds, m => do
    let m ← d.run p m
    runDownMixers p ds m

/-- `ApplyDemixers` (demixing_manager.cc:300-307). -/
def runDemixers (p : MixFactors) : List DemixOp → SamplesMap → Except Err SamplesMap
  | [], m => .ok m
  | d :: ds, m => do
    let m ← d.run p m
    runDemixers p ds m

/-- What one substream gets from one call of `DownMixSamplesToSubstreams`: the samples kept in the frame and the samples
for the encoder (before their conversion to 32-bit integers, which is not modelled), by channel. -/
structure SubstreamFrame where
  id : UInt32
  original : List Samples
  toEncode : List Samples
  deriving DecidableEq

/-- The loop over the channels of a substream (downmixer_manager.cc:96-124).  `linear` is `10^(gain/20)`. -/
def substreamChannels (linear : Int16 → Rat) (gains : LabelGains) (m : SamplesMap) : List Label →
    Except Err (List Samples × List Samples)
  | [] => .ok ([], [])
  | l :: ls => match m l with
    | none => .error .invalidArgument
    | some s => do
      let g := match gains.lookup l with
        | none => 1
        | some g => linear g
      let (a, b) ← substreamChannels linear gains m ls
      .ok (s :: a, s.map (· / g) :: b)

/-- `DownmixerManager::DownMixSamplesToSubstreams` (downmixer_manager.cc:67-128) for a known audio element for which there
is a buffer for each substream; the substreams come in the (unspecified) order of the hash map. -/
def downMixToSubstreams (ds : List DownMix) (sub : SubstreamLabels) (linear : Int16 → Rat) (gains : LabelGains)
    (p : MixFactors) (m : SamplesMap) : Except Err (List SubstreamFrame) := do
  let m ← runDownMixers p ds m
  sub.mapM fun s => do
    let (a, b) ← substreamChannels linear gains m s.2
    .ok ⟨s.1, a, b⟩

/-- The part of `AudioFrameWithData` that demixing looks at: substream, start, the samples and the parameters. -/
structure LabeledInput where
  id : UInt32
  start : Int
  samples : List Samples
  params : MixFactors
  deriving DecidableEq

/-- The part of `LabeledFrame` that is modelled. -/
structure LabeledFrame where
  samples : SamplesMap
  params : MixFactors

/-- `label_to_samples[label] = input_samples[channel_index]` for each label (demixing_manager.cc:284-288). -/
def storeChannels : List Label → List Samples → SamplesMap → SamplesMap
  | l :: ls, s :: ss, m => storeChannels ls ss (m.set l s)
  | _, _, m => m

/-- The loop of `StoreSamplesForAudioElementId` (demixing_manager.cc:239-295). -/
def storeLoop (sub : SubstreamLabels) (start : Int) : List LabeledInput → Option Nat → LabeledFrame → Except Err LabeledFrame
  | [], _, f => .ok f
  | a :: as, expected, f => match sub.lookup a.id with
    | none => storeLoop sub start as expected f
    | some labels =>
      if start ≠ a.start then .error .invalidArgument
      else if a.samples = [] then .error .invalidArgument
      else if a.samples.length ≠ labels.length then .error .invalidArgument
      else do
        let n ← commonTicks a.samples
        match expected with
        | some e =>
          if n ≠ e then .error .invalidArgument
          else storeLoop sub start as (some e) ⟨storeChannels labels a.samples f.samples, a.params⟩
        | none => storeLoop sub start as (some n) ⟨storeChannels labels a.samples f.samples, a.params⟩

/-- `StoreSamplesForAudioElementId` (demixing_manager.cc:228-298). -/
def storeSamples (sub : SubstreamLabels) (as : List LabeledInput) (f : LabeledFrame) : Except Err LabeledFrame :=
  match as with
  | [] => .ok f
  | a :: _ => storeLoop sub a.start as none f

/-- One audio element in `DemixOriginalAudioSamples` / `DemixDecodedAudioSamples` (demixing_manager.cc:416-465), which differ
in the samples of the frames.  The parameters of an empty `LabeledFrame` are not looked at.  Without a frame that belongs to
the element there is no result; otherwise samples were stored, as each frame stored has a channel. -/
def demixElement (ds : List DemixOp) (sub : SubstreamLabels) (as : List LabeledInput) : Except Err (Option LabeledFrame) := do
  let f ← storeSamples sub as ⟨.empty, ⟨0, 0, 0, 0, 0⟩⟩
  if as.any (fun a => (sub.lookup a.id).isSome) then do
    let m ← runDemixers f.params ds f.samples
    .ok (some ⟨m, f.params⟩)
  else .ok none

end Iamf
