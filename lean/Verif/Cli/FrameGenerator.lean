import Verif.Cli.Demix
import Verif.Cli.Timing
import Verif.Cli.Output
import Verif.Cli.Lpcm
import Verif.Cli.SubstreamFrames
/-
  Samples in, audio frames out: iamf/cli/proto_conversion/proto_to_obu/audio_frame_generator.{h,cc}, the part of
  iamf/cli/downmixer_manager.cc that fills the frames, and the part of iamf/cli/codec/encoder_base.h that is common to all encoders.

  Every method takes the mutex of the generator, so that calls from several threads happen one after the other; a run is a list of calls.
  A call that fails may leave the object changed in part; such states are not modelled: the run ends there.
  Hash maps are functions; where one is iterated over, the order is that of `order` (substreams) or of the list (elements).
  `int64_t` counts of samples are unbounded here.
-/
namespace Iamf

/-! ### Encoders -/

/-- `AudioFrameWithData` as it is given to an encoder (audio_frame_generator.cc:502-520): without the coded bytes and the recon gains, which
are empty.  The pointer to the audio element is its id. -/
structure GenFrame where
  substream : UInt32
  trimFlag : Bool
  trimEnd : UInt32
  trimStart : UInt32
  start : Int
  stop : Int
  samples : List Samples
  mixing : DownMixingParams
  element : UInt32
  deriving DecidableEq, Repr

/-- `EncoderBase` (encoder_base.h:139-215): `inner` is what the derived class keeps. -/
structure Encoder (σ : Type) where
  inner : σ
  delay : UInt32
  done : List (GenFrame × List UInt8)
  finished : Bool

/-- The virtual functions of `EncoderBase`, for all codecs in use (encoder_base.h:77-79, 115-119). -/
structure EncoderLib where
  State : Type
  encode : Encoder State → List (List Int32) → GenFrame → Except Err (Encoder State)
  finalize : Encoder State → Except Err (Encoder State)

namespace Encoder
variable {σ : Type}

/-- `FramesAvailable` (encoder_base.h:87-90). -/
def framesAvailable (e : Encoder σ) : Bool := !e.done.isEmpty

/-- `Pop` (encoder_base.h:97-104): what is added to the list, and the encoder. -/
def pop (e : Encoder σ) : List (GenFrame × List UInt8) × Encoder σ := match e.done with
  | [] => ([], e)
  | f :: fs => ([f], ⟨e.inner, e.delay, fs, e.finished⟩)

/-- `Finished` (encoder_base.h:126-129). -/
def isFinished (e : Encoder σ) : Bool := e.finished && e.done.isEmpty

end Encoder

/-! ### State -/

/-- `SubstreamData` (downmixer_manager.h:37-53), without the id, which is the key, and the gains, which are not used. -/
structure SubstreamData where
  obu : SubstreamFrames Rat
  enc : SubstreamFrames Int32
  trimEnd : UInt32
  trimStart : UInt32

/-- `AudioFrameGenerator::TrimmingState` (audio_frame_generator.h:80-87). -/
structure TrimmingState where
  addPadding : Bool
  endLeft : Int
  startLeft : Int
  deriving DecidableEq, Repr

/-- `DownmixerManager::DownmixingConfig` (downmixer_manager.h:64-68). -/
structure DownmixingConfig where
  mixers : List DownMix
  substreams : SubstreamLabels
  gains : LabelGains

/-- `GeneratorState` (audio_frame_generator.h:187-191). -/
inductive GeneratorPhase where
  | taking | finalizeCalled | flushing
  deriving DecidableEq, Repr

/-- `LabelSamplesMap`: here a list, so that it can be iterated over. -/
abbrev LabeledSamples := List (Label × Samples)

/-- `m[l] = s` -/
def LabeledSamples.set : LabeledSamples → Label → Samples → LabeledSamples
  | [], l, s => [(l, s)]
  | (k, t) :: m, l, s => if k = l then (k, s) :: m else (k, t) :: LabeledSamples.set m l s

/-- The same as a function. -/
def LabeledSamples.toMap (m : LabeledSamples) : SamplesMap := fun l => m.lookup l

/-- `AudioFrameGenerator` (audio_frame_generator.h:236-271), with the state of the two modules that it refers to.  `elements` is a
reference to a map of the caller; `none` is a reference to an object that is gone. -/
structure FrameGenerator (σ : Type) where
  labels : IdMap (List Label)
  elements : Option (List (UInt32 × ElementWithData))
  order : List UInt32
  encoders : IdMap (Encoder σ)
  samples : IdMap LabeledSamples
  data : IdMap SubstreamData
  trimming : IdMap TrimmingState
  downMixing : IdMap DownmixingConfig
  parameters : ParametersManager
  timing : TimingModule
  phase : GeneratorPhase
  delay : UInt32

/-- `m.erase(k)` -/
def IdMap.erase {α : Type} (m : IdMap α) (k : UInt32) : IdMap α := fun i => if i = k then none else m i

/-! ### Creation -/

/-- `AudioFrameObuMetadata` (audio_frame.proto:152-213), with labels converted; without the WAV file. -/
structure FrameMetadata where
  element : UInt32
  labels : List Label
  trimStart : UInt32
  trimEnd : UInt32
  endIncludesPadding : Bool
  startIncludesDelay : Bool
  deriving DecidableEq, Repr

/-- `ConvertAndFillLabels` (channel_label_utils.h:57-85) after the conversion. -/
def fillLabels : List Label → List Label → Except Err (List Label)
  | [], out => .ok out
  | l :: ls, out => if l ∈ out then .error .invalidArgument else fillLabels ls (out ++ [l])

/-- `GetEncodingDataAndInitializeEncoders` (audio_frame_generator.cc:114-145).  `newEncoder` stands for the look-up of the codec config
metadata and `InitializeEncoder`. -/
def initEncoders {σ : Type} (newEncoder : CodecObu → Nat → UInt32 → Except Err (Encoder σ)) (codec : Option CodecObu) :
    SubstreamLabels → IdMap (Encoder σ) → List UInt32 → Except Err (IdMap (Encoder σ) × List UInt32)
  | [], m, order => .ok (m, order)
  | (id, labels) :: rest, m, order => do
    if ¬(labels.length = 1 ∨ labels.length = 2) then .error .invalidArgument
    else match codec with
      | none => .error .ub
      | some c => do
        let e ← newEncoder c labels.length id
        initEncoders newEncoder codec rest (m.set id e) (if id ∈ order then order else order ++ [id])

/-- The first loop of `Create` (audio_frame_generator.cc:669-685). -/
def initAllEncoders {σ : Type} (newEncoder : CodecObu → Nat → UInt32 → Except Err (Encoder σ)) (elements : List (UInt32 × ElementWithData)) :
    List FrameMetadata → IdMap (Encoder σ) → List UInt32 → Except Err (IdMap (Encoder σ) × List UInt32)
  | [], m, order => .ok (m, order)
  | a :: as, m, order => match elements.lookup a.element with
    | none => .error .invalidArgument
    | some e => do
      let (m, order) ← initEncoders newEncoder e.codec e.data.labels m order
      initAllEncoders newEncoder elements as m order

/-- The maximum of the delays (audio_frame_generator.cc:691-695). -/
def maxDelay {σ : Type} (m : IdMap (Encoder σ)) : List UInt32 → UInt32 → UInt32
  | [], d => d
  | i :: is, d => maxDelay m is (match m i with
    | none => d
    | some e => if d < e.delay then e.delay else d)

/-- `InitializeSubstreamData` (audio_frame_generator.cc:149-165, 194-248). -/
def initSubstreams {σ : Type} (delay : UInt32) (n : UInt32) (includesDelay : Bool) (userStart : UInt32) (encoders : IdMap (Encoder σ)) :
    SubstreamLabels → IdMap SubstreamData → Except Err (IdMap SubstreamData)
  | [], m => .ok m
  | (id, labels) :: rest, m => do
    if includesDelay ∧ userStart < delay then .error .invalidArgument
    else do
      let d := (m id).getD ⟨.create labels.length n.toNat, .create labels.length n.toNat, 0, delay⟩
      let obu ← d.obu.padZeros 0 delay.toNat
      match encoders id with
      | none => .error .internal
      | some e =>
        if delay < e.delay then .error .abort
        else do
          let enc ← d.enc.padZeros 0 (delay - e.delay).toNat
          initSubstreams delay n includesDelay userStart encoders rest (m.set id ⟨obu, enc, d.trimEnd, d.trimStart⟩)

/-- The last loop of `Create` (audio_frame_generator.cc:763-779). -/
def initTrimming (t : TrimmingState) : SubstreamLabels → IdMap TrimmingState → IdMap TrimmingState
  | [], m => m
  | (id, _) :: rest, m => initTrimming t rest (m.set id t)

/-- Whether down-mixers are configured for an element (the condition of audio_frame_generator.cc:748-751; `HasDownMixers`, downmixer_manager.cc). -/
def hasDownMixers (downMixing : IdMap DownmixingConfig) (id : UInt32) : Bool :=
  match downMixing id with
  | none => false
  | some d => !d.mixers.isEmpty

/-- The second loop of `Create` (audio_frame_generator.cc:707-780); `first` is the first metadata. -/
def initElements {σ : Type} (elements : List (UInt32 × ElementWithData)) (first : FrameMetadata) (delay : UInt32) (encoders : IdMap (Encoder σ))
    (downMixing : IdMap DownmixingConfig) (parameters : ParametersManager) :
    List FrameMetadata → IdMap (List Label) → IdMap SubstreamData → IdMap TrimmingState →
      Except Err (IdMap (List Label) × IdMap SubstreamData × IdMap TrimmingState)
  | [], labels, data, trimming => .ok (labels, data, trimming)
  | a :: as, labels, data, trimming => do
    let ls ← fillLabels a.labels ((labels a.element).getD [])
    match elements.lookup a.element with
    | none => .error .invalidArgument
    | some e => match e.codec with
      | none => .error .ub
      | some c =>
        if c.config.numSamplesPerFrame < a.trimEnd then .error .invalidArgument
        else do
          let data ← initSubstreams delay c.config.numSamplesPerFrame a.startIncludesDelay a.trimStart encoders e.data.labels data
          if e.obu.elementType = 0 ∧ parameters.demixingAvailable a.element = false ∧
              hasDownMixers downMixing a.element = true then .error .invalidArgument
          else if a.trimEnd ≠ first.trimEnd ∨ a.trimStart ≠ first.trimStart ∨ a.endIncludesPadding ≠ first.endIncludesPadding ∨
              a.startIncludesDelay ≠ first.startIncludesDelay then .error .invalidArgument
          else
            let t : TrimmingState := ⟨!a.endIncludesPadding, first.trimEnd.toNat,
              first.trimStart.toNat + (if first.startIncludesDelay then 0 else delay.toNat)⟩
            initElements elements first delay encoders downMixing parameters as (labels.set a.element ls) data
              (initTrimming t e.data.labels trimming)

/-- `AudioFrameGenerator::Create` (audio_frame_generator.cc:640-788) and the constructor (audio_frame_generator.h:207-234).  Without metadata,
the constructor binds its reference to the audio elements to a temporary. -/
def FrameGenerator.create {σ : Type} (newEncoder : CodecObu → Nat → UInt32 → Except Err (Encoder σ)) (metadata : List FrameMetadata)
    (elements : List (UInt32 × ElementWithData)) (downMixing : IdMap DownmixingConfig) (parameters : ParametersManager) (timing : TimingModule) :
    Except Err (FrameGenerator σ) :=
  match metadata with
  | [] => .ok ⟨.empty, none, [], .empty, .empty, .empty, .empty, downMixing, parameters, timing, .flushing, 0⟩
  | first :: _ => do
    let (encoders, order) ← initAllEncoders newEncoder elements metadata .empty []
    let delay := maxDelay encoders order 0
    let (labels, data, trimming) ← initElements elements first delay encoders downMixing parameters metadata .empty .empty .empty
    .ok ⟨labels, some elements, order, encoders, .empty, data, trimming, downMixing, parameters, timing,
      if order.isEmpty then .flushing else .taking, delay⟩

/-! ### Encoding -/

/-- `SamplesReadyForAudioElement` (audio_frame_generator.cc:250-274). -/
def samplesReady (m : LabeledSamples) : List Label → Bool
  | [] => true
  | l :: ls => match m.lookup l with
    | none => false
    | some s => ls.all fun k => match m.lookup k with
      | none => false
      | some t => t.length == s.length

/-- The loop over the samples of a channel (downmixer_manager.cc:113-124).  `gain` is the linear output gain. -/
def pushSamples (channel : Nat) (gain : Rat) : Samples → SubstreamData → Except Err SubstreamData
  | [], d => .ok d
  | x :: xs, d => do
    let obu ← d.obu.push channel x
    let enc ← d.enc.push channel (normalizedToInt32 (x / gain))
    pushSamples channel gain xs ⟨obu, enc, d.trimEnd, d.trimStart⟩

/-- The loop over the channels of a substream (downmixer_manager.cc:95-126). -/
def pushChannels (linear : Int16 → Rat) (gains : LabelGains) (m : SamplesMap) : Nat → List Label → SubstreamData → Except Err SubstreamData
  | _, [], d => .ok d
  | channel, l :: ls, d => match m l with
    | none => .error .invalidArgument
    | some s => do
      let d ← pushSamples channel (match gains.lookup l with
        | none => 1
        | some g => linear g) s d
      pushChannels linear gains m (channel + 1) ls d

/-- The loop over the substreams (downmixer_manager.cc:84-127). -/
def pushSubstreams (linear : Int16 → Rat) (gains : LabelGains) (m : SamplesMap) : SubstreamLabels → IdMap SubstreamData →
    Except Err (IdMap SubstreamData)
  | [], data => .ok data
  | (id, labels) :: rest, data => match data id with
    | none => .error .invalidArgument
    | some d => do
      let d ← pushChannels linear gains m 0 labels d
      pushSubstreams linear gains m rest (data.set id d)

/-- `DownmixerManager::DownMixSamplesToSubstreams` (downmixer_manager.cc:67-130). -/
def downMixInto (linear : Int16 → Rat) (downMixing : IdMap DownmixingConfig) (element : UInt32) (p : DownMixingParams) (m : LabeledSamples)
    (data : IdMap SubstreamData) : Except Err (IdMap SubstreamData) :=
  match downMixing element with
  | none => .error .notFound
  | some c => do
    let m ← runDownMixers p.factors c.mixers m.toMap
    pushSubstreams linear c.gains m c.substreams data

/-- `Front().front().size()` -/
def frontTicks {S : Type} (f : SubstreamFrames S) : Except Err (Nat × SubstreamFrames S) := do
  let (frame, f) ← f.front
  match frame with
  | [] => .error .ub
  | c :: _ => .ok (c.length, f)

/-- `GetNumSamplesToPadAtEndAndValidate` (audio_frame_generator.cc:167-192): the number and the trimming state. -/
def samplesToPad (required : UInt32) (t : TrimmingState) : Except Err (UInt32 × TrimmingState) :=
  let e := if t.addPadding then t.endLeft + required.toNat else t.endLeft
  if e < required.toNat then .error .invalidArgument
  else .ok (if required ≤ UInt32.ofInt e then required else UInt32.ofInt e, ⟨t.addPadding, e, t.startLeft⟩)

/-- The first half of the padding of one substream (audio_frame_generator.cc:334-352). -/
def padInObu (n : UInt32) (d : SubstreamData) (t : Option TrimmingState) : Except Err (SubstreamData × Option TrimmingState) := do
  let (ticks, obu) ← frontTicks d.obu
  if ticks < n.toNat then match t with
    | none => .error .abort
    | some t => do
      let (pad, t) ← samplesToPad (UInt32.ofNat (n.toNat - ticks)) t
      let obu ← obu.padZeros 0 pad.toNat
      let enc ← d.enc.padZeros 0 pad.toNat
      .ok (⟨obu, enc, pad, d.trimStart⟩, some t)
  else .ok (⟨obu, d.enc, d.trimEnd, d.trimStart⟩, t)

/-- The second half (audio_frame_generator.cc:354-366). -/
def padToEncode (n : UInt32) (noSampleAdded : Bool) (d : SubstreamData) : Except Err SubstreamData := do
  let (ticks, enc) ← frontTicks d.enc
  if noSampleAdded ∧ ticks < n.toNat then do
    let enc ← enc.padZeros 0 (n.toNat - ticks)
    .ok ⟨d.obu, enc, d.trimEnd, d.trimStart⟩
  else .ok ⟨d.obu, enc, d.trimEnd, d.trimStart⟩

/-- The loop for the padding (audio_frame_generator.cc:333-367). -/
def padSubstreams (n : UInt32) (noSampleAdded : Bool) : SubstreamLabels → IdMap SubstreamData → IdMap TrimmingState →
    Except Err (IdMap SubstreamData × IdMap TrimmingState)
  | [], data, trimming => .ok (data, trimming)
  | (id, _) :: rest, data, trimming => match data id with
    | none => .error .abort
    | some d => do
      let (d, t) ← padInObu n d (trimming id)
      let d ← padToEncode n noSampleAdded d
      padSubstreams n noSampleAdded rest (data.set id d) (match t with
        | none => trimming
        | some t => trimming.set id t)

namespace FrameGenerator
variable {σ : Type}

/-- Whether nothing is left in the map of substreams (audio_frame_generator.cc:320-325). -/
def noSamplesLeft (g : FrameGenerator σ) : Bool := g.order.all fun i => match g.data i with
  | none => true
  | some d => d.obu.empty

/-- `GetNextFrameSubstreamData` (audio_frame_generator.cc:304-370) with `DownMixSamples` (audio_frame_generator.cc:276-302): the down-mixing
parameters (`mixing` if they are not set) and the generator. -/
def nextFrameData (g : FrameGenerator σ) (linear : Int16 → Rat) (element : UInt32) (n : UInt32) (substreams : SubstreamLabels) (m : LabeledSamples)
    (mixing : DownMixingParams) : Except Err (DownMixingParams × FrameGenerator σ) :=
  let noSampleAdded := m.all fun x => x.2.isEmpty
  if noSampleAdded ∧ g.noSamplesLeft then .ok (mixing, g)
  else match g.parameters.getDownMixing element with
    | (.error e, _) => .error e
    | (.ok p, parameters) => do
      let data ← downMixInto linear g.downMixing element p m g.data
      let (data, trimming) ← padSubstreams n noSampleAdded substreams data g.trimming
      .ok (p, ⟨g.labels, g.elements, g.order, g.encoders, g.samples, data, trimming, g.downMixing, parameters, g.timing, g.phase, g.delay⟩)

/-- What the loop over the substreams keeps (audio_frame_generator.cc:437-438): the timestamp of what was encoded, and whether there is more. -/
structure Progress where
  stamp : Option Int
  more : Bool
  deriving DecidableEq, Repr

/-- The frame for one substream that has a whole frame of samples (audio_frame_generator.cc:467-528). -/
def encodeFrame (L : EncoderLib) (g : FrameGenerator L.State) (element : UInt32) (n : UInt32) (id : UInt32) (d : SubstreamData)
    (inObu : List (List Rat)) (toEncode : List (List Int32)) (mixing : DownMixingParams) (stamp : Option Int) :
    Except Err (Option Int × FrameGenerator L.State) :=
  let trimEnd := if n ≤ d.trimEnd then n else d.trimEnd
  let trimStart := if n ≤ d.trimStart then n else d.trimStart
  match g.timing.nextFrame id n with
  | ((.error e, _, _), _) => .error e
  | ((.ok (), start, stop), timing) =>
    if stamp.any (· ≠ start) then .error .abort
    else match g.encoders id with
      | none => .error .abort
      | some e => do
        let e ← L.encode e toEncode ⟨id, trimEnd ≠ 0 || trimStart ≠ 0, trimEnd, trimStart, start, stop, inObu, mixing, element⟩
        .ok (some start, ⟨g.labels, g.elements, g.order, g.encoders.set id e, g.samples,
          g.data.set id ⟨d.obu.popFront, d.enc.popFront, d.trimEnd - trimEnd, d.trimStart - trimStart⟩,
          g.trimming, g.downMixing, g.parameters, timing, g.phase, g.delay⟩)

/-- The loop over the substreams of an element (audio_frame_generator.cc:446-529). -/
def encodeSubstreams (L : EncoderLib) (element : UInt32) (n : UInt32) (mixing : DownMixingParams) :
    SubstreamLabels → Progress → FrameGenerator L.State → Except Err (Progress × FrameGenerator L.State)
  | [], r, g => .ok (r, g)
  | (id, _) :: rest, r, g => match g.data id with
    | none => if r.more then .error .invalidArgument else encodeSubstreams L element n mixing rest r g
    | some d =>
      if d.obu.empty then encodeSubstreams L element n mixing rest r g
      else do
        let (toEncode, enc) ← d.enc.front
        let (inObu, obu) ← d.obu.front
        match toEncode with
        | [] => .error .ub
        | c :: _ =>
          if c.length < n.toNat then
            if r.stamp.isSome then .error .abort
            else
              let g : FrameGenerator L.State := ⟨g.labels, g.elements, g.order, g.encoders, g.samples,
                g.data.set id ⟨obu, enc, d.trimEnd, d.trimStart⟩, g.trimming, g.downMixing, g.parameters, g.timing, g.phase, g.delay⟩
              encodeSubstreams L element n mixing rest ⟨r.stamp, true⟩ g
          else do
            let (stamp, g) ← g.encodeFrame L element n id ⟨obu, enc, d.trimEnd, d.trimStart⟩ inObu toEncode mixing r.stamp
            encodeSubstreams L element n mixing rest ⟨stamp, true⟩ g

/-- The do-while loop (audio_frame_generator.cc:439-533).  `fuel` bounds the iterations; two suffice in every run that C44 speaks about. -/
def encodeLoop (L : EncoderLib) (linear : Int16 → Rat) (element : UInt32) (n : UInt32) (substreams : SubstreamLabels) (empties : LabeledSamples) :
    Nat → LabeledSamples → DownMixingParams → FrameGenerator L.State → Except Err (Option Int × FrameGenerator L.State)
  | 0, _, _, _ => .error .diverge
  | fuel + 1, m, mixing, g => do
    let (mixing, g) ← g.nextFrameData linear element n substreams m mixing
    let (r, g) ← encodeSubstreams L element n mixing substreams ⟨none, false⟩ g
    if r.stamp.isNone ∧ r.more then encodeLoop L linear element n substreams empties fuel empties mixing g
    else .ok (r.stamp, g)

/-- The `DownMixingParams` declared at audio_frame_generator.cc:428, before they are set; they are not looked at then. -/
def noMixing : DownMixingParams := ⟨0, 0, 0, 0, 0, 0, 0, false⟩

/-- `MaybeEncodeFramesForAudioElement` (audio_frame_generator.cc:388-543), for the samples in `samples[element]`. -/
def maybeEncode (L : EncoderLib) (linear : Int16 → Rat) (g : FrameGenerator L.State) (element : UInt32) (e : ElementWithData) (labels : List Label) :
    Except Err (FrameGenerator L.State) :=
  let m := (g.samples element).getD []
  if samplesReady m labels = false then .ok g
  else match e.codec with
    | none => .error .ub
    | some c =>
      if c.inputRate ≠ c.outputRate then .error .invalidArgument
      else do
        let empties := m.map fun x => (x.1, ([] : Samples))
        let (stamp, g) ← encodeLoop L linear element c.config.numSamplesPerFrame e.data.labels empties 16 m noMixing g
        let g : FrameGenerator L.State := ⟨g.labels, g.elements, g.order, g.encoders, g.samples.set element empties, g.data, g.trimming, g.downMixing,
          g.parameters, g.timing, g.phase, g.delay⟩
        match stamp with
        | none => .ok g
        | some t => match g.parameters.updateDemixing element (t + c.config.numSamplesPerFrame.toNat) with
          | (.error e, _) => .error e
          | (.ok (), parameters) => .ok ⟨g.labels, g.elements, g.order, g.encoders, g.samples, g.data, g.trimming, g.downMixing, parameters,
              g.timing, g.phase, g.delay⟩

/-! ### Methods -/

/-- `TakingSamples` (audio_frame_generator.cc:808-811). -/
def takingSamples (g : FrameGenerator σ) : Bool := g.phase = .taking

/-- `GeneratingFrames` (audio_frame_generator.cc:865-868). -/
def generatingFrames (g : FrameGenerator σ) : Bool := g.order.any fun i => (g.encoders i).isSome

/-- `AddSamples` (audio_frame_generator.cc:813-854). -/
def addSamples (L : EncoderLib) (linear : Int16 → Rat) (g : FrameGenerator L.State) (element : UInt32) (label : Label) (samples : Samples) :
    Except Err (FrameGenerator L.State) :=
  if g.phase ≠ .taking then .ok g
  else if samples.isEmpty then .error .invalidArgument
  else match g.labels element with
    | none => .error .invalidArgument
    | some labels =>
      let g : FrameGenerator L.State := ⟨g.labels, g.elements, g.order, g.encoders,
        g.samples.set element (((g.samples element).getD []).set label samples), g.data, g.trimming, g.downMixing, g.parameters, g.timing, g.phase,
        g.delay⟩
      match g.elements with
      | none => .error .ub
      | some elements => match elements.lookup element with
        | none => .error .invalidArgument
        | some e => g.maybeEncode L linear element e labels

/-- `Finalize` (audio_frame_generator.cc:856-863). -/
def finalize (g : FrameGenerator σ) : FrameGenerator σ :=
  ⟨g.labels, g.elements, g.order, g.encoders, g.samples, g.data, g.trimming, g.downMixing, g.parameters, g.timing,
    if g.phase = .taking then .finalizeCalled else g.phase, g.delay⟩

/-- The loop over the elements in `OutputFrames` (audio_frame_generator.cc:878-887). -/
def flushElements (L : EncoderLib) (linear : Int16 → Rat) : List (UInt32 × ElementWithData) → FrameGenerator L.State →
    Except Err (FrameGenerator L.State)
  | [], g => .ok g
  | (id, e) :: rest, g => match g.labels id with
    | none => .error .abort
    | some labels => do
      let g ← g.maybeEncode L linear id e labels
      flushElements L linear rest g

/-- The loop that finalizes encoders (audio_frame_generator.cc:895-907). -/
def finalizeEncoders (L : EncoderLib) : List UInt32 → FrameGenerator L.State → Except Err (FrameGenerator L.State)
  | [], g => .ok g
  | id :: rest, g => match g.encoders id, g.data id with
    | some e, some d =>
      if d.obu.empty then do
        let e ← L.finalize e
        finalizeEncoders L rest ⟨g.labels, g.elements, g.order, g.encoders.set id e, g.samples, g.data.erase id, g.trimming, g.downMixing,
          g.parameters, g.timing, g.phase, g.delay⟩
      else finalizeEncoders L rest g
    | _, _ => finalizeEncoders L rest g

/-- `ApplyUserTrimForFrame` (audio_frame_generator.cc:567-605): what is left, what is trimmed, and the flag. -/
def applyUserTrim (fromStart : Bool) (n : UInt32) (left : Int) (trimmed : UInt32) (flag : Bool) : Except Err (Int × UInt32 × Bool) :=
  let k := if n ≤ UInt32.ofInt left then n else UInt32.ofInt left
  if k < trimmed then .error .invalidArgument
  else if 0 < left - k.toNat ∧ fromStart = false then .error .invalidArgument
  else .ok (left - k.toNat, k, flag || k ≠ 0)

/-- `ValidateAndApplyUserTrimming` (audio_frame_generator.cc:607-636) for the frame size `n` of the element. -/
def applyTrimming (n : UInt32) (isLast : Bool) (t : TrimmingState) (f : GenFrame) : Except Err (TrimmingState × GenFrame) := do
  let (startLeft, trimStart, flag) ← applyUserTrim true n t.startLeft f.trimStart f.trimFlag
  if isLast then do
    let (endLeft, trimEnd, flag) ← applyUserTrim false n t.endLeft f.trimEnd flag
    .ok (⟨t.addPadding, endLeft, startLeft⟩, ⟨f.substream, flag, trimEnd, trimStart, f.start, f.stop, f.samples, f.mixing, f.element⟩)
  else .ok (⟨t.addPadding, t.endLeft, startLeft⟩, ⟨f.substream, flag, f.trimEnd, trimStart, f.start, f.stop, f.samples, f.mixing, f.element⟩)

/-- The loop that takes frames from the encoders (audio_frame_generator.cc:913-921), each of which has one. -/
def popFrames : List UInt32 → FrameGenerator σ → Except Err (List (GenFrame × List UInt8) × FrameGenerator σ)
  | [], g => .ok ([], g)
  | id :: rest, g => match g.encoders id with
    | none => popFrames rest g
    | some e => match e.pop with
      | (f :: _, e) => match g.trimming id, (g.elements.bind (·.lookup f.1.element)).bind (·.codec) with
        | some t, some c => do
          let (t, frame) ← applyTrimming c.config.numSamplesPerFrame e.isFinished t f.1
          let (fs, g) ← popFrames rest ⟨g.labels, g.elements, g.order, g.encoders.set id e, g.samples, g.data, g.trimming.set id t, g.downMixing,
            g.parameters, g.timing, g.phase, g.delay⟩
          .ok ((frame, f.2) :: fs, g)
        | _, _ => .error .abort
      | ([], _) => .error .ub

/-- `absl::erase_if` for encoders that are finished (audio_frame_generator.cc:923-925). -/
def eraseFinished (m : IdMap (Encoder σ)) : IdMap (Encoder σ) := fun i => match m i with
  | none => none
  | some e => if e.isFinished then none else some e

/-- `OutputFrames` (audio_frame_generator.cc:870-928), into an empty list. -/
def outputFrames (L : EncoderLib) (linear : Int16 → Rat) (g : FrameGenerator L.State) :
    Except Err (List (GenFrame × List UInt8) × FrameGenerator L.State) := do
  let g ← (match g.phase with
    | .flushing => match g.elements with
      | none => .error .ub
      | some elements => flushElements L linear elements g
    | .finalizeCalled => .ok ⟨g.labels, g.elements, g.order, g.encoders, g.samples, g.data, g.trimming, g.downMixing, g.parameters, g.timing,
        .flushing, g.delay⟩
    | .taking => .ok g)
  let g ← (if g.phase = .flushing then finalizeEncoders L g.order g else .ok g)
  let canPop := g.order.all fun i => match g.encoders i with
    | none => true
    | some e => e.framesAvailable
  let (frames, g) ← (if canPop then popFrames g.order g else .ok ([], g))
  .ok (frames, ⟨g.labels, g.elements, g.order, eraseFinished g.encoders, g.samples, g.data, g.trimming, g.downMixing, g.parameters, g.timing,
    g.phase, g.delay⟩)

end FrameGenerator

/-- `LpcmEncoder` as an `EncoderBase` (lpcm_encoder.h:28-67). -/
def lpcmEncoders : EncoderLib where
  State := LpcmConfig × Nat × UInt32
  encode e samples f := do
    let x ← (⟨e.inner.1, e.inner.2.1, e.inner.2.2, e.done, e.finished⟩ : LpcmEncoder GenFrame).encode samples f
    .ok ⟨e.inner, e.delay, x.done, x.finished⟩
  finalize e := .ok ⟨e.inner, e.delay, e.done, true⟩

/-- `InitializeEncoder` for LPCM (audio_frame_generator.cc:74-112, lpcm_encoder.cc:29-61); the delay is 0 (encoder_base.h:180-184). -/
def newLpcmEncoder (c : CodecObu) (channels : Nat) (_ : UInt32) : Except Err (Encoder lpcmEncoders.State) := match c.config.decoderConfig with
  | .lpcm l => do
    let _ ← (LpcmEncoder.create l channels c.config.numSamplesPerFrame : Except Err (LpcmEncoder GenFrame))
    .ok ⟨(l, channels, c.config.numSamplesPerFrame), 0, [], false⟩
  | _ => .error .invalidArgument

/-! ### Runs -/

/-- The calls that users make.  Demixing parameter blocks are added by the encoder (iamf_encoder.cc) through the manager that it shares with
the generator. -/
inductive GeneratorCall where
  | add (element : UInt32) (label : Label) (samples : Samples)
  | finalize
  | output
  | addDemixing (b : BlockWithData)

/-- One call: the frames that it puts out, and the generator. -/
def FrameGenerator.call (L : EncoderLib) (linear : Int16 → Rat) (g : FrameGenerator L.State) : GeneratorCall →
    Except Err (List (GenFrame × List UInt8) × FrameGenerator L.State)
  | .add e l s => do
    let g ← g.addSamples L linear e l s
    .ok ([], g)
  | .finalize => .ok ([], g.finalize)
  | .output => g.outputFrames L linear
  | .addDemixing b => .ok ([], ⟨g.labels, g.elements, g.order, g.encoders, g.samples, g.data, g.trimming, g.downMixing,
      g.parameters.addDemixing b, g.timing, g.phase, g.delay⟩)

/-- A list of calls: what each of them puts out. -/
def FrameGenerator.calls (L : EncoderLib) (linear : Int16 → Rat) : List GeneratorCall → FrameGenerator L.State →
    Except Err (List (List (GenFrame × List UInt8)) × FrameGenerator L.State)
  | [], g => .ok ([], g)
  | c :: cs, g => do
    let (fs, g) ← g.call L linear c
    let (fss, g) ← FrameGenerator.calls L linear cs g
    .ok (fs :: fss, g)

end Iamf
