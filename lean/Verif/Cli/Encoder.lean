import Verif.Cli.BlockGenerator
import Verif.Cli.FrameGenerator
import Verif.Cli.Sequencer
/-
  The encoder: iamf/cli/iamf_encoder.{h,cc}.

  The descriptor OBUs are those that the generators make out of the user metadata, which are not modelled.  Labels and parameter blocks are
  given as already parsed from their protocol buffers.  A call of `OutputTemporalUnit` or `FinalizeEncode` that fails may leave the encoder
  changed in part; such states are not modelled: the run ends there.
-/
namespace Iamf

/-- What else an encoder is made of: decoders and demixers of the frames it made (`AudioFrameDecoder`, `DemixingManager`), whose results are
`Frames`, and the finalizer of the mix presentations (`RenderingMixPresentationFinalizer`).  `analyse` is iamf_encoder.cc:577-599;
`push` is `PushTemporalUnit`; `finish` is `FinalizePushingTemporalUnits` and `GetFinalizedMixPresentationObus`, given the mix presentations
(iamf_encoder.cc:194-200). -/
structure EncoderParts where
  Decoders : Type
  Frames : Type
  Finalizer : Type
  analyse : Decoders → List (GenFrame × List UInt8) → Except Err (Frames × Decoders)
  source : Frames → UInt32 → ReconSource
  push : Finalizer → Frames → Int → Int → List BlockWithData → Except Err Finalizer
  finish : Finalizer → Except Err (List (Obu MixPresentation))

/-- `timestamp_to_arbitrary_obus_`: in ascending order of the keys. -/
abbrev TimedObus := List (Int × List ArbitraryObu)

/-- `timestamp_to_arbitrary_obus[t].push_back(o)`. -/
def TimedObus.add (t : Int) (o : ArbitraryObu) : TimedObus → TimedObus
  | [] => [(t, [o])]
  | (k, os) :: m => if t < k then (t, [o]) :: (k, os) :: m else if t = k then (k, os ++ [o]) :: m else (k, os) :: TimedObus.add t o m

/-- `ArrangeArbitraryObus` (iamf_encoder.cc:100-117): those of the descriptors, and the others. -/
def arrangeArbitrary : List ArbitraryObu → List ArbitraryObu → TimedObus → List ArbitraryObu × TimedObus
  | [], d, m => (d, m)
  | o :: os, d, m => match o.insertionTick with
    | some t => arrangeArbitrary os d (TimedObus.add t o m)
    | none => arrangeArbitrary os (d ++ [o]) m

/-- `SpliceArbitraryObus` for the first key (iamf_encoder.cc:119-130, 551-553). -/
def TimedObus.takeFirst : TimedObus → List ArbitraryObu × TimedObus
  | [] => ([], [])
  | (_, os) :: m => (os, m)

/-- `SpliceArbitraryObus` for a given key (iamf_encoder.cc:119-130, 622-624). -/
def TimedObus.takeAt (t : Int) : TimedObus → List ArbitraryObu × TimedObus
  | [] => ([], [])
  | (k, os) :: m => if k = t then (os, m) else ((TimedObus.takeAt t m).1, (k, os) :: (TimedObus.takeAt t m).2)

/-- `IamfEncoder` (iamf_encoder.h:306-373), without what is only logged or constant.  `sequence` are the descriptor OBUs, with those arbitrary
OBUs that have no tick; `cached` is `id_to_labeled_samples_`, as a list, without entries that are empty.  The frame generator holds the
parameters manager and the timing module.  `others` are the sequencers made by the factory. -/
structure IamfEncoder (L : EncoderLib) (P : EncoderParts) (σ : Type) where
  sequence : SequenceObus
  timed : TimedObus
  blocks : BlockGenerator
  demixing : List BlockWithData
  mixGain : List BlockWithData
  reconGain : List BlockWithData
  cached : List ((UInt32 × Label) × Samples)
  generator : FrameGenerator L.State
  decoders : P.Decoders
  finalizer : P.Finalizer
  others : List (Sequencer σ)
  streaming : Sequencer StreamingOutput
  finalizeCalled : Bool
  mixesFinalized : Bool
  sequencersFinalized : Bool

/-- `temporal_unit_data` (iamf_tools_encoder_api_types.h), parsed.  The hash maps are lists in their order, with distinct keys. -/
structure UnitInput where
  blocks : List (BlockMetadata ObuHeader)
  samples : List ((UInt32 × Label) × Samples)

namespace IamfEncoder
variable {L : EncoderLib} {P : EncoderParts} {σ : Type} (K : Sink σ) (linear : Int16 → Rat)

/-! ### Creation -/

/-- The loop that gives the descriptor OBUs to sequencers (iamf_encoder.cc:404-410). -/
def pushDescriptorsToAll (d : SequenceObus) : List (Sequencer σ) → Except Err (List (Sequencer σ))
  | [] => .ok []
  | q :: qs => match q.pushDescriptors K d with
    | (.error e, _) => .error e
    | (.ok (), q) => do
      let qs ← pushDescriptorsToAll d qs
      .ok (q :: qs)

/-- `IamfEncoder::Create` (iamf_encoder.cc:254-432), after the OBUs have been generated; `d.arbitrary` are all arbitrary OBUs. -/
def create (g : LebGen) (delimiters : Bool) (newEncoder : CodecObu → Nat → UInt32 → Except Err (Encoder L.State)) (d : SequenceObus)
    (override : Bool) (frames : List FrameMetadata) (downMixing : IdMap DownmixingConfig) (decoders : P.Decoders) (finalizer : P.Finalizer)
    (others : List (Sequencer σ)) : Except Err (IamfEncoder L P σ) := do
  let elements : List (UInt32 × ElementWithData) := d.elements.map fun e => (e.1, e.2.body)
  let arranged := arrangeArbitrary d.arbitrary [] []
  let d : SequenceObus := ⟨d.sequenceHeader, d.metadata, d.codecs, d.elements, d.mixes, arranged.1⟩
  let params ← collectParamDefinitions ⟨some (d.sequenceHeader.header, d.sequenceHeader.body), d.codecs.map (fun c => (c.1, c.2.body)), elements, d.mixes.map (·.body)⟩
  match TimingModule.create (elements.map fun e => e.2.timed) (params.map fun p => (p.1, p.2.1.base.rate)) with
  | none => .error .invalidArgument
  | some timing => do
    let blocks ← BlockGenerator.create override params
    let manager ← ParametersManager.create (elements.map fun e => (e.1, e.2.obu))
    let generator ← FrameGenerator.create newEncoder frames elements downMixing manager timing
    let others ← pushDescriptorsToAll K d others
    match (streamingSequencer g delimiters).pushDescriptors streamingSink d with
    | (.error e, _) => .error e
    | (.ok (), streaming) =>
      .ok ⟨d, arranged.2, blocks, [], [], [], [], generator, decoders, finalizer, others, streaming, false, false, false⟩

/-! ### Queries -/

/-- `GeneratingTemporalUnits` (iamf_encoder.cc:453-461). -/
def generating (e : IamfEncoder L P σ) : Bool := e.generator.takingSamples || e.generator.generatingFrames || !e.timed.isEmpty

/-- `GetInputTimestamp` (iamf_encoder.cc:463-473). -/
def inputTimestamp (e : IamfEncoder L P σ) : Except Err Int := match e.generator.timing.globalTimestamp with
  | .error x => .error x
  | .ok none => .error .invalidArgument
  | .ok (some t) => .ok t

/-- `GetEncoderDelay` (iamf_encoder.cc:447-451). -/
def encoderDelay (e : IamfEncoder L P σ) : UInt32 := e.generator.delay

/-- `GetDescriptorObus` (iamf_encoder.cc:434-445): the OBUs, and whether they are finalized. -/
def descriptorObus (e : IamfEncoder L P σ) (redundant : Bool) : Except Err (List UInt8 × Bool) :=
  if redundant then .error .unimplemented else .ok (e.streaming.sink.descriptors, e.sequencersFinalized)

/-! ### Encode -/

/-- The loop over parameter blocks in `Encode` (iamf_encoder.cc:477-490). -/
def addBlocks : List (BlockMetadata ObuHeader) → BlockGenerator → Except Err Unit × BlockGenerator
  | [], g => (.ok (), g)
  | b :: bs, g => match g.addMetadata b with
    | .error e => (.error e, g)
    | .ok g => addBlocks bs g

/-- `id_to_labeled_samples_[element][label]` = `samples` -/
def cacheSamples (k : UInt32 × Label) (s : Samples) : List ((UInt32 × Label) × Samples) → List ((UInt32 × Label) × Samples)
  | [] => [(k, s)]
  | (k', s') :: m => if k' = k then (k, s) :: m else (k', s') :: cacheSamples k s m

/-- The loop over samples in `Encode` (iamf_encoder.cc:502-528). -/
def cacheAll : List ((UInt32 × Label) × Samples) → List ((UInt32 × Label) × Samples) → List ((UInt32 × Label) × Samples)
  | [], m => m
  | (k, s) :: l, m => cacheAll l (if s.isEmpty then m else cacheSamples k s m)

/-- `Encode` (iamf_encoder.cc:474-532). -/
def encode (e : IamfEncoder L P σ) (u : UnitInput) : Except Err Unit × IamfEncoder L P σ :=
  match addBlocks u.blocks e.blocks with
  | (.error x, g) => (.error x, { e with blocks := g })
  | (.ok (), g) =>
    if e.finalizeCalled then (.ok (), { e with blocks := g })
    else (.ok (), { e with blocks := g, cached := cacheAll u.samples e.cached })

/-! ### Finalization -/

/-- `FinalizeDescriptors` (iamf_encoder.cc:180-207). -/
def finalizeDescriptors (e : IamfEncoder L P σ) : Except Err (IamfEncoder L P σ) :=
  if e.mixesFinalized then .ok e
  else do
    let mixes ← P.finish e.finalizer
    let d := e.sequence
    .ok { e with sequence := ⟨d.sequenceHeader, d.metadata, d.codecs, d.elements, mixes, d.arbitrary⟩, mixesFinalized := true }

/-- The loop that closes sequencers (iamf_encoder.cc:229-233). -/
def closeAll (d : SequenceObus) : List (Sequencer σ) → Except Err (List (Sequencer σ))
  | [] => .ok []
  | q :: qs => match q.updateAndClose K d with
    | (.error e, _) => .error e
    | (.ok (), q) => do
      let qs ← closeAll d qs
      .ok (q :: qs)

/-- `FinalizeObuSequencers` (iamf_encoder.cc:211-241). -/
def finalizeSequencers (e : IamfEncoder L P σ) : Except Err (IamfEncoder L P σ) :=
  if e.sequencersFinalized then .ok e
  else do
    let others ← closeAll K e.sequence e.others
    match e.streaming.updateAndClose streamingSink e.sequence with
    | (.error x, _) => .error x
    | (.ok (), streaming) => .ok { e with others := others, streaming := streaming, sequencersFinalized := true }

/-- `FinalizeEncode` (iamf_encoder.cc:661-684). -/
def finalizeEncode (e : IamfEncoder L P σ) : Except Err (IamfEncoder L P σ) :=
  if e.finalizeCalled then .ok e
  else
    let e := { e with finalizeCalled := true }
    if e.generating then .ok e
    else do
      let e ← e.finalizeDescriptors
      e.finalizeSequencers K

/-! ### OutputTemporalUnit -/

/-- The loop of `PushTemporalUnitToObuSequencers` (iamf_encoder.cc:166-168). -/
def pushUnitToAll (u : TemporalUnitView) : List (Sequencer σ) → Except Err (List (Sequencer σ))
  | [] => .ok []
  | q :: qs => match q.pushUnit K u with
    | (.error e, _) => .error e
    | (.ok (), q) => do
      let qs ← pushUnitToAll u qs
      .ok (q :: qs)

/-- `PushTemporalUnitToObuSequencers` (iamf_encoder.cc:155-178): what the vector of the caller then holds, and the encoder. -/
def pushToSequencers (e : IamfEncoder L P σ) (blocks : List BlockWithData) (frames : List FrameWithData) (arbitrary : List ArbitraryObu) :
    Except Err (List UInt8 × IamfEncoder L P σ) := do
  let u ← TemporalUnitView.create blocks frames arbitrary
  let others ← pushUnitToAll K u e.others
  match e.streaming.pushUnit streamingSink u with
  | (.error x, _) => .error x
  | (.ok (), streaming) => .ok (streaming.sink.previousUnit, { e with others := others, streaming := streaming })

/-- Every new demixing block is added to the manager (iamf_encoder.cc:551-556), also when it was added before. -/
def addDemixingBlocks : List BlockWithData → FrameGenerator L.State → FrameGenerator L.State
  | [], g => g
  | b :: bs, g => addDemixingBlocks bs ⟨g.labels, g.elements, g.order, g.encoders, g.samples, g.data, g.trimming, g.downMixing,
      g.parameters.addDemixing b, g.timing, g.phase, g.delay⟩

/-- The loop that adds the cached samples (iamf_encoder.cc:558-568). -/
def addCached : List ((UInt32 × Label) × Samples) → FrameGenerator L.State → Except Err (FrameGenerator L.State)
  | [], g => .ok g
  | ((i, l), s) :: rest, g => do
    let g ← g.addSamples L linear i l s
    addCached rest g

/-- `obu` of an `AudioFrameWithData` and what else the temporal unit needs (audio_frame_generator.cc:502-520, audio_frame.cc:46-51). -/
def _root_.Iamf.GenFrame.withData (elements : List (UInt32 × ElementWithData)) (f : GenFrame × List UInt8) : FrameWithData :=
  ⟨{ obuType := audioFrameObuType f.1.substream, typeSpecificFlag := f.1.trimFlag, trimEnd := f.1.trimEnd, trimStart := f.1.trimStart },
    ⟨f.1.substream, f.2⟩, f.1.start, f.1.stop,
    some (f.1.element, ((elements.lookup f.1.element).bind (·.codec)).map (·.config.numSamplesPerFrame))⟩

/-- The first part of `OutputTemporalUnit` (iamf_encoder.cc:536-573): parameter blocks, samples and frames.  `rank` gives the order in which
the hash map of cached samples is iterated over. -/
def makeFrames (e : IamfEncoder L P σ) (rank : UInt32 × Label → Nat) : Except Err (List (GenFrame × List UInt8) × IamfEncoder L P σ) := do
  let d ← e.blocks.generateDemixing e.generator.timing e.demixing
  let m ← d.1.generateMixGain d.2.1 e.mixGain
  let g := e.generator
  let g : FrameGenerator L.State := ⟨g.labels, g.elements, g.order, g.encoders, g.samples, g.data, g.trimming, g.downMixing, g.parameters, m.2.1,
    g.phase, g.delay⟩
  let g ← addCached linear (sortBy (fun a b => decide (rank a.1 ≤ rank b.1)) e.cached) (addDemixingBlocks d.2.2 g)
  let r ← (if e.finalizeCalled then g.finalize else g).outputFrames L linear
  .ok (r.1, { e with blocks := m.1, demixing := d.2.2, mixGain := m.2.2, cached := [], generator := r.2 })

/-- `OutputTemporalUnit` when there are no frames (iamf_encoder.cc:574-610); `buffer` is what the vector of the caller holds. -/
def withoutFrames (e : IamfEncoder L P σ) (buffer : List UInt8) : Except Err (List UInt8 × IamfEncoder L P σ) :=
  if e.finalizeCalled then do
    let obus := e.timed.takeFirst.1
    let e := { e with timed := e.timed.takeFirst.2 }
    let e ← (if e.generating then .ok e else e.finalizeDescriptors)
    let r ← (if obus.isEmpty then .ok (buffer, e) else e.pushToSequencers K [] [] obus)
    if r.2.generating then .ok r
    else do
      let e ← r.2.finalizeSequencers K
      .ok (r.1, e)
  else .ok (buffer, e)

/-- The blocks that are moved to the temporal unit (iamf_encoder.cc:604-618): those before the first that starts later. -/
def blocksUntil (t : Int) (bs : List BlockWithData) : List BlockWithData := bs.takeWhile fun b => decide (b.start ≤ t)

/-- The blocks that stay. -/
def blocksAfter (t : Int) (bs : List BlockWithData) : List BlockWithData := bs.dropWhile fun b => decide (b.start ≤ t)

/-- `OutputTemporalUnit` with frames, of which `f` is the first (iamf_encoder.cc:576-659).  (The timestamps are compared after all frames are
decoded, not one by one.) -/
def withFrames (e : IamfEncoder L P σ) (f : GenFrame × List UInt8) (fs : List (GenFrame × List UInt8)) :
    Except Err (List UInt8 × IamfEncoder L P σ) := do
  let a ← P.analyse e.decoders (f :: fs)
  if fs.any fun x => decide (x.1.start ≠ f.1.start ∨ x.1.stop ≠ f.1.stop) then .error .abort
  else do
    let r ← e.blocks.generateReconGain (P.source a.1) e.generator.timing e.reconGain
    let g := e.generator
    let blocks := blocksUntil f.1.start e.mixGain ++ blocksUntil f.1.start e.demixing ++ blocksUntil f.1.start r.2.2
    let obus := (e.timed.takeAt f.1.start).1
    let fin ← P.push e.finalizer a.1 f.1.start f.1.stop blocks
    let e : IamfEncoder L P σ := { e with
      timed := (e.timed.takeAt f.1.start).2
      blocks := r.1
      mixGain := blocksAfter f.1.start e.mixGain
      demixing := blocksAfter f.1.start e.demixing
      reconGain := blocksAfter f.1.start r.2.2
      generator := ⟨g.labels, g.elements, g.order, g.encoders, g.samples, g.data, g.trimming, g.downMixing, g.parameters, r.2.1, g.phase, g.delay⟩
      decoders := a.2
      finalizer := fin }
    let p ← e.pushToSequencers K blocks ((f :: fs).map (GenFrame.withData (e.sequence.elements.map fun x => (x.1, x.2.body)))) obus
    if p.2.generating then .ok p
    else do
      let e ← p.2.finalizeDescriptors
      let e ← e.finalizeSequencers K
      .ok (p.1, e)

/-- `OutputTemporalUnit` (iamf_encoder.cc:534-659): what the vector of the caller holds afterwards, and the encoder. -/
def outputUnit (e : IamfEncoder L P σ) (rank : UInt32 × Label → Nat) (buffer : List UInt8) : Except Err (List UInt8 × IamfEncoder L P σ) := do
  let r ← e.makeFrames linear rank
  match r.1 with
  | [] => r.2.withoutFrames K buffer
  | f :: fs => r.2.withFrames K f fs

end IamfEncoder

/-! ### Runs -/

/-- The calls of a user that may change the encoder. -/
inductive IamfEncoderCall where
  | encode (u : UnitInput)
  | finalizeEncode
  | output (rank : UInt32 × Label → Nat) (buffer : List UInt8)

/-- What a call returns. -/
inductive IamfEncoderAnswer where
  | done
  | rejected (e : Err)
  | unit (buffer : List UInt8)
  deriving DecidableEq, Repr

/-- One call: what it returns, and the encoder. -/
def IamfEncoder.call {L : EncoderLib} {P : EncoderParts} {σ : Type} (K : Sink σ) (linear : Int16 → Rat) (e : IamfEncoder L P σ) :
    IamfEncoderCall → Except Err (IamfEncoderAnswer × IamfEncoder L P σ)
  | .encode u => match e.encode u with
    | (.ok (), e) => .ok (.done, e)
    | (.error x, e) => .ok (.rejected x, e)
  | .finalizeEncode => do
    let e ← e.finalizeEncode K
    .ok (.done, e)
  | .output rank buffer => do
    let r ← e.outputUnit K linear rank buffer
    .ok (.unit r.1, r.2)

/-- A list of calls. -/
def IamfEncoder.calls {L : EncoderLib} {P : EncoderParts} {σ : Type} (K : Sink σ) (linear : Int16 → Rat) : List IamfEncoderCall →
    IamfEncoder L P σ → Except Err (List IamfEncoderAnswer × IamfEncoder L P σ)
  | [], e => .ok ([], e)
  | c :: cs, e => do
    let r ← e.call K linear c
    let rs ← IamfEncoder.calls K linear cs r.2
    .ok (r.1 :: rs.1, rs.2)

end Iamf
