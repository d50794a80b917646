import Verif.Props.EncoderSteps
import Verif.Props.BlockGenerator
/-
  What an encoder has to do, call by call.
-/
namespace Iamf.Props
open Iamf

/-- What an encoder is made of: see `IamfEncoder.create`. -/
structure EncoderSetup (L : EncoderLib) (P : EncoderParts) (σ : Type) where
  lebs : LebGen
  delimiters : Bool
  newEncoder : CodecObu → Nat → UInt32 → Except Err (Encoder L.State)
  sequence : SequenceObus
  override : Bool
  metadata : List FrameMetadata
  downMixing : IdMap DownmixingConfig
  decoders : P.Decoders
  finalizer : P.Finalizer
  others : List (Sequencer σ)

/-- What a temporal unit consists of: parameter blocks, audio frames, and the arbitrary OBUs that have the given insertion tick. -/
structure UnitParts where
  mixGain : List BlockWithData
  demixing : List BlockWithData
  reconGain : List BlockWithData
  frames : List (GenFrame × List UInt8)
  tick : Option Int

/-- A call that an encoder accepted, or rejected without harm: what it returned, the temporal unit that it wrote, and what it gave to the frame
generator: demixing blocks and samples. -/
structure EncoderEvent where
  call : IamfEncoderCall
  answer : IamfEncoderAnswer
  unit : Option UnitParts
  handed : List BlockWithData
  fed : List ((UInt32 × Label) × Samples)

variable {L : EncoderLib} {P : EncoderParts} {σ : Type}

namespace EncoderSetup

/-- The constructor. -/
def create (K : Sink σ) (s : EncoderSetup L P σ) : Except Err (IamfEncoder L P σ) :=
  IamfEncoder.create K s.lebs s.delimiters s.newEncoder s.sequence s.override s.metadata s.downMixing s.decoders s.finalizer s.others

/-- The audio elements. -/
def elements (s : EncoderSetup L P σ) : List (UInt32 × ElementWithData) := s.sequence.elements.map fun x => (x.1, x.2.body)

/-- The descriptor OBUs that are written: arbitrary OBUs with a tick are not among them. -/
def descriptors (s : EncoderSetup L P σ) : SequenceObus :=
  ⟨s.sequence.sequenceHeader, s.sequence.metadata, s.sequence.codecs, s.sequence.elements, s.sequence.mixes,
    s.sequence.arbitrary.filter fun o => o.insertionTick = none⟩

/-- The parameter definitions in the descriptor OBUs. -/
def definitions (s : EncoderSetup L P σ) : Except Err (List (UInt32 × ParamEntry)) :=
  collectParamDefinitions ⟨some (s.sequence.sequenceHeader.header, s.sequence.sequenceHeader.body), s.sequence.codecs.map (fun c => (c.1, c.2.body)), s.elements,
    s.sequence.mixes.map (·.body)⟩

/-- The frame generator at the beginning. -/
def generator (s : EncoderSetup L P σ) (definitions : List (UInt32 × ParamEntry)) : Except Err (FrameGenerator L.State) :=
  match TimingModule.create (s.elements.map fun e => e.2.timed) (definitions.map fun p => (p.1, p.2.1.base.rate)) with
  | none => .error .invalidArgument
  | some t => do
    let m ← ParametersManager.create (s.elements.map fun e => (e.1, e.2.obu))
    FrameGenerator.create s.newEncoder s.metadata s.elements s.downMixing m t

/-- The arbitrary OBUs with an insertion tick, and the ticks. -/
def obusAt (s : EncoderSetup L P σ) (t : Int) : List ArbitraryObu := s.sequence.arbitrary.filter fun o => o.insertionTick = some t
def ticks (s : EncoderSetup L P σ) : List Int := s.sequence.arbitrary.filterMap (·.insertionTick)

end EncoderSetup

/-! ### Temporal units -/

def UnitParts.blocks (p : UnitParts) : List BlockWithData := p.mixGain ++ p.demixing ++ p.reconGain

def UnitParts.ofKind (p : UnitParts) : BlockKind → List BlockWithData
  | .mixGain => p.mixGain
  | .demixing => p.demixing
  | .reconGain => p.reconGain

/-- The arbitrary OBUs of a temporal unit. -/
def UnitParts.arbitrary (s : EncoderSetup L P σ) (p : UnitParts) : List ArbitraryObu := (p.tick.map s.obusAt).getD []

/-- The temporal unit that has these parts. -/
def UnitParts.Gives (s : EncoderSetup L P σ) (p : UnitParts) (v : TemporalUnitView) : Prop :=
  TemporalUnitView.create p.blocks (p.frames.map (GenFrame.withData s.elements)) (p.arbitrary s) = .ok v

/-- When a temporal unit starts. -/
def UnitParts.start (p : UnitParts) : Option Int := p.frames.head?.map (·.1.start)

/-! ### Histories -/

/-- The temporal units that were written. -/
def unitsIn (evs : List EncoderEvent) : List UnitParts := evs.filterMap (·.unit)

/-- Their arbitrary OBUs. -/
def ticksIn (evs : List EncoderEvent) : List Int := (unitsIn evs).filterMap (·.tick)

def _root_.Iamf.IamfEncoderCall.isFinal : IamfEncoderCall → Bool
  | .finalizeEncode => true
  | _ => false

/-- `FinalizeEncode` has been called. -/
def finalizedIn (evs : List EncoderEvent) : Bool := evs.any fun ev => ev.call.isFinal

/-- `Encode` rejects data that have a parameter block of an unknown parameter. -/
def allKnown (definitions : List (UInt32 × ParamEntry)) (u : UnitInput) : Bool := u.blocks.all fun b => (definitions.lookup b.id).isSome

/-- The metadata of parameter blocks that a call takes: up to the first that is unknown. -/
def metadataTaken (definitions : List (UInt32 × ParamEntry)) : IamfEncoderCall → List (BlockMetadata ObuHeader)
  | .encode u => u.blocks.takeWhile fun b => (definitions.lookup b.id).isSome
  | _ => []

/-- With each the number of temporal units with frames that were written before. -/
def givenStep (definitions : List (UInt32 × ParamEntry)) (s : Nat × List (BlockMetadata ObuHeader × Nat)) (ev : EncoderEvent) :
    Nat × List (BlockMetadata ObuHeader × Nat) :=
  (s.1 + ([ev].filterMap (·.unit) |>.filter fun p => !p.frames.isEmpty).length, s.2 ++ (metadataTaken definitions ev.call).map fun b => (b, s.1))

def metadataGiven (definitions : List (UInt32 × ParamEntry)) (evs : List EncoderEvent) : List (BlockMetadata ObuHeader × Nat) :=
  (evs.foldl (givenStep definitions) (0, [])).2

/-- Those for a kind of parameters. -/
def givenFor (definitions : List (UInt32 × ParamEntry)) (k : BlockKind) (evs : List EncoderEvent) : List (BlockMetadata ObuHeader × Nat) :=
  (metadataGiven definitions evs).filter fun x => ((definitions.lookup x.1.id).bind fun d => kindOf d.1.spec) = some k

/-- Samples that were given since the last `OutputTemporalUnit`; whether `FinalizeEncode` was called, after which none are taken. -/
def pendingStep (definitions : List (UInt32 × ParamEntry)) (s : Bool × List ((UInt32 × Label) × Samples)) (ev : EncoderEvent) :
    Bool × List ((UInt32 × Label) × Samples) := match ev.call with
  | .encode u => if s.1 || !allKnown definitions u then s else (s.1, s.2 ++ u.samples.filter fun x => !x.2.isEmpty)
  | .finalizeEncode => (true, s.2)
  | .output _ _ => (s.1, [])

def pendingSamples (definitions : List (UInt32 × ParamEntry)) (evs : List EncoderEvent) : List ((UInt32 × Label) × Samples) :=
  (evs.foldl (pendingStep definitions) (false, [])).2

/-- For each channel the samples given last, in the given order of the channels. -/
structure LatestOf (pending : List ((UInt32 × Label) × Samples)) (l : List ((UInt32 × Label) × Samples)) : Prop where
  once : (l.map Prod.fst).Nodup
  latest : ∀ k s, (k, s) ∈ l ↔ (pending.filter fun x => x.1 = k).getLast? = some (k, s)

/-- The calls of the frame generator that an event consists of. -/
def _root_.Iamf.Props.EncoderEvent.generatorCalls (finalized : Bool) (ev : EncoderEvent) : List GeneratorCall := match ev.call with
  | .output _ _ => ev.handed.map .addDemixing ++ ev.fed.map (fun x => .add x.1.1 x.1.2 x.2) ++ (if finalized then [.finalize] else []) ++ [.output]
  | _ => []

def generatorStep (s : Bool × List GeneratorCall) (ev : EncoderEvent) : Bool × List GeneratorCall :=
  (s.1 || ev.call.isFinal, s.2 ++ ev.generatorCalls s.1)

def generatorCallsIn (evs : List EncoderEvent) : List GeneratorCall := (evs.foldl generatorStep (false, [])).2

/-- The temporal units with frames are decoded, and given to the finalizer of the mix presentations. -/
inductive Heard (s : EncoderSetup L P σ) : List (UnitParts × P.Frames) → P.Decoders → P.Finalizer → Prop
  | nil : Heard s [] s.decoders s.finalizer
  | snoc {us : List (UnitParts × P.Frames)} {d d' : P.Decoders} {f f' : P.Finalizer} {p : UnitParts} {a : P.Frames} {x : GenFrame × List UInt8}
      {l : List (GenFrame × List UInt8)} : Heard s us d f → p.frames = x :: l → P.analyse d p.frames = .ok (a, d') →
      P.push f a x.1.start x.1.stop p.blocks = .ok f' → Heard s (us ++ [(p, a)]) d' f'

/-- Blocks of one kind that are what their metadata say, one for each.  Recon gains are measured from the first temporal unit with frames that is written
after their metadata were given. -/
def MadeOf (s : EncoderSetup L P σ) (definitions : List (UInt32 × ParamEntry)) (heard : List (UnitParts × P.Frames)) (k : BlockKind)
    (given : List (BlockMetadata ObuHeader × Nat)) (blocks : List BlockWithData) : Prop :=
  List.Forall₂ (fun x o => ∃ source, (k = .reconGain → ∃ y, heard[x.2]? = some y ∧ source = P.source y.2) ∧
    SaysBlock s.override source definitions x.1 o) given blocks

/-! ### Calls -/

/-- A call of `OutputTemporalUnit` without frames writes the arbitrary OBUs that are left, those with the smallest tick first, if `FinalizeEncode`
was called. -/
structure FramelessUnit (s : EncoderSetup L P σ) (before : List EncoderEvent) (p : UnitParts) : Prop where
  alone : p.blocks = [] ∧ p.frames = []
  tick : ∃ t, p.tick = some t ∧ t ∈ s.ticks ∧ t ∉ ticksIn before ∧ ∀ t' ∈ s.ticks, t' ∉ ticksIn before → t ≤ t'

/-- A temporal unit with frames, all of the same start and end: of the parameter blocks of each kind that were made and not yet written it takes those
before the first that starts later, and all arbitrary OBUs that have its start as their tick, unless they were written before. -/
structure FramedUnit (s : EncoderSetup L P σ) (definitions : List (UInt32 × ParamEntry)) (heard : List (UnitParts × P.Frames)) (before : List EncoderEvent)
    (p : UnitParts) : Prop where
  together : ∀ x ∈ p.frames, ∀ y ∈ p.frames, x.1.start = y.1.start ∧ x.1.stop = y.1.stop
  blocks : ∀ k, ∃ waiting, MadeOf s definitions heard k (givenFor definitions k before) ((unitsIn before).flatMap (·.ofKind k) ++ waiting) ∧
    ∀ t, p.start = some t → p.ofKind k = waiting.takeWhile fun b => b.start ≤ t
  tick : ∀ t, p.start = some t → p.tick = if t ∈ s.ticks ∧ t ∉ ticksIn before then some t else none

/-- One call, after others. -/
def EventOk (s : EncoderSetup L P σ) (definitions : List (UInt32 × ParamEntry)) (heard : List (UnitParts × P.Frames)) (before : List EncoderEvent)
    (ev : EncoderEvent) : Prop := match ev.call with
  | .encode u => ev.unit = none ∧ ev.answer = if allKnown definitions u then .done else .rejected .invalidArgument
  | .finalizeEncode => ev.unit = none ∧ ev.answer = .done
  | .output rank buffer =>
    -- the demixing blocks that were made and not yet written are used to make frames
    MadeOf s definitions heard .demixing (givenFor definitions .demixing before) ((unitsIn before).flatMap (·.demixing) ++ ev.handed) ∧
    -- as are the samples given last for each channel
    LatestOf (pendingSamples definitions before) ev.fed ∧ ev.fed.Pairwise (fun a b => rank a.1 ≤ rank b.1) ∧
    -- what is written
    (∀ p, ev.unit = some p → (FramelessUnit s before p ∧ finalizedIn before = true ∨ p.frames ≠ [] ∧ FramedUnit s definitions heard before p) ∧
      ∃ v b, p.Gives s v ∧ UnitBytes s.lebs s.delimiters v b ∧ ev.answer = .unit b) ∧
    -- or not
    (ev.unit = none → ev.answer = .unit buffer ∧ (finalizedIn before = true → ∀ t ∈ s.ticks, t ∈ ticksIn before))

/-- A history of an encoder. -/
structure EncoderHistory (K : Sink σ) (linear : Int16 → Rat) (s : EncoderSetup L P σ) (definitions : List (UInt32 × ParamEntry))
    (generator : FrameGenerator L.State) (evs : List EncoderEvent) (heard : List (UnitParts × P.Frames)) (e : IamfEncoder L P σ) : Prop where
  /-- every call did what it has to -/
  events : ∀ before ev after, evs = before ++ ev :: after → EventOk s definitions heard before ev
  /-- the frames come from the frame generator -/
  frames : ∃ fss g, FrameGenerator.calls L linear (generatorCallsIn evs) generator = .ok (fss, g) ∧
    (fss.filter fun fs => !fs.isEmpty) = ((unitsIn evs).map (·.frames)).filter (fun fs => !fs.isEmpty) ∧
    (e.generating = true ↔ g.takingSamples = true ∨ g.generatingFrames = true ∨ ∃ t ∈ s.ticks, t ∉ ticksIn evs) ∧ e.encoderDelay = g.delay
  /-- the frames of each kind of parameter follow one another without a gap -/
  consecutive : ∃ all, (∀ id, Consecutive 0 (blocksFor id all)) ∧
    ∀ k, ∃ waiting, (unitsIn evs).flatMap (·.ofKind k) ++ waiting = blocksOfKind k all
  /-- no arbitrary OBU is written twice -/
  ticks : (ticksIn evs).Nodup
  /-- the temporal units with frames are decoded -/
  sounds : Heard s heard e.decoders e.finalizer ∧ heard.map Prod.fst = (unitsIn evs).filter fun p => !p.frames.isEmpty
  /-- the sequencers get the descriptor OBUs, the temporal units, and at the end the descriptor OBUs with the mix presentations as measured -/
  written : ∃ views last, List.Forall₂ (UnitParts.Gives s) (unitsIn evs) views ∧
    List.Forall₂ (Accepts K (.pushDescriptors s.descriptors :: views.map .pushUnit ++ last)) s.others e.others ∧
    Accepts streamingSink (.pushDescriptors s.descriptors :: views.map .pushUnit ++ last) (streamingSequencer s.lebs s.delimiters) e.streaming ∧
    if finalizedIn evs = true ∧ e.generating = false then ∃ m, P.finish e.finalizer = .ok m ∧ last = [.updateAndClose (withMixes s.descriptors m)]
    else last = []
  /-- what `GetDescriptorObus` returns -/
  descriptors : ∃ bytes, e.descriptorObus false = .ok (bytes, finalizedIn evs && !e.generating) ∧
    if finalizedIn evs = true ∧ e.generating = false then ∃ m, P.finish e.finalizer = .ok m ∧ DescriptorBytes s.lebs (withMixes s.descriptors m) bytes
    else DescriptorBytes s.lebs s.descriptors bytes

end Iamf.Props
