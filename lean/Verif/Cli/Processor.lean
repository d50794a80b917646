import Verif.Cli.Descriptors
import Verif.Cli.Timing
import Verif.Cli.TemporalUnit
/-
  Temporal units out of a bitstream: iamf/cli/obu_processor.{h,cc} and the parts of iamf/cli/cli_util.cc and
  iamf/cli/obu_with_data_generator.cc it uses.
-/
namespace Iamf

/-! ### Parameter definitions of a sequence -/

/-- `ParamDefinitionVariant` (param_definition_variant.h): a definition, and for recon gain `audio_element_id_` (audio_element.cc:257-262)
and the `channel_numbers_for_layer` of its `aux_data_` (recon_gain_param_definition.h:28-105); the other part of `aux_data_` is in the
definition. -/
abbrev ParamEntry := ParamDef × Option (UInt32 × List ChannelNumbers)

/-- `InsertParamDefinitionAndCheckEquivalence` (cli_util.cc:46-74).  The hash map is a list in order of insertion. -/
def insertParam (t : List (UInt32 × ParamEntry)) (p : ParamEntry) : Except Err (List (UInt32 × ParamEntry)) :=
  match t.lookup p.1.base.id with
  | none => .ok (t ++ [(p.1.base.id, p)])
  | some q => if p = q then .ok t else .error .invalidArgument

/-- `FillReconGainAuxiliaryData` (cli_util.cc:76-94); both vectors are indexed without a check. -/
def reconGainAux (e : ElementWithData) : Except Err (List Bool × List ChannelNumbers) :=
  match e.obu.config with
  | .scalable c =>
    if e.data.layers.length < c.numLayers.toNat then .error .ub
    else .ok ((c.layers.take c.numLayers.toNat).map (·.reconGainPresent), e.data.layers.take c.numLayers.toNat)
  | _ => .error .invalidArgument

/-- One parameter of an audio element in `CollectAndValidateParamDefinitions` (cli_util.cc:110-137).  `std::get` on another
alternative throws. -/
def collectElementParam (e : ElementWithData) (t : List (UInt32 × ParamEntry)) (p : ParamDef) :
    Except Err (List (UInt32 × ParamEntry)) :=
  if p.spec.type = 1 then
    match p.spec with
    | .demixing _ => insertParam t (p, none)
    | _ => .error .abort
  else if p.spec.type = 2 then
    match p.spec with
    | .reconGain _ => do
      let aux ← reconGainAux e
      insertParam t (⟨p.base, .reconGain aux.1⟩, some (e.obu.elementId, aux.2))
    | _ => .error .abort
  else .ok t

/-- The definitions in a mix presentation, in the order of `CollectAndValidateParamDefinitions` (cli_util.cc:141-158). -/
def MixPresentation.paramDefs (m : MixPresentation) : List ParamDef :=
  m.subMixes.flatMap fun s =>
    (s.elements.flatMap fun e => e.rendering.params.map (·.definition) ++ [e.mixGain]) ++ [s.outputMixGain]

/-- `CollectAndValidateParamDefinitions` (cli_util.cc:98-161); the elements in order of insertion. -/
def collectParamDefinitions (d : Descriptors) : Except Err (List (UInt32 × ParamEntry)) := do
  let t ← (d.elements.flatMap fun e => e.2.obu.params.map fun p => (e.2, p)).foldlM (fun t x => collectElementParam x.1 t x.2) []
  (d.mixes.flatMap (·.paramDefs)).foldlM (fun t p => insertParam t (p, none)) t

/-! ### Data of a temporal unit -/

/-- `AudioFrameWithData` as made by `GenerateAudioFrameWithData`, with its parameters (audio_frame_with_data.h:27-53). -/
structure ProcFrame where
  frame : FrameWithData
  mixing : DownMixingParams
  reconGains : List (Option ReconGainElement)
  deriving DecidableEq, Repr

/-- What one OBU contributes: the three outputs of `ProcessTemporalUnitObu`, of which at most one is set. -/
inductive ProcOut where
  | frame (f : ProcFrame)
  | block (b : BlockWithData)
  | delimiter
  deriving DecidableEq, Repr

/-- `ObuProcessor::TemporalUnitData` (obu_processor.h:284-340).  Of the delimiter only its presence is used. -/
structure UnitData where
  frames : List ProcFrame
  blocks : List BlockWithData
  delimiter : Bool
  timestamp : Option Int
  deriving DecidableEq, Repr

def UnitData.empty : UnitData := ⟨[], [], false, none⟩

/-- `ObuProcessor::OutputTemporalUnit` (obu_processor.h).  The timestamp is always set when there is data. -/
structure OutputUnit where
  frames : List ProcFrame
  blocks : List BlockWithData
  timestamp : Int
  deriving DecidableEq, Repr

/-- The parts of `ObuProcessor` that do not change after initialization: the audio elements, `substream_id_to_audio_element_`
and `param_definition_variants_` (obu_processor.h:345-375). -/
structure ProcContext where
  elements : List (UInt32 × ElementWithData)
  substreams : List (UInt32 × ElementWithData)
  params : List (UInt32 × ParamEntry)

/-- The parts of `ObuProcessor` that change. -/
structure ProcState where
  timing : TimingModule
  params : ParametersManager
  current : UnitData
  next : UnitData

/-! ### Initialization -/

/-- The loop of `InitializeInternal` over substreams (obu_processor.cc:392-405). -/
def substreamTable : List (UInt32 × ElementWithData) → List (UInt32 × ElementWithData) →
    Except Err (List (UInt32 × ElementWithData))
  | [], m => .ok m
  | (s, e) :: l, m => if (m.lookup s).isSome then .error .invalidArgument else substreamTable l (m ++ [(s, e)])

/-- The elements as the timing module sees them (global_timing_module.cc:46-64).  A null codec config would be dereferenced; there is
none (C27). -/
def ElementWithData.timed (e : ElementWithData) : TimedElement :=
  ⟨e.obu.substreamIds, match e.codec with | some c => c.outputRate | none => 0⟩

/-- `ObuProcessor::InitializeInternal` after the descriptors have been parsed (obu_processor.cc:388-422).  The sample rate and the
frame size are not kept. -/
def initProcessor (d : Descriptors) : Except Err (ProcContext × ProcState) := do
  let params ← collectParamDefinitions d
  let subs ← substreamTable (d.elements.flatMap fun e => e.2.data.labels.map fun l => (l.1, e.2)) []
  match TimingModule.create (d.elements.map fun e => e.2.timed) (params.map fun p => (p.1, p.2.1.base.rate)) with
  | none => .error .invalidArgument
  | some g => do
    let pm ← ParametersManager.create (d.elements.map fun e => (e.1, e.2.obu))
    .ok (⟨d.elements, subs, params⟩, ⟨g, pm, .empty, .empty⟩)

/-! ### One OBU -/

/-- The loop of `UpdateParameterStatesIfNeeded` (obu_processor.cc:81-87). -/
def updateParameterStates (t : Int) : List (UInt32 × ElementWithData) → ParametersManager → Except Err Unit × ParametersManager
  | [], pm => (.ok (), pm)
  | (id, _) :: l, pm => match pm.updateDemixing id t with
    | (.error e, pm) => (.error e, pm)
    | (.ok (), pm) => match pm.updateReconGain id t with
      | (.error e, pm) => (.error e, pm)
      | (.ok (), pm) => updateParameterStates t l pm

/-- `UpdateParameterStatesIfNeeded` (obu_processor.cc:65-89). -/
def updateIfNeeded (c : ProcContext) (st : ProcState) : Except Err Unit × ProcState :=
  match st.timing.globalTimestamp with
  | .error e => (.error e, st)
  | .ok none => (.ok (), st)
  | .ok (some t) => match updateParameterStates t c.elements st.params with
    | (r, pm) => (r, { st with params := pm })

/-- `ObuWithDataGenerator::GenerateAudioFrameWithData` (obu_with_data_generator.cc:644-688).  What has been taken from the timing
module and the parameters manager before a failure stays taken. -/
def generateFrame (e : ElementWithData) (h : ObuHeader) (f : AudioFrame) (st : ProcState) : Except Err ProcFrame × ProcState :=
  if (e.data.labels.lookup f.substreamId).isNone then (.error .invalidArgument, st)
  else match e.codec with
    | none => (.error .ub, st)
    | some c => match st.timing.nextFrame f.substreamId c.config.numSamplesPerFrame with
      | ((.error x, _), g) => (.error x, { st with timing := g })
      | ((.ok (), start, stop), g) => match st.params.getDownMixing e.obu.elementId with
        | (.error x, pm) => (.error x, { st with timing := g, params := pm })
        | (.ok mixing, pm) => match pm.getReconGain e.obu.elementId (Int32.ofNat e.data.layers.length) with
          | .error x => (.error x, { st with timing := g, params := pm })
          | .ok gains => (.ok ⟨⟨h, f, start, stop, some (e.obu.elementId, some c.config.numSamplesPerFrame)⟩, mixing, gains⟩,
              { st with timing := g, params := pm })

/-- `GetAndStoreAudioFrameWithData` after the OBU has been read (obu_processor.cc:106-124): status, output and state.  The output
is set before the parameter states are updated. -/
def storeFrame (c : ProcContext) (h : ObuHeader) (f : AudioFrame) (st : ProcState) : Except Err Unit × Option ProcOut × ProcState :=
  match c.substreams.lookup f.substreamId with
  | none => (.error .invalidArgument, none, st)
  | some e => match generateFrame e h f st with
    | (.error x, st) => (.error x, none, st)
    | (.ok w, st) => match updateIfNeeded c st with
      | (r, st) => (r, some (.frame w), st)

/-- `PeekParameterIdAndLookupParamDefinition` and `CreateFromBuffer` in `GetAndStoreParameterBlockWithData`
(obu_processor.cc:126-165): the definition and the block. -/
def readBlock (c : ProcContext) (size : Int) : Rd (ParamDef × ParameterBlock) :=
  .attempt peekParameterId fun
    | .error _ => .fail .invalidArgument
    | .ok id => match c.params.lookup id with
      | none => .fail .invalidArgument
      | some p => (rObuPayload (ParameterBlock.read p.1) size).bind fun r => .ret (p.1, r.1)

/-- `ParameterBlockObu::GetDuration` (parameter_block.cc:148-151). -/
def ParameterBlock.durationIn (b : ParameterBlock) (p : ParamDef) : UInt32 :=
  match b.schedule with
  | some s => s.duration
  | none => p.base.duration

/-- `GetAndStoreParameterBlockWithData` after the OBU has been read (obu_processor.cc:167-189) with
`GenerateParameterBlockWithData` (obu_with_data_generator.cc:690-703). -/
def storeBlock (h : ObuHeader) (p : ParamDef) (b : ParameterBlock) (st : ProcState) : Except Err Unit × Option ProcOut × ProcState :=
  match st.timing.globalTimestamp with
  | .error e => (.error e, none, st)
  | .ok none => (.error .invalidArgument, none, st)
  | .ok (some t) => match st.timing.nextBlock b.parameterId t (b.durationIn p) with
    | ((.error e, _), g) => (.error e, none, { st with timing := g })
    | ((.ok (), start, stop), g) => (.ok (), some (.block ⟨b, start, stop, h, p⟩), { st with timing := g })

/-- What `ProcessTemporalUnitObu` does about the outcome of an OBU that it stores (obu_processor.cc:353-363):
an error that is not fatal is ignored, and the OBU skipped. -/
def finishObu (pos total : Int) (r : Except Err Unit × Option ProcOut × ProcState) : Rd (Bool × Option ProcOut × ProcState) :=
  match r with
  | (.ok (), out, st) => .ret (true, out, st)
  | (.error e, out, st) => if e.fatal then .fail e else .seek pos (rIgnoreBytes total (.ret (true, out, st)))

/-- `ProcessTemporalUnitObu` after the header has been read (obu_processor.cc:280-372); `pos` is where the OBU starts and `total`
its size. -/
def processBody (c : ProcContext) (st : ProcState) (pos total : Int) (h : ObuHeader) (size : Int) :
    Rd (Bool × Option ProcOut × ProcState) :=
  if isAudioFrameType h.obuType then
    .attempt (rObuPayload (AudioFrame.read h) size) fun
      | .error e => finishObu pos total (.error e, none, st)
      | .ok r => finishObu pos total (storeFrame c h r.1 st)
  else if h.obuType = ObuType.parameterBlock then
    .attempt (readBlock c size) fun
      | .error e => finishObu pos total (.error e, none, st)
      | .ok r => finishObu pos total (storeBlock h r.1 r.2 st)
  else if h.obuType = ObuType.temporalDelimiter then
    .attempt (rObuPayload rTemporalDelimiter size) fun
      | .error e => finishObu pos total (.error e, none, st)
      | .ok _ => finishObu pos total (.ok (), some .delimiter, st)
  else if h.obuType = ObuType.sequenceHeader ∧ h.redundantCopy = false then .seek pos (.ret (false, none, st))
  else if (h.obuType = ObuType.codecConfig ∨ h.obuType = ObuType.audioElement ∨ h.obuType = ObuType.mixPresentation) ∧
      h.redundantCopy = false then .fail .invalidArgument
  else rIgnoreBytes size (.ret (true, none, st))

/-- `ProcessTemporalUnitObu` (obu_processor.cc:229-372): `continue_processing`, the output and the state.  An error that is
reported leaves the state as it was. -/
def processObu (c : ProcContext) (st : ProcState) : Rd (Bool × Option ProcOut × ProcState) :=
  .attempt ObuHeader.peek fun
    | .error e => if e = .resourceExhausted then .ret (false, none, st) else .fail e
    | .ok m => .avail fun n =>
      if n < m.2 then .ret (false, none, st)
      else .tell fun pos => ObuHeader.read.bind fun hs => processBody c st pos m.2 hs.1 hs.2

/-! ### Temporal units -/

/-- `AddDataToCorrectTemporalUnit` (obu_processor.h:311-326), for either kind of data. -/
def addData (t : Int) (add : UnitData → UnitData) (st : ProcState) : ProcState :=
  let cur := if st.current.timestamp.isNone then { st.current with timestamp := some t } else st.current
  if cur.timestamp = some t then { st with current := add cur }
  else { st with current := cur, next := { add st.next with timestamp := some t } }

/-- Collecting one OBU in `ProcessTemporalUnit` (obu_processor.cc:602-617): the state and `delimiter_end_condition`. -/
def collectOut (out : Option ProcOut) (st : ProcState) : ProcState × Bool :=
  match out with
  | none => (st, false)
  | some (.frame f) => (addData f.frame.start (fun u => { u with frames := u.frames ++ [f] }) st, false)
  | some (.block b) => (addData b.start (fun u => { u with blocks := u.blocks ++ [b] }) st, false)
  | some .delimiter => ({ st with current := { st.current with delimiter := true } }, st.current.delimiter)

/-- `ObuProcessor::ProcessTemporalUnit` (obu_processor.cc:581-647): status with output and `continue_processing`, and the state.
The first argument bounds the number of iterations; running out of it is reported as divergence. -/
def processUnitLoop (c : ProcContext) (eos : Bool) : Nat → ProcState → Rd (Except Err (Option OutputUnit × Bool) × ProcState)
  | 0, _ => .fail .diverge
  | fuel + 1, st => .attempt (processObu c st) fun
    | .error e => .ret (.error e, st)
    | .ok (cont, out, st1) =>
      let (st2, delimiterEnd) := collectOut out st1
      if (!cont && eos) || st2.next.timestamp.isSome || delimiterEnd then
        if st2.current.frames.isEmpty && st2.current.blocks.isEmpty then .ret (.ok (none, cont), st2)
        else .ret (.ok (some ⟨st2.current.frames, st2.current.blocks, st2.current.timestamp.getD 0⟩, cont),
          { st2 with current := st2.next, next := .empty })
      else if cont then processUnitLoop c eos fuel st2
      else .ret (.ok (none, cont), st2)

/-- `ProcessTemporalUnit`.  Every iteration but the last consumes an OBU, so that there are at most as many as there are bytes. -/
def processUnit (c : ProcContext) (eos : Bool) (st : ProcState) : Rd (Except Err (Option OutputUnit × Bool) × ProcState) :=
  .avail fun n => processUnitLoop c eos (n.toNat + 1) st

end Iamf
