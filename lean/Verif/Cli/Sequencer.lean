import Verif.Cli.Profile
import Verif.Cli.TemporalUnit
/-
  Writing an IA Sequence: iamf/cli/obu_sequencer_base.{h,cc}, obu_sequencer_iamf.{h,cc} (to a file) and
  obu_sequencer_streaming_iamf.{h,cc} (to memory).
-/
namespace Iamf

/-! ### Serialization -/

/-- An OBU object: `ObuBase::header_`, the derived part, and `footer_` (obu_base.h). -/
structure Obu (α : Type) where
  header : ObuHeader
  body : α
  footer : List UInt8
  deriving DecidableEq, Repr

/-- The arguments of `PushDescriptorObus` and `UpdateDescriptorObusAndClose` (obu_sequencer_base.h:86-92).  The hash maps are lists in
their iteration order, with distinct keys. -/
structure SequenceObus where
  sequenceHeader : Obu IaSequenceHeader
  metadata : List (Obu Metadata)
  codecs : List (UInt32 × Obu CodecObu)
  elements : List (UInt32 × Obu ElementWithData)
  mixes : List (Obu MixPresentation)
  arbitrary : List ArbitraryObu

/-- Order of keys, for `SortedKeys` (obu_sequencer_base.cc:93-103). -/
def keyLe {α : Type} (a b : UInt32 × α) : Bool := decide (a.1 ≤ b.1)

/-- `FilterProfilesForMixPresentation` as called by `WriteDescriptorObus` (obu_sequencer_base.cc:288-292): the set of the two profiles
of the sequence header, of which one must support the mix. -/
def mixIsSupported (s : IaSequenceHeader) (elements : List (UInt32 × ElementWithData)) (m : MixPresentation) : Except Err Unit :=
  (filterMix elements m (if s.primaryProfile = s.additionalProfile then [s.primaryProfile]
    else [s.primaryProfile, s.additionalProfile])).1

/-- `WriteDescriptorObus` (obu_sequencer_base.cc:226-304).  Each of codec configs and audio elements in ascending order of the keys
of the map.  The keys of `ArbitraryObu::InsertionHook` are numbers (arbitrary_obu.h:41-51). -/
def wDescriptorObus (d : SequenceObus) : Wr Unit := do
  wObu d.sequenceHeader.header d.sequenceHeader.body.write d.sequenceHeader.footer
  writeObusWithHook 2 d.arbitrary
  wAll (fun o => wObu o.header o.body.write o.footer) d.metadata
  wAll (fun c => wObu c.2.header c.2.body.config.write c.2.footer) (sortBy keyLe d.codecs)
  writeObusWithHook 3 d.arbitrary
  wAll (fun e => wObu e.2.header e.2.body.obu.write e.2.footer) (sortBy keyLe d.elements)
  writeObusWithHook 4 d.arbitrary
  wAll (fun m => (Wr.status (mixIsSupported d.sequenceHeader.body (d.elements.map fun e => (e.1, e.2.body)) m.body)).bind fun _ =>
    wObu m.header (m.body.write m.header.optionalFieldsFlag) m.footer) d.mixes
  writeObusWithHook 5 d.arbitrary

/-- What `PushDescriptorObus` and `UpdateDescriptorObusAndClose` write (obu_sequencer_base.cc:353-361, 459-467). -/
def wSequenceObus (d : SequenceObus) : Wr Unit := do
  writeObusWithHook 0 d.arbitrary
  wDescriptorObus d
  writeObusWithHook 1 d.arbitrary

/-- The header of a temporal delimiter made from `ObuHeader()` (obu_sequencer_base.cc:188, temporal_delimiter.h). -/
def delimiterHeader : ObuHeader := ⟨4, false, false, 0, 0, none⟩

/-- `WriteTemporalUnit` (obu_sequencer_base.cc:179-220), but for the check at its end. -/
def wTemporalUnit (delimiters : Bool) (u : TemporalUnitView) : Wr Unit := do
  (if delimiters then wObu delimiterHeader wTemporalDelimiter [] else pure ())
  writeObusWithHook 6 u.arbitrary
  wAll (fun b => wObu b.header (b.obu.write b.definition) []) u.blocks
  writeObusWithHook 7 u.arbitrary
  wAll (fun f => wObu f.header (f.frame.write f.header.obuType) []) u.frames
  writeObusWithHook 8 u.arbitrary

/-- Running a program on `wb_` after `Reset` (write_bit_buffer.cc:289-292): the status and what is then in `bit_buffer()`. -/
def serialize (g : LebGen) (p : Wr Unit) : Except Err WBuf :=
  match p.run (WBuf.empty g) with
  | (.ok (), w) => .ok w
  | (.error e, _) => .error e

/-! ### Statistics -/

/-- Insertion of all elements into a `flat_hash_set`. -/
def asSet {α : Type} [DecidableEq α] (l : List α) : List α := l.foldl (fun s a => if a ∈ s then s else s ++ [a]) []

/-- `GetCommonSampleRateAndBitDepth` (cli_util.cc:202-232) on sets: sample rate, bit depth and `requires_resampling`. -/
def commonRateAndDepth (rates : List UInt32) (depths : List UInt8) : Except Err (UInt32 × UInt8 × Bool) :=
  match rates, depths with
  | [], _ => .error .invalidArgument
  | _, [] => .error .invalidArgument
  | r :: rs, d :: ds =>
    .ok (if rs.isEmpty then r else 48000, if ds.isEmpty then d else 16, !rs.isEmpty)

/-- `GetCommonSamplesPerFrame` (cli_util.cc:234-253); without codec configs the output is left as it was. -/
def commonSamplesPerFrame (codecs : List CodecObu) (fallback : UInt32) : Except Err UInt32 :=
  match codecs with
  | [] => .ok fallback
  | c :: cs => if cs.all fun x => x.config.numSamplesPerFrame == c.config.numSamplesPerFrame
      then .ok c.config.numSamplesPerFrame else .error .unknown

/-- `DescriptorStatistics` (obu_sequencer_base.h:236-243). -/
structure DescriptorStatistics where
  samplesPerFrame : UInt32
  sampleRate : UInt32
  bitDepth : UInt8
  numChannels : Nat
  firstUntrimmed : Option Int
  bytes : List UInt8
  deriving DecidableEq, Repr

/-- `FillDescriptorStatistics` (obu_sequencer_base.cc:149-177) with the local `GetCommonSampleRateAndBitDepth` (121-146). -/
def descriptorStatistics (codecs : List CodecObu) (bytes : List UInt8) : Except Err DescriptorStatistics := do
  let r ← (if codecs.isEmpty then .ok (48000, 16, false)
    else commonRateAndDepth (asSet (codecs.map (·.outputRate))) (asSet (codecs.map (·.bitDepth))))
  if r.2.2 then .error .unimplemented
  else do
    let n ← commonSamplesPerFrame codecs 1024
    .ok ⟨n, r.1, r.2.1, 2, none, bytes⟩

/-! ### The base class -/

/-- A derived class: its state and the pure virtual functions (obu_sequencer_base.h:126-190). -/
structure Sink (σ : Type) where
  pushDescriptors : DescriptorStatistics → σ → Except Err Unit × σ
  pushUnit : Int → UInt32 → Bool → List UInt8 → σ → Except Err Unit × σ
  pushFinalized : List UInt8 → σ → Except Err Unit × σ
  close : σ → σ
  abort : σ → σ

/-- `ObuSequencerBase::State` (obu_sequencer_base.h:212-223). -/
inductive SequencerPhase where
  | initialized
  | descriptorsCalled
  | descriptorsPushed
  | closed
  deriving DecidableEq, Repr

/-- `SerializedTemporalUnit` (obu_sequencer_base.h:256-261). -/
structure DelayedUnit where
  start : Int
  untrimmed : UInt32
  isKeyFrame : Bool
  bytes : List UInt8
  deriving DecidableEq, Repr

/-- `ObuSequencerBase` with its derived class.  The counters for logging are left out. -/
structure Sequencer (σ : Type) where
  lebs : LebGen
  delay : Bool
  delimiters : Bool
  phase : SequencerPhase
  statistics : Option DescriptorStatistics
  delayed : List DelayedUnit
  sink : σ

/-- The constructor (obu_sequencer_base.cc:308-315). -/
def Sequencer.create {σ : Type} (g : LebGen) (delimiters delay : Bool) (s : σ) : Sequencer σ :=
  ⟨g, delay, delimiters, .initialized, none, [], s⟩

namespace Sequencer
variable {σ : Type} (K : Sink σ)

/-- `Abort` (obu_sequencer_base.cc:538-541). -/
def abort (q : Sequencer σ) : Sequencer σ := { q with sink := K.abort q.sink, phase := .closed }

/-- The effect of `AbortOnDestruct` (obu_sequencer_base.cc:55-91): a failure aborts. -/
def abortOnFailure (r : Except Err Unit × Sequencer σ) : Except Err Unit × Sequencer σ :=
  match r with
  | (.ok (), q) => (.ok (), q)
  | (.error e, q) => (.error e, q.abort K)

/-- A call of the derived class. -/
def onSink (q : Sequencer σ) (r : Except Err Unit × σ) : Except Err Unit × Sequencer σ := (r.1, { q with sink := r.2 })

/-- `PushDescriptorObus` after the state has been checked (obu_sequencer_base.cc:349-386). -/
def pushDescriptorsBody (d : SequenceObus) (q : Sequencer σ) : Except Err Unit × Sequencer σ :=
  let q := { q with phase := .descriptorsCalled }
  match serialize q.lebs (wSequenceObus d) with
  | .error e => (.error e, q)
  | .ok w => match descriptorStatistics (d.codecs.map fun c => c.2.body) w.bytes with
    | .error e => (.error e, q)
    | .ok s =>
      let q := { q with statistics := some s }
      if q.delay then (.ok (), q)
      else match q.onSink (K.pushDescriptors s q.sink) with
        | (.error e, q) => (.error e, q)
        | (.ok (), q) => (.ok (), { q with phase := .descriptorsPushed })

/-- `PushDescriptorObus` (obu_sequencer_base.cc:332-389). -/
def pushDescriptors (d : SequenceObus) (q : Sequencer σ) : Except Err Unit × Sequencer σ :=
  abortOnFailure K (match q.phase with
    | .initialized => q.pushDescriptorsBody K d
    | .descriptorsCalled => (.error .failedPrecondition, q)
    | .descriptorsPushed => (.error .failedPrecondition, q)
    | .closed => (.error .failedPrecondition, q))

/-- The loop over delayed units (obu_sequencer_base.cc:589-595). -/
def pushDelayed : List DelayedUnit → σ → Except Err Unit × σ
  | [], s => (.ok (), s)
  | u :: us, s => match K.pushUnit u.start u.untrimmed u.isKeyFrame u.bytes s with
    | (.error e, s) => (.error e, s)
    | (.ok (), s) => pushDelayed us s

/-- `HandleInitialTemporalUnits` (obu_sequencer_base.cc:543-601).  `descriptor_statistics_` has a value where this is called; the sum
of a timestamp and a `uint32_t` is unbounded here. -/
def handleInitial (u : TemporalUnitView) (isKeyFrame : Bool) (bytes : List UInt8) (stats : DescriptorStatistics) (q : Sequencer σ) :
    Except Err Unit × Sequencer σ :=
  let found : Bool := u.untrimmed != 0
  let stats := if found then { stats with firstUntrimmed := some (u.start + u.trimStart.toNat) } else stats
  let q := { q with statistics := some stats }
  if !q.delay then q.onSink (K.pushUnit u.start u.untrimmed isKeyFrame bytes q.sink)
  else if !found then (.ok (), { q with delayed := q.delayed ++ [⟨u.start, u.untrimmed, isKeyFrame, bytes⟩] })
  else match q.onSink (K.pushDescriptors stats q.sink) with
    | (.error e, q) => (.error e, q)
    | (.ok (), q) =>
      let q := { q with phase := .descriptorsPushed }
      match q.onSink (pushDelayed K q.delayed q.sink) with
      | (.error e, q) => (.error e, q)
      | (.ok (), q) =>
        let q := { q with delayed := [] }
        q.onSink (K.pushUnit u.start u.untrimmed isKeyFrame bytes q.sink)

/-- `PushTemporalUnit` after the state has been checked (obu_sequencer_base.cc:409-445). -/
def pushUnitBody (u : TemporalUnitView) (q : Sequencer σ) : Except Err Unit × Sequencer σ :=
  match serialize q.lebs (wTemporalUnit q.delimiters u) with
  | .error e => (.error e, q)
  | .ok w =>
    if !w.isByteAligned then (.error .invalidArgument, q)
    else
      let isKeyFrame := u.arbitrary.any fun o => o.header.isKeyFrame
      match q.statistics with
      | none => (.error .ub, q)
      | some stats => match stats.firstUntrimmed with
        | none => q.handleInitial K u isKeyFrame w.bytes stats
        | some _ =>
          if u.trimStart > 0 then (.error .invalidArgument, q)
          else q.onSink (K.pushUnit u.start u.untrimmed isKeyFrame w.bytes q.sink)

/-- `PushTemporalUnit` (obu_sequencer_base.cc:391-449). -/
def pushUnit (u : TemporalUnitView) (q : Sequencer σ) : Except Err Unit × Sequencer σ :=
  abortOnFailure K (match q.phase with
    | .initialized => (.error .failedPrecondition, q)
    | .descriptorsCalled => q.pushUnitBody K u
    | .descriptorsPushed => q.pushUnitBody K u
    | .closed => (.error .failedPrecondition, q))

/-- The end of `Close` (obu_sequencer_base.cc:533-535). -/
def closeNow (q : Sequencer σ) : Except Err Unit × Sequencer σ := (.ok (), { q with sink := K.close q.sink, phase := .closed })

/-- `Close` (obu_sequencer_base.cc:506-536). -/
def close (q : Sequencer σ) : Except Err Unit × Sequencer σ :=
  match q.phase with
  | .initialized => q.closeNow K
  | .descriptorsCalled => match q.statistics with
    | none => (.error .ub, q)
    | some s =>
      let s := { s with firstUntrimmed := some 0 }
      let q := { q with statistics := some s }
      match q.onSink (K.pushDescriptors s q.sink) with
      | (.error e, q) => (.error e, q)
      | (.ok (), q) => closeNow K { q with phase := .descriptorsPushed }
  | .descriptorsPushed => q.closeNow K
  | .closed => (.error .failedPrecondition, q)

/-- `UpdateDescriptorObusAndClose` after the state has been checked (obu_sequencer_base.cc:468-503). -/
def updateBody (d : SequenceObus) (q : Sequencer σ) : Except Err Unit × Sequencer σ :=
  match serialize q.lebs (wSequenceObus d) with
  | .error e => (.error e, q)
  | .ok w => match q.statistics with
    | none => (.error .ub, q)
    | some old =>
      if w.bytes = old.bytes then q.close K
      else match descriptorStatistics (d.codecs.map fun c => c.2.body) w.bytes with
        | .error e => (.error e, q)
        | .ok new =>
          if old.samplesPerFrame ≠ new.samplesPerFrame ∨ old.sampleRate ≠ new.sampleRate ∨ old.bitDepth ≠ new.bitDepth ∨
              old.numChannels ≠ new.numChannels then (.error .failedPrecondition, q)
          else if old.bytes.length ≠ new.bytes.length then (.error .unimplemented, q)
          else match q.onSink (K.pushFinalized w.bytes q.sink) with
            | (.error e, q) => (.error e, q)
            | (.ok (), q) => close K { q with phase := .descriptorsPushed }

/-- `UpdateDescriptorObusAndClose` (obu_sequencer_base.cc:451-504). -/
def updateAndClose (d : SequenceObus) (q : Sequencer σ) : Except Err Unit × Sequencer σ :=
  abortOnFailure K (match q.phase with
    | .initialized => (.error .failedPrecondition, q)
    | .descriptorsCalled => q.updateBody K d
    | .descriptorsPushed => q.updateBody K d
    | .closed => (.error .failedPrecondition, q))

end Sequencer

/-- The public functions. -/
inductive SequencerCall where
  | pushDescriptors (d : SequenceObus)
  | pushUnit (u : TemporalUnitView)
  | updateAndClose (d : SequenceObus)
  | close
  | abort

namespace Sequencer
variable {σ : Type} (K : Sink σ)

def call (q : Sequencer σ) : SequencerCall → Except Err Unit × Sequencer σ
  | .pushDescriptors d => q.pushDescriptors K d
  | .pushUnit u => q.pushUnit K u
  | .updateAndClose d => q.updateAndClose K d
  | .close => q.close K
  | .abort => (.ok (), q.abort K)

/-- A history of calls: what each returned, and the sequencer afterwards. -/
def calls : List SequencerCall → Sequencer σ → List (Except Err Unit) × Sequencer σ
  | [], q => ([], q)
  | c :: cs, q => match q.call K c with
    | (r, q) => match calls cs q with
      | (rs, q) => (r :: rs, q)

end Sequencer

/-! ### To a file -/

/-- `ObuSequencerIamf` (obu_sequencer_iamf.h:92-95) and the file it writes.  `disk` is the content of the file of that name, if there is
one, and `position` that of the open stream.  `faults` says which of the next writes to the file fail, and after how many bytes; when
it is empty they succeed.  `wb_` is empty between calls and appends exactly the bytes given (C02), so that it is left out.  What the
stream buffers is taken as written; failures to open, seek, close and remove are not modelled. -/
structure FileOutput where
  named : Bool
  disk : Option (List UInt8)
  position : Option Nat
  faults : List (Option Nat)
  deriving DecidableEq, Repr

/-- Writing bytes at a position of a file. -/
def overwriteAt (content : List UInt8) (pos : Nat) (bytes : List UInt8) : List UInt8 :=
  content.take pos ++ bytes ++ content.drop (pos + bytes.length)

namespace FileOutput

/-- `WriteUint8Span` and `FlushAndWriteToFile` (write_bit_buffer.cc:128-141, 271-287). -/
def write (bytes : List UInt8) (f : FileOutput) : Except Err Unit × FileOutput :=
  match f.position with
  | none => (.ok (), f)
  | some p =>
    let put (b : List UInt8) := { f with disk := some (overwriteAt (f.disk.getD []) p b), position := some (p + b.length), faults := f.faults.tail }
    match f.faults with
    | some k :: _ => (.error .unknown, put (bytes.take k))
    | _ => (.ok (), put bytes)

/-- `PushSerializedDescriptorObus` (obu_sequencer_iamf.cc:72-85): the file is created, or truncated. -/
def pushDescriptors (s : DescriptorStatistics) (f : FileOutput) : Except Err Unit × FileOutput :=
  write s.bytes (if f.named then { f with disk := some [], position := some 0 } else f)

/-- `PushFinalizedDescriptorObus` (obu_sequencer_iamf.cc:94-109). -/
def pushFinalized (bytes : List UInt8) (f : FileOutput) : Except Err Unit × FileOutput :=
  match f.position with
  | none => (.ok (), f)
  | some p => match write bytes { f with position := some 0 } with
    | (.error e, f) => (.error e, f)
    | (.ok (), f) => (.ok (), { f with position := some p })

/-- `AbortDerived` (obu_sequencer_iamf.cc:118-121, 43-60). -/
def abort (f : FileOutput) : FileOutput :=
  if f.named && f.position.isSome then { f with position := none, disk := none } else f

/-- `CloseDerived` (obu_sequencer_iamf.cc:111-116). -/
def close (f : FileOutput) : FileOutput := { f with position := none }

end FileOutput

def fileSink : Sink FileOutput where
  pushDescriptors := FileOutput.pushDescriptors
  pushUnit := fun _ _ _ bytes f => f.write bytes
  pushFinalized := FileOutput.pushFinalized
  close := FileOutput.close
  abort := FileOutput.abort

/-- The constructor of `ObuSequencerIamf` (obu_sequencer_iamf.cc:64-70). -/
def fileSequencer (g : LebGen) (delimiters : Bool) (f : FileOutput) : Sequencer FileOutput := .create g delimiters false f

/-! ### To memory -/

/-- `ObuSequencerStreamingIamf` (obu_sequencer_streaming_iamf.h). -/
structure StreamingOutput where
  descriptors : List UInt8
  previousUnit : List UInt8
  deriving DecidableEq, Repr

/-- The functions of `ObuSequencerStreamingIamf` (obu_sequencer_streaming_iamf.cc:52-91). -/
def streamingSink : Sink StreamingOutput where
  pushDescriptors := fun s o => (.ok (), { o with descriptors := s.bytes })
  pushUnit := fun _ _ _ bytes o => (.ok (), { o with previousUnit := bytes })
  pushFinalized := fun bytes o => (.ok (), { o with descriptors := bytes })
  close := fun o => { o with previousUnit := [] }
  abort := fun _ => ⟨[], []⟩

/-- The constructor of `ObuSequencerStreamingIamf` (obu_sequencer_streaming_iamf.cc:36-39). -/
def streamingSequencer (g : LebGen) (delimiters : Bool) : Sequencer StreamingOutput := .create g delimiters false ⟨[], []⟩

end Iamf
