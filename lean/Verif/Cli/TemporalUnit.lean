import Verif.Cli.Parameters
import Verif.Obu.Simple
/-
  Temporal units: iamf/cli/temporal_unit_view.{h,cc}.
-/
namespace Iamf

/-! ### Sorting -/

/-- Insert into a sorted list. -/
def insertBy {α : Type} (le : α → α → Bool) (a : α) : List α → List α
  | [] => [a]
  | b :: l => if le a b then a :: b :: l else b :: insertBy le a l

/-- `absl::c_sort`.  The standard only says that the result is a sorted permutation; this is one.  Where the code
uses it, no two elements are equivalent, so that there is only one (see `C20`). -/
def sortBy {α : Type} (le : α → α → Bool) : List α → List α
  | [] => []
  | a :: l => insertBy le a (sortBy le l)

/-! ### The view -/

/-- `AudioFrameWithData` (audio_frame_with_data.h:27-53), without samples and mixing parameters.  Of the audio element
it points to, only the id and, of its codec config, the number of samples per frame matter here; both pointers may
be null. -/
structure FrameWithData where
  header : ObuHeader
  frame : AudioFrame
  start : Int
  stop : Int
  element : Option (UInt32 × Option UInt32)
  deriving DecidableEq, Repr

/-- The id of the audio element of a frame; 0 for a null pointer, which is excluded where this is used. -/
def FrameWithData.elementId (f : FrameWithData) : UInt32 := match f.element with | some (i, _) => i | none => 0

/-- `TemporalUnitStatistics` (temporal_unit_view.cc:39-47). -/
structure UnitStatistics where
  samplesPerFrame : UInt32
  trimEnd : UInt32
  trimStart : UInt32
  untrimmed : UInt32
  start : Int
  stop : Int
  needsInvalidObu : Bool
  deriving DecidableEq, Repr

/-- `ComputeTemporalUnitStatisticsFromAudioFrame` (temporal_unit_view.cc:49-81); the sum of the trims is a `uint32_t`. -/
def statisticsFromFrame : Option FrameWithData → Except Err UnitStatistics
  | none => .error .invalidArgument
  | some f =>
    match f.element with
    | none => .error .invalidArgument
    | some (_, none) => .error .invalidArgument
    | some (_, some n) =>
      let trim := f.header.trimStart + f.header.trimEnd
      if trim ≤ n then .ok ⟨n, f.header.trimEnd, f.header.trimStart, n - trim, f.start, f.stop, false⟩
      else .error .invalidArgument

/-- `ComputeTemporalUnitStatisticsFromArbitraryObu` (temporal_unit_view.cc:86-101). -/
def statisticsFromArbitrary : Option ArbitraryObu → Except Err UnitStatistics
  | none => .error .invalidArgument
  | some o =>
    match o.insertionTick with
    | none => .error .invalidArgument
    | some t => .ok ⟨0, 0, 0, 0, t, t, true⟩

/-- `ValidateAllParameterBlocksMatchStatistics` (temporal_unit_view.cc:103-125). -/
def checkBlocks (s : UnitStatistics) : List (Option BlockWithData) → List UInt32 → Except Err Unit
  | [], _ => .ok ()
  | none :: _, _ => .error .invalidArgument
  | some b :: l, seen =>
    if b.obu.parameterId ∈ seen then .error .invalidArgument
    else if b.start ≠ s.start then .error .invalidArgument
    else if b.stop ≠ s.stop then .error .invalidArgument
    else checkBlocks s l (b.obu.parameterId :: seen)

/-- `ValidateAllAudioFramesMatchStatistics` (temporal_unit_view.cc:127-163). -/
def checkFrames (s : UnitStatistics) : List (Option FrameWithData) → List UInt32 → Except Err Unit
  | [], _ => .ok ()
  | none :: _, _ => .error .invalidArgument
  | some f :: l, seen =>
    if f.frame.substreamId ∈ seen then .error .invalidArgument
    else match f.element with
      | none => .error .invalidArgument
      | some (_, none) => .error .invalidArgument
      | some (_, some _) =>
        if f.header.trimEnd ≠ s.trimEnd then .error .invalidArgument
        else if f.header.trimStart ≠ s.trimStart then .error .invalidArgument
        else if f.start ≠ s.start then .error .invalidArgument
        else if f.stop ≠ s.stop then .error .invalidArgument
        else checkFrames s l (f.frame.substreamId :: seen)

/-- `ValidateAllArbitraryObusMatchStatistics` (temporal_unit_view.cc:165-187). -/
def checkArbitrary (s : UnitStatistics) : List (Option ArbitraryObu) → Bool → Except Err Unit
  | [], seenInvalid => if s.needsInvalidObu && !seenInvalid then .error .invalidArgument else .ok ()
  | none :: _, _ => .error .invalidArgument
  | some o :: l, seenInvalid =>
    match o.insertionTick with
    | none => .error .invalidArgument
    | some t => if t ≠ s.start then .error .invalidArgument else checkArbitrary s l (seenInvalid || o.invalidatesBitstream)

/-- Non-strict form of `CompareParameterId` (temporal_unit_view.cc:189-195). -/
def blockLe (a b : BlockWithData) : Bool := decide (a.obu.parameterId ≤ b.obu.parameterId)

/-- Non-strict form of `CompareAudioElementIdAudioSubstreamId` (temporal_unit_view.cc:197-211). -/
def frameLe (a b : FrameWithData) : Bool :=
  if a.elementId ≠ b.elementId then decide (a.elementId < b.elementId)
  else decide (a.frame.substreamId ≤ b.frame.substreamId)

/-- `TemporalUnitView` (temporal_unit_view.h:95-104). -/
structure TemporalUnitView where
  blocks : List BlockWithData
  frames : List FrameWithData
  arbitrary : List ArbitraryObu
  start : Int
  stop : Int
  trimStart : UInt32
  untrimmed : UInt32
  deriving DecidableEq, Repr

/-- `TemporalUnitView::CreateFromPointers` (temporal_unit_view.cc:215-264).  At the end no pointer is null. -/
def TemporalUnitView.createFromPointers (blocks : List (Option BlockWithData)) (frames : List (Option FrameWithData))
    (arbitrary : List (Option ArbitraryObu)) : Except Err TemporalUnitView := do
  let s ← match frames, arbitrary with
    | f :: _, _ => statisticsFromFrame f
    | [], o :: _ => statisticsFromArbitrary o
    | [], [] => .error .invalidArgument
  checkFrames s frames []
  checkBlocks s blocks []
  checkArbitrary s arbitrary false
  return ⟨sortBy blockLe (blocks.filterMap id), sortBy frameLe (frames.filterMap id), arbitrary.filterMap id,
    s.start, s.stop, s.trimStart, s.untrimmed⟩

/-- `TemporalUnitView::Create` (temporal_unit_view.h:59-86): the same for containers of values. -/
def TemporalUnitView.create (blocks : List BlockWithData) (frames : List FrameWithData) (arbitrary : List ArbitraryObu) :
    Except Err TemporalUnitView :=
  TemporalUnitView.createFromPointers (blocks.map some) (frames.map some) (arbitrary.map some)

end Iamf
