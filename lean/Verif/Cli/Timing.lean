import Verif.Cli.Parameters
/-
  Timestamps: iamf/cli/global_timing_module.{h,cc}.
-/
namespace Iamf

/-- `GlobalTimingModule::TimingData` (global_timing_module.h:83-89). -/
structure TimingData where
  rate : UInt32
  timestamp : Int
  deriving DecidableEq, Repr

/-- `GlobalTimingModule` (global_timing_module.h:113-114).  The hash maps are lists in their iteration order, with
distinct keys.  Timestamps (`int64_t`) are unbounded here: overflow would take more than 2^31 frames of the longest
duration. -/
structure TimingModule where
  frames : List (UInt32 × TimingData)
  blocks : List (UInt32 × TimingData)
  deriving DecidableEq, Repr

/-- The part of an audio element that `Create` looks at: substream ids and the output sample rate of its codec
config. -/
structure TimedElement where
  substreams : List UInt32
  sampleRate : UInt32
  deriving DecidableEq, Repr

/-- One loop of `InitializeInternal` (global_timing_module.cc:49-64, 68-85): ids with their rates, inserted one by one. -/
def initTiming : List (UInt32 × UInt32) → List (UInt32 × TimingData) → Except Err (List (UInt32 × TimingData))
  | [], m => .ok m
  | (id, rate) :: l, m =>
    if rate = 0 then .error .invalidArgument
    else if (m.lookup id).isSome then .error .invalidArgument
    else initTiming l (m ++ [(id, ⟨rate, 0⟩)])

/-- `GlobalTimingModule::Create` (global_timing_module.cc:39-109); a null pointer is `none`. -/
def TimingModule.create (elements : List TimedElement) (params : List (UInt32 × UInt32)) : Option TimingModule :=
  match initTiming (elements.flatMap fun e => e.substreams.map fun s => (s, e.sampleRate)) [] with
  | .error _ => none
  | .ok fs => match initTiming params [] with
    | .error _ => none
    | .ok bs => some ⟨fs, bs⟩

/-- Assignment to the timestamp of an existing entry. -/
def advance (id : UInt32) (d : Int) : List (UInt32 × TimingData) → List (UInt32 × TimingData)
  | [] => []
  | (i, t) :: l => if i = id then (i, { t with timestamp := t.timestamp + d }) :: l else (i, t) :: advance id d l

/-- `GetTimestampsForId` (global_timing_module.cc:153-174): status, start and end; and the map afterwards. -/
def timestampsForId (id : UInt32) (duration : UInt32) (m : List (UInt32 × TimingData)) :
    (Except Err Unit × Int × Int) × List (UInt32 × TimingData) :=
  match m.lookup id with
  | none => ((.error .invalidArgument, 0, duration.toNat), m)
  | some t => ((.ok (), t.timestamp, t.timestamp + duration.toNat), advance id duration.toNat m)

namespace TimingModule

/-- `GetNextAudioFrameTimestamps` (global_timing_module.cc:111-117). -/
def nextFrame (g : TimingModule) (id duration : UInt32) : (Except Err Unit × Int × Int) × TimingModule :=
  ((timestampsForId id duration g.frames).1, { g with frames := (timestampsForId id duration g.frames).2 })

/-- `GetNextParameterBlockTimestamps` (global_timing_module.cc:119-130): the state advances before the start is
compared. -/
def nextBlock (g : TimingModule) (id : UInt32) (start : Int) (duration : UInt32) :
    (Except Err Unit × Int × Int) × TimingModule :=
  let r := timestampsForId id duration g.blocks
  ((match r.1.1 with
    | .error e => .error e
    | .ok () => if start = r.1.2.1 then .ok () else .error .invalidArgument, r.1.2), { g with blocks := r.2 })

/-- `GetGlobalAudioFrameTimestamp` (global_timing_module.cc:132-151). -/
def globalTimestamp (g : TimingModule) : Except Err (Option Int) :=
  match g.frames with
  | [] => .error .invalidArgument
  | (_, t) :: _ => .ok (if g.frames.all fun x => t.timestamp == x.2.timestamp then some t.timestamp else none)

end TimingModule

/-- Requests for timestamps. -/
inductive TimingCall where
  | frame (id duration : UInt32)
  | block (id : UInt32) (start : Int) (duration : UInt32)
  deriving DecidableEq, Repr

def TimingModule.call (g : TimingModule) : TimingCall → (Except Err Unit × Int × Int) × TimingModule
  | .frame i d => g.nextFrame i d
  | .block i s d => g.nextBlock i s d

/-- The state after a history of requests. -/
def TimingModule.after (g : TimingModule) : List TimingCall → TimingModule
  | [] => g
  | c :: cs => (g.call c).2.after cs

end Iamf
