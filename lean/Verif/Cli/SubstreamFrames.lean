import Verif.Base
/-
  Frames of samples waiting for an encoder: iamf/cli/substream_frames.h.

  The class keeps two linked lists of frames, those in use and those to be used again, and for every channel an iterator to the frame that the
  next sample goes to.  Iterators stay valid, and keep pointing to the same frame, when `splice` moves it from one list to the other.  Here
  a list is a list of the numbers of frames, and an iterator is such a number.  Counts of samples are assumed to fit an `int`.
-/
namespace Iamf

/-- `SubstreamFrames` (substream_frames.h:45-198).  `nodes` are the frames in both lists; the iterators have no meaning before the first
frame is added. -/
structure SubstreamFrames (S : Type) where
  channels : Nat
  perFrame : Nat
  nodes : List (List (List S))
  frames : List Nat
  recycled : List Nat
  current : List (Option Nat)
  deriving DecidableEq, Repr

namespace SubstreamFrames
variable {S : Type}

/-- `AppendEmptyFrame` (substream_frames.h:172-184). -/
def appendEmptyFrame (f : SubstreamFrames S) : SubstreamFrames S := match f.recycled with
  | [] => ⟨f.channels, f.perFrame, f.nodes ++ [List.replicate f.channels []], f.frames ++ [f.nodes.length], [], f.current⟩
  | r :: rs => ⟨f.channels, f.perFrame, f.nodes.modify r (fun frame => frame.map fun _ => []), f.frames ++ [r], rs, f.current⟩

/-- `EnsureNonEmpty` (substream_frames.h:161-168). -/
def ensureNonEmpty (f : SubstreamFrames S) : SubstreamFrames S :=
  if f.frames.isEmpty then
    let g := f.appendEmptyFrame
    ⟨g.channels, g.perFrame, g.nodes, g.frames, g.recycled, List.replicate g.current.length g.frames.head?⟩
  else f

/-- The constructor (substream_frames.h:52-57). -/
def create (channels perFrame : Nat) : SubstreamFrames S :=
  ensureNonEmpty ⟨channels, perFrame, [], [], [], List.replicate channels none⟩

/-- `Empty` (substream_frames.h:64-78). -/
def empty (f : SubstreamFrames S) : Bool :=
  f.frames.all fun i => (f.nodes.getD i []).all List.isEmpty

/-- `Front` (substream_frames.h:84-87): the frame and the object. -/
def front (f : SubstreamFrames S) : Except Err (List (List S) × SubstreamFrames S) :=
  let g := f.ensureNonEmpty
  match g.frames with
  | [] => .error .ub
  | i :: _ => match g.nodes[i]? with
    | none => .error .ub
    | some frame => .ok (frame, g)

/-- The element after `i` in a list. -/
def following (i : Nat) : List Nat → Option Nat
  | a :: b :: l => if a = i then some b else following i (b :: l)
  | _ => none

/-- `++` for an iterator, which may point into either list. -/
def next (f : SubstreamFrames S) (i : Nat) : Option Nat := if i ∈ f.frames then following i f.frames else following i f.recycled

/-- `GetChannelInNonFullFrame` (substream_frames.h:147-158): the number of the frame and the object. -/
def nonFullFrame (f : SubstreamFrames S) (channel : Nat) : Except Err (Nat × SubstreamFrames S) :=
  let f := f.ensureNonEmpty
  match f.current[channel]? with
  | some (some i) => match f.nodes[i]?.bind (fun frame => frame[channel]?) with
    | none => .error .ub
    | some samples =>
      if samples.length = f.perFrame then
        let f := if f.frames.getLast? = some i then f.appendEmptyFrame else f
        match f.next i with
        | none => .error .ub
        | some j => .ok (j, ⟨f.channels, f.perFrame, f.nodes, f.frames, f.recycled, f.current.set channel (some j)⟩)
      else .ok (i, f)
  | _ => .error .ub

/-- Adds samples to a channel of a frame. -/
def add (f : SubstreamFrames S) (i channel : Nat) (s : List S) : SubstreamFrames S :=
  ⟨f.channels, f.perFrame, f.nodes.modify i (fun frame => frame.modify channel (· ++ s)), f.frames, f.recycled, f.current⟩

/-- `PushSample` (substream_frames.h:94-98). -/
def push (f : SubstreamFrames S) (channel : Nat) (s : S) : Except Err (SubstreamFrames S) :=
  if f.channels ≤ channel then .error .abort
  else do
    let (i, f) ← f.nonFullFrame channel
    .ok (f.add i channel [s])

/-- The loop over the channels in `PadZeros` (substream_frames.h:109-118), for `left` samples that are still missing: how many were added to
the last channel. -/
def padChannels (zero : S) (left : Nat) : List Nat → Nat → SubstreamFrames S → Except Err (Nat × SubstreamFrames S)
  | [], added, f => .ok (added, f)
  | channel :: cs, _, f => do
    let (i, f) ← f.nonFullFrame channel
    let size := ((f.nodes.getD i []).getD channel []).length
    let k := min (f.perFrame - size) left
    if k = 0 then .error .abort
    else padChannels zero left cs k (f.add i channel (List.replicate k zero))

/-- The outer loop of `PadZeros` (substream_frames.h:106-120).  `fuel` bounds the iterations; each adds a sample if there is a channel. -/
def padLoop (zero : S) : Nat → Nat → SubstreamFrames S → Except Err (SubstreamFrames S)
  | _, 0, f => .ok f
  | 0, _, _ => .error .diverge
  | fuel + 1, left, f => do
    let (k, f) ← padChannels zero left (List.range f.channels) 0 f
    padLoop zero fuel (left - k) f

/-- `PadZeros` (substream_frames.h:103-121). -/
def padZeros (f : SubstreamFrames S) (zero : S) (n : Nat) : Except Err (SubstreamFrames S) := padLoop zero n n f

/-- `PopFront` (substream_frames.h:127-133). -/
def popFront (f : SubstreamFrames S) : SubstreamFrames S := match f.frames with
  | [] => f
  | i :: is => ⟨f.channels, f.perFrame, f.nodes, is, f.recycled ++ [i], f.current⟩

end SubstreamFrames
end Iamf
