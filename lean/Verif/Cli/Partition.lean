import Verif.Cli.MixGain
import Verif.Cli.Output
import Mathlib.Algebra.Field.Rat
/-
  Partitioning of parameter block metadata into blocks of one frame each: iamf/cli/parameter_block_partitioner.cc,
  `CreateSubblockScheduleFromMetadata` of iamf/cli/proto_conversion/proto_utils.cc and `PartitionParameterMetadata` of
  iamf/cli/encoder_main_lib.cc.

  As in Cli/MixGain, `float`s are numbers without rounding.  Times are unbounded: the code adds in 64 bits.
-/
namespace Iamf

/-- `AnimatedParameterDataInt16` (parameter_data.proto). -/
inductive GainMetadata where
  | unset
  | step (start : Int32)
  | linear (start stop : Int32)
  | bezier (start stop control : Int32) (relTime : UInt32)
  deriving DecidableEq, Repr

/-- What a `ParameterSubblock` (parameter_block.proto) holds. -/
inductive SubblockContent where
  | unset
  | mixGain (g : GainMetadata)
  | demixing (mode reserved : UInt32)
  | reconGain (layers : List (List (UInt32 × UInt32)))
  deriving DecidableEq, Repr

/-- `ParameterSubblock` (parameter_block.proto). -/
structure SubblockMetadata where
  duration : UInt32
  content : SubblockContent
  deriving DecidableEq, Repr

/-- `ParameterBlockObuMetadata` (parameter_block.proto:36-46); `H` stands for the header, which is only copied. -/
structure BlockMetadata (H : Type) where
  id : UInt32
  duration : UInt32
  constantSubblockDuration : UInt32
  subblocks : List SubblockMetadata
  start : Int
  header : H
  deriving DecidableEq

/-- `FloatToQ7_8` (numeric_utils.cc:41-49), without NaN. -/
def floatToQ78 (x : Rat) : Except Err Int16 :=
  if x < -128 ∨ 128 - 1 / 256 < x then .error .unknown else .ok (Int16.ofInt (truncRat (x * 256)))

/-- The values that the getters of `InterpolateMixGainParameterData` (parameter_block_partitioner.cc:50-72) return: cast to 16 bits, without
a check. -/
def GainMetadata.narrowed : GainMetadata → Option MixGainData
  | .unset => none
  | .step s => some (.step s.toInt16)
  | .linear s e => some (.linear s.toInt16 e.toInt16)
  | .bezier s e c r => some (.bezier s.toInt16 e.toInt16 c.toInt16 r.toUInt8)

/-- `InterpolateMixGainParameterData` (parameter_block_partitioner.cc:41-78). -/
def GainMetadata.interpolate (M : GainMath Rat) (g : GainMetadata) (start stop target : Int) : Except Err Int16 :=
  match g.narrowed with
  | none => .error .invalidArgument
  | some d => do
    let db ← interpolateMixGain M d start stop target
    floatToQ78 db

/-- `PartitionMixGain` (parameter_block_partitioner.cc:96-167).  (For a line, both ends are computed before the first status is looked at;
which of two errors is reported is the same.) -/
def GainMetadata.partition (M : GainMath Rat) (g : GainMetadata) (start stop partStart partStop : Int) : Except Err GainMetadata :=
  match g with
  | .step _ => do
    let s ← g.interpolate M start stop partStart
    .ok (.step s.toInt32)
  | .linear .. => do
    let s ← g.interpolate M start stop partStart
    let e ← g.interpolate M start stop partStop
    .ok (.linear s.toInt32 e.toInt32)
  | .bezier .. => if start = partStart ∧ stop = partStop then .ok g else .error .invalidArgument
  | .unset => .error .invalidArgument

/-- `CreateSubblockScheduleFromMetadata` (proto_utils.cc:188-221). -/
def BlockMetadata.schedule {H : Type} (b : BlockMetadata H) : Except Err SubblockSchedule :=
  if b.constantSubblockDuration ≠ 0 then do
    let s ← SubblockSchedule.createConstant b.duration b.constantSubblockDuration
    if s.numSubblocks.toNat ≠ b.subblocks.length then .error .invalidArgument else .ok s
  else do
    let s ← SubblockSchedule.createVariable (b.subblocks.map SubblockMetadata.duration)
    if s.duration ≠ b.duration then .error .invalidArgument else .ok s

/-- What is put into a part of a subblock (parameter_block_partitioner.cc:242-267); `first`: no part was added before. -/
def SubblockContent.partition (M : GainMath Rat) (c : SubblockContent) (start stop partStart partStop : Int) (first : Bool) :
    Except Err SubblockContent :=
  match c with
  | .mixGain g => do
    let g ← g.partition M start stop partStart partStop
    .ok (.mixGain g)
  | .demixing .. | .reconGain .. => if first then .ok c else .error .invalidArgument
  | .unset => .error .invalidArgument

/-- The loop of `GetPartitionedSubblocks` (parameter_block_partitioner.cc:207-276) from the subblock `i` on: `now` is `current_time`,
`total` is `total_covered_duration`, `out` are the parts so far. -/
def partitionLoop (M : GainMath Rat) (s : SubblockSchedule) (partStart partStop : Int) : Nat → Int → Int → List SubblockMetadata →
    List SubblockMetadata → Except Err (List SubblockMetadata × Int)
  | _, _, total, out, [] => .ok (out, total)
  | i, now, total, out, x :: xs => do
    let d ← s.getSubblockDuration i
    let stop := now + d.toNat
    if stop ≤ partStart ∨ partStop ≤ now then partitionLoop M s partStart partStop (i + 1) stop total out xs
    else do
      let a := max partStart now
      let b := min partStop stop
      let duration := UInt32.ofInt (b - a)
      let c ← x.content.partition M now stop a b out.isEmpty
      let out := out ++ [⟨duration, c⟩]
      let total := total + duration.toNat
      if partStop ≤ stop then .ok (out, total)
      else partitionLoop M s partStart partStop (i + 1) stop total out xs

/-- The loop of `FindConstantSubblockDuration` (parameter_block_partitioner.cc:307-321). -/
def constantLoop (c : UInt32) : List UInt32 → UInt32
  | [] => c
  | [d] => if d ≤ c then c else if d ≠ c then 0 else c
  | d :: ds => if d ≠ c then 0 else constantLoop c ds

/-- `FindConstantSubblockDuration` (parameter_block_partitioner.cc:300-324). -/
def findConstantSubblockDuration : List UInt32 → UInt32
  | [] => 0
  | d :: ds => constantLoop d (d :: ds)

/-- `GetPartitionedSubblocks` (parameter_block_partitioner.cc:184-296). -/
def BlockMetadata.partitionedSubblocks {H : Type} (M : GainMath Rat) (b : BlockMetadata H) (partStart partStop : Int) :
    Except Err (List SubblockMetadata × UInt32) := do
  let s ← b.schedule
  let (out, total) ← partitionLoop M s partStart partStop 0 b.start 0 [] b.subblocks
  if partStop - partStart ≠ total then .error .invalidArgument
  else .ok (out, findConstantSubblockDuration (out.map SubblockMetadata.duration))

/-- `PartitionParameterBlock` (parameter_block_partitioner.cc:350-384). -/
def BlockMetadata.partition {H : Type} (M : GainMath Rat) (b : BlockMetadata H) (partStart partStop : Int) : Except Err (BlockMetadata H) :=
  if partStop ≤ partStart then .error .invalidArgument
  else do
    let (out, csd) ← b.partitionedSubblocks M partStart partStop
    .ok ⟨b.id, UInt32.ofInt (partStop - partStart), csd, out, partStart, b.header⟩

/-- The loop of `PartitionFrameAligned` (parameter_block_partitioner.cc:393-403).  `fuel` bounds the iterations; as many as there are ticks
are enough, since a `partition_duration` of 0 fails at once.  What was added before a failure is dropped. -/
def partitionFrames {H : Type} (M : GainMath Rat) (b : BlockMetadata H) (duration : UInt32) (stop : Int) : Nat → Int →
    Except Err (List (BlockMetadata H))
  | 0, t => if t < stop then .error .diverge else .ok []
  | fuel + 1, t =>
    if t < stop then do
      let x ← b.partition M t (t + duration.toNat)
      let xs ← partitionFrames M b duration stop fuel (t + duration.toNat)
      .ok (x :: xs)
    else .ok []

/-- `PartitionFrameAligned` (parameter_block_partitioner.cc:386-405). -/
def BlockMetadata.partitionFrameAligned {H : Type} (M : GainMath Rat) (b : BlockMetadata H) (duration : UInt32) :
    Except Err (List (BlockMetadata H)) :=
  partitionFrames M b duration (b.start + b.duration.toNat) b.duration.toNat b.start

/-- `PartitionParameterMetadata` (encoder_main_lib.cc:58-84): the new list of blocks.  The profile of the first sequence header decides
whether partitioning is done, and the number of samples in a frame of the first codec config is how long the parts are. -/
def partitionParameterMetadata {H : Type} (M : GainMath Rat) (profiles : List UInt8) (frameSizes : List UInt32)
    (blocks : List (BlockMetadata H)) : Except Err (List (BlockMetadata H)) :=
  match profiles, frameSizes with
  | profile :: _, n :: _ =>
    if profile ≠ 0 ∧ profile ≠ 1 ∧ profile ≠ 2 then .error .invalidArgument
    else do
      let parts ← blocks.mapM fun b => b.partitionFrameAligned M n
      .ok parts.flatten
  | _, _ => .error .invalidArgument

end Iamf
