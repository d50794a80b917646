import Verif.Base
/-
  Rendered samples as bytes: iamf/cli/sample_processing_utils.cc, iamf/cli/cli_util.cc, iamf/common/utils/numeric_utils.{h,cc},
  iamf/api/conversion/channel_reorderer.cc and the functions of iamf/api/decoder/iamf_decoder.cc that write a frame.

  Samples are rational numbers: NaN and infinities, for which the conversion to an integer fails, do not exist here, and a product
  of two samples is exact.  (Multiplying by 2^31, the only arithmetic below, is exact for floating point numbers as well.)
-/
namespace Iamf

/-- Rendered samples: channels of samples. -/
abbrev Rendered := List (List Rat)

/-- `static_cast<int32_t>` of a number in range: rounding towards zero. -/
def truncRat (x : Rat) : Int := x.num.tdiv x.den

/-- `ClipDoubleToInt32` (numeric_utils.cc:101-115). -/
def clipToInt32 (x : Rat) : Int32 :=
  if x > 2147483647 then 2147483647
  else if x < -2147483648 then -2147483648
  else Int32.ofInt (truncRat x)

/-- `NormalizedFloatingPointToInt32` (numeric_utils.h:192-205). -/
def normalizedToInt32 (x : Rat) : Int32 := clipToInt32 ((if x < -1 then -1 else if 1 < x then 1 else x) * 2147483648)

/-- `Int32ToNormalizedFloatingPoint` (numeric_utils.h:167-176). -/
def int32ToNormalized (v : Int32) : Rat := (v.toInt : Rat) / 2147483648

/-- The loop of `WritePcmSample` (sample_processing_utils.cc:167-176): `shift` and the number of iterations left. -/
def pcmBytes (sample : UInt32) (sampleSize : Nat) (bigEndian : Bool) : Nat → Nat → List UInt8
  | _, 0 => []
  | shift, n + 1 =>
    (if bigEndian then ((sample >>> UInt32.ofNat ((32 - sampleSize) + (32 - (shift + 8)))) &&& 0xff).toUInt8
      else ((sample >>> UInt32.ofNat shift) &&& 0xff).toUInt8) :: pcmBytes sample sampleSize bigEndian (shift + 8) n

/-- `WritePcmSample` (sample_processing_utils.cc:158-179): the bytes that are written at the write position. -/
def writePcmSample (sample : UInt32) (sampleSize : UInt8) (bigEndian : Bool) : Except Err (List UInt8) :=
  if sampleSize.toNat % 8 ≠ 0 ∨ sampleSize.toNat > 32 then .error .invalidArgument
  else .ok (pcmBytes sample sampleSize.toNat bigEndian (32 - sampleSize.toNat) (sampleSize.toNat / 8))

/-- One tick of an interleaving loop (cli_util.cc:191-196): a sample of every channel. -/
def writeTick {α : Type} (toInt : α → Except Err Int32) (sampleSize : UInt8) (bigEndian : Bool) (t : Nat) :
    List (List α) → Except Err (List UInt8)
  | [] => .ok []
  | c :: cs => match c[t]? with
    | none => .error .ub
    | some x => do
      let v ← toInt x
      let bytes ← writePcmSample v.toUInt32 sampleSize bigEndian
      let rest ← writeTick toInt sampleSize bigEndian t cs
      .ok (bytes ++ rest)

/-- The interleaving loop (cli_util.cc:190-197): `n` ticks from `t` on. -/
def writeTicks {α : Type} (toInt : α → Except Err Int32) (sampleSize : UInt8) (bigEndian : Bool) (frame : List (List α)) :
    Nat → Nat → Except Err (List UInt8)
  | _, 0 => .ok []
  | t, n + 1 => do
    let bytes ← writeTick toInt sampleSize bigEndian t frame
    let rest ← writeTicks toInt sampleSize bigEndian frame (t + 1) n
    .ok (bytes ++ rest)

/-- `WritePcmFrameToBuffer` (cli_util.cc:175-200): the buffer afterwards.  `frame[0]` of an empty frame is undefined, and so is
reading a channel that is shorter than the first one.  Bytes that the loop does not write stay zero: there are none if the
multiplication does not overflow, which is assumed. -/
def writePcmFrame (frame : List (List Int32)) (bitDepth : UInt8) (bigEndian : Bool) : Except Err (List UInt8) :=
  if bitDepth.toNat % 8 ≠ 0 then .error .invalidArgument
  else match frame with
    | [] => .error .ub
    | c :: _ =>
      if frame.length * c.length = 0 then .ok []
      else writeTicks (fun v => .ok v) bitDepth bigEndian frame 0 c.length

/-- `BytesPerSample` (iamf_decoder.cc:245-254) of an `OutputSampleType`. -/
def bytesPerSample (sampleType : Nat) : Nat := if sampleType = 1 then 2 else if sampleType = 2 then 4 else 0

/-- `ValidateWriteFrameToSpan` (iamf_decoder.cc:256-290). -/
def validateWriteFrame (frame : Rendered) (sampleType size : Nat) : Except Err Unit :=
  match frame with
  | [] => .error .invalidArgument
  | c :: _ =>
    if bytesPerSample sampleType = 0 then .error .invalidArgument
    else if !(frame.all fun d => d.length == c.length) then .error .invalidArgument
    else if c.length ≠ 0 ∧ frame.length > 18446744073709551615 / c.length / bytesPerSample sampleType then .error .invalidArgument
    else if size < frame.length * c.length * bytesPerSample sampleType then .error .invalidArgument
    else .ok ()

/-- `WriteFrameToSpan` (iamf_decoder.cc:292-327) into a buffer of the given size: the bytes that were written. -/
def writeFrameToSpan (frame : Rendered) (sampleType size : Nat) : Except Err (List UInt8) := do
  validateWriteFrame frame sampleType size
  writeTicks (fun x => .ok (normalizedToInt32 x)) (UInt8.ofNat (bytesPerSample sampleType * 8)) false frame 0 (frame.headD []).length

/-! ### Channel order -/

/-- Where the channels of a sound system come from in the order for Android (channel_reorderer.cc:36-150, 160-187): the smallest
number of channels, and for the first positions the channel that goes there. -/
def androidOrder (soundSystem : UInt8) : Nat × List Nat :=
  if soundSystem = 8 ∨ soundSystem = 9 ∨ soundSystem = 10 then (8, [0, 1, 2, 3, 6, 7, 4, 5])
  else if soundSystem = 5 then (11, [1, 2, 0, 10, 7, 8, 5, 6, 9, 3, 4])
  else if soundSystem = 6 then (14, [0, 1, 2, 3, 6, 7, 12, 13, 4, 5, 8, 9, 10, 11])
  else if soundSystem = 7 then
    (24, [0, 1, 2, 3, 4, 5, 6, 7, 8, 10, 11, 15, 12, 14, 13, 16, 20, 17, 18, 19, 22, 21, 23, 9])
  else (0, [])

/-- `ChannelReorderer::Reorder` (channel_reorderer.cc:189-217). -/
def reorderChannels {α : Type} (android : Bool) (soundSystem : UInt8) (samples : List α) : Except Err (List α) :=
  if android then
    if samples.length < (androidOrder soundSystem).1 then .error .invalidArgument
    else .ok ((androidOrder soundSystem).2.filterMap (fun i => samples[i]?) ++ samples.drop (androidOrder soundSystem).2.length)
  else .ok samples

end Iamf
