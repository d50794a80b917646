import Verif.Cli.Encoder
/-
  The program `encoder_main`, which encodes WAV files: iamf/cli/wav_reader.cc, iamf/cli/wav_sample_provider.cc, and the loop of
  iamf/cli/encoder_main_lib.cc.
-/
namespace Iamf

/-- The functions of the library that parses WAV files (src/dsp/read_wav_file.h), which is not part of the repository.  `Source` is an
opened file with what is left to read; `read s k` is `ReadWavSamples` for `k` samples: those that are written to the buffer, whose number is
returned, and the file afterwards. -/
structure WavLib where
  Source : Type
  read : Source → Nat → List Int32 × Source
  remaining : Source → Nat

/-- What `ReadWavHeader` finds: `ReadWavInfo`.  (The numbers are `int`s; they are assumed to be positive or zero.) -/
structure WavFile (W : WavLib) where
  channels : Nat
  rate : Nat
  depth : Nat
  float : Bool
  source : W.Source

/-- `WavReader` (wav_reader.h). -/
structure WavReader (W : WavLib) where
  file : WavFile W
  perFrame : Nat
  buffers : List (List Int32)

variable {W : WavLib}

/-- `NormalizedFloatBitsToInt32` (wav_reader.cc:45-62), on the bits of an IEEE number of 32 bits: sign, exponent and mantissa.  The
multiplication by a power of two is exact, or the result is infinite. -/
def floatBitsToInt32 (bits : UInt32) : Int32 :=
  let negative : Bool := decide (2147483648 ≤ bits.toNat)
  let exponent := bits.toNat / 8388608 % 256
  let fraction := bits.toNat % 8388608
  if exponent = 255 ∧ fraction ≠ 0 then 0
  else if 127 ≤ exponent then (if negative then Int32.minValue else Int32.maxValue)
  else
    let mantissa := if exponent = 0 then fraction else fraction + 8388608
    let e := if exponent = 0 then 1 else exponent
    let magnitude : Nat := if 119 ≤ e then mantissa * 2 ^ (e - 119) else mantissa / 2 ^ (119 - e)
    Int32.ofInt (if negative then -(magnitude : Int) else magnitude)

namespace WavReader

/-- `CreateFromFile` (wav_reader.cc:66-107); without a file that can be read, `f` is `none`. -/
def create (f : Option (WavFile W)) (perFrame : Nat) : Except Err (WavReader W) :=
  if perFrame = 0 then .error .invalidArgument
  else match f with
    | none => .error .failedPrecondition
    | some f => .ok ⟨f, perFrame, List.replicate f.channels (List.replicate perFrame 0)⟩

/-- The buffer of one tick after samples were read to its beginning. -/
def fillTick (tick read : List Int32) : List Int32 := read ++ tick.drop read.length

/-- The inner loop of `ReadFrame` (wav_reader.cc:142-146): the sample of every channel goes to its buffer. -/
def storeTick (float : Bool) (t : Nat) : List (List Int32) → List Int32 → List (List Int32)
  | b :: bs, v :: vs => b.set t (if float then floatBitsToInt32 v.toUInt32 else v) :: storeTick float t bs vs
  | bs, _ => bs

/-- The loop of `ReadFrame` (wav_reader.cc:136-147): `t` is the tick, then come the number of ticks that are left, the buffer of one
tick, and `samples_read`.  Note that it is the number of samples of all ticks so far that is compared to the number of channels. -/
def readTicks : Nat → Nat → List Int32 → Nat → WavReader W → Nat × WavReader W
  | _, 0, _, count, r => (count, r)
  | t, n + 1, tick, count, r =>
    let x := W.read r.file.source r.file.channels
    let tick := fillTick tick x.1
    let count := count + x.1.length
    let r : WavReader W := ⟨⟨r.file.channels, r.file.rate, r.file.depth, r.file.float, x.2⟩, r.perFrame, r.buffers⟩
    if count < r.file.channels then (count, r)
    else readTicks (t + 1) n tick count ⟨r.file, r.perFrame, storeTick r.file.float t r.buffers tick⟩

/-- `ReadFrame` (wav_reader.cc:129-150): `samples_read`, and the reader. -/
def readFrame (r : WavReader W) : Nat × WavReader W := readTicks 0 r.perFrame (List.replicate r.file.channels 0) 0 r

end WavReader

/-- `AudioFrameObuMetadata` (audio_frame.proto), as far as the samples are concerned: a label and a channel of the WAV file for each channel, and what
opening the WAV file gives.  (The labels are taken to be known ones.) -/
structure WavInput (W : WavLib) where
  element : UInt32
  channels : List (Label × UInt32)
  file : Option (WavFile W)

/-- What `WavSampleProvider` (wav_sample_provider.h) keeps for an audio element. -/
structure WavElement (W : WavLib) where
  channels : List (Label × UInt32)
  reader : WavReader W

/-- `WavSampleProvider` (wav_sample_provider.h). -/
abbrev WavProvider (W : WavLib) := List (UInt32 × WavElement W)

namespace WavProvider

/-- `ValidateWavReaderIsConsistentWithData` (wav_sample_provider.cc:66-112). -/
def validate (r : WavReader W) (c : CodecObu) (channels : List (Label × UInt32)) : Except Err Unit :=
  if c.bitDepth.toNat < r.file.depth then .error .invalidArgument
  else if r.file.rate ≠ c.inputRate.toNat then .error .invalidArgument
  else if c.inputRate ≠ c.outputRate then .error .invalidArgument
  else if channels.any (fun x => decide (r.file.channels ≤ x.2.toNat)) then .error .invalidArgument
  else .ok ()

/-- `InitializeForAudioElement` (wav_sample_provider.cc:116-141). -/
def openElement (i : WavInput W) (c : CodecObu) : Except Err (WavElement W) :=
  if ¬ (i.channels.map (·.1)).Nodup then .error .invalidArgument
  else do
    let r ← WavReader.create i.file c.config.numSamplesPerFrame.toNat
    validate r c i.channels
    .ok ⟨i.channels, r⟩

/-- The loop of `WavSampleProvider::Create` (wav_sample_provider.cc:157-196). -/
def createFrom (elements : List (UInt32 × ElementWithData)) : List (WavInput W) → WavProvider W → Except Err (WavProvider W)
  | [], p => .ok p
  | i :: is, p => match elements.lookup i.element with
    | none => .error .invalidArgument
    | some e => match e.codec with
      | none => .error .invalidArgument
      | some c =>
        if (p.lookup i.element).isSome then .error .invalidArgument
        else do
          let x ← openElement i c
          createFrom elements is (p ++ [(i.element, x)])

/-- `WavSampleProvider::Create` (wav_sample_provider.cc:145-200). -/
def create (inputs : List (WavInput W)) (elements : List (UInt32 × ElementWithData)) : Except Err (WavProvider W) := createFrom elements inputs []

/-- The samples of a channel in `ReadFrames` (wav_sample_provider.cc:222-231). -/
def channel (r : WavReader W) (ticks : Nat) (c : UInt32) : Except Err Samples := match r.buffers[c.toNat]? with
  | none => .error .ub
  | some b => if b.length < ticks then .error .ub else .ok ((b.take ticks).map int32ToNormalized)

/-- The loop over the channels in `ReadFrames` (wav_sample_provider.cc:222-231). -/
def channelSamples (r : WavReader W) (ticks : Nat) : List (Label × UInt32) → Except Err (List (Label × Samples))
  | [] => .ok []
  | (l, c) :: cs => do
    let s ← channel r ticks c
    let rest ← channelSamples r ticks cs
    .ok ((l, s) :: rest)

/-- The element is replaced. -/
def put (i : UInt32) (x : WavElement W) : WavProvider W → WavProvider W
  | [] => []
  | (k, y) :: p => if k = i then (k, x) :: p else (k, y) :: put i x p

/-- `ReadFrames` (wav_sample_provider.cc:202-236): the samples, whether all samples were read, and the provider.  The division by zero of a file without
channels is undefined. -/
def readFrames (p : WavProvider W) (i : UInt32) : Except Err (List (Label × Samples) × Bool × WavProvider W) := match p.lookup i with
  | none => .error .invalidArgument
  | some x =>
    if x.reader.file.channels = 0 then .error .ub
    else do
      let r := x.reader.readFrame
      let s ← channelSamples r.2 (r.1 / r.2.file.channels) x.channels
      .ok (s, decide (W.remaining r.2.file.source = 0), put i ⟨x.channels, r.2⟩ p)

/-- `CollectLabeledSamplesForAudioElements` (encoder_main_lib.cc:101-112): for the audio elements in the order of their hash map.  The flag is that of the last
one. -/
def readAll : List UInt32 → WavProvider W → Bool → Except Err (List ((UInt32 × Label) × Samples) × Bool × WavProvider W)
  | [], p, finished => .ok ([], finished, p)
  | i :: is, p, _ => do
    let r ← p.readFrames i
    let rs ← readAll is r.2.2 r.2.1
    .ok (r.1.map (fun x => ((i, x.1), x.2)) ++ rs.1, rs.2)

end WavProvider

/-! ### The loop -/

/-- `parameter_block_id_to_metadata[id] = metadata` (encoder_main_lib.cc:198-207). -/
def holdBlock (b : BlockMetadata ObuHeader) : List (BlockMetadata ObuHeader) → List (BlockMetadata ObuHeader)
  | [] => [b]
  | x :: xs => if x.id = b.id then b :: xs else x :: holdBlock b xs

/-- `parameter_block_id_to_metadata` after the metadata that starts at a time was filled in (encoder_main_lib.cc:196-208). -/
def holdBlocks (metadata : List (BlockMetadata ObuHeader)) (t : Int) (held : List (BlockMetadata ObuHeader)) : List (BlockMetadata ObuHeader) :=
  (metadata.filter fun b => decide (b.start = t)).foldl (fun h b => holdBlock b h) held

/-- In which order hash maps are iterated over in an iteration of the loop: the map of parameter blocks, and the encoder's map of samples. -/
structure ToolOrder where
  blocks : List (BlockMetadata ObuHeader) → List (BlockMetadata ObuHeader)
  rank : UInt32 × Label → Nat

/-- What the loop of the program keeps. -/
structure Tool (L : EncoderLib) (P : EncoderParts) (σ : Type) (W : WavLib) where
  encoder : IamfEncoder L P σ
  provider : WavProvider W
  held : List (BlockMetadata ObuHeader)

variable {L : EncoderLib} {P : EncoderParts} {σ : Type}

/-- One iteration of the loop of `GenerateTemporalUnitObus` (encoder_main_lib.cc:178-229).  (`IamfAudioElementData` has the labels as messages; the encoder parses
them.) -/
def Tool.iterate (K : Sink σ) (linear : Int16 → Rat) (metadata : List (BlockMetadata ObuHeader)) (o : ToolOrder) (x : Tool L P σ W) :
    Except Err (Tool L P σ W) := do
  let t ← x.encoder.inputTimestamp
  let r ← WavProvider.readAll (x.encoder.sequence.elements.map (·.1)) x.provider false
  let held := holdBlocks metadata t x.held
  match x.encoder.encode ⟨o.blocks held, r.1⟩ with
  | (.error e, _) => .error e
  | (.ok (), e) =>
    if r.2.1 then do
      let e ← e.finalizeEncode K
      let u ← e.outputUnit K linear o.rank []
      .ok ⟨u.2, r.2.2, []⟩
    else do
      let u ← e.outputUnit K linear o.rank []
      .ok ⟨u.2, r.2.2, held⟩

/-- The loop of `GenerateTemporalUnitObus` (encoder_main_lib.cc:177-230), stopped after a number of iterations; `orders k` is for the iteration before which `k`
were made. -/
def Tool.loop (K : Sink σ) (linear : Int16 → Rat) (metadata : List (BlockMetadata ObuHeader)) (orders : Nat → ToolOrder) : Nat → Nat → Tool L P σ W →
    Except Err (Tool L P σ W)
  | k, fuel, x =>
    if x.encoder.generating then
      match fuel with
      | 0 => .error .diverge
      | fuel + 1 => do
        let x ← x.iterate K linear metadata (orders k)
        Tool.loop K linear metadata orders (k + 1) fuel x
    else .ok x

/-- `GenerateTemporalUnitObus` (encoder_main_lib.cc:155-236), after the metadata was partitioned: the encoder afterwards. -/
def encodeWavs (K : Sink σ) (linear : Int16 → Rat) (inputs : List (WavInput W)) (metadata : List (BlockMetadata ObuHeader)) (orders : Nat → ToolOrder)
    (fuel : Nat) (e : IamfEncoder L P σ) : Except Err (IamfEncoder L P σ) := do
  let p ← WavProvider.create inputs (e.sequence.elements.map fun x => (x.1, x.2.body))
  let x ← Tool.loop K linear metadata orders 0 fuel ⟨e, p, []⟩
  .ok x.encoder

end Iamf
