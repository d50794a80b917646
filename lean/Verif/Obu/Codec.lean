import Verif.Obu.Bounded
/-
  `iamf/obu/codec_config.{h,cc}` and `iamf/obu/decoder_config/*`.
-/
namespace Iamf

/-! ### LPCM (decoder_config/lpcm_decoder_config.{h,cc}) -/

/-- `LpcmDecoderConfig` (lpcm_decoder_config.h:109-111). -/
structure LpcmConfig where
  formatFlags : UInt8
  sampleSize : UInt8
  sampleRate : UInt32
  deriving DecidableEq, Repr

/-- `ValidateSampleSize` (lpcm_decoder_config.cc:28-38). -/
def lpcmSampleSizeOk (n : UInt8) : Bool := n == 16 || n == 24 || n == 32
/-- `ValidateSampleRate` (lpcm_decoder_config.cc:40-52). -/
def lpcmSampleRateOk (n : UInt32) : Bool := n == 16000 || n == 32000 || n == 44100 || n == 48000 || n == 96000

/-- `LpcmDecoderConfig::Validate` (lpcm_decoder_config.cc:55-92), with errors enforced
(`MAYBE_RETURN_IF_NOT_OK` is `RETURN_IF_NOT_OK` unless built for the test suite). -/
def LpcmConfig.validate (c : LpcmConfig) (roll : Int16) : Except Err Unit :=
  if roll ≠ 0 then .error .invalidArgument
  else if !(c.formatFlags == 0 || c.formatFlags == 1) then .error .unimplemented
  else if !lpcmSampleSizeOk c.sampleSize then .error .invalidArgument
  else if !lpcmSampleRateOk c.sampleRate then .error .invalidArgument
  else .ok ()

/-- `LpcmDecoderConfig::ValidateAndWrite` (lpcm_decoder_config.cc:94-102). -/
def LpcmConfig.write (c : LpcmConfig) (roll : Int16) : Wr Unit := do
  Wr.status (c.validate roll)
  wU8 c.formatFlags 8
  wU8 c.sampleSize 8
  wU32 c.sampleRate 32

/-- `LpcmDecoderConfig::ReadAndValidate` (lpcm_decoder_config.cc:104-114). -/
def LpcmConfig.read (roll : Int16) : Rd LpcmConfig := do
  let f ← rU8 8
  let s ← rU8 8
  let r ← rU32 32
  Rd.status (LpcmConfig.validate ⟨f, s, r⟩ roll)
  pure ⟨f, s, r⟩

/-! ### Opus (decoder_config/opus_decoder_config.{h,cc}) -/

/-- `OpusDecoderConfig` (opus_decoder_config.h:103-108). -/
structure OpusConfig where
  version : UInt8
  outputChannelCount : UInt8
  preSkip : UInt16
  inputSampleRate : UInt32
  outputGain : Int16
  mappingFamily : UInt8
  deriving DecidableEq, Repr

/-- `GetRequiredAudioRollDistance` (opus_decoder_config.cc:87-108); the division is unsigned. -/
def opusRollDistance (numSamplesPerFrame : UInt32) : Except Err Int16 :=
  if numSamplesPerFrame = 0 then .error .invalidArgument
  else
    let r : Int16 := ((3840 : UInt32) / numSamplesPerFrame).toUInt16.toInt16
    let r := if (3840 : UInt32) % numSamplesPerFrame ≠ 0 then r + 1 else r
    .ok (-1 * r)

/-- `ValidateAudioRollDistance` (opus_decoder_config.cc:71-83). -/
def opusValidateRoll (n : UInt32) (roll : Int16) : Except Err Unit :=
  match opusRollDistance n with
  | .error e => .error e
  | .ok r => if roll = r then .ok () else .error .invalidArgument

/-- `ValidatePayload` (opus_decoder_config.cc:42-69). -/
def OpusConfig.validate (c : OpusConfig) : Except Err Unit :=
  if c.version = 0 then .error .invalidArgument
  else if (c.version &&& 0xf0) >>> 4 > 0 then .error .unimplemented
  else if c.outputChannelCount ≠ 2 then .error .invalidArgument
  else if c.outputGain ≠ 0 then .error .invalidArgument
  else if c.mappingFamily ≠ 0 then .error .invalidArgument
  else .ok ()

/-- `OpusDecoderConfig::ValidateAndWrite` (opus_decoder_config.cc:110-124). -/
def OpusConfig.write (c : OpusConfig) (n : UInt32) (roll : Int16) : Wr Unit := do
  Wr.status (opusValidateRoll n roll)
  Wr.status c.validate
  wU8 c.version 8
  wU8 c.outputChannelCount 8
  wU16 c.preSkip 16
  wU32 c.inputSampleRate 32
  wS16 c.outputGain
  wU8 c.mappingFamily 8

/-- `OpusDecoderConfig::ReadAndValidate` (opus_decoder_config.cc:126-141). -/
def OpusConfig.read (n : UInt32) (roll : Int16) : Rd OpusConfig := do
  Rd.status (opusValidateRoll n roll)
  let v ← rU8 8
  let ch ← rU8 8
  let ps ← rU16 16
  let sr ← rU32 32
  let og ← rS16
  let mf ← rU8 8
  Rd.status (OpusConfig.validate ⟨v, ch, ps, sr, og, mf⟩)
  pure ⟨v, ch, ps, sr, og, mf⟩

/-! ### FLAC (decoder_config/flac_decoder_config.{h,cc}) -/

/-- `FlacMetaBlockStreamInfo` (flac_decoder_config.h:84-101); `md5` has 16 bytes (`std::array`). -/
structure FlacStreamInfo where
  minimumBlockSize : UInt16
  maximumBlockSize : UInt16
  minimumFrameSize : UInt32
  maximumFrameSize : UInt32
  sampleRate : UInt32
  numberOfChannels : UInt8
  bitsPerSample : UInt8
  totalSamplesInStream : UInt64
  md5 : List UInt8
  deriving DecidableEq, Repr

/-- The variant `payload` of `FlacMetadataBlock` (flac_decoder_config.h:137). -/
inductive FlacPayload where
  | streamInfo (s : FlacStreamInfo)
  | bytes (l : List UInt8)
  deriving DecidableEq, Repr

/-- `FlacMetadataBlock` (flac_decoder_config.h:129-138). -/
structure FlacBlock where
  blockType : UInt8
  payload : FlacPayload
  deriving DecidableEq, Repr

/-- `FlacDecoderConfig` (flac_decoder_config.h:222). -/
structure FlacConfig where
  blocks : List FlacBlock
  deriving DecidableEq, Repr

/-- `GetStreamInfo` (flac_decoder_config.cc:39-52); `std::get` on the wrong alternative throws. -/
def FlacConfig.getStreamInfo (c : FlacConfig) : Except Err FlacStreamInfo :=
  match c.blocks with
  | [] => .error .invalidArgument
  | b :: _ =>
    if b.blockType ≠ 0 then .error .invalidArgument
    else match b.payload with
      | .streamInfo s => .ok s
      | .bytes _ => .error .abort

/-- `ValidateSampleRate` (flac_decoder_config.cc:56-69). -/
def flacSampleRateOk (n : UInt32) : Bool :=
  n == 88200 || n == 176400 || n == 192000 || n == 8000 || n == 16000 || n == 22050 || n == 24000 ||
  n == 32000 || n == 44100 || n == 48000 || n == 96000
/-- `ValidateBitsPerSample` (flac_decoder_config.cc:71-81). -/
def flacBitsOk (n : UInt8) : Bool := n == 15 || n == 23 || n == 31

/-- `ValidateDecodingRestrictions` (flac_decoder_config.cc:95-117). -/
def FlacConfig.validateDecoding (c : FlacConfig) (n : UInt32) : Except Err Unit :=
  match c.getStreamInfo with
  | .error e => .error e
  | .ok s =>
    if flacSampleRateOk s.sampleRate && flacBitsOk s.bitsPerSample && s.maximumBlockSize.toUInt32 == n &&
        s.minimumBlockSize.toUInt32 == n && s.numberOfChannels == 1 &&
        decide (s.totalSamplesInStream ≤ 0xfffffffff) then .ok ()
    else .error .invalidArgument

/-- `ValidateEncodingRestrictions` (flac_decoder_config.cc:122-146). -/
def FlacConfig.validateEncoding (c : FlacConfig) (n : UInt32) : Except Err Unit :=
  match c.validateDecoding n with
  | .error e => .error e
  | .ok () => match c.getStreamInfo with
    | .error e => .error e
    | .ok s =>
      if s.minimumFrameSize == 0 && s.maximumFrameSize == 0 && s.md5 == List.replicate 16 0 then .ok ()
      else .error .invalidArgument

/-- `WriteStreamInfo` (flac_decoder_config.cc:154-167). -/
def FlacStreamInfo.write (s : FlacStreamInfo) : Wr Unit := do
  wU16 s.minimumBlockSize 16
  wU16 s.maximumBlockSize 16
  wU32 s.minimumFrameSize 24
  wU32 s.maximumFrameSize 24
  wU32 s.sampleRate 20
  wU8 s.numberOfChannels 3
  wU8 s.bitsPerSample 5
  wU64 s.totalSamplesInStream 36
  wBytes s.md5

/-- `ReadStreamInfo` (flac_decoder_config.cc:189-201). -/
def FlacStreamInfo.read : Rd FlacStreamInfo := do
  let a ← rU16 16
  let b ← rU16 16
  let c ← rU32 24
  let d ← rU32 24
  let e ← rU32 20
  let f ← rU8 3
  let g ← rU8 5
  let h ← rU64 36
  let m ← rBytes 16
  pure ⟨a, b, c, d, e, f, g, h, m⟩

/-- The payload of one block (flac_decoder_config.cc:219-240).  `size()` is narrowed to `uint32_t`. -/
def FlacBlock.writePayload (b : FlacBlock) : Wr Unit :=
  if b.blockType = 0 then
    match b.payload with
    | .streamInfo s => do wU32 34 24; s.write
    | .bytes _ => .fail .invalidArgument
  else
    match b.payload with
    | .streamInfo _ => .fail .invalidArgument
    | .bytes l => do wU32 (UInt32.ofNat l.length) 24; wBytes l

/-- The write loop (flac_decoder_config.cc:212-241). -/
def wFlacBlocks : List FlacBlock → Wr Unit
  | [] => .ret ()
  | b :: bs => (wBool bs.isEmpty).bind fun _ => (wU8 b.blockType 7).bind fun _ => b.writePayload.bind fun _ =>
      wFlacBlocks bs

/-- `FlacDecoderConfig::ValidateAndWrite` (flac_decoder_config.cc:205-244). -/
def FlacConfig.write (c : FlacConfig) (n : UInt32) (roll : Int16) : Wr Unit := do
  Wr.check (roll == 0)
  Wr.status (c.validateEncoding n)
  wFlacBlocks c.blocks

/-- The body of one iteration after the flag (flac_decoder_config.cc:266-293). -/
def FlacBlock.read : Rd FlacBlock := do
  let t ← rU8 7
  let len ← rU32 24
  if t = 0 then do
    let s ← FlacStreamInfo.read
    pure ⟨t, .streamInfo s⟩
  else do
    Rd.check (!decide (len.toNat > kEntireObuSizeMaxTwoMegabytes))
    let l ← rBytes len.toNat
    pure ⟨t, .bytes l⟩

/-- The read loop (flac_decoder_config.cc:259-295) with `budget` iterations left out of 128. -/
def rFlacBlocks : Nat → Rd (List FlacBlock)
  | 0 => .fail .invalidArgument
  | n + 1 => rBool.bind fun last => FlacBlock.read.bind fun b =>
      if last then .ret [b] else (rFlacBlocks n).bind fun bs => .ret (b :: bs)

/-- `FlacDecoderConfig::ReadAndValidate` (flac_decoder_config.cc:246-298). -/
def FlacConfig.read (n : UInt32) (roll : Int16) : Rd FlacConfig := do
  Rd.check (roll == 0)
  let bs ← rFlacBlocks 128
  Rd.status (FlacConfig.validateDecoding ⟨bs⟩ n)
  pure ⟨bs⟩

/-! ### AAC (decoder_config/aac_decoder_config.{h,cc}) -/

/-- `AudioSpecificConfig` (aac_decoder_config.h:76-96); the enum class is an `int`. -/
structure AudioSpecificConfig where
  audioObjectType : UInt8
  sampleFrequencyIndex : UInt32
  channelConfiguration : UInt8
  frameLengthFlag : Bool
  dependsOnCoreCoder : Bool
  extensionFlag : Bool
  deriving DecidableEq, Repr

/-- `AacDecoderConfig` (aac_decoder_config.h:197-219). -/
structure AacConfig where
  descriptorTag : UInt8
  objectTypeIndication : UInt8
  streamType : UInt8
  upstream : Bool
  reserved : Bool
  bufferSizeDb : UInt32
  maxBitrate : UInt32
  averageBitRate : UInt32
  infoTag : UInt8
  asc : AudioSpecificConfig
  infoExtension : List UInt8
  configExtension : List UInt8
  deriving DecidableEq, Repr

/-- `kSampleFrequencyIndexAndSampleFrequency` (aac_decoder_config.h:113-130). -/
def aacSampleFrequencies : List UInt32 :=
  [96000, 88200, 64000, 48000, 44100, 32000, 24000, 22050, 16000, 12000, 11025, 8000, 7350]

/-- `GetSampleFrequency` (aac_decoder_config.cc:135-153). -/
def aacSampleFrequency (i : UInt32) : Except Err UInt32 :=
  if i = 13 ∨ i = 14 then .error .unimplemented
  else match aacSampleFrequencies[i.toNat]? with
    | some f => .ok f
    | none => .error .notFound

/-- The status of `GetSampleFrequency`. -/
def aacSampleFrequencyStatus (i : UInt32) : Except Err Unit :=
  match aacSampleFrequency i with
  | .ok _ => .ok ()
  | .error e => .error e

/-- `AacDecoderConfig::Validate` (aac_decoder_config.cc:157-202). -/
def AacConfig.validate (c : AacConfig) : Except Err Unit :=
  if c.descriptorTag == 0x04 && c.objectTypeIndication == 0x40 && c.streamType == 0x05 && c.upstream == false &&
      c.reserved == true && c.infoTag == 0x05 && c.asc.audioObjectType == 2 && c.asc.channelConfiguration == 2 &&
      c.asc.frameLengthFlag == false && c.asc.dependsOnCoreCoder == false && c.asc.extensionFlag == false then
    aacSampleFrequencyStatus c.asc.sampleFrequencyIndex
  else .error .invalidArgument

/-- `AudioSpecificConfig::ValidateAndWrite` (aac_decoder_config.cc:204-216). -/
def AudioSpecificConfig.write (c : AudioSpecificConfig) : Wr Unit := do
  wU8 c.audioObjectType 5
  wU32 c.sampleFrequencyIndex 4
  wU8 c.channelConfiguration 4
  wBool c.frameLengthFlag
  wBool c.dependsOnCoreCoder
  wBool c.extensionFlag

/-- `AudioSpecificConfig::Read` (aac_decoder_config.cc:218-237). -/
def AudioSpecificConfig.read : Rd AudioSpecificConfig := do
  let t ← rU8 5
  let i ← rU8 4
  Rd.status (aacSampleFrequencyStatus i.toUInt32)
  let ch ← rU8 4
  let a ← rBool
  let b ← rBool
  let c ← rBool
  pure ⟨t, i.toUInt32, ch, a, b, c⟩

/-- `kMaxClassSize` (aac_decoder_config.cc:48). -/
def kMaxClassSize : UInt32 := 268435455

/-- The pattern "write into a temporary buffer, append the extension, `PrependWithIso14496_1Expanded`"
(aac_decoder_config.cc:62-75, 84-94, 247-266).  The temporary buffer has the default leb generator, but no
leb128 is written to it. -/
def wSection (inner : Wr Unit) (extension : List UInt8) : Wr Unit := do
  let tmp ← Wr.sub (inner.bind fun _ => wBytes extension)
  Wr.check tmp.isByteAligned .abort
  Wr.check (!decide (tmp.bytes.length > kMaxClassSize.toNat)) .resourceExhausted
  wIso (UInt32.ofNat tmp.bytes.length)
  wBytes tmp.bytes

/-- The pattern `GetExpectedPositionFromIso14496_1Expanded`, contents, `AdvanceBufferToPosition`
(aac_decoder_config.cc:98-133). -/
def rSection {α : Type} (inner : Rd α) : Rd (α × List UInt8) := do
  let size ← rIso kMaxClassSize
  .tell fun start => inner.bind fun a => .tell fun actual =>
    if actual = start + size.toNat * 8 then .ret (a, [])
    else if actual < start + size.toNat * 8 then do
      Rd.check (!decide ((start + size.toNat * 8 - actual) / 8 > kEntireObuSizeMaxTwoMegabytes))
      let ext ← rBytes ((start + size.toNat * 8 - actual) / 8).toNat
      pure (a, ext)
    else .fail .outOfRange

/-- `AacDecoderConfig::ValidateAndWrite` (aac_decoder_config.cc:239-269, 77-96). -/
def AacConfig.write (c : AacConfig) (roll : Int16) : Wr Unit := do
  Wr.check (roll == -1)
  Wr.status c.validate
  wU8 c.descriptorTag 8
  wSection (do
    wU8 c.objectTypeIndication 8
    wU8 c.streamType 6
    wBool c.upstream
    wBool c.reserved
    wU32 c.bufferSizeDb 24
    wU32 c.maxBitrate 32
    wU32 c.averageBitRate 32
    wU8 c.infoTag 8
    wSection c.asc.write c.infoExtension) c.configExtension

/-- `AacDecoderConfig::ReadAndValidate` (aac_decoder_config.cc:271-308). -/
def AacConfig.read (roll : Int16) : Rd AacConfig := do
  let tag ← rU8 8
  let p ← rSection (do
    let oti ← rU8 8
    let st ← rU8 6
    let up ← rBool
    let rs ← rBool
    let bs ← rU32 24
    let mb ← rU32 32
    let ab ← rU32 32
    let it ← rU8 8
    let q ← rSection AudioSpecificConfig.read
    pure (⟨0, oti, st, up, rs, bs, mb, ab, it, q.1, q.2, []⟩ : AacConfig))
  let c : AacConfig := { p.1 with descriptorTag := tag, configExtension := p.2 }
  Rd.check (roll == -1)
  Rd.status c.validate
  pure c

/-! ### Codec Config OBU (codec_config.{h,cc}) -/

/-- `DecoderConfig` (codec_config.h:35-37). -/
inductive DecoderConfig where
  | opus (c : OpusConfig)
  | aac (c : AacConfig)
  | flac (c : FlacConfig)
  | lpcm (c : LpcmConfig)
  deriving DecidableEq, Repr

/-- `CodecConfig::CodecId` (codec_config.h:40-45). -/
def kCodecIdOpus : UInt32 := 0x4f707573
def kCodecIdFlac : UInt32 := 0x664c6143
def kCodecIdLpcm : UInt32 := 0x6970636d
def kCodecIdAacLc : UInt32 := 0x6d703461

/-- `CodecConfig` with the id of the OBU (codec_config.h:75-80, 218-219). -/
structure CodecConfig where
  configId : UInt32
  codecId : UInt32
  numSamplesPerFrame : UInt32
  audioRollDistance : Int16
  decoderConfig : DecoderConfig
  deriving DecidableEq, Repr

/-- `ValidateNumSamplesPerFrame` (codec_config.cc:38-57). -/
def numSamplesPerFrameOk (n : UInt32) : Bool := inRange32 n 1 96000

/-- `ValidateAndWriteDecoderConfig` (codec_config.cc:161-184); `std::get` of the wrong alternative throws. -/
def CodecConfig.writeDecoderConfig (c : CodecConfig) : Wr Unit :=
  if c.codecId = kCodecIdOpus then
    match c.decoderConfig with
    | .opus d => d.write c.numSamplesPerFrame c.audioRollDistance
    | _ => .fail .abort
  else if c.codecId = kCodecIdLpcm then
    match c.decoderConfig with
    | .lpcm d => d.write c.audioRollDistance
    | _ => .fail .abort
  else if c.codecId = kCodecIdAacLc then
    match c.decoderConfig with
    | .aac d => d.write c.audioRollDistance
    | _ => .fail .abort
  else if c.codecId = kCodecIdFlac then
    match c.decoderConfig with
    | .flac d => d.write c.numSamplesPerFrame c.audioRollDistance
    | _ => .fail .abort
  else .fail .invalidArgument

/-- `CodecConfigObu::ValidateAndWritePayload` (codec_config.cc:279-292). -/
def CodecConfig.write (c : CodecConfig) : Wr Unit := do
  wUleb c.configId
  wU32 c.codecId 32
  Wr.check (numSamplesPerFrameOk c.numSamplesPerFrame)
  wUleb c.numSamplesPerFrame
  wS16 c.audioRollDistance
  c.writeDecoderConfig

/-- `ReadAndValidateDecoderConfig` (codec_config.cc:186-225). -/
def rDecoderConfig (codecId n : UInt32) (roll : Int16) : Rd DecoderConfig :=
  if codecId = kCodecIdOpus then (OpusConfig.read n roll).bind fun d => .ret (.opus d)
  else if codecId = kCodecIdLpcm then (LpcmConfig.read roll).bind fun d => .ret (.lpcm d)
  else if codecId = kCodecIdAacLc then (AacConfig.read roll).bind fun d => .ret (.aac d)
  else if codecId = kCodecIdFlac then (FlacConfig.read n roll).bind fun d => .ret (.flac d)
  else .fail .invalidArgument

/-- `CodecConfigObu::ReadAndValidatePayloadDerived` (codec_config.cc:294-308). -/
def CodecConfig.read (_payloadSize : Int) : Rd CodecConfig := do
  let id ← rUleb
  let codec ← rU64 32
  let n ← rUleb
  Rd.check (numSamplesPerFrameOk n)
  let roll ← rS16
  let d ← rDecoderConfig codec.toUInt32 n roll
  pure ⟨id, codec.toUInt32, n, roll, d⟩

/-- `SetSampleRatesAndBitDepths` (codec_config.cc:92-142): output rate, input rate, bit depth.  The bit
depth for AAC is `sizeof(INT_PCM) * 8`, which depends on the build of `fdk_aac`; 16 is its default. -/
def CodecConfig.rates (c : CodecConfig) : Except Err (UInt32 × UInt32 × UInt8) :=
  let r : Except Err (UInt32 × UInt32 × UInt8) :=
    if c.codecId = kCodecIdOpus then
      match c.decoderConfig with
      | .opus d => .ok (48000, d.inputSampleRate, 32)
      | _ => .error .abort
    else if c.codecId = kCodecIdLpcm then
      match c.decoderConfig with
      | .lpcm d =>
        if !lpcmSampleRateOk d.sampleRate then .error .invalidArgument
        else if !lpcmSampleSizeOk d.sampleSize then .error .invalidArgument
        else .ok (d.sampleRate, d.sampleRate, d.sampleSize)
      | _ => .error .abort
    else if c.codecId = kCodecIdAacLc then
      match c.decoderConfig with
      | .aac d => match aacSampleFrequency d.asc.sampleFrequencyIndex with
        | .ok f => .ok (f, f, 16)
        | .error e => .error e
      | _ => .error .abort
    else if c.codecId = kCodecIdFlac then
      match c.decoderConfig with
      | .flac d => match d.getStreamInfo with
        | .error e => .error e
        | .ok s =>
          if !flacSampleRateOk s.sampleRate then .error .invalidArgument
          else if !flacBitsOk s.bitsPerSample then .error .invalidArgument
          else .ok (s.sampleRate, s.sampleRate, s.bitsPerSample + 1)
      | _ => .error .abort
    else .error .invalidArgument
  match r with
  | .error e => .error e
  | .ok v => if v.1 = 0 then .error .invalidArgument else .ok v

/-- `OverrideAudioRollDistance` (codec_config.cc:59-90). -/
def requiredRollDistance (codecId n : UInt32) : Except Err Int16 :=
  if codecId = kCodecIdOpus then opusRollDistance n
  else if codecId = kCodecIdLpcm then .ok 0
  else if codecId = kCodecIdFlac then .ok 0
  else if codecId = kCodecIdAacLc then .ok (-1)
  else .error .invalidArgument

/-- `CodecConfigObu::Create` (codec_config.cc:229-249): the codec config with its rates. -/
def CodecConfig.create (c : CodecConfig) (overrideRoll : Bool) : Except Err (CodecConfig × UInt32 × UInt32 × UInt8) :=
  if !numSamplesPerFrameOk c.numSamplesPerFrame then .error .invalidArgument
  else match c.rates with
    | .error e => .error e
    | .ok v =>
      if overrideRoll then
        match requiredRollDistance c.codecId c.numSamplesPerFrame with
        | .error e => .error e
        | .ok r => .ok ({ c with audioRollDistance := r }, v)
      else .ok (c, v)

/-- `CodecConfigObu::CreateFromBuffer` (codec_config.cc:264-277), as a payload reader followed by the
computation of the rates.  (The base class reads the footer in between; the rates do not touch the buffer.) -/
def CodecConfig.createFromBuffer (n : Int) : Rd ((CodecConfig × List UInt8) × UInt32 × UInt32 × UInt8) :=
  (rObuPayload CodecConfig.read n).bind fun c => match c.1.rates with
    | .ok v => .ret (c, v)
    | .error e => .fail e

/-- `SetCodecDelay` (codec_config.cc:345-367). -/
def CodecConfig.setCodecDelay (c : CodecConfig) (delay : UInt16) : Except Err CodecConfig :=
  if c.codecId = kCodecIdLpcm ∨ c.codecId = kCodecIdFlac ∨ c.codecId = kCodecIdAacLc then .ok c
  else if c.codecId = kCodecIdOpus then
    match c.decoderConfig with
    | .opus d => .ok { c with decoderConfig := .opus { d with preSkip := delay } }
    | _ => .error .invalidArgument
  else .error .invalidArgument

end Iamf
