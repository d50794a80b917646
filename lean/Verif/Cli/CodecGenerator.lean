import Verif.Obu.Codec
import Verif.Obu.Simple
/-
  Codec configs and IA sequence headers from metadata, and metadata of IA sequence headers:
  iamf/cli/proto_conversion/proto_to_obu/codec_config_generator.cc, ia_sequence_header_generator.cc,
  obu_to_proto/ia_sequence_header_metadata_generator.cc, obu_header_metadata_generator.cc, proto_utils.cc.
  Values of enumerations of the proto are their numbers.
-/
namespace Iamf

/-! ### Headers -/

/-- `ObuHeaderMetadata` (obu_header.proto). -/
structure HeaderMetadata where
  redundantCopy : Bool
  trimmingStatusFlag : Bool
  extensionFlag : Bool
  trimEnd : UInt32
  trimStart : UInt32
  extensionBytes : List UInt8
  deriving DecidableEq, Repr

/-- `GetHeaderFromMetadata` (proto_utils.cc:110-132); the constructor of the OBU sets the type. -/
def headerFromMetadata (t : ObuType) (m : HeaderMetadata) : ObuHeader :=
  ⟨t, m.redundantCopy, m.trimmingStatusFlag, m.trimEnd, m.trimStart, if m.extensionFlag then some m.extensionBytes else none⟩

/-- `ObuHeaderMetadataGenerator::Generate` (obu_header_metadata_generator.cc:24-45).  A byte is copied to a `char`; that fails where
`char` is signed and the byte is above 127 (`StaticCastSpanIfInRange`, numeric_utils.h:91-128, 220-241). -/
def headerMetadata (charIsSigned : Bool) (h : ObuHeader) : Except Err HeaderMetadata := match h.ext with
  | none => .ok ⟨h.redundantCopy, h.typeSpecificFlag, false, h.trimEnd, h.trimStart, []⟩
  | some bytes =>
    if charIsSigned && bytes.any (fun b => decide (127 < b)) then .error .invalidArgument
    else .ok ⟨h.redundantCopy, h.typeSpecificFlag, true, h.trimEnd, h.trimStart, bytes⟩

/-! ### IA sequence headers -/

/-- `IASequenceHeaderObuMetadata` (ia_sequence_header.proto:30-36), without the deprecated code. -/
structure SequenceHeaderMetadata where
  primaryProfile : Option UInt32
  additionalProfile : Option UInt32
  header : HeaderMetadata
  deriving DecidableEq, Repr

/-- `kProtoAndInternalProfileVersions` (lookup_tables.h:49-62, ia_sequence_header.proto:17-28, ia_sequence_header.h:27-35). -/
def profileVersions : List (UInt32 × UInt8) := [(1, 0), (2, 1), (3, 2), (4, 3), (5, 4), (6, 5), (256, 255)]

/-- `CopyProfileVersion` (ia_sequence_header_generator.cc:37-51). -/
def profileFromProto (p : UInt32) : Except Err UInt8 := match profileVersions.find? (fun x => x.1 == p) with
  | none => .error .notFound
  | some x => if x.2 = 255 then .error .invalidArgument else .ok x.2

/-- `IaSequenceHeaderGenerator::Generate` (ia_sequence_header_generator.cc:55-79): nothing is made if a profile is missing. -/
def generateSequenceHeader (m : SequenceHeaderMetadata) : Except Err (Option (ObuHeader × IaSequenceHeader)) :=
  match m.primaryProfile, m.additionalProfile with
  | some p, some a => match profileFromProto p with
    | .error e => .error e
    | .ok p => match profileFromProto a with
      | .error e => .error e
      | .ok a => .ok (some (headerFromMetadata ObuType.sequenceHeader m.header, ⟨p, a⟩))
  | _, _ => .ok none

/-- `SetProfileVersion` (ia_sequence_header_metadata_generator.cc:37-52). -/
def profileToProto (p : UInt8) : Except Err UInt32 :=
  if p = 255 then .error .invalidArgument
  else match profileVersions.find? (fun x => x.2 == p) with
    | none => .error .notFound
    | some x => .ok x.1

/-- `IaSequenceHeaderMetadataGenerator::Generate` (ia_sequence_header_metadata_generator.cc:56-76). -/
def sequenceHeaderMetadata (charIsSigned : Bool) (h : ObuHeader) (o : IaSequenceHeader) : Except Err SequenceHeaderMetadata :=
  match headerMetadata charIsSigned h with
  | .error e => .error e
  | .ok header => match profileToProto o.primaryProfile with
    | .error e => .error e
    | .ok p => match profileToProto o.additionalProfile with
      | .error e => .error e
      | .ok a => .ok ⟨some p, some a, header⟩

/-! ### Codec configs -/

/-- `LpcmDecoderConfig` (codec_config.proto). -/
structure LpcmMetadata where
  sampleFormatFlags : UInt32
  sampleSize : UInt32
  sampleRate : UInt32
  deriving DecidableEq, Repr

/-- `OpusDecoderConfig` (codec_config.proto), without the metadata of the encoder. -/
structure OpusMetadata where
  version : UInt32
  outputChannelCount : UInt32
  preSkip : UInt32
  inputSampleRate : UInt32
  outputGain : Int32
  mappingFamily : UInt32
  deriving DecidableEq, Repr

/-- `AacDecoderSpecificInfo` (codec_config.proto). -/
structure AacInfoMetadata where
  tag : UInt32
  audioObjectType : UInt32
  sampleFrequencyIndex : UInt32
  samplingFrequency : UInt32
  channelConfiguration : UInt32
  deriving DecidableEq, Repr

/-- `AacDecoderConfig` and `AacGaSpecificConfig` (codec_config.proto), without the metadata of the encoder. -/
structure AacMetadata where
  tag : UInt32
  objectTypeIndication : UInt32
  streamType : UInt32
  upstream : Bool
  reserved : Bool
  bufferSizeDb : UInt32
  maxBitrate : UInt32
  averageBitRate : UInt32
  info : Option AacInfoMetadata
  frameLengthFlag : Bool
  dependsOnCoreCoder : Bool
  extensionFlag : Bool
  deriving DecidableEq, Repr

/-- `FlacMetaBlockStreamInfo` (codec_config.proto). -/
structure FlacInfoMetadata where
  minimumBlockSize : UInt32
  maximumBlockSize : UInt32
  minimumFrameSize : UInt32
  maximumFrameSize : UInt32
  sampleRate : UInt32
  numberOfChannels : UInt32
  bitsPerSample : UInt32
  totalSamplesInStream : UInt64
  md5 : List UInt8
  deriving DecidableEq, Repr

/-- The `oneof data` of `FlacMetaBlock` (codec_config.proto). -/
inductive FlacDataMetadata where
  | unset
  | streamInfo (s : FlacInfoMetadata)
  | generic (l : List UInt8)
  deriving DecidableEq, Repr

/-- `FlacMetaBlock` (codec_config.proto), without deprecated fields. -/
structure FlacBlockMetadata where
  blockType : UInt32
  data : FlacDataMetadata
  deriving DecidableEq, Repr

/-- The `oneof decoder_config` of `CodecConfig` (codec_config.proto). -/
inductive DecoderConfigMetadata where
  | unset
  | lpcm (m : LpcmMetadata)
  | opus (m : OpusMetadata)
  | aac (m : AacMetadata)
  | flac (m : List FlacBlockMetadata)
  deriving DecidableEq, Repr

/-- `CodecConfig` (codec_config.proto). -/
structure CodecMetadata where
  hasDeprecatedCodecId : Bool
  codecId : Option UInt32
  numSamplesPerFrame : UInt32
  audioRollDistance : Int32
  decoderConfig : DecoderConfigMetadata
  overrideCodecDelay : Bool
  overrideRollDistance : Bool
  deriving DecidableEq, Repr

/-- `CodecConfigObuMetadata` (codec_config.proto). -/
structure CodecConfigMetadata where
  configId : UInt32
  codecConfig : CodecMetadata
  header : HeaderMetadata
  deriving DecidableEq, Repr

/-- `StaticCastIfInRange<uint32_t, uint8_t>` (numeric_utils.h:91-128). -/
def castU8 (x : UInt32) : Except Err UInt8 := if x ≤ 255 then .ok x.toUInt8 else .error .invalidArgument
/-- `StaticCastIfInRange<uint32_t, uint16_t>`. -/
def castU16 (x : UInt32) : Except Err UInt16 := if x ≤ 65535 then .ok x.toUInt16 else .error .invalidArgument
/-- `StaticCastIfInRange<int32_t, int16_t>`. -/
def castS16 (x : Int32) : Except Err Int16 := if -32768 ≤ x ∧ x ≤ 32767 then .ok x.toInt16 else .error .invalidArgument

/-- `CopyCodecId` (codec_config_generator.cc:42-65, lookup_tables.h:79-89): the numbers of the enumerations are the same. -/
def codecIdFromProto (m : CodecMetadata) : Except Err UInt32 :=
  if m.hasDeprecatedCodecId then .error .invalidArgument
  else match m.codecId with
    | none => .error .invalidArgument
    | some id => if id = kCodecIdOpus ∨ id = kCodecIdFlac ∨ id = kCodecIdAacLc ∨ id = kCodecIdLpcm then .ok id else .error .notFound

/-- `GenerateLpcmDecoderConfig` (codec_config_generator.cc:92-122, lpcm_decoder_config.h:30-33). -/
def lpcmFromMetadata : DecoderConfigMetadata → Except Err DecoderConfig
  | .lpcm m =>
    if m.sampleFormatFlags = 1 then do
      let size ← castU8 m.sampleSize
      .ok (.lpcm ⟨0, size, m.sampleRate⟩)
    else if m.sampleFormatFlags = 2 then do
      let size ← castU8 m.sampleSize
      .ok (.lpcm ⟨1, size, m.sampleRate⟩)
    else .error .invalidArgument
  | _ => .error .invalidArgument

/-- `GenerateOpusDecoderConfig` (codec_config_generator.cc:124-151). -/
def opusFromMetadata : DecoderConfigMetadata → Except Err DecoderConfig
  | .opus m => do
    let version ← castU8 m.version
    let count ← castU8 m.outputChannelCount
    let preSkip ← castU16 m.preSkip
    let gain ← castS16 m.outputGain
    let family ← castU8 m.mappingFamily
    .ok (.opus ⟨version, count, preSkip, m.inputSampleRate, gain, family⟩)
  | _ => .error .invalidArgument

/-- `CopyStreamInfo` (codec_config_generator.cc:153-187). -/
def streamInfoFromMetadata (m : FlacInfoMetadata) : Except Err FlacStreamInfo := do
  let minimum ← castU16 m.minimumBlockSize
  let maximum ← castU16 m.maximumBlockSize
  let channels ← castU8 m.numberOfChannels
  let bits ← castU8 m.bitsPerSample
  if m.md5.length ≠ 16 then .error .invalidArgument
  else .ok ⟨minimum, maximum, m.minimumFrameSize, m.maximumFrameSize, m.sampleRate, channels, bits, m.totalSamplesInStream, m.md5⟩

/-- `CopyFlacBlockType` (codec_config_generator.cc:67-77, lookup_tables.h:91-103, flac_decoder_config.h:109-119). -/
def flacBlockTypeFromProto (t : UInt32) : Except Err UInt8 := if 1 ≤ t ∧ t ≤ 7 then .ok (t - 1).toUInt8 else .error .notFound

/-- One block of `GenerateFlacDecoderConfig` (codec_config_generator.cc:202-241). -/
def flacBlockFromMetadata (m : FlacBlockMetadata) : Except Err FlacBlock := do
  let t ← flacBlockTypeFromProto m.blockType
  if t = 0 then match m.data with
    | .streamInfo s => do
      let info ← streamInfoFromMetadata s
      .ok ⟨t, .streamInfo info⟩
    | _ => .error .invalidArgument
  else match m.data with
    | .generic l => .ok ⟨t, .bytes l⟩
    | _ => .error .invalidArgument

/-- The loop of `GenerateFlacDecoderConfig` (codec_config_generator.cc:200-244). -/
def flacBlocksFromMetadata : List FlacBlockMetadata → Except Err (List FlacBlock)
  | [] => .ok []
  | m :: ms => do
    let b ← flacBlockFromMetadata m
    let bs ← flacBlocksFromMetadata ms
    .ok (b :: bs)

/-- `GenerateFlacDecoderConfig` (codec_config_generator.cc:189-247). -/
def flacFromMetadata : DecoderConfigMetadata → Except Err DecoderConfig
  | .flac ms => do
    let bs ← flacBlocksFromMetadata ms
    .ok (.flac ⟨bs⟩)
  | _ => .error .invalidArgument

/-- The sample frequency index (codec_config_generator.cc:280-301, lookup_tables.h:105-125, aac_decoder_config.h:33-50, 113-130): the
deprecated escape value is replaced with the index of the frequency. -/
def aacIndexFromMetadata (m : AacInfoMetadata) : Except Err UInt32 :=
  if m.sampleFrequencyIndex = 16 then
    match aacSampleFrequencies.findIdx? (· == m.samplingFrequency) with
    | some i => .ok (UInt32.ofNat i)
    | none => .error .notFound
  else if 1 ≤ m.sampleFrequencyIndex ∧ m.sampleFrequencyIndex ≤ 15 then .ok (m.sampleFrequencyIndex - 1)
  else .error .notFound

/-- `GenerateAacDecoderConfig` (codec_config_generator.cc:249-316). -/
def aacFromMetadata : DecoderConfigMetadata → Except Err DecoderConfig
  | .aac m => do
    let tag ← castU8 m.tag
    let objectType ← castU8 m.objectTypeIndication
    let streamType ← castU8 m.streamType
    match m.info with
    | none => .error .invalidArgument
    | some info => do
      let infoTag ← castU8 info.tag
      let audioObjectType ← castU8 info.audioObjectType
      let index ← aacIndexFromMetadata info
      let channels ← castU8 info.channelConfiguration
      .ok (.aac ⟨tag, objectType, streamType, m.upstream, m.reserved, m.bufferSizeDb, m.maxBitrate, m.averageBitRate, infoTag,
        ⟨audioObjectType, index, channels, m.frameLengthFlag, m.dependsOnCoreCoder, m.extensionFlag⟩, [], []⟩)
  | _ => .error .invalidArgument

/-- A codec config OBU with the rates that are derived from it. -/
structure CodecConfigObu where
  header : ObuHeader
  config : CodecConfig
  outputRate : UInt32
  inputRate : UInt32
  bitDepth : UInt8
  deriving DecidableEq, Repr

/-- The decoder config of the codec (codec_config_generator.cc:362-386). -/
def decoderFromMetadata (id : UInt32) (m : DecoderConfigMetadata) : Except Err DecoderConfig :=
  if id = kCodecIdLpcm then lpcmFromMetadata m
  else if id = kCodecIdOpus then opusFromMetadata m
  else if id = kCodecIdFlac then flacFromMetadata m
  else if id = kCodecIdAacLc then aacFromMetadata m
  else .error .invalidArgument

/-- `OverrideCodecDelay` (codec_config_generator.cc:325-338) if the metadata say so (395-397).  `delay` is the delay of an encoder of the
codec (`AudioFrameGenerator::GetNumberOfSamplesToDelayAtStart`, audio_frame_generator.cc:790-806), which the codec libraries say; it is
narrowed to 16 bits by the call of `SetCodecDelay`. -/
def overrideCodecDelay (delay : CodecMetadata → CodecConfig → Except Err UInt32) (m : CodecMetadata) (c : CodecConfig) : Except Err CodecConfig :=
  if m.overrideCodecDelay then do
    let d ← delay m c
    c.setCodecDelay d.toUInt16
  else .ok c

/-- The body of the loop of `CodecConfigGenerator::Generate` (codec_config_generator.cc:346-400). -/
def generateCodecConfig (delay : CodecMetadata → CodecConfig → Except Err UInt32) (m : CodecConfigMetadata) : Except Err CodecConfigObu := do
  let id ← codecIdFromProto m.codecConfig
  let roll ← castS16 m.codecConfig.audioRollDistance
  let decoder ← decoderFromMetadata id m.codecConfig.decoderConfig
  let r ← CodecConfig.create ⟨m.configId, id, m.codecConfig.numSamplesPerFrame, roll, decoder⟩ m.codecConfig.overrideRollDistance
  let c ← overrideCodecDelay delay m.codecConfig r.1
  .ok ⟨headerFromMetadata ObuType.codecConfig m.header, c, r.2.1, r.2.2.1, r.2.2.2⟩

/-- `CodecConfigGenerator::Generate` (codec_config_generator.cc:342-405): `emplace` leaves an OBU with the same id alone. -/
def generateCodecConfigs (delay : CodecMetadata → CodecConfig → Except Err UInt32) :
    List CodecConfigMetadata → List (UInt32 × CodecConfigObu) → Except Err (List (UInt32 × CodecConfigObu))
  | [], found => .ok found
  | m :: ms, found => do
    let obu ← generateCodecConfig delay m
    generateCodecConfigs delay ms (if found.any (fun x => x.1 == m.configId) then found else found ++ [(m.configId, obu)])

end Iamf
