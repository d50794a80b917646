import Verif.Cli.CodecGenerator
import Verif.Props.CodecAccept
import Mathlib.Data.List.Forall2
import Mathlib.Data.List.Nodup
/-
  C61: codec configs and IA sequence headers from metadata.
-/
namespace Iamf.Props
open Iamf

/-! ### Specification -/

/-- The OBU header says what the metadata say. -/
structure SaysHeader (t : ObuType) (m : HeaderMetadata) (h : ObuHeader) : Prop where
  type : h.obuType = t
  redundant : h.redundantCopy = m.redundantCopy
  flag : h.typeSpecificFlag = m.trimmingStatusFlag
  trimEnd : h.trimEnd = m.trimEnd
  trimStart : h.trimStart = m.trimStart
  extension : ∀ bytes, h.ext = some bytes ↔ m.extensionFlag = true ∧ bytes = m.extensionBytes

/-- LPCM: the format flag 1 means big endian, which is 0 in the bitstream, and 2 means little endian, which is 1. -/
structure SaysLpcm (m : LpcmMetadata) (c : LpcmConfig) : Prop where
  order : m.sampleFormatFlags.toNat = 1 ∧ c.formatFlags = 0 ∨ m.sampleFormatFlags.toNat = 2 ∧ c.formatFlags = 1
  size : c.sampleSize.toNat = m.sampleSize.toNat
  rate : c.sampleRate = m.sampleRate

structure SaysOpus (m : OpusMetadata) (c : OpusConfig) : Prop where
  version : c.version.toNat = m.version.toNat
  channels : c.outputChannelCount.toNat = m.outputChannelCount.toNat
  preSkip : c.preSkip.toNat = m.preSkip.toNat
  rate : c.inputSampleRate = m.inputSampleRate
  gain : c.outputGain.toInt = m.outputGain.toInt
  family : c.mappingFamily.toNat = m.mappingFamily.toNat

structure SaysFlacInfo (m : FlacInfoMetadata) (s : FlacStreamInfo) : Prop where
  minimumBlock : s.minimumBlockSize.toNat = m.minimumBlockSize.toNat
  maximumBlock : s.maximumBlockSize.toNat = m.maximumBlockSize.toNat
  minimumFrame : s.minimumFrameSize = m.minimumFrameSize
  maximumFrame : s.maximumFrameSize = m.maximumFrameSize
  rate : s.sampleRate = m.sampleRate
  channels : s.numberOfChannels.toNat = m.numberOfChannels.toNat
  bits : s.bitsPerSample.toNat = m.bitsPerSample.toNat
  total : s.totalSamplesInStream = m.totalSamplesInStream
  md5 : s.md5 = m.md5 ∧ m.md5.length = 16

/-- A block of FLAC: types are numbered from 1 in metadata; the block of type 0 is the stream info, and the others are bytes. -/
def SaysFlacBlock (m : FlacBlockMetadata) (b : FlacBlock) : Prop :=
  m.blockType.toNat = b.blockType.toNat + 1 ∧ m.blockType.toNat ≤ 7 ∧ match m.data, b.payload with
    | .streamInfo i, .streamInfo s => b.blockType = 0 ∧ SaysFlacInfo i s
    | .generic l, .bytes l' => b.blockType ≠ 0 ∧ l' = l
    | _, _ => False

/-- The index of the sample frequency: numbered from 1 in metadata, or 16 and the frequency itself. -/
def SaysIndex (m : AacInfoMetadata) (index : UInt32) : Prop :=
  if m.sampleFrequencyIndex.toNat = 16 then
    [96000, 88200, 64000, 48000, 44100, 32000, 24000, 22050, 16000, 12000, 11025, 8000, 7350][index.toNat]? = some m.samplingFrequency.toNat
  else m.sampleFrequencyIndex.toNat = index.toNat + 1 ∧ m.sampleFrequencyIndex.toNat ≤ 15

structure SaysAac (m : AacMetadata) (i : AacInfoMetadata) (c : AacConfig) : Prop where
  info : m.info = some i
  tag : c.descriptorTag.toNat = m.tag.toNat
  object : c.objectTypeIndication.toNat = m.objectTypeIndication.toNat
  stream : c.streamType.toNat = m.streamType.toNat
  upstream : c.upstream = m.upstream
  reserved : c.reserved = m.reserved
  buffer : c.bufferSizeDb = m.bufferSizeDb
  bitrates : c.maxBitrate = m.maxBitrate ∧ c.averageBitRate = m.averageBitRate
  infoTag : c.infoTag.toNat = i.tag.toNat
  audioObject : c.asc.audioObjectType.toNat = i.audioObjectType.toNat
  index : SaysIndex i c.asc.sampleFrequencyIndex
  channels : c.asc.channelConfiguration.toNat = i.channelConfiguration.toNat
  frameLength : c.asc.frameLengthFlag = m.frameLengthFlag
  core : c.asc.dependsOnCoreCoder = m.dependsOnCoreCoder
  extension : c.asc.extensionFlag = m.extensionFlag
  extensions : c.infoExtension = [] ∧ c.configExtension = []

/-- The decoder config says what the metadata say. -/
def SaysDecoder (m : DecoderConfigMetadata) (d : DecoderConfig) : Prop := match m, d with
  | .lpcm m, .lpcm c => SaysLpcm m c
  | .opus m, .opus c => SaysOpus m c
  | .flac ms, .flac c => List.Forall₂ SaysFlacBlock ms c.blocks
  | .aac m, .aac c => ∃ i, SaysAac m i c
  | _, _ => False

/-- The number of the codec in the bitstream ("Opus", "ipcm", "fLaC", "mp4a"). -/
def codecNumber : DecoderConfig → Nat
  | .opus _ => 0x4f707573
  | .lpcm _ => 0x6970636d
  | .flac _ => 0x664c6143
  | .aac _ => 0x6d703461

/-- The sample rate and the bit depth are among those of IAMF. -/
def RatesKnown : DecoderConfig → Prop
  | .opus _ => True
  | .lpcm c => c.sampleRate.toNat ∈ [16000, 32000, 44100, 48000, 96000] ∧ c.sampleSize.toNat ∈ [16, 24, 32]
  | .aac c => c.asc.sampleFrequencyIndex.toNat ≤ 12
  | .flac c => ∃ s rest, c.blocks = ⟨0, .streamInfo s⟩ :: rest ∧
      s.sampleRate.toNat ∈ [8000, 16000, 22050, 24000, 32000, 44100, 48000, 88200, 96000, 176400, 192000] ∧ s.bitsPerSample.toNat ∈ [15, 23, 31]

/-- The roll distance that IAMF requires for frames of `n` samples. -/
def requiredRoll (n : Nat) : DecoderConfig → Int
  | .opus _ => -(((3840 + n - 1) / n : Nat) : Int)
  | .aac _ => -1
  | _ => 0

/-- The decoder config with this delay of the codec, which only Opus has a field for. -/
def withDelay (delay : UInt16) : DecoderConfig → DecoderConfig
  | .opus c => .opus { c with preSkip := delay }
  | d => d

/-- The OBU is what the metadata say, except for the roll distance and the delay of the codec, if the metadata say that these are to be
overridden. -/
structure GeneratedFrom (delay : CodecMetadata → CodecConfig → Except Err UInt32) (m : CodecConfigMetadata) (o : CodecConfigObu) : Prop where
  header : SaysHeader 0 m.header o.header
  id : o.config.configId = m.configId
  codec : m.codecConfig.hasDeprecatedCodecId = false ∧ m.codecConfig.codecId = some o.config.codecId
  samples : o.config.numSamplesPerFrame = m.codecConfig.numSamplesPerFrame ∧ 1 ≤ o.config.numSamplesPerFrame.toNat ∧
    o.config.numSamplesPerFrame.toNat ≤ 96000
  range : -32768 ≤ m.codecConfig.audioRollDistance.toInt ∧ m.codecConfig.audioRollDistance.toInt ≤ 32767
  roll : o.config.audioRollDistance.toInt =
    if m.codecConfig.overrideRollDistance then requiredRoll o.config.numSamplesPerFrame.toNat o.config.decoderConfig
    else m.codecConfig.audioRollDistance.toInt
  decoder : ∃ d, SaysDecoder m.codecConfig.decoderConfig d ∧ RatesKnown d ∧ o.config.codecId.toNat = codecNumber d ∧
    if m.codecConfig.overrideCodecDelay then
      ∃ n, delay m.codecConfig ⟨o.config.configId, o.config.codecId, o.config.numSamplesPerFrame, o.config.audioRollDistance, d⟩ = .ok n ∧
        o.config.decoderConfig = withDelay n.toUInt16 d
    else o.config.decoderConfig = d
  rates : (o.outputRate.toNat, o.inputRate.toNat, o.bitDepth.toNat) = codecRates o.config

/-! ### Casts -/

private theorem bind_ok {α β : Type} (x : Except Err α) (f : α → Except Err β) (b : β) :
    (x >>= f) = .ok b ↔ ∃ a, x = .ok a ∧ f a = .ok b := by
  cases x with
  | error e => exact ⟨fun h => by simp [bind, Except.bind] at h, fun ⟨a, h, _⟩ => by simp at h⟩
  | ok a => exact ⟨fun h => ⟨a, rfl, h⟩, fun ⟨a', h, h'⟩ => by cases h; exact h'⟩

private theorem castU8_ok (x : UInt32) (y : UInt8) : castU8 x = .ok y ↔ y.toNat = x.toNat := by
  unfold castU8
  have hx := y.toNat_lt
  by_cases h : x ≤ 255
  · rw [if_pos h]
    have h' : x.toNat ≤ 255 := h
    simp only [Except.ok.injEq]
    rw [← UInt8.toNat_inj, UInt32.toNat_toUInt8]
    omega
  · rw [if_neg h]
    have h' : ¬ x.toNat ≤ 255 := h
    exact ⟨fun h => by simp at h, fun h => by omega⟩

private theorem castU16_ok (x : UInt32) (y : UInt16) : castU16 x = .ok y ↔ y.toNat = x.toNat := by
  unfold castU16
  have hx := y.toNat_lt
  by_cases h : x ≤ 65535
  · rw [if_pos h]
    have h' : x.toNat ≤ 65535 := h
    simp only [Except.ok.injEq]
    rw [← UInt16.toNat_inj, UInt32.toNat_toUInt16]
    omega
  · rw [if_neg h]
    have h' : ¬ x.toNat ≤ 65535 := h
    exact ⟨fun h => by simp at h, fun h => by omega⟩

private theorem castS16_ok (x : Int32) (y : Int16) : castS16 x = .ok y ↔ y.toInt = x.toInt := by
  unfold castS16
  have h1 := y.le_toInt
  have h2 := y.toInt_lt
  have e1 : (-32768 ≤ x) ↔ -32768 ≤ x.toInt := by rw [Int32.le_iff_toInt_le]; rfl
  have e2 : (x ≤ 32767) ↔ x.toInt ≤ 32767 := by rw [Int32.le_iff_toInt_le]; rfl
  simp only [e1, e2]
  by_cases h : -32768 ≤ x.toInt ∧ x.toInt ≤ 32767
  · rw [if_pos h]
    simp only [Except.ok.injEq]
    rw [← Int16.toInt_inj, Int32.toInt_toInt16]
    rw [Int.bmod_eq_of_le (by omega) (by omega)]
    exact eq_comm
  · rw [if_neg h]
    exact ⟨fun h => by simp at h, fun h => by omega⟩

/-! ### Decoder configs -/

private theorem lpcm_ok (m : DecoderConfigMetadata) (d : DecoderConfig) :
    lpcmFromMetadata m = .ok d ↔ SaysDecoder m d ∧ codecNumber d = 0x6970636d := by
  cases m with
  | lpcm m =>
    have e1 : m.sampleFormatFlags = 1 ↔ m.sampleFormatFlags.toNat = 1 := by rw [← UInt32.toNat_inj]; rfl
    have e2 : m.sampleFormatFlags = 2 ↔ m.sampleFormatFlags.toNat = 2 := by rw [← UInt32.toNat_inj]; rfl
    have key : ∀ f : UInt8, (do let size ← castU8 m.sampleSize; Except.ok (DecoderConfig.lpcm ⟨f, size, m.sampleRate⟩)) = .ok d ↔
        ∃ c : LpcmConfig, d = .lpcm c ∧ c.formatFlags = f ∧ c.sampleSize.toNat = m.sampleSize.toNat ∧ c.sampleRate = m.sampleRate := by
      intro f
      rw [bind_ok]
      constructor
      · rintro ⟨a, h1, h2⟩
        cases h2
        exact ⟨_, rfl, rfl, (castU8_ok _ _).mp h1, rfl⟩
      · rintro ⟨⟨_, s, _⟩, rfl, rfl, h, rfl⟩
        exact ⟨s, (castU8_ok _ _).mpr h, rfl⟩
    simp only [lpcmFromMetadata]
    split
    · rename_i h1
      rw [key]
      constructor
      · rintro ⟨c, rfl, h2, h3, h4⟩
        exact ⟨⟨.inl ⟨e1.mp h1, h2⟩, h3, h4⟩, rfl⟩
      · cases d with
        | lpcm c =>
          rintro ⟨⟨h, h3, h4⟩, -⟩
          rw [← e1, ← e2, h1] at h
          refine ⟨c, rfl, ?_, h3, h4⟩
          rcases h with h | h
          · exact h.2
          · exact absurd h.1 (by decide)
        | _ => rintro ⟨h, -⟩; exact absurd h (by simp [SaysDecoder])
    · split
      · rename_i h1 h2
        rw [key]
        constructor
        · rintro ⟨c, rfl, h5, h3, h4⟩
          exact ⟨⟨.inr ⟨e2.mp h2, h5⟩, h3, h4⟩, rfl⟩
        · cases d with
          | lpcm c =>
            rintro ⟨⟨h, h3, h4⟩, -⟩
            rw [← e1, ← e2] at h
            refine ⟨c, rfl, ?_, h3, h4⟩
            rcases h with h | h
            · exact absurd h.1 h1
            · exact h.2
          | _ => rintro ⟨h, -⟩; exact absurd h (by simp [SaysDecoder])
      · rename_i h1 h2
        refine ⟨fun h => by simp at h, ?_⟩
        cases d with
        | lpcm c =>
          rintro ⟨⟨h, -, -⟩, -⟩
          rw [← e1, ← e2] at h
          rcases h with h | h
          · exact absurd h.1 h1
          · exact absurd h.1 h2
        | _ => rintro ⟨h, -⟩; exact absurd h (by simp [SaysDecoder])
  | _ =>
    refine ⟨fun h => by simp [lpcmFromMetadata] at h, ?_⟩
    cases d <;> simp [SaysDecoder, codecNumber]

private theorem opus_ok (m : DecoderConfigMetadata) (d : DecoderConfig) :
    opusFromMetadata m = .ok d ↔ SaysDecoder m d ∧ codecNumber d = 0x4f707573 := by
  cases m with
  | opus m =>
    simp only [opusFromMetadata, bind_ok, castU8_ok, castU16_ok, castS16_ok]
    constructor
    · rintro ⟨v, h1, c, h2, p, h3, g, h4, f, h5, h⟩
      cases h
      exact ⟨⟨h1, h2, h3, rfl, h4, h5⟩, rfl⟩
    · cases d with
      | opus c =>
        rintro ⟨⟨h1, h2, h3, h4, h5, h6⟩, -⟩
        refine ⟨_, h1, _, h2, _, h3, _, h5, _, h6, ?_⟩
        rw [← h4]
      | _ => rintro ⟨h, -⟩; exact absurd h (by simp [SaysDecoder])
  | _ =>
    refine ⟨fun h => by simp [opusFromMetadata] at h, ?_⟩
    cases d <;> simp [SaysDecoder, codecNumber]

private theorem info_ok (m : FlacInfoMetadata) (s : FlacStreamInfo) : streamInfoFromMetadata m = .ok s ↔ SaysFlacInfo m s := by
  simp only [streamInfoFromMetadata, bind_ok, castU8_ok, castU16_ok]
  constructor
  · rintro ⟨a, h1, b, h2, c, h3, d, h4, h⟩
    split at h
    · simp at h
    · rename_i h5
      cases h
      exact ⟨h1, h2, rfl, rfl, rfl, h3, h4, rfl, rfl, by simpa using h5⟩
  · rintro ⟨h1, h2, h3, h4, h5, h6, h7, h8, h9, h10⟩
    refine ⟨_, h1, _, h2, _, h6, _, h7, ?_⟩
    rw [if_neg (by simpa using h10), ← h3, ← h4, ← h5, ← h8, ← h9]

private theorem block_ok (m : FlacBlockMetadata) (b : FlacBlock) : flacBlockFromMetadata m = .ok b ↔ SaysFlacBlock m b := by
  obtain ⟨t, data⟩ := m
  obtain ⟨bt, payload⟩ := b
  have ht : ∀ u : UInt8, flacBlockTypeFromProto t = .ok u ↔ t.toNat = u.toNat + 1 ∧ t.toNat ≤ 7 := by
    intro u
    unfold flacBlockTypeFromProto
    have e1 : (1 ≤ t) ↔ 1 ≤ t.toNat := Iff.rfl
    have e2 : (t ≤ 7) ↔ t.toNat ≤ 7 := Iff.rfl
    simp only [e1, e2]
    have := u.toNat_lt
    by_cases h : 1 ≤ t.toNat ∧ t.toNat ≤ 7
    · rw [if_pos h]
      simp only [Except.ok.injEq]
      rw [← UInt8.toNat_inj, UInt32.toNat_toUInt8, UInt32.toNat_sub_of_le _ _ (by exact h.1)]
      have h1 : (1 : UInt32).toNat = 1 := rfl
      omega
    · rw [if_neg h]
      exact ⟨fun h => by simp at h, fun h' => by omega⟩
  simp only [flacBlockFromMetadata, bind_ok, ht]
  unfold SaysFlacBlock
  constructor
  · rintro ⟨u, ⟨h1, h2⟩, h⟩
    split at h
    · rename_i hu
      cases data with
      | streamInfo s =>
        simp only [bind_ok, info_ok] at h
        obtain ⟨i, hi, h⟩ := h
        cases h
        exact ⟨h1, h2, hu, hi⟩
      | _ => simp at h
    · rename_i hu
      cases data with
      | generic l =>
        cases h
        exact ⟨h1, h2, hu, rfl⟩
      | _ => simp at h
  · rintro ⟨h1, h2, h⟩
    refine ⟨bt, ⟨h1, h2⟩, ?_⟩
    cases data with
    | unset => cases payload <;> exact absurd h (by simp)
    | streamInfo s =>
      cases payload with
      | streamInfo i =>
        rw [if_pos h.1]
        simp only [bind_ok, info_ok]
        exact ⟨i, h.2, rfl⟩
      | bytes l => exact absurd h (by simp)
    | generic l =>
      cases payload with
      | streamInfo i => exact absurd h (by simp)
      | bytes l' =>
        rw [if_neg h.1]
        simp [h.2]

private theorem blocks_ok : ∀ (ms : List FlacBlockMetadata) (bs : List FlacBlock),
    flacBlocksFromMetadata ms = .ok bs ↔ List.Forall₂ SaysFlacBlock ms bs
  | [], bs => by
    simp only [flacBlocksFromMetadata, Except.ok.injEq, List.forall₂_nil_left_iff]
    exact eq_comm
  | m :: ms, bs => by
    simp only [flacBlocksFromMetadata, bind_ok, block_ok, blocks_ok ms]
    rw [List.forall₂_cons_left_iff]
    constructor
    · rintro ⟨b, h1, bs', h2, h⟩
      cases h
      exact ⟨b, bs', h1, h2, rfl⟩
    · rintro ⟨b, bs', h1, h2, rfl⟩
      exact ⟨b, h1, bs', h2, rfl⟩

private theorem flac_ok (m : DecoderConfigMetadata) (d : DecoderConfig) :
    flacFromMetadata m = .ok d ↔ SaysDecoder m d ∧ codecNumber d = 0x664c6143 := by
  cases m with
  | flac ms =>
    simp only [flacFromMetadata, bind_ok, blocks_ok]
    constructor
    · rintro ⟨bs, h1, h⟩
      cases h
      exact ⟨h1, rfl⟩
    · cases d with
      | flac c =>
        rintro ⟨h, -⟩
        exact ⟨c.blocks, h, rfl⟩
      | _ => rintro ⟨h, -⟩; exact absurd h (by simp [SaysDecoder])
  | _ =>
    refine ⟨fun h => by simp [flacFromMetadata] at h, ?_⟩
    cases d <;> simp [SaysDecoder, codecNumber]

private theorem index_ok (i : AacInfoMetadata) (index : UInt32) : aacIndexFromMetadata i = .ok index ↔ SaysIndex i index := by
  unfold aacIndexFromMetadata SaysIndex
  have e0 : (i.sampleFrequencyIndex = 16) ↔ i.sampleFrequencyIndex.toNat = 16 := by rw [← UInt32.toNat_inj]; rfl
  by_cases h : i.sampleFrequencyIndex = 16
  · rw [if_pos h, if_pos (e0.mp h)]
    have hl : ([96000, 88200, 64000, 48000, 44100, 32000, 24000, 22050, 16000, 12000, 11025, 8000, 7350] : List Nat) =
      aacSampleFrequencies.map UInt32.toNat := by decide +kernel
    have hnd : aacSampleFrequencies.Nodup := by decide +kernel
    rw [hl, List.getElem?_map]
    cases hf : aacSampleFrequencies.findIdx? (· == i.samplingFrequency) with
    | none =>
      refine ⟨fun h => by simp at h, fun h => ?_⟩
      rw [List.findIdx?_eq_none_iff] at hf
      obtain ⟨x, hx, he⟩ := Option.map_eq_some_iff.mp h
      have := hf x (List.mem_of_getElem? hx)
      simp [UInt32.toNat_inj.mp he] at this
    | some k =>
      obtain ⟨hk, h1, -⟩ := List.findIdx?_eq_some_iff_getElem.mp hf
      have h1 : aacSampleFrequencies[k] = i.samplingFrequency := by simpa using h1
      have hk13 : k < 13 := hk
      have hkn : (UInt32.ofNat k).toNat = k := by rw [UInt32.toNat_ofNat']; omega
      simp only [Except.ok.injEq]
      constructor
      · rintro rfl
        rw [hkn, List.getElem?_eq_getElem hk, h1]
        rfl
      · intro h
        obtain ⟨x, hx, he⟩ := Option.map_eq_some_iff.mp h
        obtain ⟨hi, hx⟩ := List.getElem?_eq_some_iff.mp hx
        have : aacSampleFrequencies[index.toNat] = aacSampleFrequencies[k]'hk := by rw [hx, h1, UInt32.toNat_inj.mp he]
        have := (List.Nodup.getElem_inj_iff hnd).mp this
        rw [← UInt32.toNat_inj, hkn, this]
  · rw [if_neg h, if_neg (fun h' => h (e0.mpr h'))]
    have e1 : (1 ≤ i.sampleFrequencyIndex) ↔ 1 ≤ i.sampleFrequencyIndex.toNat := Iff.rfl
    have e2 : (i.sampleFrequencyIndex ≤ 15) ↔ i.sampleFrequencyIndex.toNat ≤ 15 := Iff.rfl
    simp only [e1, e2]
    by_cases h' : 1 ≤ i.sampleFrequencyIndex.toNat ∧ i.sampleFrequencyIndex.toNat ≤ 15
    · rw [if_pos h']
      simp only [Except.ok.injEq]
      rw [← UInt32.toNat_inj, UInt32.toNat_sub_of_le _ _ (by exact h'.1)]
      have h1 : (1 : UInt32).toNat = 1 := rfl
      omega
    · rw [if_neg h']
      exact ⟨fun h => by simp at h, fun h => by omega⟩

private theorem aac_ok (m : DecoderConfigMetadata) (d : DecoderConfig) :
    aacFromMetadata m = .ok d ↔ SaysDecoder m d ∧ codecNumber d = 0x6d703461 := by
  cases m with
  | aac m =>
    simp only [aacFromMetadata, bind_ok, castU8_ok]
    constructor
    · rintro ⟨a, h1, b, h2, c, h3, h⟩
      cases hi : m.info with
      | none => simp [hi] at h
      | some i =>
        simp only [hi, bind_ok, castU8_ok, index_ok] at h
        obtain ⟨e, h4, f, h5, g, h6, j, h7, h⟩ := h
        cases h
        exact ⟨⟨i, hi, h1, h2, h3, rfl, rfl, rfl, ⟨rfl, rfl⟩, h4, h5, h6, h7, rfl, rfl, rfl, rfl, rfl⟩, rfl⟩
    · cases d with
      | aac c =>
        rintro ⟨⟨i, h⟩, -⟩
        refine ⟨_, h.tag, _, h.object, _, h.stream, ?_⟩
        simp only [h.info, bind_ok, castU8_ok, index_ok]
        refine ⟨_, h.infoTag, _, h.audioObject, _, h.index, _, h.channels, ?_⟩
        rw [← h.upstream, ← h.reserved, ← h.buffer, ← h.bitrates.1, ← h.bitrates.2, ← h.frameLength, ← h.core, ← h.extension, ← h.extensions.1]
        conv => lhs; rw [h.extensions.1]
        obtain ⟨c1, c2, c3, c4, c5, c6, c7, c8, c9, c10, c11, c12⟩ := c
        obtain ⟨e1, e2⟩ : c11 = [] ∧ c12 = [] := h.extensions
        rw [e1, e2]
      | _ => rintro ⟨h, -⟩; exact absurd h (by simp [SaysDecoder])
  | _ =>
    refine ⟨fun h => by simp [aacFromMetadata] at h, ?_⟩
    cases d <;> simp [SaysDecoder, codecNumber]

/-! ### The OBU -/

private theorem lpcm_rates (c : LpcmConfig) : (lpcmSampleRateOk c.sampleRate = true ∧ lpcmSampleSizeOk c.sampleSize = true) ↔ RatesKnown (.lpcm c) := by
  unfold lpcmSampleRateOk lpcmSampleSizeOk RatesKnown
  simp only [Bool.or_eq_true, beq_iff_eq, ← UInt32.toNat_inj, ← UInt8.toNat_inj, List.mem_cons, List.not_mem_nil, or_false]
  simp only [show (16000 : UInt32).toNat = 16000 from rfl, show (32000 : UInt32).toNat = 32000 from rfl, show (44100 : UInt32).toNat = 44100 from rfl,
    show (48000 : UInt32).toNat = 48000 from rfl, show (96000 : UInt32).toNat = 96000 from rfl, show (16 : UInt8).toNat = 16 from rfl,
    show (24 : UInt8).toNat = 24 from rfl, show (32 : UInt8).toNat = 32 from rfl]
  tauto

private theorem flac_rates (s : FlacStreamInfo) : (flacSampleRateOk s.sampleRate = true ∧ flacBitsOk s.bitsPerSample = true) ↔
    (s.sampleRate.toNat ∈ [8000, 16000, 22050, 24000, 32000, 44100, 48000, 88200, 96000, 176400, 192000] ∧ s.bitsPerSample.toNat ∈ [15, 23, 31]) := by
  unfold flacSampleRateOk flacBitsOk
  simp only [Bool.or_eq_true, beq_iff_eq, ← UInt32.toNat_inj, ← UInt8.toNat_inj, List.mem_cons, List.not_mem_nil, or_false]
  simp only [show (8000 : UInt32).toNat = 8000 from rfl, show (16000 : UInt32).toNat = 16000 from rfl, show (22050 : UInt32).toNat = 22050 from rfl,
    show (24000 : UInt32).toNat = 24000 from rfl, show (32000 : UInt32).toNat = 32000 from rfl, show (44100 : UInt32).toNat = 44100 from rfl,
    show (48000 : UInt32).toNat = 48000 from rfl, show (88200 : UInt32).toNat = 88200 from rfl, show (96000 : UInt32).toNat = 96000 from rfl,
    show (176400 : UInt32).toNat = 176400 from rfl, show (192000 : UInt32).toNat = 192000 from rfl, show (15 : UInt8).toNat = 15 from rfl,
    show (23 : UInt8).toNat = 23 from rfl, show (31 : UInt8).toNat = 31 from rfl]
  tauto

private theorem rates_ok (c : CodecConfig) (hid : c.codecId.toNat = codecNumber c.decoderConfig) (v : UInt32 × UInt32 × UInt8) :
    c.rates = .ok v ↔ RatesKnown c.decoderConfig ∧ (v.1.toNat, v.2.1.toNat, v.2.2.toNat) = codecRates c := by
  obtain ⟨id, cid, nspf, roll, d⟩ := c
  obtain ⟨v1, v2, v3⟩ := v
  have pair : ∀ (a b : UInt32) (e : UInt8), ((a, b, e) = (v1, v2, v3) ↔ (v1.toNat, v2.toNat, v3.toNat) = (a.toNat, b.toNat, e.toNat)) := by
    intro a b e
    simp only [Prod.mk.injEq, UInt32.toNat_inj, UInt8.toNat_inj]
    constructor <;> rintro ⟨rfl, rfl, rfl⟩ <;> exact ⟨rfl, rfl, rfl⟩
  unfold CodecConfig.rates codecRates
  cases d with
  | opus d =>
    obtain rfl : cid = kCodecIdOpus := UInt32.toNat_inj.mp hid
    simp only [↓reduceIte, RatesKnown, true_and]
    rw [if_neg (by decide), Except.ok.injEq, pair]
    rfl
  | lpcm d =>
    obtain rfl : cid = kCodecIdLpcm := UInt32.toNat_inj.mp hid
    rw [← lpcm_rates]
    simp only [show ¬ kCodecIdLpcm = kCodecIdOpus by decide, ↓reduceIte]
    by_cases h1 : lpcmSampleRateOk d.sampleRate = true
    · by_cases h2 : lpcmSampleSizeOk d.sampleSize = true
      · simp only [h1, h2, Bool.not_true, Bool.false_eq_true, ↓reduceIte, and_self, true_and]
        rw [if_neg (lpcmSampleRateOk_ne h1), Except.ok.injEq, pair]
      · simp [h1, h2]
    · simp [h1]
  | aac d =>
    obtain rfl : cid = kCodecIdAacLc := UInt32.toNat_inj.mp hid
    simp only [show ¬ kCodecIdAacLc = kCodecIdOpus by decide, show ¬ kCodecIdAacLc = kCodecIdLpcm by decide, ↓reduceIte, RatesKnown]
    by_cases h : d.asc.sampleFrequencyIndex.toNat ≤ 12
    · have h13 : d.asc.sampleFrequencyIndex.toNat < aacSampleFrequencies.length := by show _ < 13; omega
      have hne : ¬ (d.asc.sampleFrequencyIndex = 13 ∨ d.asc.sampleFrequencyIndex = 14) := by
        rintro (h' | h') <;> rw [h'] at h <;> exact absurd h (by decide)
      have hf : aacSampleFrequency d.asc.sampleFrequencyIndex = .ok (aacSampleFrequencies[d.asc.sampleFrequencyIndex.toNat]) := by
        unfold aacSampleFrequency
        rw [if_neg hne, List.getElem?_eq_getElem h13]
      have hall : ∀ i (h : i < aacSampleFrequencies.length), (aacSampleFrequencies[i]).toNat =
          [96000, 88200, 64000, 48000, 44100, 32000, 24000, 22050, 16000, 12000, 11025, 8000, 7350].getD i 0 := by decide +kernel
      rw [hf]
      simp only
      rw [if_neg (aacSampleFrequency_ne hf), Except.ok.injEq, pair, hall _ h13]
      simp only [h, true_and]
      rfl
    · have hf : ∃ e, aacSampleFrequency d.asc.sampleFrequencyIndex = .error e := by
        unfold aacSampleFrequency
        split
        · exact ⟨_, rfl⟩
        · rw [List.getElem?_eq_none (show aacSampleFrequencies.length ≤ _ by show 13 ≤ _; omega)]
          exact ⟨_, rfl⟩
      obtain ⟨e, hf⟩ := hf
      rw [hf]
      exact ⟨fun h => by simp at h, fun h' => absurd h'.1 h⟩
  | flac d =>
    obtain rfl : cid = kCodecIdFlac := UInt32.toNat_inj.mp hid
    simp only [show ¬ kCodecIdFlac = kCodecIdOpus by decide, show ¬ kCodecIdFlac = kCodecIdLpcm by decide,
      show ¬ kCodecIdFlac = kCodecIdAacLc by decide, ↓reduceIte, RatesKnown]
    obtain ⟨bs⟩ := d
    match bs with
    | [] =>
      refine ⟨fun h => by simp [FlacConfig.getStreamInfo] at h, ?_⟩
      rintro ⟨⟨s, rest, h, -⟩, -⟩
      simp at h
    | ⟨t, p⟩ :: rest =>
      by_cases ht : t = 0
      · subst ht
        cases p with
        | bytes l =>
          refine ⟨fun h => by simp [FlacConfig.getStreamInfo] at h, ?_⟩
          rintro ⟨⟨s, rest, h, -⟩, -⟩
          simp at h
        | streamInfo s =>
          have hg : FlacConfig.getStreamInfo ⟨⟨0, .streamInfo s⟩ :: rest⟩ = .ok s := by simp [FlacConfig.getStreamInfo]
          rw [hg]
          have hiff : (∃ s' rest', (⟨0, .streamInfo s⟩ :: rest : List FlacBlock) = ⟨0, .streamInfo s'⟩ :: rest' ∧
              s'.sampleRate.toNat ∈ [8000, 16000, 22050, 24000, 32000, 44100, 48000, 88200, 96000, 176400, 192000] ∧
              s'.bitsPerSample.toNat ∈ [15, 23, 31]) ↔ (flacSampleRateOk s.sampleRate = true ∧ flacBitsOk s.bitsPerSample = true) := by
            rw [flac_rates]
            constructor
            · rintro ⟨s', rest', h, h2⟩
              cases h
              exact h2
            · exact fun h => ⟨s, rest, rfl, h⟩
          rw [hiff]
          simp only
          by_cases h1 : flacSampleRateOk s.sampleRate = true
          · by_cases h2 : flacBitsOk s.bitsPerSample = true
            · simp only [h1, h2, Bool.not_true, Bool.false_eq_true, ↓reduceIte, and_self, true_and]
              have hb := ((flac_rates s).mp ⟨h1, h2⟩).2
              simp only [List.mem_cons, List.not_mem_nil, or_false] at hb
              have : (s.bitsPerSample + 1).toNat = s.bitsPerSample.toNat + 1 := by
                rw [UInt8.toNat_add]
                show (s.bitsPerSample.toNat + 1) % 256 = _
                omega
              rw [if_neg (flacSampleRateOk_ne h1), Except.ok.injEq, pair, this]
            · simp [h1, h2]
          · simp [h1]
      · refine ⟨fun h => by simp [FlacConfig.getStreamInfo, ht] at h, ?_⟩
        rintro ⟨⟨s, rest, h, -⟩, -⟩
        simp only [List.cons.injEq, FlacBlock.mk.injEq] at h
        exact absurd h.1.1 ht

private theorem roll_ok (n : UInt32) (h1 : 1 ≤ n.toNat) (h2 : n.toNat ≤ 96000) (cid : UInt32) (d : DecoderConfig)
    (hid : cid.toNat = codecNumber d) : ∃ r : Int16, requiredRollDistance cid n = .ok r ∧ r.toInt = requiredRoll n.toNat d := by
  unfold requiredRollDistance
  cases d with
  | opus d =>
    obtain rfl : cid = kCodecIdOpus := UInt32.toNat_inj.mp hid
    have : ∃ r, opusRollDistance n = .ok r := by
      unfold opusRollDistance
      rw [if_neg (by rintro rfl; simp at h1)]
      exact ⟨_, rfl⟩
    obtain ⟨r, hr⟩ := this
    refine ⟨r, by rw [if_pos rfl]; exact hr, ?_⟩
    exact (opusRoll_iff n r h1 h2).mp (by unfold opusValidateRoll; rw [hr]; simp)
  | lpcm d =>
    obtain rfl : cid = kCodecIdLpcm := UInt32.toNat_inj.mp hid
    exact ⟨0, by simp [kCodecIdOpus, kCodecIdLpcm, kCodecIdFlac], rfl⟩
  | aac d =>
    obtain rfl : cid = kCodecIdAacLc := UInt32.toNat_inj.mp hid
    exact ⟨-1, by simp [kCodecIdOpus, kCodecIdLpcm, kCodecIdFlac, kCodecIdAacLc], rfl⟩
  | flac d =>
    obtain rfl : cid = kCodecIdFlac := UInt32.toNat_inj.mp hid
    exact ⟨0, by simp [kCodecIdOpus, kCodecIdLpcm, kCodecIdFlac], rfl⟩

private theorem delay_ok (c : CodecConfig) (hid : c.codecId.toNat = codecNumber c.decoderConfig) (n : UInt16) :
    c.setCodecDelay n = .ok ⟨c.configId, c.codecId, c.numSamplesPerFrame, c.audioRollDistance, withDelay n c.decoderConfig⟩ := by
  obtain ⟨id, cid, nspf, roll, d⟩ := c
  unfold CodecConfig.setCodecDelay
  cases d with
  | opus d => obtain rfl : cid = kCodecIdOpus := UInt32.toNat_inj.mp hid; rfl
  | lpcm d => obtain rfl : cid = kCodecIdLpcm := UInt32.toNat_inj.mp hid; rfl
  | aac d => obtain rfl : cid = kCodecIdAacLc := UInt32.toNat_inj.mp hid; rfl
  | flac d => obtain rfl : cid = kCodecIdFlac := UInt32.toNat_inj.mp hid; rfl

private theorem delayed (n : UInt16) (d : DecoderConfig) : codecNumber (withDelay n d) = codecNumber d ∧
    (∀ k, requiredRoll k (withDelay n d) = requiredRoll k d) ∧
    ∀ id cid nspf roll, codecRates ⟨id, cid, nspf, roll, withDelay n d⟩ = codecRates ⟨id, cid, nspf, roll, d⟩ := by
  cases d <;> exact ⟨rfl, fun _ => rfl, fun _ _ _ _ => rfl⟩

private theorem decoder_ok (m : DecoderConfigMetadata) (cid : UInt32) (d : DecoderConfig) :
    decoderFromMetadata cid m = .ok d ↔ SaysDecoder m d ∧ cid.toNat = codecNumber d := by
  have hn : ∀ (k : UInt32) (P : Prop), (cid = k) → ((P ∧ codecNumber d = k.toNat) ↔ (P ∧ cid.toNat = codecNumber d)) := by
    rintro k P rfl
    exact and_congr Iff.rfl eq_comm
  unfold decoderFromMetadata
  split
  · rename_i h; rw [lpcm_ok]; exact hn _ _ h
  · split
    · rename_i h; rw [opus_ok]; exact hn _ _ h
    · split
      · rename_i h; rw [flac_ok]; exact hn _ _ h
      · split
        · rename_i h; rw [aac_ok]; exact hn _ _ h
        · rename_i h1 h2 h3 h4
          refine ⟨fun h => by simp at h, ?_⟩
          rintro ⟨-, h⟩
          cases d with
          | opus d => exact absurd (UInt32.toNat_inj.mp h) h2
          | lpcm d => exact absurd (UInt32.toNat_inj.mp h) h1
          | flac d => exact absurd (UInt32.toNat_inj.mp h) h3
          | aac d => exact absurd (UInt32.toNat_inj.mp h) h4

private theorem header_ok (t : ObuType) (m : HeaderMetadata) (h : ObuHeader) : h = headerFromMetadata t m ↔ SaysHeader t m h := by
  obtain ⟨a, b, c, d, e, f⟩ := h
  unfold headerFromMetadata
  constructor
  · intro h
    cases h
    refine ⟨rfl, rfl, rfl, rfl, rfl, fun bytes => ?_⟩
    cases hx : m.extensionFlag <;> simp [eq_comm]
  · rintro ⟨h1, h2, h3, h4, h5, h6⟩
    simp only at h1 h2 h3 h4 h5 h6
    rw [h1, h2, h3, h4, h5]
    congr 1
    cases hx : m.extensionFlag with
    | true =>
      simp only [if_true]
      exact (h6 _).mpr ⟨hx, rfl⟩
    | false =>
      simp only [Bool.false_eq_true, if_false]
      cases f with
      | none => rfl
      | some x =>
        have := ((h6 x).mp rfl).1
        rw [hx] at this
        cases this

private theorem id_ok (m : CodecMetadata) (id : UInt32) : codecIdFromProto m = .ok id ↔
    m.hasDeprecatedCodecId = false ∧ m.codecId = some id ∧ (id = kCodecIdOpus ∨ id = kCodecIdFlac ∨ id = kCodecIdAacLc ∨ id = kCodecIdLpcm) := by
  unfold codecIdFromProto
  cases hd : m.hasDeprecatedCodecId with
  | true => simp
  | false =>
    cases hc : m.codecId with
    | none => simp
    | some x =>
      simp only [Bool.false_eq_true, if_false, true_and, Option.some.injEq]
      split
      · rename_i h
        simp only [Except.ok.injEq]
        exact ⟨fun he => ⟨he, he ▸ h⟩, fun he => he.1⟩
      · rename_i h
        exact ⟨fun he => by simp at he, fun he => absurd (he.1 ▸ he.2) h⟩

private theorem number_known (cid : UInt32) (d : DecoderConfig) (h : cid.toNat = codecNumber d) :
    cid = kCodecIdOpus ∨ cid = kCodecIdFlac ∨ cid = kCodecIdAacLc ∨ cid = kCodecIdLpcm := by
  cases d with
  | opus d => exact .inl (UInt32.toNat_inj.mp h)
  | flac d => exact .inr (.inl (UInt32.toNat_inj.mp h))
  | aac d => exact .inr (.inr (.inl (UInt32.toNat_inj.mp h)))
  | lpcm d => exact .inr (.inr (.inr (UInt32.toNat_inj.mp h)))

/-- **C61 (a codec config).** For all metadata and every OBU: the generator makes this OBU exactly if it is what the metadata say. -/
theorem C61_codec_config (delay : CodecMetadata → CodecConfig → Except Err UInt32) (m : CodecConfigMetadata) (o : CodecConfigObu) :
    generateCodecConfig delay m = .ok o ↔ GeneratedFrom delay m o := by
  obtain ⟨hdr, ⟨id, cid, nspf, roll, dc⟩, r1, r2, r3⟩ := o
  simp only [generateCodecConfig, bind_ok, id_ok, castS16_ok, decoder_ok]
  constructor
  · rintro ⟨cid', ⟨h1, h2, -⟩, roll', h3, d, ⟨h4, h5⟩, ⟨c, v⟩, h6, c', h7, h8⟩
    have hn : numSamplesPerFrameOk m.codecConfig.numSamplesPerFrame = true := by
      cases hn : numSamplesPerFrameOk m.codecConfig.numSamplesPerFrame with
      | true => rfl
      | false => simp [CodecConfig.create, hn] at h6
    have hn' := (nspf_iff _).mp hn
    unfold CodecConfig.create at h6
    simp only [hn, Bool.not_true, Bool.false_eq_true, if_false] at h6
    cases hr : (CodecConfig.mk m.configId cid' m.codecConfig.numSamplesPerFrame roll' d).rates with
    | error e => simp [hr] at h6
    | ok w =>
      obtain ⟨hk, hrates⟩ := (rates_ok _ h5 w).mp hr
      simp only [hr] at h6
      have hc : ∃ r : Int16, c = ⟨m.configId, cid', m.codecConfig.numSamplesPerFrame, r, d⟩ ∧ v = w ∧ r.toInt =
          if m.codecConfig.overrideRollDistance then requiredRoll m.codecConfig.numSamplesPerFrame.toNat d else m.codecConfig.audioRollDistance.toInt := by
        cases ho : m.codecConfig.overrideRollDistance with
        | true =>
          obtain ⟨r, hr1, hr2⟩ := roll_ok _ hn'.1 hn'.2 cid' d h5
          simp only [ho, if_true, hr1, Except.ok.injEq, Prod.mk.injEq] at h6
          exact ⟨r, h6.1.symm, h6.2.symm, by simp [hr2]⟩
        | false =>
          simp only [ho, Bool.false_eq_true, if_false, Except.ok.injEq, Prod.mk.injEq] at h6
          exact ⟨roll', h6.1.symm, h6.2.symm, by simp [h3]⟩
      obtain ⟨r, rfl, rfl, hroll⟩ := hc
      have hrange : -32768 ≤ m.codecConfig.audioRollDistance.toInt ∧ m.codecConfig.audioRollDistance.toInt ≤ 32767 := by
        have h1 := roll'.le_toInt
        have h2 := roll'.toInt_lt
        rw [← h3]
        omega
      have hrates' : ∀ roll'' : Int16, (v.1.toNat, v.2.1.toNat, v.2.2.toNat) =
          codecRates ⟨m.configId, cid', m.codecConfig.numSamplesPerFrame, roll'', d⟩ := fun _ => hrates
      cases hd : m.codecConfig.overrideCodecDelay with
      | false =>
        simp only [overrideCodecDelay, hd, Bool.false_eq_true, if_false, Except.ok.injEq] at h7
        subst h7
        cases h8
        exact ⟨(header_ok _ _ _).mp rfl, rfl, ⟨h1, h2⟩, ⟨rfl, hn'⟩, hrange, hroll, ⟨_, h4, hk, h5, by simp [hd]⟩, hrates' _⟩
      | true =>
        simp only [overrideCodecDelay, hd, if_true, bind_ok] at h7
        obtain ⟨n, hn1, hn2⟩ := h7
        rw [delay_ok _ h5] at hn2
        cases hn2
        cases h8
        obtain ⟨e1, e2, e3⟩ := delayed n.toUInt16 d
        refine ⟨(header_ok _ _ _).mp rfl, rfl, ⟨h1, h2⟩, ⟨rfl, hn'⟩, hrange, ?_, ⟨d, h4, hk, h5, ?_⟩, ?_⟩
        · simp only [e2]; exact hroll
        · rw [if_pos hd]; exact ⟨n, hn1, rfl⟩
        · simp only [e3]; exact hrates' _
  · rintro ⟨h1, h2, ⟨h3, h4⟩, ⟨h5, h6, h7⟩, h8, h9, ⟨d, h10, h11, h12, h13⟩, h14⟩
    simp only at h1 h2 h4 h5 h6 h7 h9 h12 h13 h14
    subst h2 h5
    have hroll : ∃ roll' : Int16, roll'.toInt = m.codecConfig.audioRollDistance.toInt := by
      refine ⟨m.codecConfig.audioRollDistance.toInt16, ?_⟩
      rw [Int32.toInt_toInt16, Int.bmod_eq_of_le (by omega) (by omega)]
    obtain ⟨roll', hroll'⟩ := hroll
    have hdc : codecNumber dc = codecNumber d ∧ (∀ k, requiredRoll k dc = requiredRoll k d) ∧
        ∀ id cid nspf roll, codecRates ⟨id, cid, nspf, roll, dc⟩ = codecRates ⟨id, cid, nspf, roll, d⟩ := by
      split at h13
      · obtain ⟨n, -, rfl⟩ := h13
        exact delayed _ d
      · subst h13
        exact ⟨rfl, fun _ => rfl, fun _ _ _ _ => rfl⟩
    have hr : (CodecConfig.mk m.configId cid m.codecConfig.numSamplesPerFrame roll' d).rates = .ok (r1, r2, r3) :=
      (rates_ok _ h12 _).mpr ⟨h11, by rw [hdc.2.2] at h14; exact h14⟩
    refine ⟨cid, ⟨h3, h4, number_known cid d h12⟩, roll', hroll', d, ⟨h10, h12⟩,
      (⟨m.configId, cid, m.codecConfig.numSamplesPerFrame, roll, d⟩, r1, r2, r3), ?_, ⟨m.configId, cid, m.codecConfig.numSamplesPerFrame, roll, dc⟩, ?_, ?_⟩
    · unfold CodecConfig.create
      simp only [(nspf_iff _).mpr ⟨h6, h7⟩, Bool.not_true, Bool.false_eq_true, if_false, hr]
      cases ho : m.codecConfig.overrideRollDistance with
      | true =>
        obtain ⟨r, hr1, hr2⟩ := roll_ok _ h6 h7 cid d h12
        simp only [ho, if_true, hdc.2.1] at h9
        have : r = roll := Int16.toInt_inj.mp (by rw [hr2, h9])
        simp [hr1, this]
      | false =>
        simp only [ho, Bool.false_eq_true, if_false] at h9
        have : roll' = roll := Int16.toInt_inj.mp (by rw [hroll', h9])
        simp [this]
    · cases hd : m.codecConfig.overrideCodecDelay with
      | false =>
        simp only [hd, Bool.false_eq_true, if_false] at h13
        simp [overrideCodecDelay, hd, h13]
      | true =>
        simp only [hd, if_true] at h13
        obtain ⟨n, hn1, hn2⟩ := h13
        simp only [overrideCodecDelay, hd, if_true, bind_ok]
        exact ⟨n, hn1, by rw [delay_ok _ h12, hn2]⟩
    · rw [show headerFromMetadata ObuType.codecConfig m.header = hdr from ((header_ok 0 _ hdr).mpr h1).symm]

/-! ### All codec configs -/

private theorem configs_ok (delay : CodecMetadata → CodecConfig → Except Err UInt32) : ∀ (ms : List CodecConfigMetadata)
    (found : List (UInt32 × CodecConfigObu)), (found.map Prod.fst).Nodup →
    ((∃ r, generateCodecConfigs delay ms found = .ok r) ↔ ∀ m ∈ ms, ∃ o, generateCodecConfig delay m = .ok o) ∧
    ∀ r, generateCodecConfigs delay ms found = .ok r → (r.map Prod.fst).Nodup ∧
      ∀ id o, (id, o) ∈ r ↔ (id, o) ∈ found ∨ (id ∉ found.map Prod.fst ∧ ∃ before m after, ms = before ++ m :: after ∧ m.configId = id ∧
        (∀ x ∈ before, x.configId ≠ id) ∧ generateCodecConfig delay m = .ok o)
  | [], found, hn => by
    refine ⟨by simp [generateCodecConfigs], fun r hr => ?_⟩
    cases hr
    refine ⟨hn, fun id o => ⟨.inl, ?_⟩⟩
    rintro (h | ⟨-, before, m, after, h, -⟩)
    · exact h
    · simp at h
  | m :: ms, found, hn => by
    cases hg : generateCodecConfig delay m with
    | error e =>
      have he : generateCodecConfigs delay (m :: ms) found = .error e := by simp [generateCodecConfigs, hg, bind, Except.bind]
      rw [he]
      refine ⟨⟨fun ⟨r, h⟩ => by simp at h, fun h => ?_⟩, fun r h => by simp at h⟩
      obtain ⟨o, ho⟩ := h m (List.mem_cons_self ..)
      rw [hg] at ho
      simp at ho
    | ok o₁ =>
      have he : generateCodecConfigs delay (m :: ms) found =
          generateCodecConfigs delay ms (if found.any (fun x => x.1 == m.configId) then found else found ++ [(m.configId, o₁)]) := by
        simp [generateCodecConfigs, hg, bind, Except.bind]
      have hany : found.any (fun x => x.1 == m.configId) = true ↔ m.configId ∈ found.map Prod.fst := by
        rw [List.any_eq_true, List.mem_map]
        simp
      have hgood : (∀ x ∈ m :: ms, ∃ o, generateCodecConfig delay x = .ok o) ↔ ∀ x ∈ ms, ∃ o, generateCodecConfig delay x = .ok o := by
        constructor
        · exact fun h x hx => h x (List.mem_cons_of_mem _ hx)
        · intro h x hx
          rcases List.mem_cons.mp hx with rfl | hx
          · exact ⟨o₁, hg⟩
          · exact h x hx
      rw [he, hgood]
      by_cases hin : m.configId ∈ found.map Prod.fst
      · rw [if_pos (hany.mpr hin)]
        obtain ⟨h1, h2⟩ := configs_ok delay ms found hn
        refine ⟨h1, fun r hr => ⟨(h2 r hr).1, fun id o => ?_⟩⟩
        rw [(h2 r hr).2 id o]
        refine or_congr Iff.rfl (and_congr_right fun hid => ?_)
        have hne : m.configId ≠ id := fun h => hid (h ▸ hin)
        constructor
        · rintro ⟨before, x, after, rfl, h3, h4, h5⟩
          exact ⟨m :: before, x, after, rfl, h3, List.forall_mem_cons.mpr ⟨hne, h4⟩, h5⟩
        · rintro ⟨before, x, after, h, h3, h4, h5⟩
          cases before with
          | nil =>
            simp only [List.nil_append, List.cons.injEq] at h
            exact absurd (h.1 ▸ h3) hne
          | cons y before =>
            simp only [List.cons_append, List.cons.injEq] at h
            exact ⟨before, x, after, h.2, h3, fun z hz => h4 z (List.mem_cons_of_mem _ hz), h5⟩
      · rw [if_neg (fun h => hin (hany.mp h))]
        have hn' : ((found ++ [(m.configId, o₁)]).map Prod.fst).Nodup := by
          rw [List.map_append, List.nodup_append]
          refine ⟨hn, by simp, ?_⟩
          intro a ha b hb
          simp only [List.map_cons, List.map_nil, List.mem_singleton] at hb
          rintro rfl
          exact hin (hb ▸ ha)
        obtain ⟨h1, h2⟩ := configs_ok delay ms _ hn'
        refine ⟨h1, fun r hr => ⟨(h2 r hr).1, fun id o => ?_⟩⟩
        rw [(h2 r hr).2 id o]
        simp only [List.mem_append, List.mem_singleton, Prod.mk.injEq, List.map_append, List.map_cons, List.map_nil, not_or]
        constructor
        · rintro ((h | ⟨h3, h4⟩) | ⟨⟨h3, h4⟩, before, x, after, rfl, h5, h6, h7⟩)
          · exact .inl h
          · subst h3 h4
            exact .inr ⟨hin, [], m, ms, rfl, rfl, by simp, hg⟩
          · exact .inr ⟨h3, m :: before, x, after, rfl, h5, List.forall_mem_cons.mpr ⟨fun h => h4 h.symm, h6⟩, h7⟩
        · rintro (h | ⟨h3, before, x, after, h, h5, h6, h7⟩)
          · exact .inl (.inl h)
          · cases before with
            | nil =>
              simp only [List.nil_append, List.cons.injEq] at h
              obtain ⟨rfl, rfl⟩ := h
              rw [hg] at h7
              cases h7
              exact .inl (.inr ⟨h5.symm, rfl⟩)
            | cons y before =>
              simp only [List.cons_append, List.cons.injEq] at h
              obtain ⟨rfl, h⟩ := h
              refine .inr ⟨⟨h3, fun he => h6 m (List.mem_cons_self ..) he.symm⟩, before, x, after, h, h5, fun z hz => h6 z (List.mem_cons_of_mem _ hz), h7⟩

/-- **C61 (all codec configs).** The generator succeeds exactly if there is an OBU for each of the metadata.  Then there is one OBU for
every id: that of the first metadata with this id.  Later metadata with the same id are dropped (a finding). -/
theorem C61_codec_configs (delay : CodecMetadata → CodecConfig → Except Err UInt32) (ms : List CodecConfigMetadata) :
    ((∃ r, generateCodecConfigs delay ms [] = .ok r) ↔ ∀ m ∈ ms, ∃ o, GeneratedFrom delay m o) ∧
    ∀ r, generateCodecConfigs delay ms [] = .ok r → (r.map Prod.fst).Nodup ∧
      ∀ id o, (id, o) ∈ r ↔ ∃ before m after, ms = before ++ m :: after ∧ m.configId = id ∧ (∀ x ∈ before, x.configId ≠ id) ∧
        GeneratedFrom delay m o := by
  obtain ⟨h1, h2⟩ := configs_ok delay ms [] (by simp)
  simp only [C61_codec_config] at h1 h2
  refine ⟨h1, fun r hr => ⟨(h2 r hr).1, fun id o => ?_⟩⟩
  rw [(h2 r hr).2 id o]
  simp

/-- Codec configs made from metadata are as the library builds them. -/
theorem metadata_codec_typed (delay : CodecMetadata → CodecConfig → Except Err UInt32) (m : CodecConfigMetadata) (o : CodecConfigObu)
    (ho : GeneratedFrom delay m o) (h128 : ∀ blocks, m.codecConfig.decoderConfig = .flac blocks → blocks.length ≤ 128) :
    o.config.Typed ∧ ∀ f, o.config.decoderConfig = .flac f → f.blocks.length ≤ 128 := by
  have hflac : ∀ f, o.config.decoderConfig = .flac f → ∃ blocks, m.codecConfig.decoderConfig = .flac blocks ∧ List.Forall₂ SaysFlacBlock blocks f.blocks := by
    intro f hf
    obtain ⟨d, hd, -, -, hdc⟩ := ho.decoder
    have hdf : d = .flac f := by
      split at hdc
      · obtain ⟨n, -, hn⟩ := hdc
        rw [hf] at hn
        cases d <;> simp [withDelay] at hn
        rw [hn]
      · rw [← hdc, hf]
    subst hdf
    cases hm : m.codecConfig.decoderConfig with
    | flac blocks =>
      rw [hm] at hd
      exact ⟨blocks, rfl, hd⟩
    | _ => rw [hm] at hd; exact absurd hd (by simp [SaysDecoder])
  constructor
  · intro f hf b hb s hbs
    obtain ⟨blocks, -, hbl⟩ := hflac f hf
    obtain ⟨i, hi, rfl⟩ := List.getElem_of_mem hb
    have h := hbl.get (i := i) (by rw [hbl.length_eq]; exact hi) hi
    simp only [List.get_eq_getElem] at h
    obtain ⟨-, -, h⟩ := h
    rw [hbs] at h
    split at h
    · rename_i h1 h2
      cases h2
      rw [h.2.md5.1, h.2.md5.2]
    · rename_i h1 h2
      cases h2
    · exact absurd h id
  · intro f hf
    obtain ⟨blocks, hm, hbl⟩ := hflac f hf
    rw [← hbl.length_eq]
    exact h128 blocks hm

/-- **C61 (what is written can be read).** If a generated codec config without trimming in its header is written, and has not more than 128
blocks of FLAC, then a decoder reads exactly this codec config. -/
theorem C61_written_codec_config_is_read (delay : CodecMetadata → CodecConfig → Except Err UInt32) (m : CodecConfigMetadata) (o : CodecConfigObu)
    (ho : GeneratedFrom delay m o) (he : m.header.trimEnd = 0) (hs : m.header.trimStart = 0)
    (h128 : ∀ blocks, m.codecConfig.decoderConfig = .flac blocks → blocks.length ≤ 128)
    (g : LebGen) (footer bytes : List UInt8) (hw : Writes g (wObu o.header o.config.write footer) bytes) :
    ReadsBack (rObu fun _ => CodecConfig.read) bytes (o.header, o.config, footer) := by
  obtain ⟨h1, h2⟩ := metadata_codec_typed delay m o ho h128
  exact C09_codec_config_round_trip g o.header o.config footer bytes (by rw [ho.header.trimEnd, he]) (by rw [ho.header.trimStart, hs]) h1 h2 hw

/-! ### IA sequence headers -/

private theorem profile_from (p : UInt32) (q : UInt8) : profileFromProto p = .ok q ↔ p.toNat = q.toNat + 1 ∧ q.toNat ≤ 5 := by
  have key : ∀ (k : UInt32) (v : UInt8), p = k → v ≤ 5 → k.toNat = v.toNat + 1 →
      profileFromProto p = .ok v → (profileFromProto p = .ok q ↔ p.toNat = q.toNat + 1 ∧ q.toNat ≤ 5) := by
    rintro k v rfl h1 h2 h3
    have h1 : v.toNat ≤ 5 := h1
    rw [h3, Except.ok.injEq, ← UInt8.toNat_inj]
    omega
  by_cases h1 : p = 1; · exact key 1 0 h1 (by decide) rfl (by rw [h1]; decide)
  by_cases h2 : p = 2; · exact key 2 1 h2 (by decide) rfl (by rw [h2]; decide)
  by_cases h3 : p = 3; · exact key 3 2 h3 (by decide) rfl (by rw [h3]; decide)
  by_cases h4 : p = 4; · exact key 4 3 h4 (by decide) rfl (by rw [h4]; decide)
  by_cases h5 : p = 5; · exact key 5 4 h5 (by decide) rfl (by rw [h5]; decide)
  by_cases h6 : p = 6; · exact key 6 5 h6 (by decide) rfl (by rw [h6]; decide)
  have hn : ¬ (p.toNat = q.toNat + 1 ∧ q.toNat ≤ 5) := by
    rintro ⟨a, b⟩
    rw [← UInt32.toNat_inj] at h1 h2 h3 h4 h5 h6
    have e1 : (1 : UInt32).toNat = 1 := rfl
    have e2 : (2 : UInt32).toNat = 2 := rfl
    have e3 : (3 : UInt32).toNat = 3 := rfl
    have e4 : (4 : UInt32).toNat = 4 := rfl
    have e5 : (5 : UInt32).toNat = 5 := rfl
    have e6 : (6 : UInt32).toNat = 6 := rfl
    omega
  refine ⟨fun h => ?_, fun h => absurd h hn⟩
  by_cases h7 : p = 256
  · rw [h7] at h
    exact absurd h (by simp [show profileFromProto 256 = .error .invalidArgument from by decide])
  · have : profileFromProto p = .error .notFound := by
      unfold profileFromProto profileVersions
      simp [List.find?, beq_eq_false_iff_ne.mpr (Ne.symm h1), beq_eq_false_iff_ne.mpr (Ne.symm h2), beq_eq_false_iff_ne.mpr (Ne.symm h3),
        beq_eq_false_iff_ne.mpr (Ne.symm h4), beq_eq_false_iff_ne.mpr (Ne.symm h5), beq_eq_false_iff_ne.mpr (Ne.symm h6),
        beq_eq_false_iff_ne.mpr (Ne.symm h7)]
    rw [this] at h
    simp at h

private theorem profile_to (q : UInt8) (p : UInt32) : profileToProto q = .ok p ↔ p.toNat = q.toNat + 1 ∧ q.toNat ≤ 5 := by
  have key : ∀ n < 256, (∃ k, n ≤ 5 ∧ k = n + 1 ∧ profileToProto (UInt8.ofNat n) = .ok (UInt32.ofNat k)) ∨
      (5 < n ∧ ∀ e, profileToProto (UInt8.ofNat n) ≠ .ok e) := by
    intro n hn
    by_cases h : n ≤ 5
    · have : ∀ n ≤ 5, profileToProto (UInt8.ofNat n) = .ok (UInt32.ofNat (n + 1)) := by decide
      exact .inl ⟨n + 1, h, rfl, this n h⟩
    · have : ∀ n < 256, 5 < n → (match profileToProto (UInt8.ofNat n) with | .ok _ => false | .error _ => true) = true := by decide +kernel
      refine .inr ⟨by omega, fun e he => ?_⟩
      have := this n hn (by omega)
      rw [he] at this
      simp at this
  have := key q.toNat q.toNat_lt
  rw [UInt8.ofNat_toNat] at this
  rcases this with ⟨k, h1, rfl, h3⟩ | ⟨h1, h2⟩
  · rw [h3, Except.ok.injEq, ← UInt32.toNat_inj, UInt32.toNat_ofNat']
    omega
  · exact ⟨fun h => absurd h (h2 p), fun h => by omega⟩

/-- **C61 (an IA sequence header).** The generator makes an IA sequence header exactly if the metadata have both profiles, and these are
known; it says what the metadata say (profiles are numbered from 1 in metadata, and from 0 in the bitstream).  It makes nothing, but
succeeds, exactly if a profile is missing. -/
theorem C61_sequence_header (m : SequenceHeaderMetadata) (h : ObuHeader) (o : IaSequenceHeader) :
    (generateSequenceHeader m = .ok (some (h, o)) ↔ SaysHeader 31 m.header h ∧ o.primaryProfile.toNat ≤ 5 ∧ o.additionalProfile.toNat ≤ 5 ∧
      m.primaryProfile.map UInt32.toNat = some (o.primaryProfile.toNat + 1) ∧
      m.additionalProfile.map UInt32.toNat = some (o.additionalProfile.toNat + 1)) ∧
    (generateSequenceHeader m = .ok none ↔ m.primaryProfile = none ∨ m.additionalProfile = none) := by
  unfold generateSequenceHeader
  cases hp : m.primaryProfile with
  | none => simp
  | some p =>
    cases ha : m.additionalProfile with
    | none => simp
    | some a =>
      simp only [Option.map_some, Option.some.injEq, reduceCtorEq, or_self, iff_false]
      constructor
      · constructor
        · intro hg
          split at hg
          · simp at hg
          · rename_i p' hp'
            split at hg
            · simp at hg
            · rename_i a' ha'
              simp only [Except.ok.injEq, Option.some.injEq, Prod.mk.injEq] at hg
              obtain ⟨h1, rfl⟩ := hg
              obtain ⟨h2, h3⟩ := (profile_from p p').mp hp'
              obtain ⟨h4, h5⟩ := (profile_from a a').mp ha'
              exact ⟨(header_ok _ _ _).mp h1.symm, h3, h5, h2, h4⟩
        · rintro ⟨h1, h2, h3, h4, h5⟩
          rw [(profile_from p o.primaryProfile).mpr ⟨h4, h2⟩, (profile_from a o.additionalProfile).mpr ⟨h5, h3⟩]
          simp only [Except.ok.injEq, Option.some.injEq, Prod.mk.injEq]
          exact ⟨((header_ok _ _ _).mpr h1).symm, trivial⟩
      · intro hg
        split at hg
        · simp at hg
        · split at hg <;> simp at hg

/-- **C61 (metadata of IA sequence headers).** There are metadata for an IA sequence header exactly if both profiles are known and, where
`char` is signed, no byte of the extension of the OBU header is above 127 (a finding).  The generator makes the same IA sequence header of
these metadata. -/
theorem C61_sequence_header_metadata (charIsSigned : Bool) (h : ObuHeader) (ht : h.obuType = 31) (o : IaSequenceHeader) :
    ((∃ m, sequenceHeaderMetadata charIsSigned h o = .ok m) ↔ o.primaryProfile.toNat ≤ 5 ∧ o.additionalProfile.toNat ≤ 5 ∧
      (charIsSigned = true → ∀ bytes, h.ext = some bytes → ∀ b ∈ bytes, b.toNat ≤ 127)) ∧
    ∀ m, sequenceHeaderMetadata charIsSigned h o = .ok m → generateSequenceHeader m = .ok (some (h, o)) := by
  have hh : ∀ hm, headerMetadata charIsSigned h = .ok hm → headerFromMetadata 31 hm = h := by
    intro hm he
    unfold headerMetadata at he
    split at he
    · rename_i hx
      cases he
      simp only [headerFromMetadata, Bool.false_eq_true, if_false, ← ht]
      rw [← hx]
    · rename_i bytes hx
      split at he
      · simp at he
      · cases he
        simp only [headerFromMetadata, if_true, ← ht]
        rw [← hx]
  have hok : (∃ hm, headerMetadata charIsSigned h = .ok hm) ↔
      (charIsSigned = true → ∀ bytes, h.ext = some bytes → ∀ b ∈ bytes, b.toNat ≤ 127) := by
    unfold headerMetadata
    cases hx : h.ext with
    | none => simp
    | some bytes =>
      simp only [Option.some.injEq, forall_eq']
      cases hc : charIsSigned with
      | false => simp
      | true =>
        simp only [Bool.true_and, forall_const]
        split
        · rename_i hany
          refine ⟨fun ⟨_, h⟩ => by simp at h, fun hb => ?_⟩
          obtain ⟨b, hb1, hb2⟩ := List.any_eq_true.mp hany
          have hb2 : 127 < b.toNat := of_decide_eq_true hb2
          have := hb b hb1
          omega
        · rename_i hany
          refine ⟨fun _ b hb => ?_, fun _ => ⟨_, rfl⟩⟩
          by_contra hlt
          exact hany (List.any_eq_true.mpr ⟨b, hb, decide_eq_true (show 127 < b.toNat by omega)⟩)
  have split_ok : ∀ m, sequenceHeaderMetadata charIsSigned h o = .ok m ↔ ∃ hm p a, headerMetadata charIsSigned h = .ok hm ∧
      profileToProto o.primaryProfile = .ok p ∧ profileToProto o.additionalProfile = .ok a ∧ m = ⟨some p, some a, hm⟩ := by
    intro m
    unfold sequenceHeaderMetadata
    cases headerMetadata charIsSigned h with
    | error e => simp
    | ok hm =>
      cases profileToProto o.primaryProfile with
      | error e => simp
      | ok p =>
        cases profileToProto o.additionalProfile with
        | error e => simp
        | ok a => simp [eq_comm]
  constructor
  · rw [← hok]
    constructor
    · rintro ⟨m, hm⟩
      obtain ⟨hm, p, a, h1, h2, h3, -⟩ := (split_ok m).mp hm
      exact ⟨((profile_to _ _).mp h2).2, ((profile_to _ _).mp h3).2, hm, h1⟩
    · rintro ⟨h1, h2, hm, h3⟩
      have hb : ∀ q : UInt8, (UInt32.ofNat (q.toNat + 1)).toNat = q.toNat + 1 := by
        intro q
        have := q.toNat_lt
        rw [UInt32.toNat_ofNat']
        omega
      exact ⟨_, (split_ok _).mpr ⟨hm, _, _, h3, (profile_to _ _).mpr ⟨hb _, h1⟩, (profile_to _ _).mpr ⟨hb _, h2⟩, rfl⟩⟩
  · intro m hm
    obtain ⟨hdr, p, a, h1, h2, h3, rfl⟩ := (split_ok m).mp hm
    unfold generateSequenceHeader
    simp only
    rw [(profile_from p o.primaryProfile).mpr ((profile_to _ _).mp h2), (profile_from a o.additionalProfile).mpr ((profile_to _ _).mp h3)]
    simp only [Except.ok.injEq, Option.some.injEq, Prod.mk.injEq]
    exact ⟨hh hdr h1, trivial⟩

/-! ### Examples -/

private def exampleHeader : HeaderMetadata := ⟨false, false, false, 0, 0, []⟩

private def exampleOpus : CodecConfigMetadata :=
  ⟨7, ⟨false, some 0x4f707573, 960, 0, .opus ⟨1, 2, 0, 48000, 0, 0⟩, true, true⟩, exampleHeader⟩

/-- Opus with frames of 960 samples: the roll distance and the pre-skip are overridden. -/
theorem C61_example_opus : generateCodecConfig (fun _ _ => .ok 312) exampleOpus =
    .ok ⟨⟨0, false, false, 0, 0, none⟩, ⟨7, 0x4f707573, 960, -4, .opus ⟨1, 2, 312, 48000, 0, 0⟩⟩, 48000, 48000, 32⟩ := by decide +kernel

example : GeneratedFrom (fun _ _ => .ok 312) exampleOpus
    ⟨⟨0, false, false, 0, 0, none⟩, ⟨7, 0x4f707573, 960, -4, .opus ⟨1, 2, 312, 48000, 0, 0⟩⟩, 48000, 48000, 32⟩ :=
  (C61_codec_config _ _ _).mp C61_example_opus

/-- **C61 (finding).** The second of two codec configs with the same id is dropped, and there is no error. -/
theorem C61_same_id_is_dropped :
    generateCodecConfigs (fun _ _ => .ok 0)
      [⟨7, ⟨false, some 0x6970636d, 64, 0, .lpcm ⟨2, 16, 48000⟩, true, true⟩, exampleHeader⟩,
        ⟨7, ⟨false, some 0x6970636d, 64, 0, .lpcm ⟨1, 24, 44100⟩, true, true⟩, exampleHeader⟩] [] =
      .ok [(7, ⟨⟨0, false, false, 0, 0, none⟩, ⟨7, 0x6970636d, 64, 0, .lpcm ⟨1, 16, 48000⟩⟩, 48000, 48000, 16⟩)] := by decide +kernel

/-- **C61 (finding).** A delay of 65536 samples or more is narrowed to 16 bits. -/
theorem C61_large_delay_wraps : generateCodecConfig (fun _ _ => .ok 65848) exampleOpus = generateCodecConfig (fun _ _ => .ok 312) exampleOpus := by
  decide +kernel

/-- **C61 (finding).** Where `char` is signed there are no metadata for a legal header with a byte above 127 in its extension. -/
theorem C61_extension_bytes : sequenceHeaderMetadata true ⟨31, false, false, 0, 0, some [200]⟩ ⟨0, 0⟩ = .error .invalidArgument ∧
    sequenceHeaderMetadata true ⟨31, false, false, 0, 0, some [100]⟩ ⟨0, 1⟩ =
      .ok ⟨some 1, some 2, ⟨false, false, true, 0, 0, [100]⟩⟩ := by decide +kernel

end Iamf.Props
