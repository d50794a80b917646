import Verif.Props.Wire
/-
  C30 for codec configs, and C29: which codec configs are accepted.
-/
namespace Iamf.Props
open Iamf

/-! ### Codec config -/

/-- ISO/IEC 14496-1 expandable size: big endian groups of seven bits, all but the last with the top bit set, no leading zero
groups. -/
def isoHigh : Nat → Nat → List UInt8
  | 0, _ => []
  | k + 1, v => if v = 0 then [] else isoHigh k (v / 128) ++ [UInt8.ofNat (128 + v % 128)]

def isoSize (v : Nat) : List UInt8 := isoHigh 4 (v / 128) ++ [UInt8.ofNat (v % 128)]

theorem isoGroups_eq (k v : Nat) (acc : List UInt8) (h : v < 128 ^ (k + 1)) :
    isoGroups v acc = isoHigh k (v / 128) ++ UInt8.ofNat (v % 128 + 128) :: acc := by
  induction k generalizing v acc with
  | zero =>
    unfold isoGroups isoHigh
    rw [if_pos (by omega)]; rfl
  | succ k ih =>
    unfold isoGroups isoHigh
    by_cases h0 : v / 128 = 0
    · rw [if_pos h0, if_pos h0]; rfl
    · rw [if_neg h0, if_neg h0, ih (v / 128) _ (by rw [Nat.pow_succ] at h; omega), List.append_assoc, Nat.add_comm 128]
      rfl

theorem clearLastMsb_append (l : List UInt8) (b : UInt8) : clearLastMsb (l ++ [b]) = l ++ [b &&& 0x7f] := by
  induction l with
  | nil => rfl
  | cons x l ih =>
    cases l with
    | nil => rfl
    | cons y l => simp only [List.cons_append, clearLastMsb] at ih ⊢; rw [ih]

theorem wIso_eq (v : UInt32) : wIso v = wBytes (isoSize v.toNat) := by
  unfold wIso isoSize
  rw [isoGroups_eq 4 v.toNat [] (by have := v.toNat_lt; omega), clearLastMsb_append]
  congr 3
  apply UInt8.toNat_inj.mp
  rw [UInt8.toNat_and, UInt8.toNat_ofNat', UInt8.toNat_ofNat', show (0x7f : UInt8).toNat = 2 ^ 7 - 1 from rfl,
    Nat.and_two_pow_sub_one_eq_mod]
  omega

/-- An ISO/IEC 14496-1 section: its size, its contents, and trailing extension bytes. -/
def sectionTable (g : LebGen) (t : List Field) (ext : List UInt8) : List Field :=
  [.bytes (isoSize ((encode g t).length / 8 + ext.length))] ++ (t ++ [.bytes ext])

theorem emits_section {g : LebGen} {w : Wr Unit} {P : Prop} {t : List Field} (ext : List UInt8) (h : Emits g w P t)
    (ha : (encode g t).length % 8 = 0) :
    Emits g (wSection w ext) (P ∧ (encode g t).length / 8 + ext.length < 268435456) (sectionTable g t ext) := by
  unfold wSection
  have hp2 := h.bind (Emits.bytes (g := g) (l := ext))
  have hl : (encode g (t ++ [.bytes ext])).length = (encode g t).length + 8 * ext.length := by
    simp [encode, Field.bits, bytesBits_length]
  refine (hp2.sub (Q := (encode g t).length / 8 + ext.length < 268435456) ?_ ?_).cast (by simp) (fun _ => rfl)
  · intro _ hF w hw
    obtain ⟨-, ho, hb, hal⟩ := hw.table hp2
    obtain ⟨h1, h2⟩ := hb (by omega)
    have h3 : w.bytes.length = (encode g t).length / 8 + ext.length := by
      rw [h1]; unfold Emits.size; omega
    have hbytes : Emits g (wBytes w.bytes) True (t ++ [.bytes ext]) := by
      intro bs
      rw [eval_wBytes]
      simp only [Prod.mk.injEq, true_and]
      constructor
      · rintro rfl; exact ⟨hF, h2⟩
      · rintro ⟨-, rfl⟩; exact h2
    have hw' : w.isByteAligned = true := hal.mpr (by omega)
    rw [h3, wIso_eq]
    refine (Emits.check.bind (Emits.check.bind (Emits.bytes.bind hbytes))).cast ?_ (fun hc => ?_)
    · simp only [hw', Bool.not_eq_true', decide_eq_false_iff_not, true_and, and_true]
      show ¬ _ > 268435455 ↔ _
      omega
    · have hc := hc.2.1
      simp only [Bool.not_eq_true', decide_eq_false_iff_not] at hc
      have hc : ¬ _ > 268435455 := hc
      have : (UInt32.ofNat ((encode g t).length / 8 + ext.length)).toNat = (encode g t).length / 8 + ext.length := by
        rw [UInt32.toNat_ofNat']; omega
      rw [this]
      rfl
  · intro hF
    simp only [sectionTable, fits_append] at hF ⊢
    exact hF.2

/-- decoder_config() of LPCM. -/
def lpcmTable (c : LpcmConfig) : List Field := [.u 8 c.formatFlags.toNat, .u 8 c.sampleSize.toNat, .u 32 c.sampleRate.toNat]

/-- decoder_config() of Opus. -/
def opusTable (c : OpusConfig) : List Field :=
  [.u 8 c.version.toNat, .u 8 c.outputChannelCount.toNat, .u 16 c.preSkip.toNat, .u 32 c.inputSampleRate.toNat,
    .s 16 c.outputGain.toInt, .u 8 c.mappingFamily.toNat]

/-- The FLAC STREAMINFO block. -/
def flacStreamInfoTable (s : FlacStreamInfo) : List Field :=
  [.u 16 s.minimumBlockSize.toNat, .u 16 s.maximumBlockSize.toNat, .u 24 s.minimumFrameSize.toNat,
    .u 24 s.maximumFrameSize.toNat, .u 20 s.sampleRate.toNat, .u 3 s.numberOfChannels.toNat, .u 5 s.bitsPerSample.toNat,
    .u 36 s.totalSamplesInStream.toNat, .bytes s.md5]

/-- One FLAC metadata block. -/
def flacBlockTable (last : Bool) (b : FlacBlock) : List Field :=
  [.u 1 last.toNat, .u 7 b.blockType.toNat] ++ match b.payload with
    | .streamInfo s => [.u 24 34] ++ flacStreamInfoTable s
    | .bytes l => [.u 24 (l.length % 2 ^ 32), .bytes l]

/-- decoder_config() of FLAC: all blocks, the last one marked. -/
def flacTable : List FlacBlock → List Field
  | [] => []
  | b :: bs => flacBlockTable bs.isEmpty b ++ flacTable bs

/-- decoder_config() of AAC-LC: an ISO/IEC 14496-1 DecoderConfigDescriptor. -/
def aacTable (g : LebGen) (c : AacConfig) : List Field :=
  [.u 8 c.descriptorTag.toNat] ++ sectionTable g
    ([.u 8 c.objectTypeIndication.toNat, .u 6 c.streamType.toNat, .u 1 c.upstream.toNat, .u 1 c.reserved.toNat,
      .u 24 c.bufferSizeDb.toNat, .u 32 c.maxBitrate.toNat, .u 32 c.averageBitRate.toNat, .u 8 c.infoTag.toNat] ++
      sectionTable g [.u 5 c.asc.audioObjectType.toNat, .u 4 c.asc.sampleFrequencyIndex.toNat,
        .u 4 c.asc.channelConfiguration.toNat, .u 1 c.asc.frameLengthFlag.toNat, .u 1 c.asc.dependsOnCoreCoder.toNat,
        .u 1 c.asc.extensionFlag.toNat] c.infoExtension) c.configExtension

/-- codec_config_obu() -/
def codecConfigTable (g : LebGen) (c : CodecConfig) : List Field :=
  [.leb c.configId, .u 32 c.codecId.toNat, .leb c.numSamplesPerFrame, .s 16 c.audioRollDistance.toInt] ++
    match c.decoderConfig with
    | .opus d => opusTable d
    | .lpcm d => lpcmTable d
    | .flac d => flacTable d.blocks
    | .aac d => aacTable g d

/-- What IAMF requires of LPCM. -/
structure LpcmOk (c : LpcmConfig) (roll : Int) : Prop where
  roll : roll = 0
  flags : c.formatFlags.toNat = 0 ∨ c.formatFlags.toNat = 1
  size : c.sampleSize.toNat ∈ [16, 24, 32]
  rate : c.sampleRate.toNat ∈ [16000, 32000, 44100, 48000, 96000]

/-- What IAMF requires of Opus; the roll distance covers 3840 samples. -/
structure OpusOk (c : OpusConfig) (n : Nat) (roll : Int) : Prop where
  roll : roll = -(((3840 + n - 1) / n : Nat) : Int)
  version : 1 ≤ c.version.toNat ∧ c.version.toNat ≤ 15
  channels : c.outputChannelCount.toNat = 2
  gain : c.outputGain.toInt = 0
  mapping : c.mappingFamily.toNat = 0

/-- What IAMF requires of a FLAC stream info to be decoded. -/
structure FlacInfoOk (s : FlacStreamInfo) (n : Nat) : Prop where
  rate : s.sampleRate.toNat ∈ [8000, 16000, 22050, 24000, 32000, 44100, 48000, 88200, 96000, 176400, 192000]
  bits : s.bitsPerSample.toNat ∈ [15, 23, 31]
  maxBlock : s.maximumBlockSize.toNat = n
  minBlock : s.minimumBlockSize.toNat = n
  channels : s.numberOfChannels.toNat = 1
  total : s.totalSamplesInStream.toNat < 2 ^ 36

/-- What IAMF requires of FLAC in a decoder: a stream info comes first. -/
structure FlacDecodeOk (c : FlacConfig) (n : Nat) (roll : Int) : Prop where
  roll : roll = 0
  first : ∃ s rest, c.blocks = ⟨0, .streamInfo s⟩ :: rest ∧ FlacInfoOk s n

/-- What this encoder writes: moreover the frame sizes and the checksum are unset, and every block has the payload of its
type. -/
structure FlacOk (c : FlacConfig) (n : Nat) (roll : Int) : Prop where
  roll : roll = 0
  first : ∃ s rest, c.blocks = ⟨0, .streamInfo s⟩ :: rest ∧ FlacInfoOk s n ∧ s.minimumFrameSize = 0 ∧
    s.maximumFrameSize = 0 ∧ s.md5 = List.replicate 16 0
  kinds : ∀ b ∈ c.blocks, (b.blockType = 0 ↔ ∃ s, b.payload = .streamInfo s)

/-- What IAMF requires of AAC-LC. -/
structure AacOk (c : AacConfig) (roll : Int) : Prop where
  roll : roll = -1
  tag : c.descriptorTag.toNat = 0x04
  object : c.objectTypeIndication.toNat = 0x40
  stream : c.streamType.toNat = 0x05
  upstream : c.upstream = false
  reserved : c.reserved = true
  info : c.infoTag.toNat = 0x05
  aot : c.asc.audioObjectType.toNat = 2
  channels : c.asc.channelConfiguration.toNat = 2
  flags : c.asc.frameLengthFlag = false ∧ c.asc.dependsOnCoreCoder = false ∧ c.asc.extensionFlag = false
  frequency : c.asc.sampleFrequencyIndex.toNat ≤ 12

/-- The sections of the descriptor are not larger than 2^28 - 1 bytes. -/
def AacSizeOk (c : AacConfig) : Prop := c.infoExtension.length + 2 < 268435456 ∧
  14 + (isoSize (2 + c.infoExtension.length)).length + 2 + c.infoExtension.length + c.configExtension.length < 268435456

/-- What IAMF requires of a codec config that is written: the codec id names the decoder config's codec ("Opus", "ipcm",
"fLaC", "mp4a"), the frame size is between 1 and 96000, and the decoder config is allowed. -/
def CodecConfigOk (c : CodecConfig) : Prop :=
  1 ≤ c.numSamplesPerFrame.toNat ∧ c.numSamplesPerFrame.toNat ≤ 96000 ∧
  match c.decoderConfig with
  | .opus d => c.codecId.toNat = 0x4f707573 ∧ OpusOk d c.numSamplesPerFrame.toNat c.audioRollDistance.toInt
  | .lpcm d => c.codecId.toNat = 0x6970636d ∧ LpcmOk d c.audioRollDistance.toInt
  | .flac d => c.codecId.toNat = 0x664c6143 ∧ FlacOk d c.numSamplesPerFrame.toNat c.audioRollDistance.toInt
  | .aac d => c.codecId.toNat = 0x6d703461 ∧ AacOk d c.audioRollDistance.toInt ∧ AacSizeOk d

theorem Int16.eq_iff_toInt (a b : Int16) : a = b ↔ a.toInt = b.toInt := ⟨congrArg _, Int16.toInt_inj.mp⟩

theorem lpcm_validate_iff (c : LpcmConfig) (roll : Int16) : c.validate roll = .ok () ↔ LpcmOk c roll.toInt := by
  unfold LpcmConfig.validate lpcmSampleSizeOk lpcmSampleRateOk
  constructor
  · intro h
    by_cases h1 : roll ≠ 0
    · rw [if_pos h1] at h; simp at h
    rw [if_neg h1] at h
    split at h
    · simp at h
    next h2 =>
      split at h
      · simp at h
      next h3 =>
        split at h
        · simp at h
        next h4 =>
          simp only [Bool.not_eq_true, Bool.not_eq_false', Bool.or_eq_true, beq_iff_eq, ne_eq, Classical.not_not, ← UInt8.toNat_inj, ← UInt32.toNat_inj] at h1 h2 h3 h4
          refine ⟨by rw [h1]; rfl, h2, ?_, ?_⟩
          · simp only [List.mem_cons, List.not_mem_nil, or_false]; exact or_assoc.mp h3
          · simp only [List.mem_cons, List.not_mem_nil, or_false]
            simpa [or_assoc] using h4
  · rintro ⟨h1, h2, h3, h4⟩
    have e1 : roll = 0 := (Int16.eq_iff_toInt _ _).mpr h1
    simp only [List.mem_cons, List.not_mem_nil, or_false] at h3 h4
    rw [if_neg (by simp [e1]), if_neg, if_neg, if_neg]
    · simp only [Bool.not_eq_true, Bool.not_eq_false', Bool.or_eq_true, beq_iff_eq, ← UInt32.toNat_inj]
      simpa [or_assoc] using h4
    · simp only [Bool.not_eq_true, Bool.not_eq_false', Bool.or_eq_true, beq_iff_eq, ← UInt8.toNat_inj]
      exact or_assoc.mpr h3
    · simp only [Bool.not_eq_true, Bool.not_eq_false', Bool.or_eq_true, beq_iff_eq, ← UInt8.toNat_inj]
      exact h2

theorem emits_lpcm {g : LebGen} (c : LpcmConfig) (roll : Int16) : Emits g (c.write roll) (LpcmOk c roll.toInt) (lpcmTable c) := by
  unfold LpcmConfig.write
  refine Emits.cast (by em_auto) ?_ ?_
  · rw [lpcm_validate_iff]; simp
  · exact fun _ => rfl

private theorem mul_cmp {n q : Nat} {r : Int} (hn : 1 ≤ n) (h0 : r ≤ 0) (h1 : 3840 ≤ (n : Int) * -r)
    (h2 : (n : Int) * (-r - 1) < 3840) (hq : q = (3840 + n - 1) / n) : r = -(q : Int) := by
  obtain ⟨k, rfl⟩ : ∃ k : Nat, r = -(k : Int) := ⟨(-r).toNat, by omega⟩
  rw [Int.neg_neg] at h1 h2
  have hnk : ((n * k : Nat) : Int) = (n : Int) * k := Int.natCast_mul n k
  have h1' : 3840 ≤ n * k := by omega
  have h2' : n * k < 3840 + n := by
    have : (n : Int) * ((k : Int) - 1) = (n : Int) * k - n := by rw [Int.mul_sub, Int.mul_one]
    rw [this] at h2
    omega
  have : (3840 + n - 1) / n = k := by
    apply Nat.div_eq_of_lt_le
    · rw [Nat.mul_comm]; omega
    · rw [Nat.add_one_mul, Nat.mul_comm]; omega
  omega

theorem opusRoll_iff (n : UInt32) (roll : Int16) (h1 : 1 ≤ n.toNat) (h2 : n.toNat ≤ 96000) :
    opusValidateRoll n roll = .ok () ↔ roll.toInt = -(((3840 + n.toNat - 1) / n.toNat : Nat) : Int) := by
  have hex : ∃ r, opusRollDistance n = .ok r := by
    unfold opusRollDistance
    rw [if_neg (by rintro rfl; simp at h1)]
    exact ⟨_, rfl⟩
  obtain ⟨r, hr⟩ := hex
  obtain ⟨a, b, c⟩ := opusRollDistance_spec h1 h2 hr
  have hv := mul_cmp h1 a b c rfl
  unfold opusValidateRoll
  rw [hr]
  simp only
  rw [← hv, ← Int16.eq_iff_toInt]
  by_cases h : roll = r
  · simp [h]
  · simp [h]

theorem opus_validate_iff (c : OpusConfig) : c.validate = .ok () ↔ (1 ≤ c.version.toNat ∧ c.version.toNat ≤ 15) ∧
    c.outputChannelCount.toNat = 2 ∧ c.outputGain.toInt = 0 ∧ c.mappingFamily.toNat = 0 := by
  have hver : ∀ v < 256, ((UInt8.ofNat v &&& 0xf0) >>> 4 > 0 ↔ 15 < v) := by decide +kernel
  have hv := hver c.version.toNat c.version.toNat_lt
  rw [UInt8.ofNat_toNat] at hv
  have h0 : c.version = 0 ↔ c.version.toNat = 0 := by rw [← UInt8.toNat_inj]; rfl
  have h1 : c.outputChannelCount = 2 ↔ c.outputChannelCount.toNat = 2 := by rw [← UInt8.toNat_inj]; rfl
  have h2 : c.mappingFamily = 0 ↔ c.mappingFamily.toNat = 0 := by rw [← UInt8.toNat_inj]; rfl
  have h3 : c.outputGain = 0 ↔ c.outputGain.toInt = 0 := by rw [Int16.eq_iff_toInt]; rfl
  unfold OpusConfig.validate
  by_cases c0 : c.version = 0
  · rw [if_pos c0]
    exact ⟨fun h => by simp at h, fun h => absurd (h0.mp c0) (by omega)⟩
  rw [if_neg c0]
  by_cases c1 : (c.version &&& 0xf0) >>> 4 > 0
  · rw [if_pos c1]
    exact ⟨fun h => by simp at h, fun h => absurd (hv.mp c1) (by omega)⟩
  rw [if_neg c1]
  by_cases c2 : c.outputChannelCount ≠ 2
  · rw [if_pos c2]
    exact ⟨fun h => by simp at h, fun h => absurd (h1.mpr h.2.1) c2⟩
  rw [if_neg c2]
  by_cases c3 : c.outputGain ≠ 0
  · rw [if_pos c3]
    exact ⟨fun h => by simp at h, fun h => absurd (h3.mpr h.2.2.1) c3⟩
  rw [if_neg c3]
  by_cases c4 : c.mappingFamily ≠ 0
  · rw [if_pos c4]
    exact ⟨fun h => by simp at h, fun h => absurd (h2.mpr h.2.2.2) c4⟩
  rw [if_neg c4]
  have d0 := mt h0.mpr c0
  have d1 := mt hv.mpr c1
  exact ⟨fun _ => ⟨by omega, h1.mp (Classical.not_not.mp c2), h3.mp (Classical.not_not.mp c3),
    h2.mp (Classical.not_not.mp c4)⟩, fun _ => rfl⟩

theorem opusOk_iff (c : OpusConfig) (n : UInt32) (roll : Int16) (h1 : 1 ≤ n.toNat) (h2 : n.toNat ≤ 96000) :
    (opusValidateRoll n roll = .ok () ∧ c.validate = .ok ()) ↔ OpusOk c n.toNat roll.toInt := by
  rw [opusRoll_iff n roll h1 h2, opus_validate_iff]
  exact ⟨fun ⟨a, b, c, d, e⟩ => ⟨a, b, c, d, e⟩, fun ⟨a, b, c, d, e⟩ => ⟨a, b, c, d, e⟩⟩

theorem emits_opus {g : LebGen} (c : OpusConfig) (n : UInt32) (roll : Int16) (h1 : 1 ≤ n.toNat) (h2 : n.toNat ≤ 96000) :
    Emits g (c.write n roll) (OpusOk c n.toNat roll.toInt) (opusTable c) := by
  unfold OpusConfig.write
  refine Emits.cast (by em_auto) ?_ ?_
  · rw [← opusOk_iff c n roll h1 h2]; simp
  · exact fun _ => rfl

/-! FLAC -/

theorem flacInfo_iff (s : FlacStreamInfo) (n : UInt32) :
    (flacSampleRateOk s.sampleRate && flacBitsOk s.bitsPerSample && s.maximumBlockSize.toUInt32 == n &&
        s.minimumBlockSize.toUInt32 == n && s.numberOfChannels == 1 &&
        decide (s.totalSamplesInStream ≤ 0xfffffffff)) = true ↔ FlacInfoOk s n.toNat := by
  unfold flacSampleRateOk flacBitsOk
  simp only [Bool.and_eq_true, Bool.or_eq_true, beq_iff_eq, decide_eq_true_eq, ← UInt32.toNat_inj, ← UInt8.toNat_inj,
    UInt16.toNat_toUInt32, UInt64.le_iff_toNat_le]
  constructor
  · rintro ⟨⟨⟨⟨⟨h1, h2⟩, h3⟩, h4⟩, h5⟩, h6⟩
    refine ⟨?_, ?_, h3, h4, h5, ?_⟩
    · simp only [List.mem_cons, List.not_mem_nil, or_false]
      simp only [UInt32.reduceToNat] at h1
      omega
    · simp only [List.mem_cons, List.not_mem_nil, or_false]
      simp only [UInt8.reduceToNat] at h2
      omega
    · have : (0xfffffffff : UInt64).toNat = 68719476735 := by decide
      rw [this] at h6; omega
  · rintro ⟨h1, h2, h3, h4, h5, h6⟩
    simp only [List.mem_cons, List.not_mem_nil, or_false] at h1 h2
    refine ⟨⟨⟨⟨⟨?_, ?_⟩, h3⟩, h4⟩, h5⟩, ?_⟩
    · simp only [UInt32.reduceToNat]
      omega
    · simp only [UInt8.reduceToNat]
      omega
    · have : (0xfffffffff : UInt64).toNat = 68719476735 := by decide
      rw [this]; omega

theorem flac_decoding_iff (c : FlacConfig) (n : UInt32) : c.validateDecoding n = .ok () ↔
    ∃ s rest, c.blocks = ⟨0, .streamInfo s⟩ :: rest ∧ FlacInfoOk s n.toNat := by
  unfold FlacConfig.validateDecoding FlacConfig.getStreamInfo
  constructor
  · intro h
    match hb : c.blocks with
    | [] => simp [hb] at h
    | ⟨t, p⟩ :: rest =>
      rw [hb] at h
      simp only at h
      by_cases ht : t ≠ 0
      · simp [ht] at h
      · simp only [ht, ↓reduceIte] at h
        have ht : t = 0 := Classical.not_not.mp ht
        subst ht
        match p with
        | .bytes _ => simp at h
        | .streamInfo s =>
          simp only at h
          refine ⟨s, rest, rfl, (flacInfo_iff s n).mp ?_⟩
          split at h
          · assumption
          · simp at h
  · rintro ⟨s, rest, hb, hs⟩
    rw [hb]
    simp only [ne_eq, not_true_eq_false, ↓reduceIte]
    rw [if_pos ((flacInfo_iff s n).mpr hs)]

theorem flac_encoding_iff (c : FlacConfig) (n : UInt32) : c.validateEncoding n = .ok () ↔
    ∃ s rest, c.blocks = ⟨0, .streamInfo s⟩ :: rest ∧ FlacInfoOk s n.toNat ∧ s.minimumFrameSize = 0 ∧
      s.maximumFrameSize = 0 ∧ s.md5 = List.replicate 16 0 := by
  unfold FlacConfig.validateEncoding
  constructor
  · intro h
    split at h
    · simp at h
    next u hd =>
      obtain ⟨s, rest, hb, hs⟩ := (flac_decoding_iff c n).mp hd
      have hg : c.getStreamInfo = .ok s := by unfold FlacConfig.getStreamInfo; rw [hb]; simp
      rw [hg] at h
      simp only at h
      split at h
      next hc =>
        simp only [Bool.and_eq_true, beq_iff_eq] at hc
        exact ⟨s, rest, hb, hs, hc.1.1, hc.1.2, hc.2⟩
      · simp at h
  · rintro ⟨s, rest, hb, hs, h1, h2, h3⟩
    have hd := (flac_decoding_iff c n).mpr ⟨s, rest, hb, hs⟩
    have hg : c.getStreamInfo = .ok s := by unfold FlacConfig.getStreamInfo; rw [hb]; simp
    simp only [hd, hg]
    rw [if_pos]
    simp [h1, h2, h3]

theorem emits_flacStreamInfo {g : LebGen} (s : FlacStreamInfo) : Emits g s.write True (flacStreamInfoTable s) := by
  unfold FlacStreamInfo.write
  refine Emits.cast (by em_auto) ?_ ?_
  · simp
  · exact fun _ => rfl

theorem emits_flacBlocks {g : LebGen} (l : List FlacBlock) :
    Emits g (wFlacBlocks l) (∀ b ∈ l, (b.blockType = 0 ↔ ∃ s, b.payload = .streamInfo s)) (flacTable l) := by
  induction l with
  | nil => exact Emits.ret.cast (by simp) (fun _ => rfl)
  | cons b bs ih =>
    unfold wFlacBlocks
    have hp : Emits g b.writePayload (b.blockType = 0 ↔ ∃ s, b.payload = .streamInfo s) (match b.payload with
        | .streamInfo s => [.u 24 34] ++ flacStreamInfoTable s
        | .bytes l => [.u 24 (l.length % 2 ^ 32), .bytes l]) := by
      unfold FlacBlock.writePayload
      by_cases ht : b.blockType = 0
      · rw [if_pos ht]
        match b.payload with
        | .streamInfo s => exact (em32_24.bind (emits_flacStreamInfo s)).cast (by simp [ht]) (fun _ => rfl)
        | .bytes l => exact (Emits.fail (t := [])).cast (by simp [ht]) (fun h => h.elim)
      · rw [if_neg ht]
        match b.payload with
        | .streamInfo s => exact (Emits.fail (t := [])).cast (by simp [ht]) (fun h => h.elim)
        | .bytes l => exact (em32_24.bind Emits.bytes).cast (by simp [ht]) (fun _ => by rw [UInt32.toNat_ofNat']; rfl)
    refine (Emits.bool.bind (em8_7.bind (hp.bind ih))).cast (by simp) (fun _ => ?_)
    simp only [flacTable, flacBlockTable, List.append_assoc, List.cons_append, List.nil_append]

theorem emits_flac {g : LebGen} (c : FlacConfig) (n : UInt32) (roll : Int16) :
    Emits g (c.write n roll) (FlacOk c n.toNat roll.toInt) (flacTable c.blocks) := by
  unfold FlacConfig.write
  simp only [Wr.bind_eq]
  refine (Emits.check.bind (Emits.status.bind (emits_flacBlocks c.blocks))).cast ?_ (fun _ => rfl)
  rw [flac_encoding_iff, beq_iff_eq, Int16.eq_iff_toInt]
  exact ⟨fun ⟨a, b, c⟩ => ⟨a, b, c⟩, fun ⟨a, b, c⟩ => ⟨a, b, c⟩⟩

/-! AAC-LC -/

theorem aacFrequency_iff (i : UInt32) : aacSampleFrequencyStatus i = .ok () ↔ i.toNat ≤ 12 := by
  unfold aacSampleFrequencyStatus aacSampleFrequency
  by_cases h : i = 13 ∨ i = 14
  · rw [if_pos h]
    rcases h with rfl | rfl <;> decide
  · rw [if_neg h]
    by_cases h2 : i.toNat ≤ 12
    · have : i.toNat < aacSampleFrequencies.length := by show i.toNat < 13; omega
      rw [List.getElem?_eq_getElem this]
      simp [h2]
    · have : aacSampleFrequencies.length ≤ i.toNat := by show 13 ≤ i.toNat; omega
      rw [List.getElem?_eq_none this]
      simp [h2]

theorem aac_validate_iff (c : AacConfig) (roll : Int16) : (roll = -1 ∧ c.validate = .ok ()) ↔ AacOk c roll.toInt := by
  unfold AacConfig.validate
  constructor
  · rintro ⟨hr, h⟩
    split at h
    next hc =>
      simp only [Bool.and_eq_true, beq_iff_eq, ← UInt8.toNat_inj] at hc
      obtain ⟨⟨⟨⟨⟨⟨⟨⟨⟨⟨h1, h2⟩, h3⟩, h4⟩, h5⟩, h6⟩, h7⟩, h8⟩, h9⟩, h10⟩, h11⟩ := hc
      exact ⟨by rw [hr]; decide, h1, h2, h3, h4, h5, h6, h7, h8, ⟨h9, h10, h11⟩, (aacFrequency_iff _).mp h⟩
    · simp at h
  · rintro ⟨h0, h1, h2, h3, h4, h5, h6, h7, h8, ⟨h9, h10, h11⟩, h12⟩
    refine ⟨(Int16.eq_iff_toInt _ _).mpr h0, ?_⟩
    rw [if_pos]
    · exact (aacFrequency_iff _).mpr h12
    · simp only [Bool.and_eq_true, beq_iff_eq, ← UInt8.toNat_inj]
      exact ⟨⟨⟨⟨⟨⟨⟨⟨⟨⟨h1, h2⟩, h3⟩, h4⟩, h5⟩, h6⟩, h7⟩, h8⟩, h9⟩, h10⟩, h11⟩

theorem sectionTable_length (g : LebGen) (t : List Field) (ext : List UInt8) : (encode g (sectionTable g t ext)).length =
    8 * (isoSize ((encode g t).length / 8 + ext.length)).length + (encode g t).length + 8 * ext.length := by
  simp only [sectionTable, encode_append, encode_cons, encode_nil, Field.bits, List.length_append, bytesBits_length, List.length_nil]
  omega

theorem emits_aac {g : LebGen} (c : AacConfig) (roll : Int16) :
    Emits g (c.write roll) (AacOk c roll.toInt ∧ AacSizeOk c) (aacTable g c) := by
  have hasc : Emits g c.asc.write True [.u 5 c.asc.audioObjectType.toNat, .u 4 c.asc.sampleFrequencyIndex.toNat,
        .u 4 c.asc.channelConfiguration.toNat, .u 1 c.asc.frameLengthFlag.toNat, .u 1 c.asc.dependsOnCoreCoder.toNat,
        .u 1 c.asc.extensionFlag.toNat] := by
    unfold AudioSpecificConfig.write
    refine Emits.cast (by em_auto) ?_ ?_
    · simp
    · exact fun _ => rfl
  have hin := emits_section c.infoExtension hasc (by simp [encode, Field.bits])
  have hmid := em8_8 (g := g) (d := c.objectTypeIndication) |>.bind (em8_6 (d := c.streamType) |>.bind
    (Emits.bool (b := c.upstream) |>.bind (Emits.bool (b := c.reserved) |>.bind (em32_24 (d := c.bufferSizeDb) |>.bind
    (em32_32 (d := c.maxBitrate) |>.bind (em32_32 (d := c.averageBitRate) |>.bind (em8_8 (d := c.infoTag) |>.bind hin)))))))
  have hl : (encode g ([.u 8 c.objectTypeIndication.toNat] ++ ([.u 6 c.streamType.toNat] ++ ([.u 1 c.upstream.toNat] ++
      ([.u 1 c.reserved.toNat] ++ ([.u 24 c.bufferSizeDb.toNat] ++ ([.u 32 c.maxBitrate.toNat] ++
      ([.u 32 c.averageBitRate.toNat] ++ ([.u 8 c.infoTag.toNat] ++ sectionTable g [.u 5 c.asc.audioObjectType.toNat, .u 4 c.asc.sampleFrequencyIndex.toNat,
        .u 4 c.asc.channelConfiguration.toNat, .u 1 c.asc.frameLengthFlag.toNat, .u 1 c.asc.dependsOnCoreCoder.toNat,
        .u 1 c.asc.extensionFlag.toNat] c.infoExtension))))))))).length =
      8 * (14 + (isoSize (2 + c.infoExtension.length)).length + 2 + c.infoExtension.length) := by
    simp only [encode_append, List.length_append, sectionTable_length]
    have e : (encode g [.u 5 c.asc.audioObjectType.toNat, .u 4 c.asc.sampleFrequencyIndex.toNat,
        .u 4 c.asc.channelConfiguration.toNat, .u 1 c.asc.frameLengthFlag.toNat, .u 1 c.asc.dependsOnCoreCoder.toNat,
        .u 1 c.asc.extensionFlag.toNat]).length = 16 := by simp [encode, Field.bits]
    rw [e, show 16 / 8 + c.infoExtension.length = 2 + c.infoExtension.length from rfl]
    simp only [encode_cons, encode_nil, Field.bits, natBits_length, List.append_nil]
    omega
  have hout := emits_section c.configExtension hmid (by rw [hl]; omega)
  unfold AacConfig.write
  simp only [Wr.bind_eq]
  refine (Emits.check.bind (Emits.status.bind (em8_8.bind hout))).cast ?_ (fun _ => rfl)
  have e : (encode g [.u 5 c.asc.audioObjectType.toNat, .u 4 c.asc.sampleFrequencyIndex.toNat,
        .u 4 c.asc.channelConfiguration.toNat, .u 1 c.asc.frameLengthFlag.toNat, .u 1 c.asc.dependsOnCoreCoder.toNat,
        .u 1 c.asc.extensionFlag.toNat]).length = 16 := by simp [encode, Field.bits]
  rw [beq_iff_eq, ← aac_validate_iff, hl, e]
  unfold AacSizeOk
  generalize (isoSize (2 + c.infoExtension.length)).length = z
  constructor
  · rintro ⟨h1, h2, -, ⟨-, -, -, -, -, -, -, -, -, h3⟩, h4⟩
    exact ⟨⟨h1, h2⟩, by omega, by omega⟩
  · rintro ⟨⟨h1, h2⟩, h3, h4⟩
    exact ⟨h1, h2, trivial, ⟨trivial, trivial, trivial, trivial, trivial, trivial, trivial, trivial, trivial, by omega⟩, by omega⟩

theorem emits_codecConfig {g : LebGen} (c : CodecConfig) :
    Emits g c.write (CodecConfigOk c) (codecConfigTable g c) := by
  unfold CodecConfig.write
  simp only [Wr.bind_eq]
  have hr : numSamplesPerFrameOk c.numSamplesPerFrame = true ↔ 1 ≤ c.numSamplesPerFrame.toNat ∧ c.numSamplesPerFrame.toNat ≤ 96000 := by
    unfold numSamplesPerFrameOk inRange32
    simp [UInt32.le_iff_toNat_le]
  have hd : (1 ≤ c.numSamplesPerFrame.toNat ∧ c.numSamplesPerFrame.toNat ≤ 96000) →
      Emits g c.writeDecoderConfig (match c.decoderConfig with
        | .opus d => c.codecId.toNat = 0x4f707573 ∧ OpusOk d c.numSamplesPerFrame.toNat c.audioRollDistance.toInt
        | .lpcm d => c.codecId.toNat = 0x6970636d ∧ LpcmOk d c.audioRollDistance.toInt
        | .flac d => c.codecId.toNat = 0x664c6143 ∧ FlacOk d c.numSamplesPerFrame.toNat c.audioRollDistance.toInt
        | .aac d => c.codecId.toNat = 0x6d703461 ∧ AacOk d c.audioRollDistance.toInt ∧ AacSizeOk d)
        (match c.decoderConfig with
        | .opus d => opusTable d
        | .lpcm d => lpcmTable d
        | .flac d => flacTable d.blocks
        | .aac d => aacTable g d) := by
    rintro ⟨n1, n2⟩
    have hne : ∀ {a : UInt32} (k : UInt32), a ≠ k → a.toNat ≠ k.toNat := fun k h e => h (UInt32.toNat_inj.mp e)
    unfold CodecConfig.writeDecoderConfig
    by_cases k1 : c.codecId = kCodecIdOpus
    · rw [if_pos k1, k1]
      match c.decoderConfig with
      | .opus d => exact (emits_opus d _ _ n1 n2).cast (by simp [kCodecIdOpus]) (fun _ => rfl)
      | .lpcm d => exact (Emits.fail (t := [])).cast (by simp [kCodecIdOpus]) (fun h => h.elim)
      | .aac d => exact (Emits.fail (t := [])).cast (by simp [kCodecIdOpus]) (fun h => h.elim)
      | .flac d => exact (Emits.fail (t := [])).cast (by simp [kCodecIdOpus]) (fun h => h.elim)
    rw [if_neg k1]
    by_cases k2 : c.codecId = kCodecIdLpcm
    · rw [if_pos k2, k2]
      match c.decoderConfig with
      | .lpcm d => exact (emits_lpcm d _).cast (by simp [kCodecIdLpcm]) (fun _ => rfl)
      | .opus d => exact (Emits.fail (t := [])).cast (by simp [kCodecIdLpcm]) (fun h => h.elim)
      | .aac d => exact (Emits.fail (t := [])).cast (by simp [kCodecIdLpcm]) (fun h => h.elim)
      | .flac d => exact (Emits.fail (t := [])).cast (by simp [kCodecIdLpcm]) (fun h => h.elim)
    rw [if_neg k2]
    by_cases k3 : c.codecId = kCodecIdAacLc
    · rw [if_pos k3, k3]
      match c.decoderConfig with
      | .aac d => exact (emits_aac d _).cast (by simp [kCodecIdAacLc]) (fun _ => rfl)
      | .opus d => exact (Emits.fail (t := [])).cast (by simp [kCodecIdAacLc]) (fun h => h.elim)
      | .lpcm d => exact (Emits.fail (t := [])).cast (by simp [kCodecIdAacLc]) (fun h => h.elim)
      | .flac d => exact (Emits.fail (t := [])).cast (by simp [kCodecIdAacLc]) (fun h => h.elim)
    rw [if_neg k3]
    by_cases k4 : c.codecId = kCodecIdFlac
    · rw [if_pos k4, k4]
      match c.decoderConfig with
      | .flac d => exact (emits_flac d _ _).cast (by simp [kCodecIdFlac]) (fun _ => rfl)
      | .opus d => exact (Emits.fail (t := [])).cast (by simp [kCodecIdFlac]) (fun h => h.elim)
      | .lpcm d => exact (Emits.fail (t := [])).cast (by simp [kCodecIdFlac]) (fun h => h.elim)
      | .aac d => exact (Emits.fail (t := [])).cast (by simp [kCodecIdFlac]) (fun h => h.elim)
    rw [if_neg k4]
    have f1 := hne _ k1
    have f2 := hne _ k2
    have f3 := hne _ k3
    have f4 := hne _ k4
    simp only [kCodecIdOpus, kCodecIdLpcm, kCodecIdAacLc, kCodecIdFlac, UInt32.reduceToNat, ne_eq] at f1 f2 f3 f4
    match c.decoderConfig with
    | .flac d => exact (Emits.fail (t := [])).cast (by simp [f4]) (fun h => h.elim)
    | .opus d => exact (Emits.fail (t := [])).cast (by simp [f1]) (fun h => h.elim)
    | .lpcm d => exact (Emits.fail (t := [])).cast (by simp [f2]) (fun h => h.elim)
    | .aac d => exact (Emits.fail (t := [])).cast (by simp [f3]) (fun h => h.elim)
  refine (Emits.uleb.bind (em32_32.bind (Emits.checkBind fun hn =>
    (Emits.uleb.bind (Emits.s16.bind (hd (hr.mp hn))))))).cast ?_ (fun _ => rfl)
  rw [hr]
  unfold CodecConfigOk
  simp only [true_and]
  exact and_assoc

/-- **C30 (codec config).** OBU type 0. -/
theorem C30_codec_config (g : LebGen) (h : ObuHeader) (c : CodecConfig) (footer bytes : List UInt8) :
    Writes g (wObu { h with obuType := ObuType.codecConfig } c.write footer) bytes ↔
      CodecConfigOk c ∧ IsObu g { h with obuType := 0 } (codecConfigTable g c) footer bytes :=
  writes_obu footer bytes (emits_codecConfig c)

/-- Not vacuous: AAC-LC at 44100 Hz. -/
def aacExample : CodecConfig := ⟨2, kCodecIdAacLc, 1024, -1, .aac ⟨4, 0x40, 5, false, true, 0, 0, 128000, 5,
  ⟨2, 4, 2, false, false, false⟩, [], [0x11]⟩⟩
example : CodecConfigOk aacExample := ⟨by decide, by decide, by decide, ⟨by decide, by decide, by decide, by decide, rfl, rfl,
  by decide, by decide, by decide, ⟨rfl, rfl, rfl⟩, by decide⟩, by decide +kernel, by decide +kernel⟩
example : IsObu .minimum ⟨0, false, false, 0, 0, none⟩ (codecConfigTable .minimum aacExample) []
    [0x00, 29, 2, 0x6d, 0x70, 0x34, 0x61, 0x80, 8, 0xff, 0xff, 4, 18, 0x40, 0x15, 0, 0, 0, 0, 0, 0, 0, 0, 1, 0xf4, 0, 5, 2,
      0x12, 0x10, 0x11] := ⟨by decide, by decide, by decide +kernel, by decide +kernel⟩

end Iamf.Props
