import Verif.Props.WireCodec
/-
  C29: which codec configs a decoder accepts, and the rates it derives.
-/
namespace Iamf.Props
open Iamf

/-- What IAMF requires of a codec config that is read.  (FLAC frame sizes and checksum are free.) -/
def CodecConfigDecodeOk (c : CodecConfig) : Prop :=
  1 ≤ c.numSamplesPerFrame.toNat ∧ c.numSamplesPerFrame.toNat ≤ 96000 ∧
  match c.decoderConfig with
  | .opus d => c.codecId.toNat = 0x4f707573 ∧ OpusOk d c.numSamplesPerFrame.toNat c.audioRollDistance.toInt
  | .lpcm d => c.codecId.toNat = 0x6970636d ∧ LpcmOk d c.audioRollDistance.toInt
  | .flac d => c.codecId.toNat = 0x664c6143 ∧ FlacDecodeOk d c.numSamplesPerFrame.toNat c.audioRollDistance.toInt ∧
      (∀ b ∈ d.blocks, (b.blockType = 0 ↔ ∃ s, b.payload = .streamInfo s)) ∧ d.blocks.length ≤ 128
  | .aac d => c.codecId.toNat = 0x6d703461 ∧ AacOk d c.audioRollDistance.toInt

/-- Output sample rate, input sample rate and bit depth of the samples of a codec config. -/
def codecRates (c : CodecConfig) : Nat × Nat × Nat :=
  match c.decoderConfig with
  | .opus d => (48000, d.inputSampleRate.toNat, 32)
  | .lpcm d => (d.sampleRate.toNat, d.sampleRate.toNat, d.sampleSize.toNat)
  | .flac d => match d.blocks with
    | ⟨_, .streamInfo s⟩ :: _ => (s.sampleRate.toNat, s.sampleRate.toNat, s.bitsPerSample.toNat + 1)
    | _ => (0, 0, 0)
  | .aac d =>
    let f := [96000, 88200, 64000, 48000, 44100, 32000, 24000, 22050, 16000, 12000, 11025, 8000, 7350].getD
      d.asc.sampleFrequencyIndex.toNat 0
    (f, f, 16)

theorem OpusConfig.sf' (n : UInt32) (roll : Int16) :
    Sf (OpusConfig.read n roll) (fun d => opusValidateRoll n roll = .ok () ∧ d.validate = .ok ()) := by
  unfold OpusConfig.read
  simp only [Rd.bind_eq, Rd.pure_eq]
  refine (Sf.status fun e he => opusValidateRoll_err he).bind fun _ h => ?_
  exact Sf.bindT (by sf_auto) fun _ => Sf.bindT (by sf_auto) fun _ => Sf.bindT (by sf_auto) fun _ =>
    Sf.bindT (by sf_auto) fun _ => Sf.bindT (by sf_auto) fun _ => Sf.bindT (by sf_auto) fun _ =>
    (Sf.status fun e he => OpusConfig.validate_err he).bind fun _ h2 => Sf.ret ⟨h, h2⟩

theorem nspf_iff (n : UInt32) : numSamplesPerFrameOk n = true ↔ 1 ≤ n.toNat ∧ n.toNat ≤ 96000 := by
  unfold numSamplesPerFrameOk inRange32
  simp [UInt32.le_iff_toNat_le]

theorem CodecConfig.sf' (n : Int) : Sf (CodecConfig.read n) CodecConfigDecodeOk := by
  unfold CodecConfig.read
  simp only [Rd.bind_eq, Rd.pure_eq]
  refine Sf.bindT (by sf_auto) fun id => Sf.bindT (by sf_auto) fun codec => Sf.bindT (by sf_auto) fun nspf =>
    (Sf.check rfl).bind fun _ hn => Sf.bindT (by sf_auto) fun roll => ?_
  obtain ⟨n1, n2⟩ := (nspf_iff _).mp hn
  generalize codec.toUInt32 = cid
  suffices h : Sf (rDecoderConfig cid nspf roll) (fun d => CodecConfigDecodeOk ⟨id, cid, nspf, roll, d⟩) from
    h.bind fun d hd => Sf.ret hd
  unfold rDecoderConfig
  refine Sf.ite (fun h1 => ?_) (fun h1 => Sf.ite (fun h2 => ?_) (fun h2 => Sf.ite (fun h3 => ?_) (fun h3 => Sf.ite (fun h4 => ?_)
    (fun h4 => Sf.fail rfl))))
  · refine (OpusConfig.sf' nspf roll).bind fun d hd => Sf.ret ⟨n1, n2, ?_, (opusOk_iff d nspf roll n1 n2).mp hd⟩
    rw [h1]; rfl
  · refine (LpcmConfig.sf roll).bind fun d hd => Sf.ret ⟨n1, n2, ?_, (lpcm_validate_iff d roll).mp hd⟩
    rw [h2]; rfl
  · refine (AacConfig.sf roll).bind fun d hd => Sf.ret ⟨n1, n2, ?_, (aac_validate_iff d roll).mp hd⟩
    rw [h3]; rfl
  · refine (FlacConfig.sf nspf roll).bind fun d hd => Sf.ret ⟨n1, n2, ?_, ?_, ?_, hd.2.2.1⟩
    · rw [h4]; rfl
    · exact ⟨by rw [hd.1]; rfl, (flac_decoding_iff d nspf).mp hd.2.1⟩
    · intro b hb
      have := hd.2.2.2 b hb
      unfold FlacBlock.Ok at this
      by_cases ht : b.blockType = 0
      · rw [if_pos ht] at this
        obtain ⟨s, hs, -⟩ := this
        exact ⟨fun _ => ⟨s, hs⟩, fun _ => ht⟩
      · rw [if_neg ht] at this
        obtain ⟨l, hl⟩ := this
        exact ⟨fun h => absurd h ht, fun ⟨s, hs⟩ => by rw [hl] at hs; simp at hs⟩

theorem rates_of_decodeOk (c : CodecConfig) (h : CodecConfigDecodeOk c) :
    ∃ r, c.rates = .ok r ∧ (r.1.toNat, r.2.1.toNat, r.2.2.toNat) = codecRates c := by
  obtain ⟨id, cid, nspf, roll, d⟩ := c
  obtain ⟨-, -, h⟩ := h
  unfold CodecConfig.rates codecRates
  cases d with
  | opus d =>
    obtain ⟨e, -⟩ := h
    have e : cid = kCodecIdOpus := UInt32.toNat_inj.mp e
    subst e
    exact ⟨(48000, d.inputSampleRate, 32), by simp, rfl⟩
  | lpcm d =>
    obtain ⟨e, hl⟩ := h
    have e : cid = kCodecIdLpcm := UInt32.toNat_inj.mp e
    subst e
    have hv := (lpcm_validate_iff d roll).mpr hl
    obtain ⟨-, hs, hr⟩ := LpcmConfig.validate_ok hv
    refine ⟨(d.sampleRate, d.sampleRate, d.sampleSize), ?_, rfl⟩
    simp only [show ¬ kCodecIdLpcm = kCodecIdOpus by decide, ↓reduceIte, hr, hs, Bool.not_true, Bool.false_eq_true]
    rw [if_neg (lpcmSampleRateOk_ne hr)]
  | aac d =>
    obtain ⟨e, hl⟩ := h
    have e : cid = kCodecIdAacLc := UInt32.toNat_inj.mp e
    subst e
    have h13 : d.asc.sampleFrequencyIndex.toNat < aacSampleFrequencies.length := by have := hl.frequency; show _ < 13; omega
    have hne : ¬ (d.asc.sampleFrequencyIndex = 13 ∨ d.asc.sampleFrequencyIndex = 14) := by
      have := hl.frequency
      rintro (h | h) <;> rw [h] at this <;> exact absurd this (by decide)
    have hf : aacSampleFrequency d.asc.sampleFrequencyIndex = .ok (aacSampleFrequencies[d.asc.sampleFrequencyIndex.toNat]) := by
      unfold aacSampleFrequency
      rw [if_neg hne, List.getElem?_eq_getElem h13]
    refine ⟨(aacSampleFrequencies[d.asc.sampleFrequencyIndex.toNat], aacSampleFrequencies[d.asc.sampleFrequencyIndex.toNat], 16), ?_, ?_⟩
    · simp only [show ¬ kCodecIdAacLc = kCodecIdOpus by decide, show ¬ kCodecIdAacLc = kCodecIdLpcm by decide, ↓reduceIte, hf]
      rw [if_neg (aacSampleFrequency_ne hf)]
    · have hall : ∀ i (h : i < aacSampleFrequencies.length), (aacSampleFrequencies[i]).toNat =
          [96000, 88200, 64000, 48000, 44100, 32000, 24000, 22050, 16000, 12000, 11025, 8000, 7350].getD i 0 := by decide +kernel
      simp only [hall _ h13]; rfl
  | flac d =>
    obtain ⟨e, ⟨hr, s, rest, hb, hs⟩, hk, -⟩ := h
    have e : cid = kCodecIdFlac := UInt32.toNat_inj.mp e
    subst e
    have hd : d.validateDecoding nspf = .ok () := (flac_decoding_iff d nspf).mpr ⟨s, rest, hb, hs⟩
    obtain ⟨s', hs', hr', hbits⟩ := FlacConfig.validateDecoding_ok hd
    have : d.getStreamInfo = .ok s := by unfold FlacConfig.getStreamInfo; rw [hb]; simp
    rw [this] at hs'
    obtain rfl : s = s' := by simpa using hs'
    refine ⟨(s.sampleRate, s.sampleRate, s.bitsPerSample + 1), ?_, ?_⟩
    · simp only [show ¬ kCodecIdFlac = kCodecIdOpus by decide, show ¬ kCodecIdFlac = kCodecIdLpcm by decide,
        show ¬ kCodecIdFlac = kCodecIdAacLc by decide, ↓reduceIte, this, hr', hbits, Bool.not_true, Bool.false_eq_true]
      rw [if_neg (flacSampleRateOk_ne hr')]
    · have := hs.bits
      simp only [List.mem_cons, List.not_mem_nil, or_false] at this
      have : (s.bitsPerSample + 1).toNat = s.bitsPerSample.toNat + 1 := by
        rw [UInt8.toNat_add]
        show (s.bitsPerSample.toNat + 1) % 256 = _
        omega
      simp only [hb, this]

/-- **C29 (accepted codec configs are legal).** Whatever bytes the OBU consists of: a codec config that is read satisfies
every constraint of its codec, and the output rate, input rate and bit depth are those the codec prescribes. -/
theorem C29_accepted_codec_config (src : List UInt8) (cap : Nat) (pv : Bool) (hc : 0 < cap)
    (h : ObuHeader) (c : CodecConfig) (footer : List UInt8)
    (hr : ((rObu fun _ => CodecConfig.read).run (RBuf.create cap src pv)).1 = .ok (h, c, footer)) :
    CodecConfigDecodeOk c ∧ ∃ r, c.rates = .ok r ∧ (r.1.toNat, r.2.1.toNat, r.2.2.toNat) = codecRates c := by
  have href := C03_read_buffer_is_cursor (rObu fun _ => CodecConfig.read) src cap pv (.inl hc)
  rw [href.1] at hr
  have := sf_obu (fun _ n _ => CodecConfig.sf' n) ⟨bytesBits src, 0, pv⟩
  rw [hr] at this
  have := this.2
  exact ⟨this, rates_of_decodeOk c this⟩

/-- A writer without checks, used only to describe the bytes of a legal codec config. -/
def CodecConfig.writeRaw (c : CodecConfig) : Wr Unit := do
  wUleb c.configId
  wU32 c.codecId 32
  wUleb c.numSamplesPerFrame
  wS16 c.audioRollDistance
  match c.decoderConfig with
  | .flac d => wFlacBlocks d.blocks
  | _ => c.writeDecoderConfig

theorem emits_raw {g : LebGen} (c : CodecConfig) (d : FlacConfig) (hd : c.decoderConfig = .flac d) :
    Emits g (CodecConfig.writeRaw c) (∀ b ∈ d.blocks, (b.blockType = 0 ↔ ∃ s, b.payload = .streamInfo s))
      (codecConfigTable g c) := by
  unfold CodecConfig.writeRaw codecConfigTable
  simp only [Wr.bind_eq, hd]
  exact (Emits.uleb.bind (em32_32.bind (Emits.uleb.bind (Emits.s16.bind (emits_flacBlocks d.blocks))))).cast
    (by simp) (fun _ => rfl)

theorem raw_rt (g : LebGen) (c : CodecConfig) (d : FlacConfig) (hd : c.decoderConfig = .flac d) (hc : c.Typed)
    (hok : CodecConfigDecodeOk c) (footer : List UInt8) :
    RTPayload g (CodecConfig.writeRaw c) CodecConfig.read footer c := by
  refine RTB.payload fun n => ?_
  obtain ⟨id, cid, nspf, roll, dc⟩ := c
  simp only at hd
  subst hd
  obtain ⟨n1, n2, e, ⟨hr, s, rest, hb, hs⟩, hk, h128⟩ := hok
  have e : cid = kCodecIdFlac := UInt32.toNat_inj.mp e
  subst e
  simp only at n1 n2 hr hs hk
  have hv : d.validateDecoding nspf = .ok () := (flac_decoding_iff d nspf).mpr ⟨s, rest, hb, hs⟩
  have hroll : roll = 0 := (Int16.eq_iff_toInt _ _).mpr hr
  unfold CodecConfig.writeRaw CodecConfig.read
  simp only [Wr.bind_eq, Rd.bind_eq, Rd.pure_eq]
  refine (rt_Uleb g _).b.seq ((rt_U32_U64 g _).b.seq ((rt_Uleb g _).b.seq (RTB.checkR ((nspf_iff _).mpr ⟨n1, n2⟩)
    ((rt_S16 g _).b.seq ?_))))
  rw [show kCodecIdFlac.toUInt64.toUInt32 = kCodecIdFlac from rfl]
  unfold rDecoderConfig
  rw [if_neg (by decide), if_neg (by decide), if_neg (by decide), if_pos rfl]
  unfold FlacConfig.read
  simp only [Rd.bind_eq, Rd.pure_eq, Rd.bind_assoc]
  refine RTB.checkR (by simp [hroll]) ?_
  refine (flacBlocks_rt g d.blocks 128 (by rw [hb]; simp) h128 (hc d rfl)).seqR ?_
  have hv' : FlacConfig.validateDecoding ⟨d.blocks⟩ nspf = .ok () := hv
  rw [hv']
  exact Reads.ret _

/-- **C29 (every legal codec config is accepted).** Bytes that spell a legal codec config OBU by its syntax table - also a
FLAC config with frame sizes and a checksum, which this library never writes - are read as that config.  (`AacSizeOk`
and `Typed` hold of every AAC config small enough for an OBU and every 16-byte checksum.) -/
theorem C29_legal_codec_config_accepted (g : LebGen) (h : ObuHeader) (c : CodecConfig) (footer bytes : List UInt8)
    (hte : h.trimEnd = 0) (hts : h.trimStart = 0) (ht : c.Typed) (hok : CodecConfigDecodeOk c)
    (hsz : ∀ d, c.decoderConfig = .aac d → AacSizeOk d)
    (hb : IsObu g { h with obuType := 0 } (codecConfigTable g c) footer bytes) :
    ReadsBack (rObu fun _ => CodecConfig.read) bytes ({ h with obuType := 0 }, c, footer) := by
  obtain ⟨n1, n2, hd⟩ := id hok
  cases hdc : c.decoderConfig with
  | flac d =>
    rw [hdc] at hd
    exact ReadsBack.obu' hte hts (raw_rt g c d hdc ht hok footer)
      ((writes_obu footer bytes (emits_raw c d hdc)).mpr ⟨hd.2.2.1, hb⟩)
  | opus d =>
    rw [hdc] at hd
    refine C09_codec_config_round_trip g _ c footer bytes hte hts ht (by simp [hdc])
      ((C30_codec_config g h c footer bytes).mpr ⟨⟨n1, n2, ?_⟩, hb⟩)
    rw [hdc]; exact hd
  | lpcm d =>
    rw [hdc] at hd
    refine C09_codec_config_round_trip g _ c footer bytes hte hts ht (by simp [hdc])
      ((C30_codec_config g h c footer bytes).mpr ⟨⟨n1, n2, ?_⟩, hb⟩)
    rw [hdc]; exact hd
  | aac d =>
    rw [hdc] at hd
    refine C09_codec_config_round_trip g _ c footer bytes hte hts ht (by simp [hdc])
      ((C30_codec_config g h c footer bytes).mpr ⟨⟨n1, n2, ?_⟩, hb⟩)
    rw [hdc]; exact ⟨hd.1, hd.2, hsz d hdc⟩

/-- Not vacuous: FLAC with frame sizes and a checksum that is not zero is legal, is spelled by these bytes, and is read. -/
def flacForeign : CodecConfig := ⟨7, kCodecIdFlac, 64, 0, .flac ⟨[⟨0, .streamInfo
  ⟨64, 64, 14, 4096, 48000, 1, 15, 1000, List.replicate 16 0xab⟩⟩, ⟨1, .bytes [0, 0]⟩]⟩⟩

theorem flacForeign_legal : CodecConfigDecodeOk flacForeign :=
  ⟨by decide, by decide, by decide, ⟨by decide, _, _, rfl, by decide, by decide, by decide, by decide, by decide, by decide⟩,
    by
      intro b hb
      simp only [List.mem_cons, List.not_mem_nil, or_false] at hb
      rcases hb with rfl | rfl
      · exact ⟨fun _ => ⟨_, rfl⟩, fun _ => rfl⟩
      · exact ⟨fun h => absurd h (by decide), fun ⟨s, hs⟩ => by simp at hs⟩, by decide⟩

theorem flacForeign_bytes : IsObu .minimum ⟨0, false, false, 0, 0, none⟩ (codecConfigTable .minimum flacForeign) [9]
    ([0x00, 53, 7, 0x66, 0x4c, 0x61, 0x43, 64, 0, 0, 0x00, 0, 0, 34, 0, 64, 0, 64, 0, 0, 14, 0, 16, 0, 0x0b, 0xb8, 0x02, 0xf0,
      0, 0, 0x03, 0xe8] ++ List.replicate 16 0xab ++ [0x81, 0, 0, 2, 0, 0, 9]) :=
  ⟨by decide, by decide, by decide +kernel, by decide +kernel⟩

/-- The corresponding writer refuses the checksum. -/
example : ¬ CodecConfigOk flacForeign := by
  rintro ⟨-, -, -, -, ⟨s, rest, hb, -, h, -⟩, -⟩
  simp only [flacForeign, List.cons.injEq, FlacBlock.mk.injEq, FlacPayload.streamInfo.injEq, true_and] at hb
  rw [← hb.1] at h
  exact absurd h (by decide)

/-- **C29 (codec delay).** Setting the codec delay changes the pre-skip of an Opus config and nothing else. -/
theorem C29_set_codec_delay (c : CodecConfig) (delay : UInt16) (hok : CodecConfigDecodeOk c) :
    c.setCodecDelay delay = .ok { c with decoderConfig := match c.decoderConfig with
      | .opus d => .opus { d with preSkip := delay }
      | x => x } := by
  obtain ⟨id, cid, nspf, roll, dc⟩ := c
  obtain ⟨-, -, h⟩ := hok
  have key : ∀ k : UInt32, cid.toNat = k.toNat → cid = k := fun k h => UInt32.toNat_inj.mp h
  unfold CodecConfig.setCodecDelay
  cases dc with
  | opus d => rw [show cid = kCodecIdOpus from key _ h.1]; rfl
  | lpcm d => rw [show cid = kCodecIdLpcm from key _ h.1]; rfl
  | aac d => rw [show cid = kCodecIdAacLc from key _ h.1]; rfl
  | flac d => rw [show cid = kCodecIdFlac from key _ h.1]; rfl

example : (CodecConfig.setCodecDelay ⟨1, kCodecIdOpus, 960, -4, .opus ⟨1, 2, 312, 48000, 0, 0⟩⟩ 100) =
    .ok ⟨1, kCodecIdOpus, 960, -4, .opus ⟨1, 2, 100, 48000, 0, 0⟩⟩ := by decide

end Iamf.Props
