import Verif.Obu.CodecProofs
import Verif.Props.ObuSimple
/-
  Properties of Codec Config OBUs: C09.
-/
namespace Iamf.Props
open Iamf

/-! ## C09: Codec Config -/

/-- **C09 (round trip).** Every codec config OBU — LPCM, Opus, FLAC with any metadata blocks, or AAC-LC
with any extensions — that is written successfully is read back with the same header, id, codec, frame
size, roll distance, decoder config and footer.  (`Typed` says only that an MD5 signature has its 16
bytes, which the C++ type guarantees; the cap of 128 FLAC blocks is necessary, see the next theorem.) -/
theorem C09_codec_config_round_trip (g : LebGen) (h : ObuHeader) (c : CodecConfig) (footer bytes : List UInt8)
    (hte : h.trimEnd = 0) (hts : h.trimStart = 0) (ht : c.Typed)
    (h128 : ∀ f, c.decoderConfig = .flac f → f.blocks.length ≤ 128)
    (hw : Writes g (wObu h c.write footer) bytes) :
    ReadsBack (rObu fun _ => CodecConfig.read) bytes (h, c, footer) :=
  ReadsBack.obu' hte hts (CodecConfig.rt g c footer ht h128) hw

/-- Not vacuous: LPCM. -/
example : Writes .minimum (wObu ⟨0, false, false, 0, 0, none⟩
    (CodecConfig.write ⟨300, kCodecIdLpcm, 1024, 0, .lpcm ⟨1, 24, 48000⟩⟩) [9])
    [0x00, 17, 0xac, 0x02, 0x69, 0x70, 0x63, 0x6d, 0x80, 0x08, 0, 0, 1, 24, 0, 0, 0xbb, 0x80, 9] :=
  ⟨⟨.minimum, [0x00, 17, 0xac, 0x02, 0x69, 0x70, 0x63, 0x6d, 0x80, 0x08, 0, 0, 1, 24, 0, 0, 0xbb, 0x80, 9], 152⟩,
    by decide +kernel, rfl, rfl⟩
/-- Not vacuous: Opus with the roll distance -4 that frames of 960 samples require. -/
example : Writes .minimum (wObu ⟨0, false, false, 0, 0, none⟩
    (CodecConfig.write ⟨1, kCodecIdOpus, 960, -4, .opus ⟨1, 2, 312, 48000, 0, 0⟩⟩) [])
    [0x00, 20, 1, 0x4f, 0x70, 0x75, 0x73, 0xc0, 0x07, 0xff, 0xfc, 1, 2, 1, 0x38, 0, 0, 0xbb, 0x80, 0, 0, 0] :=
  ⟨⟨.minimum, [0x00, 20, 1, 0x4f, 0x70, 0x75, 0x73, 0xc0, 0x07, 0xff, 0xfc, 1, 2, 1, 0x38, 0, 0, 0xbb, 0x80, 0, 0, 0],
    176⟩, by decide +kernel, rfl, rfl⟩

/-- A FLAC config whose STREAMINFO is followed by `k` empty padding blocks. -/
def flacWithPadding (k : Nat) : CodecConfig :=
  ⟨1, kCodecIdFlac, 16, 0, .flac ⟨⟨0, .streamInfo ⟨16, 16, 0, 0, 48000, 1, 15, 0, List.replicate 16 0⟩⟩ ::
    List.replicate k ⟨1, .bytes []⟩⟩⟩

/-- Not vacuous: FLAC with two metadata blocks, which are also within the cap. -/
example : (∃ bytes, Writes .minimum (wObu ⟨0, false, false, 0, 0, none⟩ (flacWithPadding 1).write []) bytes) ∧
    (flacWithPadding 1).Typed := by
  refine ⟨⟨_, ((wObu ⟨0, false, false, 0, 0, none⟩ (flacWithPadding 1).write []).run (WBuf.empty .minimum)).2,
    by decide +kernel, rfl, by decide +kernel⟩, ?_⟩
  intro f hf b hb s hs
  simp only [flacWithPadding, DecoderConfig.flac.injEq] at hf
  subst hf
  simp only [List.replicate_one, List.mem_cons, List.not_mem_nil, or_false] at hb
  rcases hb with rfl | rfl
  · simp only [FlacPayload.streamInfo.injEq] at hs; subst hs; rfl
  · simp at hs

/-- **C09 (finding).** The cap on FLAC metadata blocks is one-sided: every FLAC config with more than 128
metadata blocks that is written successfully is rejected with InvalidArgument when it is read back. -/
theorem C09_too_many_flac_blocks_unreadable (g : LebGen) (c : CodecConfig) (f : FlacConfig)
    (hf : c.decoderConfig = .flac f) (ht : c.Typed) (h128 : 128 < f.blocks.length) (bytes : List UInt8)
    (hw : Writes g c.write bytes) (hl : bytes.length ≤ 2097152) (trailing : List UInt8) (cap : Nat) (pv : Bool)
    (hc : 0 < cap) (n : Int) :
    ((CodecConfig.read n).run (RBuf.create cap (bytes ++ trailing) pv)).1 = .error .invalidArgument := by
  rw [(C03_read_buffer_is_cursor (CodecConfig.read n) (bytes ++ trailing) cap pv (.inl hc)).1]
  refine CodecConfig.unreadable g c f hf ht h128 (bytesBits bytes) hw.eval (by rw [bytesBits_length]; omega) n _
    (by simp) ?_
  simp only [RS.rest, List.drop_zero, bytesBits_append]
  exact List.prefix_append _ _

private theorem seq_ok {p q : Wr Unit} {n m : Nat} (hp : ∃ bs, p.eval .minimum = (.ok (), bs) ∧ bs.length = n)
    (hq : ∃ bs, q.eval .minimum = (.ok (), bs) ∧ bs.length = m) :
    ∃ bs, (p.bind fun _ => q).eval .minimum = (.ok (), bs) ∧ bs.length = n + m := by
  obtain ⟨b1, e1, l1⟩ := hp
  obtain ⟨b2, e2, l2⟩ := hq
  exact ⟨b1 ++ b2, Wr.eval_bind_ok.mpr ⟨_, _, _, e1, e2, rfl⟩, by rw [List.length_append, l1, l2]⟩

private theorem leaf_ok {p : Wr Unit} {n : Nat} (h : (p.eval .minimum).1 = .ok ()) (hl : (p.eval .minimum).2.length = n) :
    ∃ bs, p.eval .minimum = (.ok (), bs) ∧ bs.length = n := ⟨_, Prod.ext h rfl, hl⟩

private theorem padding_ok (k : Nat) :
    ∃ bs, (wFlacBlocks (List.replicate k ⟨1, .bytes []⟩)).eval .minimum = (.ok (), bs) ∧ bs.length = 32 * k := by
  induction k with
  | zero => exact ⟨[], rfl, rfl⟩
  | succ k ih =>
    have h1 : ∃ bs, (wBool (List.replicate k (FlacBlock.mk 1 (.bytes []))).isEmpty).eval .minimum = (.ok (), bs) ∧
        bs.length = 1 := by
      generalize (List.replicate k (FlacBlock.mk 1 (.bytes []))).isEmpty = e
      cases e <;> exact leaf_ok (by decide +kernel) (by decide +kernel)
    have h2 : ∃ bs, (wU8 1 7).eval .minimum = (.ok (), bs) ∧ bs.length = 7 :=
      leaf_ok (by decide +kernel) (by decide +kernel)
    have h3 : ∃ bs, (FlacBlock.writePayload ⟨1, .bytes []⟩).eval .minimum = (.ok (), bs) ∧ bs.length = 24 :=
      leaf_ok (by decide +kernel) (by decide +kernel)
    obtain ⟨bs, e, l⟩ := seq_ok h1 (seq_ok h2 (seq_ok h3 ih))
    exact ⟨bs, e, by omega⟩

/-- Not vacuous: configs with any number of padding blocks, hence also with 129 blocks, are written. -/
theorem flacWithPadding_written (k : Nat) : ∃ bytes, Writes .minimum (flacWithPadding (k + 1)).write bytes ∧
    bytes.length = 50 + 4 * k := by
  have hb : ∃ bs, (FlacConfig.write ⟨⟨0, .streamInfo ⟨16, 16, 0, 0, 48000, 1, 15, 0, List.replicate 16 0⟩⟩ ::
      List.replicate (k + 1) ⟨1, .bytes []⟩⟩ 16 0).eval .minimum = (.ok (), bs) ∧
      bs.length = 0 + (0 + (1 + (7 + (296 + 32 * (k + 1))))) := by
    refine seq_ok (leaf_ok (by decide +kernel) (by decide +kernel)) (seq_ok ?_ (seq_ok (p := wBool false)
      (leaf_ok (by decide +kernel) (by decide +kernel)) (seq_ok (leaf_ok (by decide +kernel) (by decide +kernel))
      (seq_ok (leaf_ok (by decide +kernel) (by decide +kernel)) (padding_ok (k + 1))))))
    exact ⟨[], rfl, rfl⟩
  obtain ⟨bs, e, l⟩ := seq_ok (p := wUleb 1) (leaf_ok (by decide +kernel) (n := 8) (by decide +kernel))
    (seq_ok (p := wU32 kCodecIdFlac 32) (leaf_ok (by decide +kernel) (n := 32) (by decide +kernel))
      (seq_ok (p := Wr.check (numSamplesPerFrameOk 16)) (leaf_ok (by decide +kernel) (n := 0) (by decide +kernel))
        (seq_ok (p := wUleb 16) (leaf_ok (by decide +kernel) (n := 8) (by decide +kernel))
          (seq_ok (p := wS16 0) (leaf_ok (by decide +kernel) (n := 16) (by decide +kernel)) hb))))
  have e' : (flacWithPadding (k + 1)).write.eval .minimum = (.ok (), bs) := e
  obtain ⟨bytes, hw, hl⟩ := Writes.exists (g := .minimum) (p := (flacWithPadding (k + 1)).write) (by rw [e'])
    (by rw [e']; simp only; omega)
  rw [e'] at hl
  exact ⟨bytes, hw, by simp only at hl; omega⟩

theorem opusRollDistance_spec {n : UInt32} {r : Int16} (h1 : 1 ≤ n.toNat) (h2 : n.toNat ≤ 96000)
    (h : opusRollDistance n = .ok r) :
    r.toInt ≤ 0 ∧ 3840 ≤ (n.toNat : Int) * -r.toInt ∧ (n.toNat : Int) * (-r.toInt - 1) < 3840 := by
  unfold opusRollDistance at h
  have hn : n ≠ 0 := by rintro rfl; simp at h1
  rw [if_neg hn] at h
  simp only [Except.ok.injEq] at h
  have hq : ((3840 : UInt32) / n).toNat = 3840 / n.toNat := by rw [UInt32.toNat_div]; rfl
  have hm : ((3840 : UInt32) % n).toNat = 3840 % n.toNat := by rw [UInt32.toNat_mod]; rfl
  have hqle : 3840 / n.toNat ≤ 3840 := Nat.div_le_self _ _
  have e1 : ((3840 : UInt32) / n).toUInt16.toInt16.toInt = (3840 / n.toNat : Nat) := by
    have e0 : ((3840 : UInt32) / n).toUInt16.toInt16 = Int16.ofNat (3840 / n.toNat) := by
      rw [← hq, ← UInt16.toInt16_ofNat']
      rfl
    rw [e0, Int16.toInt_ofNat', Int.bmod_def, show Int16.size = 65536 from rfl]
    split <;> omega
  have hdm := Nat.div_add_mod 3840 n.toNat
  have hlt := Nat.mod_lt 3840 (show n.toNat > 0 by omega)
  generalize ((3840 : UInt32) / n).toUInt16.toInt16 = w at *
  generalize 3840 / n.toNat = q at *
  generalize hk : 3840 % n.toNat = m at *
  have hneg : ∀ x : Int16, 0 ≤ x.toInt → (-1 * x).toInt = -x.toInt := by
    intro x hx
    have := x.toInt_lt
    rw [Int16.toInt_mul, Int.bmod_def]
    have : (-1 : Int16).toInt = -1 := by decide
    rw [this]
    split <;> omega
  have hadd : (w + 1).toInt = w.toInt + 1 := by
    rw [Int16.toInt_add, Int.bmod_def]
    have : (1 : Int16).toInt = 1 := by decide
    rw [this]
    split <;> omega
  have hmz : ((3840 : UInt32) % n ≠ 0) ↔ m ≠ 0 := by
    rw [← hm]
    constructor
    · intro h h'; exact h (UInt32.toNat_inj.mp (by simpa using h'))
    · intro h h'; exact h (by rw [h']; rfl)
  by_cases hz : m = 0
  · rw [if_neg (by rw [hmz]; simpa using hz)] at h
    have hr := hneg w (by omega)
    rw [h, e1] at hr
    rw [hr]
    have : (n.toNat : Int) * q = 3840 := by rw [← Int.natCast_mul]; omega
    refine ⟨by omega, by rw [Int.neg_neg]; omega, ?_⟩
    rw [Int.neg_neg, Int.mul_sub]; omega
  · rw [if_pos (by rw [hmz]; exact hz)] at h
    have hr := hneg (w + 1) (by omega)
    rw [h, hadd, e1] at hr
    rw [hr]
    have : (n.toNat : Int) * q + m = 3840 := by rw [← Int.natCast_mul]; omega
    refine ⟨by omega, ?_, ?_⟩
    · rw [Int.neg_neg, Int.mul_add]; omega
    · rw [Int.neg_neg, show ((q : Int) + 1 - 1) = q by omega]; omega

/-- **C09 (what was read is usable).** Whatever bytes the OBU consists of: if a codec config OBU is read
successfully, its frame size is between 1 and 96000 samples, its codec is one of the four defined ones, the
decoder config is the one of that codec, its output sample rate is not zero and its bit depth is 16, 24 or
32, and its audio roll distance is the one the codec prescribes: 0 for LPCM and FLAC, -1 for AAC-LC, and for
Opus minus the least number of frames that together last at least 3840 samples. -/
theorem C09_read_codec_config_is_sound (src : List UInt8) (cap : Nat) (pv : Bool) (hc : 0 < cap)
    (h : ObuHeader) (c : CodecConfig) (footer : List UInt8)
    (hr : ((rObu fun _ => CodecConfig.read).run (RBuf.create cap src pv)).1 = .ok (h, c, footer)) :
    1 ≤ c.numSamplesPerFrame.toNat ∧ c.numSamplesPerFrame.toNat ≤ 96000 ∧
    (∃ outRate inRate depth, c.rates = .ok (outRate, inRate, depth) ∧ outRate ≠ 0 ∧
      (depth = 16 ∨ depth = 24 ∨ depth = 32)) ∧
    ((c.codecId = 0x4f707573 ∧ (∃ d, c.decoderConfig = .opus d) ∧
        c.audioRollDistance.toInt ≤ 0 ∧
        3840 ≤ c.numSamplesPerFrame.toNat * -c.audioRollDistance.toInt ∧
        c.numSamplesPerFrame.toNat * (-c.audioRollDistance.toInt - 1) < 3840) ∨
     (c.codecId = 0x664c6143 ∧ (∃ d, c.decoderConfig = .flac d) ∧ c.audioRollDistance = 0) ∨
     (c.codecId = 0x6970636d ∧ (∃ d, c.decoderConfig = .lpcm d) ∧ c.audioRollDistance = 0) ∨
     (c.codecId = 0x6d703461 ∧ (∃ d, c.decoderConfig = .aac d) ∧ c.audioRollDistance = -1)) := by
  have href := C03_read_buffer_is_cursor (rObu fun _ => CodecConfig.read) src cap pv (.inl hc)
  rw [href.1] at hr
  have := sf_obu (fun _ n _ => CodecConfig.sf n) ⟨bytesBits src, 0, pv⟩
  rw [hr] at this
  obtain ⟨-, hn, ⟨⟨v1, v2, v3⟩, hv⟩, hroll⟩ := this
  have hn' : 1 ≤ c.numSamplesPerFrame.toNat ∧ c.numSamplesPerFrame.toNat ≤ 96000 := by
    simp only [numSamplesPerFrameOk, inRange32, Bool.and_eq_true, decide_eq_true_eq] at hn
    exact ⟨UInt32.le_iff_toNat_le.mp hn.1, UInt32.le_iff_toNat_le.mp hn.2⟩
  refine ⟨hn'.1, hn'.2, ?_⟩
  obtain ⟨cid, id, n, roll, d⟩ := c
  simp only at hn' hroll ⊢
  have hv0 := hv
  unfold CodecConfig.rates at hv
  unfold requiredRollDistance at hroll
  simp only at hv
  by_cases h1 : id = kCodecIdOpus
  · simp only [if_pos h1] at hv hroll
    cases d with
    | opus d =>
      obtain ⟨a1, a2, a3⟩ := opusRollDistance_spec hn'.1 hn'.2 hroll
      simp only [show ¬ (48000 : UInt32) = 0 by decide, ↓reduceIte, Except.ok.injEq, Prod.mk.injEq] at hv
      refine ⟨⟨v1, v2, v3, hv0, ?_, ?_⟩, .inl ⟨h1, ⟨d, rfl⟩, a1, a2, a3⟩⟩
      · rw [← hv.1]; decide
      · rw [← hv.2.2]; decide
    | _ => simp at hv
  · simp only [if_neg h1] at hv hroll
    by_cases h2 : id = kCodecIdLpcm
    · simp only [if_pos h2] at hv hroll
      cases d with
      | lpcm d =>
        by_cases hsr : lpcmSampleRateOk d.sampleRate = true
        · by_cases hss : lpcmSampleSizeOk d.sampleSize = true
          · simp only [hsr, hss, Bool.not_true, Bool.false_eq_true, ↓reduceIte, if_neg (lpcmSampleRateOk_ne hsr),
              Except.ok.injEq, Prod.mk.injEq] at hv
            refine ⟨⟨v1, v2, v3, hv0, ?_, ?_⟩, .inr (.inr (.inl ⟨h2, ⟨d, rfl⟩, ?_⟩))⟩
            · rw [← hv.1]; exact lpcmSampleRateOk_ne hsr
            · rw [← hv.2.2]; simpa [lpcmSampleSizeOk, or_assoc] using hss
            · simp only [Except.ok.injEq] at hroll; exact hroll.symm
          · simp [hsr, hss] at hv
        · simp [hsr] at hv
      | _ => simp at hv
    · simp only [if_neg h2] at hv hroll
      by_cases h3 : id = kCodecIdAacLc
      · have h4 : ¬ id = kCodecIdFlac := by rw [h3]; decide
        simp only [if_pos h3, if_neg h4] at hv hroll
        cases d with
        | aac d =>
          cases hf : aacSampleFrequency d.asc.sampleFrequencyIndex with
          | error e => simp [hf] at hv
          | ok f =>
            simp only [hf, if_neg (aacSampleFrequency_ne hf), Except.ok.injEq, Prod.mk.injEq] at hv
            refine ⟨⟨v1, v2, v3, hv0, ?_, ?_⟩, .inr (.inr (.inr ⟨h3, ⟨d, rfl⟩, ?_⟩))⟩
            · rw [← hv.1]; exact aacSampleFrequency_ne hf
            · rw [← hv.2.2]; decide
            · simp only [Except.ok.injEq] at hroll; exact hroll.symm
        | _ => simp at hv
      · simp only [if_neg h3] at hv hroll
        by_cases h4 : id = kCodecIdFlac
        · simp only [if_pos h4] at hv hroll
          cases d with
          | flac d =>
            cases hs : d.getStreamInfo with
            | error e => simp [hs] at hv
            | ok s =>
              by_cases hsr : flacSampleRateOk s.sampleRate = true
              · by_cases hss : flacBitsOk s.bitsPerSample = true
                · simp only [hs, hsr, hss, Bool.not_true, Bool.false_eq_true, ↓reduceIte,
                    if_neg (flacSampleRateOk_ne hsr), Except.ok.injEq, Prod.mk.injEq] at hv
                  refine ⟨⟨v1, v2, v3, hv0, ?_, ?_⟩, .inr (.inl ⟨h4, ⟨d, rfl⟩, ?_⟩)⟩
                  · rw [← hv.1]; exact flacSampleRateOk_ne hsr
                  · rw [← hv.2.2]
                    simp only [flacBitsOk, Bool.or_eq_true, beq_iff_eq, or_assoc] at hss
                    rcases hss with e | e | e <;> rw [e] <;> decide
                  · simp only [Except.ok.injEq] at hroll; exact hroll.symm
                · simp [hs, hsr, hss] at hv
              · simp [hs, hsr] at hv
          | _ => simp at hv
        · simp [if_neg h4] at hv

/-- Not vacuous: the Opus config above is read back. -/
example : ((rObu fun _ => CodecConfig.read).run (RBuf.create 64
    [0x00, 20, 1, 0x4f, 0x70, 0x75, 0x73, 0xc0, 0x07, 0xff, 0xfc, 1, 2, 1, 0x38, 0, 0, 0xbb, 0x80, 0, 0, 0] true)).1 =
    .ok (⟨0, false, false, 0, 0, none⟩, ⟨1, kCodecIdOpus, 960, -4, .opus ⟨1, 2, 312, 48000, 0, 0⟩⟩, []) := by
  decide +kernel

/-- **C09 (roll distance).** `Create` with automatic roll distances changes nothing but the roll distance,
and the config it returns satisfies the codec's roll distance check. -/
theorem C09_create_overrides_roll_distance (c c' : CodecConfig) (r : UInt32 × UInt32 × UInt8)
    (h : c.create true = .ok (c', r)) :
    c'.configId = c.configId ∧ c'.codecId = c.codecId ∧ c'.numSamplesPerFrame = c.numSamplesPerFrame ∧
    c'.decoderConfig = c.decoderConfig ∧ c'.Sound := by
  unfold CodecConfig.create at h
  split at h
  · simp at h
  next hn =>
    split at h
    · simp at h
    next v hv =>
      simp only [↓reduceIte] at h
      split at h
      · simp at h
      next roll hroll =>
        simp only [Except.ok.injEq, Prod.mk.injEq] at h
        obtain ⟨h1, h2⟩ := h
        subst h1
        exact ⟨rfl, rfl, rfl, rfl, by simpa using hn, ⟨v, hv⟩, hroll⟩

example : (CodecConfig.create ⟨1, kCodecIdOpus, 960, 17, .opus ⟨1, 2, 312, 48000, 0, 0⟩⟩ true) =
    .ok (⟨1, kCodecIdOpus, 960, -4, .opus ⟨1, 2, 312, 48000, 0, 0⟩⟩, 48000, 48000, 32) := by decide +kernel

/-- **C09 (finding).** A codec config whose decoder config is the one of another codec makes the writer
terminate the process (uncaught `std::bad_variant_access`) instead of returning a status: here an
Opus codec id with an LPCM decoder config. -/
theorem C09_mismatched_decoder_config_aborts :
    ((CodecConfig.write ⟨1, kCodecIdOpus, 960, -4, .lpcm ⟨1, 24, 48000⟩⟩).run (WBuf.empty .minimum)).1 =
      .error .abort := by decide +kernel

end Iamf.Props
