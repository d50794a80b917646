import Verif.Cli.Lpcm
import Verif.Props.Output
/-
  C37: LPCM is lossless.
-/
namespace Iamf.Props
open Iamf

/-! ### Specification -/

/-- A sample as the number that is left of it with `size` bits: what is below the `size` most significant of the 32 bits is gone, and
full scale is 1. -/
def kept (size : UInt8) (v : Int32) : Rat := ((v.toInt / 2 ^ (32 - size.toNat) * 2 ^ (32 - size.toNat) : Int) : Rat) / 2 ^ 31

/-- A configuration that `LpcmDecoderConfig::Validate` accepts: 16, 24 or 32 bits, either byte order. -/
def ValidLpcm (c : LpcmConfig) : Prop :=
  (c.formatFlags = 0 ∨ c.formatFlags = 1) ∧ (c.sampleSize = 16 ∨ c.sampleSize = 24 ∨ c.sampleSize = 32) ∧
  (c.sampleRate = 16000 ∨ c.sampleRate = 32000 ∨ c.sampleRate = 44100 ∨ c.sampleRate = 48000 ∨ c.sampleRate = 96000)

/-! ### Bytes -/

private theorem except_bind_ok {α β : Type} {x : Except Err α} {f : α → Except Err β} {b : β} (h : (x >>= f) = .ok b) :
    ∃ a, x = .ok a ∧ f a = .ok b := by
  cases x with
  | error e => cases h
  | ok a => exact ⟨a, rfl, h⟩

private theorem leNat_lt (bs : List UInt8) : leNat bs < 256 ^ bs.length := by
  induction bs with
  | nil => simp [leNat]
  | cons b bs ih =>
    have := b.toNat_lt
    simp only [leNat, List.length_cons, Nat.pow_succ]
    omega

private theorem pack_nat (bs : List UInt8) (s : Nat) (h : s + 8 * bs.length ≤ 32) : (packBytes s bs).toNat = leNat bs * 2 ^ s := by
  induction bs generalizing s with
  | nil => simp [packBytes, leNat]
  | cons b bs ih =>
    simp only [List.length_cons] at h
    have hb := b.toNat_lt
    simp only [packBytes, UInt32.toNat_or, ih (s + 8) (by omega), UInt32.toNat_shiftLeft, UInt8.toNat_toUInt32, leNat]
    have e : (UInt32.ofNat s).toNat % 32 = s := by
      simp only [UInt32.toNat_ofNat']
      omega
    have hlt : b.toNat * 2 ^ s < 2 ^ (s + 8) := by
      rw [Nat.pow_add, Nat.mul_comm (2 ^ s)]
      exact Nat.mul_lt_mul_of_pos_right (by simpa using hb) (Nat.two_pow_pos _)
    rw [e, Nat.shiftLeft_eq, Nat.mod_eq_of_lt (Nat.lt_of_lt_of_le hlt (Nat.pow_le_pow_right (by decide) (by omega))), Nat.or_comm,
      Nat.mul_comm (leNat bs), ← Nat.two_pow_add_eq_or_of_lt hlt, Nat.pow_add, Nat.add_mul]
    have : 2 ^ s * 2 ^ 8 * leNat bs = 256 * leNat bs * 2 ^ s := by
      rw [Nat.mul_comm (2 ^ s), Nat.mul_assoc, Nat.mul_comm (2 ^ s), ← Nat.mul_assoc]
      rfl
    omega

private theorem toInt32_toInt (u : UInt32) : u.toInt32.toInt = if 2 * u.toNat < 4294967296 then (u.toNat : Int) else u.toNat - 4294967296 := by
  have : u.toInt32.toInt = u.toBitVec.toInt := rfl
  rw [this, BitVec.toInt_eq_toNat_cond]
  rfl

/-- What up to four bytes stand for. -/
theorem littleEndian_value (bs : List UInt8) (h : bs.length = 1 ∨ bs.length = 2 ∨ bs.length = 3 ∨ bs.length = 4) :
    ∃ v, littleEndianToInt32 bs = .ok v ∧ v.toInt = leInt bs * 2 ^ (32 - 8 * bs.length) := by
  refine ⟨_, if_neg (by omega), ?_⟩
  have h1 := pack_nat bs (8 * (4 - bs.length)) (by omega)
  have h2 := leNat_lt bs
  rw [toInt32_toInt, h1]
  unfold leInt
  rcases h with h | h | h | h <;> simp only [h, Nat.reduceSub, Nat.reduceMul, Nat.reducePow, Int.reducePow, Nat.pow_zero] at h2 ⊢ <;>
    split <;> split <;> omega

private theorem leInt_inj {a b : List UInt8} (hl : a.length = b.length) (h : leInt a = leInt b) : a = b := by
  have hn : leNat a = leNat b := by
    have ha := leNat_lt a
    have hb := leNat_lt b
    unfold leInt at h
    rw [hl] at h ha
    have : ((256 ^ b.length : Nat) : Int) = 256 ^ b.length := by push_cast; rfl
    rw [← this] at h
    split at h <;> split at h <;> omega
  clear h
  induction a generalizing b with
  | nil => exact (List.length_eq_zero_iff.mp hl.symm).symm
  | cons x a ih =>
    cases b with
    | nil => cases hl
    | cons y b =>
      simp only [leNat] at hn
      have hx := x.toNat_lt
      have hy := y.toNat_lt
      have e : x = y := UInt8.toNat_inj.mp (by omega)
      rw [e, ih (by simpa using hl) (by omega)]

private theorem mapM_ok {α β : Type} (f : α → Except Err β) (g : α → β) (l : List α) (h : ∀ x ∈ l, f x = .ok (g x)) :
    l.mapM f = .ok (l.map g) := by
  induction l with
  | nil => rfl
  | cons a l ih =>
    rw [List.mapM_cons, h a (by simp), ih fun x hx => h x (by simp [hx])]
    rfl

/-! ### The decoder -/

theorem lpcm_size {c : LpcmConfig} (h : ValidLpcm c) : okSize c.sampleSize ∧ c.sampleSize.toNat % 8 = 0 ∧
    (c.sampleSize.toNat / 8 = 2 ∨ c.sampleSize.toNat / 8 = 3 ∨ c.sampleSize.toNat / 8 = 4) ∧
    8 * (c.sampleSize.toNat / 8) = c.sampleSize.toNat := by
  obtain ⟨-, h, -⟩ := h
  unfold okSize
  rcases h with h | h | h <;> rw [h] <;> decide

theorem validate_lpcm {c : LpcmConfig} : c.validate 0 = .ok () ↔ ValidLpcm c := by
  unfold LpcmConfig.validate ValidLpcm lpcmSampleSizeOk lpcmSampleRateOk
  simp only [ne_eq, not_true_eq_false, if_false]
  constructor
  · intro h
    split at h
    · cases h
    split at h
    · cases h
    split at h
    · cases h
    simp_all
    tauto
  · rintro ⟨h1, h2, h3⟩
    rw [if_neg (by simpa using fun a => h1.resolve_left a), if_neg (by simpa using fun a b => (h2.resolve_left a).resolve_left b),
      if_neg (by simpa using fun a b d e => (((h3.resolve_left a).resolve_left b).resolve_left d).resolve_left e)]

/-- **C37 (decoders).** A decoder can be made for exactly the valid configurations. -/
theorem C37_decoder_for_valid_configurations (c : LpcmConfig) (channels : Nat) (n : UInt32) :
    (∃ d, LpcmDecoder.create c channels n = .ok d) ↔ ValidLpcm c := by
  rw [← validate_lpcm]
  constructor
  · rintro ⟨d, h⟩
    obtain ⟨⟨⟩, h1, -⟩ := except_bind_ok h
    exact h1
  · intro h
    have hv := validate_lpcm.mp h
    obtain ⟨h1, h2, -⟩ := lpcm_size hv
    have h3 : lpcmSampleSizeOk c.sampleSize = true := by
      unfold lpcmSampleSizeOk
      rcases hv.2.1 with h | h | h <;> rw [h] <;> rfl
    refine ⟨⟨channels, n, c.littleEndian, c.sampleSize.toNat / 8⟩, ?_⟩
    unfold LpcmDecoder.create
    rw [h]
    simp only [Bind.bind, Except.bind, h3, Bool.not_true, Bool.false_eq_true, if_false, h2, ne_eq, not_true_eq_false]

/-- What a decoder is made of. -/
theorem created {c : LpcmConfig} {channels : Nat} {n : UInt32} {d : LpcmDecoder} (h : LpcmDecoder.create c channels n = .ok d) :
    ValidLpcm c ∧ d = ⟨channels, n, c.littleEndian, c.sampleSize.toNat / 8⟩ := by
  refine ⟨(C37_decoder_for_valid_configurations c channels n).mp ⟨d, h⟩, ?_⟩
  obtain ⟨⟨⟩, -, h⟩ := except_bind_ok h
  split at h
  · cases h
  · split at h
    · cases h
    · simp only [Except.ok.injEq] at h
      exact h.symm

/-- The sample that a decoder takes from a frame. -/
private def sampleAt (d : LpcmDecoder) (frame : List UInt8) (c t : Nat) : Int :=
  leInt (if d.littleEndian then ((frame.drop ((t * d.channels + c) * d.bytesPerSample)).take d.bytesPerSample)
    else ((frame.drop ((t * d.channels + c) * d.bytesPerSample)).take d.bytesPerSample).reverse)

private theorem chunk_length {frame : List UInt8} {w k n i : Nat} (hw : 0 < w) (hk : 0 < k) (h1 : frame.length % w = 0)
    (h2 : frame.length / w % k = 0) (h3 : frame.length / w / k = n) (hi : i < n * k) : ((frame.drop (i * w)).take w).length = w := by
  have e : frame.length = n * k * w := by
    have a := Nat.div_add_mod frame.length w
    have b := Nat.div_add_mod (frame.length / w) k
    rw [h1, Nat.add_zero] at a
    rw [h2, h3, Nat.add_zero] at b
    rw [← a, ← b]
    simp only [Nat.mul_comm, Nat.mul_left_comm]
  rw [List.length_take, List.length_drop, e]
  have : (i + 1) * w ≤ n * k * w := Nat.mul_le_mul_right _ hi
  rw [Nat.add_mul, Nat.one_mul] at this
  omega

private theorem index_lt {t c n k : Nat} (ht : t < n) (hc : c < k) : t * k + c < n * k := by
  have : (t + 1) * k ≤ n * k := Nat.mul_le_mul_right _ ht
  rw [Nat.add_mul] at this
  omega

private theorem sample_value (d : LpcmDecoder) (frame : List UInt8) (c t : Nat)
    (hw : d.bytesPerSample = 2 ∨ d.bytesPerSample = 3 ∨ d.bytesPerSample = 4)
    (hl : ((frame.drop ((t * d.channels + c) * d.bytesPerSample)).take d.bytesPerSample).length = d.bytesPerSample) :
    ∃ v : Int32, v.toInt = sampleAt d frame c t * 2 ^ (32 - 8 * d.bytesPerSample) ∧ d.sample frame c t = .ok (int32ToNormalized v) := by
  unfold LpcmDecoder.sample sampleAt
  generalize (frame.drop ((t * d.channels + c) * d.bytesPerSample)).take d.bytesPerSample = bs at hl ⊢
  cases hd : d.littleEndian with
  | true =>
    obtain ⟨v, h1, h2⟩ := littleEndian_value bs (by omega)
    refine ⟨v, by simpa [hl] using h2, ?_⟩
    simp only [if_true, h1]
    rfl
  | false =>
    obtain ⟨v, h1, h2⟩ := littleEndian_value bs.reverse (by simp; omega)
    refine ⟨v, by simpa [hl] using h2, ?_⟩
    simp only [Bool.false_eq_true, if_false, bigEndianToInt32, h1]
    rfl

private theorem decode_eq {d : LpcmDecoder} {frame : List UInt8} {n : Nat}
    (hw : d.bytesPerSample = 2 ∨ d.bytesPerSample = 3 ∨ d.bytesPerSample = 4) (hk : 0 < d.channels)
    (hl : frame.length = n * d.channels * d.bytesPerSample) (hn : n ≤ d.samplesPerFrame.toNat) :
    d.decode frame = .ok ((List.range d.channels).map fun c => (List.range n).map fun t =>
      ((sampleAt d frame c t * 2 ^ (32 - 8 * d.bytesPerSample) : Int) : Rat) / 2147483648) := by
  have hpos : 0 < d.bytesPerSample := by omega
  have e1 : frame.length % d.bytesPerSample = 0 := by rw [hl]; exact Nat.mul_mod_left ..
  have e2 : frame.length / d.bytesPerSample = n * d.channels := by rw [hl]; exact Nat.mul_div_cancel _ hpos
  have e3 : n * d.channels % d.channels = 0 := Nat.mul_mod_left ..
  have e4 : n * d.channels / d.channels = n := Nat.mul_div_cancel _ hk
  unfold LpcmDecoder.decode
  rw [if_neg (by rw [e1, e2, e3]; simp), e2, e4, if_neg (by omega)]
  refine mapM_ok _ _ _ fun c hc => mapM_ok _ _ _ fun t ht => ?_
  have hc := List.mem_range.mp hc
  have ht := List.mem_range.mp ht
  obtain ⟨v, h1, h2⟩ := sample_value d frame c t hw
    (chunk_length hpos hk e1 (by rw [e2, e3]) (by rw [e2, e4]) (index_lt ht hc))
  rw [h2]
  simp only [int32ToNormalized, h1]

/-- **C37 (what is decoded).** A frame is decoded exactly if it consists of whole samples for every channel, up to as many as the
configuration says: then there is one list per channel, all of them that long. -/
theorem C37_frames_that_decode (c : LpcmConfig) (channels : Nat) (n : UInt32) (d : LpcmDecoder)
    (hd : LpcmDecoder.create c channels n = .ok d) (hc : channels = 1 ∨ channels = 2) (frame : List UInt8) :
    match d.decode frame with
    | .ok samples => ∃ m, m ≤ n.toNat ∧ frame.length = m * channels * (c.sampleSize.toNat / 8) ∧
      samples.length = channels ∧ ∀ s ∈ samples, s.length = m
    | .error _ => ¬ ∃ m, m ≤ n.toNat ∧ frame.length = m * channels * (c.sampleSize.toNat / 8) := by
  obtain ⟨hv, rfl⟩ := created hd
  obtain ⟨-, -, hw, -⟩ := lpcm_size hv
  by_cases h : ∃ m, m ≤ n.toNat ∧ frame.length = m * channels * (c.sampleSize.toNat / 8)
  · obtain ⟨m, h1, h2⟩ := h
    rw [decode_eq hw (by show 0 < channels; omega) h2 h1]
    refine ⟨m, h1, h2, by simp, ?_⟩
    intro s hs
    simp only [List.mem_map] at hs
    obtain ⟨_, -, rfl⟩ := hs
    simp
  · have : ∃ e, LpcmDecoder.decode ⟨channels, n, c.littleEndian, c.sampleSize.toNat / 8⟩ frame = .error e := by
      unfold LpcmDecoder.decode
      split
      · exact ⟨_, rfl⟩
      · rename_i h0
        split
        · exact ⟨_, rfl⟩
        · rename_i h1
          refine absurd ⟨frame.length / (c.sampleSize.toNat / 8) / channels, ?_, ?_⟩ h
          · simpa using h1
          · dsimp only at h0
            simp only [ne_eq, not_or, Decidable.not_not] at h0
            have a := Nat.div_add_mod frame.length (c.sampleSize.toNat / 8)
            have b := Nat.div_add_mod (frame.length / (c.sampleSize.toNat / 8)) channels
            rw [h0.1, Nat.add_zero] at a
            rw [h0.2, Nat.add_zero] at b
            rw [Nat.mul_comm _ channels, b, Nat.mul_comm, a]
    obtain ⟨e, he⟩ := this
    rw [he]
    exact h

/-! ### There and back -/

theorem littleEndian_flag {c : LpcmConfig} (h : ValidLpcm c) : c.littleEndian = (c.formatFlags == 1) := by
  unfold LpcmConfig.littleEndian
  rcases h.1 with h | h <;> rw [h] <;> rfl

private theorem chunk_value {v : Int32} {size : UInt8} {little : Bool} {bytes : List UInt8} (h : okSize size)
    (hb : (Except.ok bytes : Except Err _) = writePcmSample v.toUInt32 size (!little)) :
    leInt (if little then bytes else bytes.reverse) = v.toInt / 2 ^ (32 - size.toNat) := by
  obtain ⟨b, h1, -, h3⟩ := (C32_one_sample v size (!little)).1 h
  rw [h1, Except.ok.injEq] at hb
  subst hb
  cases little <;> simpa using h3

theorem encoder_created {α : Type} {c : LpcmConfig} {channels : Nat} {n : UInt32} {e : LpcmEncoder α}
    (he : LpcmEncoder.create c channels n = .ok e) : e = ⟨c, channels, n, [], false⟩ := by
  unfold LpcmEncoder.create at he
  split at he
  · cases he
  split at he
  · cases he
  · simp only [Except.ok.injEq] at he
    exact he.symm

/-- The frame that is made of samples, and what it is decoded to. -/
theorem lpcm_frame {c : LpcmConfig} (hv : ValidLpcm c) {channels : Nat} {n : UInt32} (hc : channels = 1 ∨ channels = 2)
    (samples : List (List Int32)) (hl : samples.length = channels) (hfirst : (samples.headD []).length = n.toNat)
    (hn : ∀ s ∈ samples, n.toNat ≤ s.length) :
    ∃ frame, writePcmFrame samples c.sampleSize (!c.littleEndian) = .ok frame ∧
      frame.length = n.toNat * channels * (c.sampleSize.toNat / 8) ∧
      LpcmDecoder.decode ⟨channels, n, c.littleEndian, c.sampleSize.toNat / 8⟩ frame =
        .ok (samples.map fun s => (s.take n.toNat).map (kept c.sampleSize)) := by
  obtain ⟨hs, hm, hw, h8⟩ := lpcm_size hv
  obtain ⟨frame, h1, h2, h3⟩ := writeTicks_layout (fun v : Int32 => v) (!c.littleEndian) hs samples n.toNat hn
  rw [hl] at h2
  have hwrite : writePcmFrame samples c.sampleSize (!c.littleEndian) = .ok frame := by
    unfold writePcmFrame
    rw [if_neg (by simpa using hm)]
    cases samples with
    | nil => simp at hl; omega
    | cons s ss =>
      have hs : s.length = n.toNat := by simpa using hfirst
      simp only [hs]
      split
      · rename_i hz
        have : n.toNat = 0 := by
          rcases Nat.mul_eq_zero.mp hz with h | h
          · simp at h
          · exact h
        rw [this] at h1
        simp only [writeTicks, Except.ok.injEq] at h1
        rw [h1]
      · exact h1
  refine ⟨frame, hwrite, by rw [h2, Nat.mul_comm channels], ?_⟩
  rw [decode_eq hw (by show 0 < channels; omega) (n := n.toNat) (by rw [h2, Nat.mul_comm channels]) (Nat.le_refl _)]
  congr 1
  apply List.ext_getElem
  · simp [hl]
  intro k hk1 hk2
  simp only [List.length_map, List.length_range] at hk1 hk2
  have hk3 := hn _ (List.getElem_mem hk2)
  simp only [List.getElem_map, List.getElem_range]
  apply List.ext_getElem
  · simp [hk3]
  intro t ht1 ht2
  simp only [List.length_map, List.length_range] at ht1 ht2
  simp only [List.getElem_map, List.getElem_range, List.getElem_take]
  have hchunk := h3 k t hk2 ht1
  rw [hl] at hchunk
  have := chunk_value hs hchunk
  unfold sampleAt kept
  simp only [h8, this]
  norm_num

private theorem encode_eq {α : Type} {e : LpcmEncoder α} {samples : List (List Int32)} {frame : List UInt8} (data : α)
    (hf : (e.finished && e.done.isEmpty) = false) (hl : samples.length = e.channels) (hpos : 0 < e.channels)
    (hfirst : (samples.headD []).length = e.samplesPerFrame.toNat)
    (hw : writePcmFrame samples e.config.sampleSize (!e.config.littleEndian) = .ok frame) :
    e.encode samples data = .ok { e with done := e.done ++ [(data, frame)] } := by
  unfold LpcmEncoder.encode LpcmEncoder.validateInput LpcmEncoder.isFinished
  simp only [hf, Bool.false_eq_true, if_false, hl, ne_eq, not_true_eq_false]
  cases samples with
  | nil => simp at hl; omega
  | cons s ss =>
    simp only [List.headD_cons] at hfirst
    simp only [hfirst, not_true_eq_false, if_false, Bind.bind, Except.bind, hw]

/-- **C37 (lossless).** Whatever the samples, an encoder makes a frame of them from which a decoder for the same configuration gets
them back: the same channels and the same samples, as numbers, up to the bits that the configuration does not keep. -/
theorem C37_what_is_encoded_is_decoded {α : Type} (c : LpcmConfig) (channels : Nat) (n : UInt32) (d : LpcmDecoder) (e : LpcmEncoder α)
    (hd : LpcmDecoder.create c channels n = .ok d) (he : LpcmEncoder.create c channels n = .ok e)
    (hc : channels = 1 ∨ channels = 2) (samples : List (List Int32)) (hl : samples.length = channels)
    (hn : ∀ s ∈ samples, s.length = n.toNat) (data : α) :
    ∃ e' frame, e.encode samples data = .ok e' ∧ e'.done = [(data, frame)] ∧
      frame.length = n.toNat * channels * (c.sampleSize.toNat / 8) ∧
      d.decode frame = .ok (samples.map fun s => s.map (kept c.sampleSize)) := by
  obtain ⟨hv, rfl⟩ := created hd
  obtain rfl := encoder_created he
  have hfirst : (samples.headD []).length = n.toNat := by
    cases samples with
    | nil => simp at hl; omega
    | cons s ss => exact hn s (by simp)
  obtain ⟨frame, h1, h2, h3⟩ := lpcm_frame hv hc samples hl hfirst fun s hs => Nat.le_of_eq (hn s hs).symm
  refine ⟨_, frame, encode_eq data rfl hl (by show 0 < channels; omega) hfirst h1, rfl, h2, ?_⟩
  rw [h3]
  congr 1
  refine List.map_congr_left fun s hs => ?_
  rw [List.take_of_length_le (Nat.le_of_eq (hn s hs))]

/-- Samples that need no more bits than the configuration keeps are not changed at all. -/
theorem C37_kept_exactly (size : UInt8) (h : size = 16 ∨ size = 24 ∨ size = 32) (v : Int32)
    (hv : (2 ^ (32 - size.toNat) : Int) ∣ v.toInt) : kept size v = (v.toInt : Rat) / 2 ^ 31 := by
  unfold kept
  rw [Int.ediv_mul_cancel hv]

private theorem chunks_ext {a b : List UInt8} (m w : Nat) (ha : a.length = m * w) (hb : b.length = m * w)
    (h : ∀ i < m, (a.drop (i * w)).take w = (b.drop (i * w)).take w) : a = b := by
  induction m generalizing a b with
  | zero =>
    rw [Nat.zero_mul] at ha hb
    rw [List.length_eq_zero_iff.mp ha, List.length_eq_zero_iff.mp hb]
  | succ m ih =>
    rw [← List.take_append_drop w a, ← List.take_append_drop w b]
    have h0 := h 0 (by omega)
    simp only [Nat.zero_mul, List.drop_zero] at h0
    rw [h0, ih (a := a.drop w) (b := b.drop w) (by rw [List.length_drop, ha, Nat.add_mul]; omega)
      (by rw [List.length_drop, hb, Nat.add_mul]; omega)]
    intro i hi
    have := h (i + 1) (by omega)
    rw [List.drop_drop, List.drop_drop, show w + i * w = (i + 1) * w by rw [Nat.add_mul, Nat.one_mul, Nat.add_comm]]
    exact this

private theorem pow_kept {size : UInt8} (h : okSize size) (x : Int) : x * 2 ^ (32 - size.toNat) / 2 ^ (32 - size.toNat) = x :=
  Int.mul_ediv_cancel _ (by positivity)

/-- **C37 (no frame is changed).** A frame of full length, made by whatever encoder, that is decoded and encoded again is the same
frame, byte for byte. -/
theorem C37_what_is_decoded_is_encoded {α : Type} (c : LpcmConfig) (channels : Nat) (n : UInt32) (d : LpcmDecoder) (e : LpcmEncoder α)
    (hd : LpcmDecoder.create c channels n = .ok d) (he : LpcmEncoder.create c channels n = .ok e)
    (hc : channels = 1 ∨ channels = 2) (frame : List UInt8) (hf : frame.length = n.toNat * channels * (c.sampleSize.toNat / 8))
    (data : α) : ∃ samples e', d.decode frame = .ok samples ∧
      e.encode (samples.map fun s => s.map normalizedToInt32) data = .ok e' ∧ e'.done = [(data, frame)] := by
  have hd0 := hd
  obtain ⟨hv, rfl⟩ := created hd
  obtain ⟨hs, hm, hw, h8⟩ := lpcm_size hv
  have hdec := decode_eq (d := ⟨channels, n, c.littleEndian, c.sampleSize.toNat / 8⟩) hw (by show 0 < channels; omega) hf (Nat.le_refl _)
  obtain ⟨samples, hsm⟩ : ∃ s, s = (List.range channels).map fun k => (List.range n.toNat).map fun t =>
      ((sampleAt ⟨channels, n, c.littleEndian, c.sampleSize.toNat / 8⟩ frame k t * 2 ^ (32 - 8 * (c.sampleSize.toNat / 8)) : Int) : Rat) / 2147483648 :=
    ⟨_, rfl⟩
  rw [← hsm] at hdec
  have hval : ∀ k t, k < channels → t < n.toNat → ∃ v : Int32,
      v.toInt = sampleAt ⟨channels, n, c.littleEndian, c.sampleSize.toNat / 8⟩ frame k t * 2 ^ (32 - c.sampleSize.toNat) ∧
      normalizedToInt32 (((sampleAt ⟨channels, n, c.littleEndian, c.sampleSize.toNat / 8⟩ frame k t * 2 ^ (32 - 8 * (c.sampleSize.toNat / 8)) : Int) : Rat) / 2147483648) = v ∧
      ((frame.drop ((t * channels + k) * (c.sampleSize.toNat / 8))).take (c.sampleSize.toNat / 8)).length = c.sampleSize.toNat / 8 := by
    intro k t hk ht
    have hpos : 0 < c.sampleSize.toNat / 8 := by omega
    have hlen : ((frame.drop ((t * channels + k) * (c.sampleSize.toNat / 8))).take (c.sampleSize.toNat / 8)).length = c.sampleSize.toNat / 8 :=
      chunk_length hpos (show 0 < channels by omega) (by rw [hf]; exact Nat.mul_mod_left ..)
        (by rw [hf, Nat.mul_div_cancel _ hpos]; exact Nat.mul_mod_left ..)
        (by rw [hf, Nat.mul_div_cancel _ hpos]; exact Nat.mul_div_cancel _ (by omega)) (index_lt ht hk)
    obtain ⟨v, h1, -⟩ := sample_value ⟨channels, n, c.littleEndian, c.sampleSize.toNat / 8⟩ frame k t hw hlen
    rw [h8] at h1
    refine ⟨v, h1, ?_, hlen⟩
    have := C32_integers_come_back v
    unfold int32ToNormalized at this
    rw [h1] at this
    rw [h8]
    exact this
  have hlen : (samples.map fun s => s.map normalizedToInt32).length = channels := by simp [hsm]
  have hlens : ∀ s ∈ samples.map fun s => s.map normalizedToInt32, s.length = n.toNat := by
    intro s hs
    simp only [hsm, List.map_map, List.mem_map] at hs
    obtain ⟨k, -, rfl⟩ := hs
    simp
  obtain ⟨e', frame', h1, h2, h3, h4⟩ := C37_what_is_encoded_is_decoded c channels n _ e hd0 he hc _ hlen hlens data
  refine ⟨samples, e', hdec, h1, ?_⟩
  rw [h2]
  congr 2
  have hdec' := decode_eq (d := ⟨channels, n, c.littleEndian, c.sampleSize.toNat / 8⟩) hw (by show 0 < channels; omega) h3 (Nat.le_refl _)
  rw [h4, Except.ok.injEq] at hdec'
  refine chunks_ext (n.toNat * channels) (c.sampleSize.toNat / 8) h3 hf fun i hi => ?_
  have hch : 0 < channels := by omega
  have hk : i % channels < channels := Nat.mod_lt _ hch
  have ht : i / channels < n.toNat := (Nat.div_lt_iff_lt_mul hch).mpr hi
  have hi' : i / channels * channels + i % channels = i := by rw [Nat.mul_comm]; exact Nat.div_add_mod i channels
  obtain ⟨v, hv1, hv2, hv3⟩ := hval _ _ hk ht
  have hpos : 0 < c.sampleSize.toNat / 8 := by omega
  have hv3' : ((frame'.drop ((i / channels * channels + i % channels) * (c.sampleSize.toNat / 8))).take (c.sampleSize.toNat / 8)).length =
      c.sampleSize.toNat / 8 :=
      chunk_length hpos hch (by rw [h3]; exact Nat.mul_mod_left ..)
        (by rw [h3, Nat.mul_div_cancel _ hpos]; exact Nat.mul_mod_left ..)
        (by rw [h3, Nat.mul_div_cancel _ hpos]; exact Nat.mul_div_cancel _ hch) (index_lt ht hk)
  have hcell := congrArg (fun l => (l[i % channels]?).map fun s => s[i / channels]?) hdec'
  simp only [hsm, List.map_map, List.getElem?_map, List.getElem?_range hk, Option.map_some, Function.comp_apply,
    List.getElem?_range ht, Option.some.injEq] at hcell
  rw [hv2] at hcell
  unfold kept at hcell
  rw [hv1, pow_kept hs] at hcell
  have hq : (sampleAt ⟨channels, n, c.littleEndian, c.sampleSize.toNat / 8⟩ frame (i % channels) (i / channels) * 2 ^ (32 - c.sampleSize.toNat) : Int) =
      sampleAt ⟨channels, n, c.littleEndian, c.sampleSize.toNat / 8⟩ frame' (i % channels) (i / channels) * 2 ^ (32 - c.sampleSize.toNat) := by
    have hx : ∀ a b : Int, (a : Rat) / 2 ^ 31 = (b : Rat) / 2147483648 → a = b := by
      intro a b hab
      have : (a : Rat) = b := by
        norm_num at hab
        exact_mod_cast hab
      exact_mod_cast this
    have := hx _ _ hcell
    rw [h8] at this
    exact this
  have hq := mul_right_cancel₀ (by positivity) hq
  unfold sampleAt at hq
  dsimp only at hq
  rw [hi'] at hq hv3 hv3'
  split at hq
  · exact (leInt_inj (by rw [hv3, hv3']) hq).symm
  · exact (List.reverse_injective (leInt_inj (by rw [List.length_reverse, List.length_reverse, hv3, hv3']) hq)).symm

/-! ### Many frames -/

/-- A call of an encoder. -/
inductive EncoderCall (α : Type)
  | encode (samples : List (List Int32)) (data : α)
  | pop
  | finalize

/-- An encoder in use: the samples and data that it accepted so far, and the frames that it gave back. -/
structure EncoderUse (α : Type) where
  encoder : LpcmEncoder α
  accepted : List (α × List (List Int32))
  popped : List (α × List UInt8)

/-- A call; one that fails changes nothing. -/
def EncoderUse.call {α : Type} (u : EncoderUse α) : EncoderCall α → EncoderUse α
  | .encode samples data => match u.encoder.encode samples data with
    | .ok e => ⟨e, u.accepted ++ [(data, samples)], u.popped⟩
    | .error _ => u
  | .pop => ⟨u.encoder.pop.2, u.accepted, u.popped ++ u.encoder.pop.1⟩
  | .finalize => ⟨u.encoder.finalize, u.accepted, u.popped⟩

private theorem writeTick_short {t : Nat} {size : UInt8} {be : Bool} (hs : okSize size) (cs : List (List Int32))
    (h : ∃ c ∈ cs, c.length ≤ t) : writeTick (fun v : Int32 => .ok v) size be t cs = .error .ub := by
  induction cs with
  | nil => simp at h
  | cons c cs ih =>
    rcases Nat.lt_or_ge t c.length with ht | ht
    · obtain ⟨x, hx, hxl⟩ := h
      rcases List.mem_cons.mp hx with rfl | hx
      · omega
      · obtain ⟨b, hb, -⟩ := (C32_one_sample c[t] size be).1 hs
        simp only [writeTick, List.getElem?_eq_getElem ht, Bind.bind, Except.bind, hb, ih ⟨x, hx, hxl⟩]
    · simp only [writeTick, List.getElem?_eq_none ht]

private theorem writeTicks_short {size : UInt8} {be : Bool} (hs : okSize size) (cs : List (List Int32)) (m t : Nat)
    (h : ∃ c ∈ cs, t ≤ c.length ∧ c.length < t + m) : writeTicks (fun v : Int32 => .ok v) size be cs t m = .error .ub := by
  induction m generalizing t with
  | zero =>
    obtain ⟨c, -, h1, h2⟩ := h
    omega
  | succ m ih =>
    unfold writeTicks
    by_cases hall : ∃ c ∈ cs, c.length ≤ t
    · rw [writeTick_short hs cs hall]
      rfl
    · obtain ⟨c, hc, h1, h2⟩ := h
      have hall' : ∀ c ∈ cs, t < c.length := fun c hc => Nat.lt_of_not_le fun hle => hall ⟨c, hc, hle⟩
      cases ht : writeTick (fun v : Int32 => .ok v) size be t cs with
      | error e =>
        exfalso
        clear ih h1 h2 hc hall
        induction cs with
        | nil => cases ht
        | cons x cs ih =>
          obtain ⟨b, hb, -⟩ := (C32_one_sample (x[t]'(hall' x (by simp))) size be).1 hs
          cases hr : writeTick (fun v : Int32 => .ok v) size be t cs with
          | error e' => exact ih (fun c hc => hall' c (by simp [hc])) (by rw [hr, ← ht]; simp only [writeTick, List.getElem?_eq_getElem (hall' x (by simp)), Bind.bind, Except.bind, hb, hr])
          | ok r => simp only [writeTick, List.getElem?_eq_getElem (hall' x (by simp)), Bind.bind, Except.bind, hb, hr] at ht; cases ht
      | ok bytes =>
        simp only [Bind.bind, Except.bind]
        rw [ih (t + 1) ⟨c, hc, hall' c hc, by omega⟩]

/-- **C37 (what an encoder takes).** An encoder takes samples exactly if it is not finished and drained and there is a list of samples
for each channel, the first as long as a frame and no other shorter.  (One that is shorter is read beyond its end:
`C37_short_second_channel`.) -/
theorem C37_what_an_encoder_takes {α : Type} (e : LpcmEncoder α) (hv : ValidLpcm e.config) (hc : e.channels = 1 ∨ e.channels = 2)
    (samples : List (List Int32)) (data : α) :
    (∃ e', e.encode samples data = .ok e') ↔
      ¬ (e.finished = true ∧ e.done = []) ∧ samples.length = e.channels ∧ (samples.headD []).length = e.samplesPerFrame.toNat ∧
      ∀ s ∈ samples, e.samplesPerFrame.toNat ≤ s.length := by
  constructor
  · rintro ⟨e', h⟩
    unfold LpcmEncoder.encode LpcmEncoder.validateInput LpcmEncoder.isFinished at h
    split at h
    · cases h
    rename_i hf
    refine ⟨by simpa using hf, ?_⟩
    obtain ⟨⟨⟩, h1, h⟩ := except_bind_ok h
    split at h1
    · cases h1
    rename_i hl
    simp only [ne_eq, Decidable.not_not] at hl
    cases samples with
    | nil => cases h1
    | cons s ss =>
      simp only at h1
      split at h1
      · cases h1
      rename_i hs
      simp only [ne_eq, Decidable.not_not] at hs
      refine ⟨hl, hs, ?_⟩
      obtain ⟨bytes, h2, -⟩ := except_bind_ok h
      intro x hx
      apply Decidable.byContradiction
      intro hlt
      unfold writePcmFrame at h2
      split at h2
      · cases h2
      simp only at h2
      split at h2
      · rename_i hz
        rw [hs] at hz
        simp at hz
        omega
      · rw [writeTicks_short (lpcm_size hv).1 _ _ _ ⟨x, hx, by omega, by omega⟩] at h2
        cases h2
  · rintro ⟨hf, hl, hfirst, hn⟩
    obtain ⟨frame, h1, -⟩ := lpcm_frame hv hc samples hl hfirst hn
    exact ⟨_, encode_eq data (by simpa using hf) hl (by omega) hfirst h1⟩

/-- **C37 (frames in order).** Whatever is done with an encoder, the frames it has given back and still holds are those that it took, in
that order, each with its own data and each decoding to the samples it was made of. -/
theorem C37_frames_in_order {α : Type} (c : LpcmConfig) (channels : Nat) (n : UInt32) (d : LpcmDecoder) (e : LpcmEncoder α)
    (hd : LpcmDecoder.create c channels n = .ok d) (he : LpcmEncoder.create c channels n = .ok e)
    (hc : channels = 1 ∨ channels = 2) (calls : List (EncoderCall α)) :
    List.Forall₂ (fun f a => f.1 = a.1 ∧ d.decode f.2 = .ok (a.2.map fun s => (s.take n.toNat).map (kept c.sampleSize)))
      ((calls.foldl EncoderUse.call ⟨e, [], []⟩).popped ++ (calls.foldl EncoderUse.call ⟨e, [], []⟩).encoder.done)
      (calls.foldl EncoderUse.call ⟨e, [], []⟩).accepted := by
  obtain ⟨hv, rfl⟩ := created hd
  have key : ∀ (calls : List (EncoderCall α)) (u : EncoderUse α), u.encoder.config = c → u.encoder.channels = channels →
      u.encoder.samplesPerFrame = n →
      List.Forall₂ (fun f a => f.1 = a.1 ∧ LpcmDecoder.decode ⟨channels, n, c.littleEndian, c.sampleSize.toNat / 8⟩ f.2 =
        .ok (a.2.map fun s => (s.take n.toNat).map (kept c.sampleSize))) (u.popped ++ u.encoder.done) u.accepted →
      List.Forall₂ (fun f a => f.1 = a.1 ∧ LpcmDecoder.decode ⟨channels, n, c.littleEndian, c.sampleSize.toNat / 8⟩ f.2 =
        .ok (a.2.map fun s => (s.take n.toNat).map (kept c.sampleSize)))
        ((calls.foldl EncoderUse.call u).popped ++ (calls.foldl EncoderUse.call u).encoder.done) (calls.foldl EncoderUse.call u).accepted := by
    intro calls
    induction calls with
    | nil => exact fun _ _ _ _ h => h
    | cons call calls ih =>
      intro u h1 h2 h3 h
      obtain ⟨⟨config, ch, spf, done, fin⟩, acc, pop⟩ := u
      dsimp only at h1 h2 h3 h
      subst h1 h2 h3
      rw [List.foldl_cons]
      cases call with
      | encode samples data =>
        unfold EncoderUse.call
        dsimp only
        cases hr : LpcmEncoder.encode ⟨config, ch, spf, done, fin⟩ samples data with
        | error err => exact ih _ rfl rfl rfl h
        | ok e' =>
          obtain ⟨hf, hl, hfirst, hn⟩ := (C37_what_an_encoder_takes _ hv hc samples data).mp ⟨e', hr⟩
          obtain ⟨frame, k1, k2, k3⟩ := lpcm_frame hv hc samples hl hfirst hn
          rw [encode_eq data (by simpa using hf) hl (by show 0 < ch; omega) hfirst k1, Except.ok.injEq] at hr
          subst hr
          refine ih _ rfl rfl rfl ?_
          dsimp only
          rw [← List.append_assoc]
          exact List.rel_append h (.cons ⟨rfl, k3⟩ .nil)
      | pop =>
        refine ih _ ?_ ?_ ?_ ?_ <;> cases done <;> simp only [EncoderUse.call, LpcmEncoder.pop, List.append_nil, List.append_assoc] <;> first | exact h | (rw [List.append_nil] at h; exact h)
      | finalize => exact ih _ rfl rfl rfl h
  obtain rfl := encoder_created he
  exact key calls _ rfl rfl rfl .nil

/-- **C37 (finding).** The second channel is not checked: if it has fewer samples than the first, its vector is read beyond its end. -/
theorem C37_short_second_channel {α : Type} (e : LpcmEncoder α) (hv : ValidLpcm e.config) (hc : e.channels = 2) (hf : e.finished = false)
    (first second : List Int32) (h1 : first.length = e.samplesPerFrame.toNat) (h2 : second.length < first.length) (data : α) :
    e.encode [first, second] data = .error .ub := by
  unfold LpcmEncoder.encode LpcmEncoder.validateInput LpcmEncoder.isFinished
  have hm : e.config.sampleSize.toNat % 8 = 0 := (lpcm_size hv).2.1
  simp only [hf, Bool.false_and, Bool.false_eq_true, if_false, List.length_cons, List.length_nil, hc, ne_eq, not_true_eq_false, h1,
    Bind.bind, Except.bind, writePcmFrame, hm]
  rw [if_neg (by omega), writeTicks_short (lpcm_size hv).1 _ _ _ ⟨second, by simp, by omega, by omega⟩]

/-- **C37 (finding).** Contrary to the documentation, an encoder that was finalized still takes frames, as long as it holds one that
was not taken out. -/
theorem C37_encoding_after_finalize :
    ∃ e e1 e2 : LpcmEncoder Unit, LpcmEncoder.create ⟨1, 16, 48000⟩ 1 2 = .ok e ∧ e.encode [[0x10000, 0x20000]] () = .ok e1 ∧
      e1.finalize.encode [[0x30000, 0x40000]] () = .ok e2 ∧ e2.done = [((), [1, 0, 2, 0]), ((), [3, 0, 4, 0])] :=
  ⟨_, _, _, rfl, rfl, rfl, by decide +kernel⟩

/-- Two channels of 24 bits, big-endian: the frame and what is decoded. -/
example : ∃ d, LpcmDecoder.create ⟨0, 24, 96000⟩ 2 3 = .ok d ∧
    writePcmFrame [[0x12345678, -256], [0x7fffffff, -2147483648]] 24 true =
      .ok [0x12, 0x34, 0x56, 0x7f, 0xff, 0xff, 0xff, 0xff, 0xff, 0x80, 0, 0] ∧
    d.decode [0x12, 0x34, 0x56, 0x7f, 0xff, 0xff, 0xff, 0xff, 0xff, 0x80, 0, 0] =
      .ok [[0x12345600 / 2147483648, -256 / 2147483648], [0x7fffff00 / 2147483648, -1]] :=
  ⟨_, rfl, by decide +kernel, by decide +kernel⟩

example : ValidLpcm ⟨0, 24, 96000⟩ := ⟨.inl rfl, .inr (.inl rfl), by decide⟩

end Iamf.Props
