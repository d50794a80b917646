import Verif.Obu.Codec
/-
  Round trips, safety and stability of codec configs.
-/
namespace Iamf

theorem rt_U32_20 (g : LebGen) (d : UInt32) : RT g (wU32 d 20) (rU32 20) d := rt_U32 g d 20 (by omega) (by omega)
theorem rt_U32_24 (g : LebGen) (d : UInt32) : RT g (wU32 d 24) (rU32 24) d := rt_U32 g d 24 (by omega) (by omega)
theorem rt_U64_36 (g : LebGen) (d : UInt64) : RT g (wU64 d 36) (rU64 36) d := rt_U64 g d 36 (by omega) (by omega)

theorem rt_U32_U8' (g : LebGen) (d : UInt32) (n : Nat) (hn : 0 < n) (h : n ≤ 8) :
    RT g (wU32 d n) (rU8 n) d.toUInt8 ∧ (∀ bs, (wU32 d n).eval g = (.ok (), bs) → d.toUInt8.toUInt32 = d) := by
  have key : d.toNat < 2 ^ n → d.toNat < 256 := by
    intro hd
    have : 2 ^ n ≤ 2 ^ 8 := Nat.pow_le_pow_right (by omega) h
    omega
  constructor
  · intro bs hb
    rw [eval_wU32 g d n hn (by omega)] at hb
    split at hb
    next hd =>
      simp only [Prod.mk.injEq, true_and] at hb
      subst hb
      have := reads_U8 n d.toNat h hd
      have e : UInt8.ofNat d.toNat = d.toUInt8 := by
        apply UInt8.toNat_inj.mp; simp
      rw [e] at this
      exact this
    next => simp at hb
  · intro bs hb
    rw [eval_wU32 g d n hn (by omega)] at hb
    split at hb
    next hd =>
      apply UInt32.toNat_inj.mp
      have := key hd
      simp; omega
    next => simp at hb

theorem rt_U32_U64 (g : LebGen) (d : UInt32) : RT g (wU32 d 32) (rU64 32) d.toUInt64 := by
  intro bs hb
  have hb : (wU32 d ((32 : Nat) : Int)).eval g = _ := hb
  rw [eval_wU32 g d 32 (by omega) (by omega)] at hb
  split at hb
  next hd =>
    simp only [Prod.mk.injEq, true_and] at hb
    subst hb
    have := reads_lit_ret 64 32 d.toNat UInt64.ofNat (by omega) hd
    have e : UInt64.ofNat d.toNat = d.toUInt64 := by
      apply UInt64.toNat_inj.mp
      have := d.toNat_lt
      rw [UInt64.toNat_ofNat', UInt32.toNat_toUInt64]
      omega
    rw [e] at this
    exact this
  next => simp at hb

theorem Rd.bind_assoc {α β γ : Type} (p : Rd α) (f : α → Rd β) (k : β → Rd γ) :
    (p.bind f).bind k = p.bind fun a => (f a).bind k := by
  induction p with
  | ret a => rfl
  | fail e => rfl
  | lit m n q ih => simp only [Rd.bind]; congr 1; funext v; exact ih v f
  | tell q ih => simp only [Rd.bind]; congr 1; funext v; exact ih v f
  | seek x q ih => simp only [Rd.bind]; congr 1; exact ih f
  | avail q ih => simp only [Rd.bind]; congr 1; funext v; exact ih v f
  | attempt m q _ ih => simp only [Rd.bind]; congr 1; funext v; exact ih v f

@[simp] theorem Rd.ret_bind {α β : Type} (a : α) (f : α → Rd β) : (Rd.ret a).bind f = f a := rfl

/-! ### LPCM and Opus -/

theorem LpcmConfig.rt (g : LebGen) (c : LpcmConfig) (roll : Int16) : RTB g (c.write roll) (LpcmConfig.read roll) c := by
  unfold LpcmConfig.write LpcmConfig.read
  simp only [Wr.bind_eq, Rd.bind_eq, Rd.pure_eq]
  refine RTB.statusW fun hv => ?_
  refine (rt_U8_8 g _).b.seq ((rt_U8_8 g _).b.seq ((rt_U32_32 g _).b.seqR ?_))
  have hv' : LpcmConfig.validate ⟨c.formatFlags, c.sampleSize, c.sampleRate⟩ roll = .ok () := hv
  rw [hv']
  exact Reads.ret _

theorem OpusConfig.rt (g : LebGen) (c : OpusConfig) (n : UInt32) (roll : Int16) :
    RTB g (c.write n roll) (OpusConfig.read n roll) c := by
  unfold OpusConfig.write OpusConfig.read
  simp only [Wr.bind_eq, Rd.bind_eq, Rd.pure_eq]
  refine RTB.statusW fun hr => RTB.statusW fun hv => RTB.statusR hr ?_
  refine (rt_U8_8 g _).b.seq ((rt_U8_8 g _).b.seq ((rt_U16_16 g _).b.seq ((rt_U32_32 g _).b.seq
    ((rt_S16 g _).b.seq ((rt_U8_8 g _).b.seqR ?_)))))
  have hv' : OpusConfig.validate ⟨c.version, c.outputChannelCount, c.preSkip, c.inputSampleRate, c.outputGain,
    c.mappingFamily⟩ = .ok () := hv
  rw [hv']
  exact Reads.ret _

/-! ### FLAC -/

theorem FlacStreamInfo.rt (g : LebGen) (s : FlacStreamInfo) (hm : s.md5.length = 16) :
    RT g s.write FlacStreamInfo.read s := by
  unfold FlacStreamInfo.write FlacStreamInfo.read
  simp only [Wr.bind_eq, Rd.bind_eq, Rd.pure_eq]
  have h16 := rt_Bytes g s.md5
  rw [hm] at h16
  exact (rt_U16_16 g _).seq ((rt_U16_16 g _).seq ((rt_U32_24 g _).seq ((rt_U32_24 g _).seq ((rt_U32_20 g _).seq
    ((rt_U8_3 g _).seq ((rt_U8_5 g _).seq ((rt_U64_36 g _).seq (h16.map rfl))))))))

/-- Blocks as the C++ types force them to be. -/
def FlacBlock.Typed (b : FlacBlock) : Prop := ∀ s, b.payload = .streamInfo s → s.md5.length = 16

theorem FlacBlock.rt (g : LebGen) (b : FlacBlock) (hb : b.Typed) :
    RTB g ((wU8 b.blockType 7).bind fun _ => b.writePayload) FlacBlock.read b := by
  obtain ⟨t, p⟩ := b
  unfold FlacBlock.read FlacBlock.writePayload
  simp only [Wr.bind_eq, Rd.bind_eq, Rd.pure_eq]
  refine (rt_U8_7 g t).b.seq ?_
  by_cases h0 : t = 0
  · simp only [h0, ↓reduceIte]
    cases p with
    | streamInfo s => exact (rt_U32_24 g 34).b.seq ((FlacStreamInfo.rt g s (hb s rfl)).b.map rfl)
    | bytes l => exact RTB.fail
  · simp only [if_neg h0]
    cases p with
    | streamInfo s => exact RTB.fail
    | bytes l =>
      intro bs hbs hl
      have hbs : ((wU32 (UInt32.ofNat l.length) 24).bind fun _ => wBytes l).eval g = (.ok (), bs) := hbs
      rw [Wr.eval_bind_ok] at hbs
      obtain ⟨_, b1, b2, e1, e2, rfl⟩ := hbs
      have := wBytes_ok e2
      subst this
      rw [List.length_append, bytesBits_length] at hl
      have hle : l.length ≤ 2097152 := by omega
      have hn : (UInt32.ofNat l.length).toNat = l.length := by rw [UInt32.toNat_ofNat']; omega
      refine (rt_U32_24 g _ b1 e1).bind ?_
      rw [hn]
      have hc : (!decide (l.length > kEntireObuSizeMaxTwoMegabytes)) = true := by
        have : ¬ l.length > kEntireObuSizeMaxTwoMegabytes := by unfold kEntireObuSizeMaxTwoMegabytes; omega
        rw [decide_eq_false this]; rfl
      rw [hc]
      have := (reads_bytes l).bind (f := fun l => Rd.ret (FlacBlock.mk t (.bytes l))) (Reads.ret _)
      rw [List.append_nil] at this
      exact this

theorem flacBlocks_rt (g : LebGen) (l : List FlacBlock) (budget : Nat) (hl : l ≠ []) (hn : l.length ≤ budget)
    (ht : ∀ b ∈ l, b.Typed) : RTB g (wFlacBlocks l) (rFlacBlocks budget) l := by
  induction l generalizing budget with
  | nil => exact absurd rfl hl
  | cons b bs ih =>
    match budget with
    | 0 => simp at hn
    | n + 1 =>
      simp only [wFlacBlocks, rFlacBlocks]
      refine (rt_Bool g _).b.seq ?_
      intro out hout hlen
      rw [Wr.eval_bind_ok] at hout
      obtain ⟨_, b1, b2, e1, hout, rfl⟩ := hout
      rw [Wr.eval_bind_ok] at hout
      obtain ⟨_, b3, b4, e3, e4, rfl⟩ := hout
      simp only [List.length_append] at hlen
      have hblk := FlacBlock.rt g b (ht b (by simp)) (b1 ++ b3)
        (Wr.eval_bind_ok.mpr ⟨_, b1, b3, e1, e3, rfl⟩) (by rw [List.length_append]; omega)
      rw [← List.append_assoc]
      refine hblk.bind ?_
      match hbs : bs with
      | [] =>
        simp only [List.isEmpty_nil, ↓reduceIte]
        simp [wFlacBlocks] at e4
        subst e4
        exact Reads.ret _
      | c :: cs =>
        simp only [List.isEmpty_cons, Bool.false_eq_true, ↓reduceIte]
        have := ih n (by simp) (by simp at hn ⊢; omega) (fun x hx => ht x (by simp only [List.mem_cons] at hx ⊢; exact .inr hx))
        have := (this b4 e4 (by omega)).bind (f := fun bs => Rd.ret (b :: bs)) (Reads.ret _)
        rw [List.append_nil] at this
        exact this

/-- More blocks than the budget: the reader fails. -/
theorem flacBlocks_unreadable (g : LebGen) (l : List FlacBlock) (budget : Nat) (hn : budget < l.length)
    (ht : ∀ b ∈ l, b.Typed) (bs : Bits) (hb : (wFlacBlocks l).eval g = (.ok (), bs)) (hl : bs.length ≤ 8 * 2097152)
    (s : RS) (hp : s.pos ≤ s.src.length) (hs : bs <+: s.rest) :
    ((rFlacBlocks budget).runA s).1 = .error .invalidArgument := by
  induction budget generalizing l bs s with
  | zero => rfl
  | succ n ih =>
    match l with
    | [] => simp at hn
    | b :: rest =>
      have hne : rest ≠ [] := by rintro rfl; simp at hn
      simp only [wFlacBlocks] at hb
      rw [Wr.eval_bind_ok] at hb
      obtain ⟨_, b0, b0', e0, hb, rfl⟩ := hb
      rw [Wr.eval_bind_ok] at hb
      obtain ⟨_, b1, b1', e1, hb, rfl⟩ := hb
      rw [Wr.eval_bind_ok] at hb
      obtain ⟨_, b2, b3, e2, e3, rfl⟩ := hb
      simp only [List.length_append] at hl
      have hblk := FlacBlock.rt g b (ht b (by simp)) (b1 ++ b2)
        (Wr.eval_bind_ok.mpr ⟨_, b1, b2, e1, e2, rfl⟩) (by rw [List.length_append]; omega)
      have hflag := (rt_Bool g _ b0 e0).bind (f := fun last => FlacBlock.read.bind fun b => Rd.ret (last, b))
        (hblk.bind (Reads.ret _))
      rw [List.append_nil] at hflag
      have hpre : (b0 ++ (b1 ++ b2)) ++ b3 <+: s.rest := by simpa [List.append_assoc] using hs
      obtain ⟨v, f, -⟩ := hflag s hp ((List.prefix_append _ _).trans hpre)
      obtain ⟨hr2, hl2⟩ := rest_after s (b0 ++ (b1 ++ b2)) b3 hpre hp v
      have key : (rFlacBlocks (n + 1)) = (rBool.bind fun last => FlacBlock.read.bind fun b => Rd.ret (last, b)).bind
          fun q => if q.1 then .ret [q.2] else (rFlacBlocks n).bind fun bs => .ret (q.2 :: bs) := by
        rw [Rd.bind_assoc]
        simp only [rFlacBlocks]
        congr 1; funext last
        rw [Rd.bind_assoc]
        rfl
      rw [key, Rd.runA_bind, f]
      have hemp : rest.isEmpty = false := by cases rest <;> simp_all
      simp only [hemp, Bool.false_eq_true, ↓reduceIte]
      rw [Rd.runA_bind]
      have := ih rest (by simp at hn ⊢; omega) (fun x hx => ht x (by simp [hx])) b3 e3 (by omega) ⟨s.src, s.pos + (b0 ++ (b1 ++ b2)).length, v⟩ hl2 hr2
      revert this
      generalize (rFlacBlocks n).runA _ = z
      obtain ⟨z1, z2⟩ := z
      intro h
      simp only at h
      subst h
      rfl

theorem FlacConfig.getStreamInfo_ne {c : FlacConfig} {s : FlacStreamInfo} (h : c.getStreamInfo = .ok s) : c.blocks ≠ [] := by
  intro he
  simp [FlacConfig.getStreamInfo, he] at h

theorem FlacConfig.validateDecoding_ok {c : FlacConfig} {n : UInt32} (h : c.validateDecoding n = .ok ()) :
    ∃ s, c.getStreamInfo = .ok s ∧ flacSampleRateOk s.sampleRate = true ∧ flacBitsOk s.bitsPerSample = true := by
  unfold FlacConfig.validateDecoding at h
  split at h
  · simp at h
  next s hs =>
    split at h
    next hc =>
      simp only [Bool.and_eq_true] at hc
      exact ⟨s, hs, hc.1.1.1.1.1, hc.1.1.1.1.2⟩
    · simp at h

theorem FlacConfig.validateEncoding_ok {c : FlacConfig} {n : UInt32} (h : c.validateEncoding n = .ok ()) :
    c.validateDecoding n = .ok () := by
  unfold FlacConfig.validateEncoding at h
  split at h
  · simp at h
  next hd => exact hd

theorem FlacConfig.rt (g : LebGen) (c : FlacConfig) (n : UInt32) (roll : Int16) (ht : ∀ b ∈ c.blocks, b.Typed)
    (h128 : c.blocks.length ≤ 128) : RTB g (c.write n roll) (FlacConfig.read n roll) c := by
  unfold FlacConfig.write FlacConfig.read
  simp only [Wr.bind_eq, Rd.bind_eq, Rd.pure_eq]
  refine RTB.checkW fun hr => RTB.statusW fun hv => RTB.checkR hr ?_
  have hd := FlacConfig.validateEncoding_ok hv
  obtain ⟨s, hs, -⟩ := FlacConfig.validateDecoding_ok hd
  refine (flacBlocks_rt g c.blocks 128 (FlacConfig.getStreamInfo_ne hs) h128 ht).seqR ?_
  have hd' : FlacConfig.validateDecoding ⟨c.blocks⟩ n = .ok () := hd
  rw [hd']
  exact Reads.ret _

/-! ### AAC -/

theorem section_rt {α : Type} (g : LebGen) (inner : Wr Unit) (r : Rd α) (a : α) (ext : List UInt8)
    (h : RTB g inner r a) : RTB g (wSection inner ext) (rSection r) (a, ext) := by
  intro bs hb hl
  unfold wSection at hb
  simp only [Wr.bind_eq] at hb
  obtain ⟨tmp, htmp, hb⟩ := Wr.sub_bind_ok hb
  obtain ⟨hal, hb⟩ := Wr.check_bind_ok hb
  obtain ⟨hsz, hb⟩ := Wr.check_bind_ok hb
  rw [WBuf.isByteAligned_iff] at hal
  simp only [Bool.not_eq_true', decide_eq_false_iff_not, gt_iff_lt, Nat.not_lt, kMaxClassSize] at hsz
  have hk : (268435455 : UInt32).toNat = 268435455 := rfl
  rw [hk] at hsz
  have hev := htmp.eval
  rw [Wr.eval_bind_ok] at hev
  obtain ⟨_, b1, b2, e1, e2, hbits⟩ := hev
  have := wBytes_ok e2
  subst this
  have hoff := htmp.off
  have htight := htmp.wf.tight
  have hl1 : b1.length + 8 * ext.length = tmp.off := by
    rw [← hoff, hbits, List.length_append, bytesBits_length]
  have hlen : tmp.bytes.length = b1.length / 8 + ext.length := by omega
  rw [Wr.eval_bind_ok] at hb
  obtain ⟨_, c1, c2, d1, d2, rfl⟩ := hb
  have := wBytes_ok d2
  subst this
  rw [List.length_append, bytesBits_length] at hl
  have hn : (UInt32.ofNat tmp.bytes.length).toNat = tmp.bytes.length := by rw [UInt32.toNat_ofNat']; omega
  unfold rSection
  refine (rt_Iso g _ kMaxClassSize (by rw [hn]; exact hsz) c1 d1).bind ?_
  rw [hn, htmp.bytes_of_aligned hal, hbits, hlen]
  intro s hp hs
  simp only [Rd.runA]
  rw [Rd.runA_bind]
  obtain ⟨v1, f1, m1⟩ := h b1 e1 (by omega) { s with valid := true } hp ((List.prefix_append _ _).trans hs)
  rw [f1]
  simp only [Rd.runA]
  obtain ⟨hr2, hl2⟩ := rest_after s b1 (bytesBits ext) hs hp true
  have hexp : (s.pos : Int) + ((b1.length / 8 + ext.length : Nat) : Int) * 8 =
      ((s.pos + b1.length : Nat) : Int) + 8 * ext.length := by omega
  rw [hexp]
  by_cases hf : ext = []
  · subst hf
    rw [if_pos (by simp)]
    exact ⟨true, by simp, fun _ => rfl⟩
  · have hfl : 0 < ext.length := List.length_pos_iff.mpr hf
    rw [if_neg (by omega), if_pos (by omega)]
    have hn2 : ((((s.pos + b1.length : Nat) : Int) + 8 * ext.length - ((s.pos + b1.length : Nat) : Int)) / 8)
        = ext.length := by omega
    rw [hn2]
    have hc : (!decide ((ext.length : Int) > kEntireObuSizeMaxTwoMegabytes)) = true := by
      have : ¬ (ext.length : Int) > kEntireObuSizeMaxTwoMegabytes := by unfold kEntireObuSizeMaxTwoMegabytes; omega
      rw [decide_eq_false this]; rfl
    rw [hc, Int.toNat_natCast]
    have hb := (reads_bytes ext).bind (f := fun e => Rd.ret (a, e)) (Reads.ret (a, ext))
    rw [List.append_nil] at hb
    obtain ⟨v2, f2, m2⟩ := hb ⟨s.src, s.pos + b1.length, true⟩ hl2 hr2
    refine ⟨v2, ?_, fun _ => m2 rfl⟩
    have f2' : ((Rd.check true).bind fun _ => (rBytes ext.length).bind fun e => Rd.ret (a, e)).runA
        ⟨s.src, s.pos + b1.length, true⟩ = _ := f2
    show ((Rd.check true).bind fun _ => (rBytes ext.length).bind fun e => Rd.ret (a, e)).runA _ = _
    rw [f2']; simp [Nat.add_assoc]

theorem AudioSpecificConfig.rt (g : LebGen) (c : AudioSpecificConfig)
    (hf : aacSampleFrequencyStatus c.sampleFrequencyIndex = .ok ()) : RT g c.write AudioSpecificConfig.read c := by
  unfold AudioSpecificConfig.write AudioSpecificConfig.read
  simp only [Wr.bind_eq, Rd.bind_eq, Rd.pure_eq]
  refine (rt_U8_5 g _).seq ?_
  intro bs hb
  rw [Wr.eval_bind_ok] at hb
  obtain ⟨_, b1, b2, e1, e2, rfl⟩ := hb
  have h4 := rt_U32_U8' g c.sampleFrequencyIndex 4 (by omega) (by omega)
  refine (h4.1 b1 e1).bind ?_
  rw [h4.2 b1 e1, hf]
  exact ((rt_U8_4 g _).seq ((rt_Bool g _).seq ((rt_Bool g _).seq ((rt_Bool g _).seqR (Reads.ret c))))) b2 e2

theorem AacConfig.validate_ok {c : AacConfig} (h : c.validate = .ok ()) :
    aacSampleFrequencyStatus c.asc.sampleFrequencyIndex = .ok () := by
  unfold AacConfig.validate at h
  split at h
  · exact h
  · simp at h

theorem AacConfig.rt (g : LebGen) (c : AacConfig) (roll : Int16) : RTB g (c.write roll) (AacConfig.read roll) c := by
  unfold AacConfig.write AacConfig.read
  simp only [Wr.bind_eq, Rd.bind_eq, Rd.pure_eq]
  refine RTB.checkW fun hr => RTB.statusW fun hv => ?_
  refine (rt_U8_8 g _).b.seq ?_
  refine (section_rt g _ _ (⟨0, c.objectTypeIndication, c.streamType, c.upstream, c.reserved, c.bufferSizeDb, c.maxBitrate,
    c.averageBitRate, c.infoTag, c.asc, c.infoExtension, []⟩ : AacConfig) c.configExtension ?_).seqR ?_
  · exact (rt_U8_8 g _).b.seq ((rt_U8_6 g _).b.seq ((rt_Bool g _).b.seq ((rt_Bool g _).b.seq ((rt_U32_24 g _).b.seq
      ((rt_U32_32 g _).b.seq ((rt_U32_32 g _).b.seq ((rt_U8_8 g _).b.seq
        ((section_rt g _ _ _ _ (AudioSpecificConfig.rt g c.asc (AacConfig.validate_ok hv)).b).map rfl))))))))
  · show Reads (((Rd.check (roll == -1)).bind fun _ => (Rd.status c.validate).bind fun _ => Rd.ret c)) [] c
    rw [hr, hv]
    exact Reads.ret _

/-! ### Codec configs -/

/-- What the C++ types force: an MD5 signature has 16 bytes. -/
def CodecConfig.Typed (c : CodecConfig) : Prop :=
  ∀ f, c.decoderConfig = .flac f → ∀ b ∈ f.blocks, b.Typed

theorem CodecConfig.rt (g : LebGen) (c : CodecConfig) (footer : List UInt8) (ht : c.Typed)
    (h128 : ∀ f, c.decoderConfig = .flac f → f.blocks.length ≤ 128) :
    RTPayload g c.write CodecConfig.read footer c := by
  refine RTB.payload fun n => ?_
  unfold CodecConfig.write CodecConfig.read
  simp only [Wr.bind_eq, Rd.bind_eq, Rd.pure_eq]
  refine (rt_Uleb g _).b.seq ((rt_U32_U64 g _).b.seq (RTB.checkW fun hn => (rt_Uleb g _).b.seq ?_))
  refine RTB.checkR hn ((rt_S16 g _).b.seq ?_)
  have e : c.codecId.toUInt64.toUInt32 = c.codecId := by
    apply UInt32.toNat_inj.mp; simp
  rw [e]
  suffices h : RTB g c.writeDecoderConfig (rDecoderConfig c.codecId c.numSamplesPerFrame c.audioRollDistance) c.decoderConfig
    from h.map rfl
  unfold CodecConfig.writeDecoderConfig rDecoderConfig
  obtain ⟨cid, id, nspf, roll, d⟩ := c
  simp only
  by_cases h1 : id = kCodecIdOpus
  · simp only [if_pos h1]
    cases d with
    | opus d => exact (OpusConfig.rt g d nspf roll).map rfl
    | _ => exact RTB.fail
  · simp only [if_neg h1]
    by_cases h2 : id = kCodecIdLpcm
    · simp only [if_pos h2]
      cases d with
      | lpcm d => exact (LpcmConfig.rt g d roll).map rfl
      | _ => exact RTB.fail
    · simp only [if_neg h2]
      by_cases h3 : id = kCodecIdAacLc
      · simp only [if_pos h3]
        cases d with
        | aac d => exact (AacConfig.rt g d roll).map rfl
        | _ => exact RTB.fail
      · simp only [if_neg h3]
        by_cases h4 : id = kCodecIdFlac
        · simp only [if_pos h4]
          cases d with
          | flac d => exact (FlacConfig.rt g d nspf roll (ht d rfl) (h128 d rfl)).map rfl
          | _ => exact RTB.fail
        · simp only [if_neg h4]
          exact RTB.fail

/-- A FLAC codec config with more than 128 blocks can be written, but not be read back. -/
theorem CodecConfig.unreadable (g : LebGen) (c : CodecConfig) (f : FlacConfig) (hf : c.decoderConfig = .flac f)
    (ht : c.Typed) (h128 : 128 < f.blocks.length) (bs : Bits) (hb : c.write.eval g = (.ok (), bs))
    (hl : bs.length ≤ 8 * 2097152) (n : Int) (s : RS) (hp : s.pos ≤ s.src.length) (hs : bs <+: s.rest) :
    ((CodecConfig.read n).runA s).1 = .error .invalidArgument := by
  obtain ⟨cid, id, nspf, roll, d⟩ := c
  simp only at hf
  subst hf
  unfold CodecConfig.write at hb
  simp only [Wr.bind_eq] at hb
  rw [Wr.eval_bind_ok] at hb
  obtain ⟨_, b1, c1, e1, hb1, rfl⟩ := hb
  rw [Wr.eval_bind_ok] at hb1
  obtain ⟨_, b2, c2, e2, hb2, rfl⟩ := hb1
  obtain ⟨hn, hb3⟩ := Wr.check_bind_ok hb2
  rw [Wr.eval_bind_ok] at hb3
  obtain ⟨_, b3, c3, e3, hb4, rfl⟩ := hb3
  rw [Wr.eval_bind_ok] at hb4
  obtain ⟨_, b4, c4, e4, hb, rfl⟩ := hb4
  have e : id.toUInt64.toUInt32 = id := by
    apply UInt32.toNat_inj.mp; simp
  have hpre : RT g ((wUleb cid).bind fun _ => (wU32 id 32).bind fun _ => (wUleb nspf).bind fun _ => wS16 roll)
      (rUleb.bind fun cid => (rU64 32).bind fun codec => rUleb.bind fun n =>
        (Rd.check (numSamplesPerFrameOk n)).bind fun _ => rS16.bind fun roll => Rd.ret (cid, codec, n, roll))
      (cid, id.toUInt64, nspf, roll) := by
    refine (rt_Uleb g _).seq ((rt_U32_U64 g _).seq ((rt_Uleb g _).seq ?_))
    rw [hn]
    exact (rt_S16 g _).map rfl
  have hev : ((wUleb cid).bind fun _ => (wU32 id 32).bind fun _ => (wUleb nspf).bind fun _ => wS16 roll).eval g =
      (.ok (), b1 ++ (b2 ++ (b3 ++ b4))) :=
    Wr.eval_bind_ok.mpr ⟨_, _, _, e1, Wr.eval_bind_ok.mpr ⟨_, _, _, e2, Wr.eval_bind_ok.mpr ⟨_, _, _, e3, e4, rfl⟩, rfl⟩, rfl⟩
  have hs' : (b1 ++ (b2 ++ (b3 ++ b4))) ++ c4 <+: s.rest := by simpa [List.append_assoc] using hs
  obtain ⟨v, fr, -⟩ := hpre _ hev s hp ((List.prefix_append _ _).trans hs')
  obtain ⟨hr2, hl2⟩ := rest_after s _ c4 hs' hp v
  have key : CodecConfig.read n = (rUleb.bind fun cid => (rU64 32).bind fun codec => rUleb.bind fun n =>
        (Rd.check (numSamplesPerFrameOk n)).bind fun _ => rS16.bind fun roll => Rd.ret (cid, codec, n, roll)).bind
      fun q => (rDecoderConfig q.2.1.toUInt32 q.2.2.1 q.2.2.2).bind fun d =>
        Rd.ret ⟨q.1, q.2.1.toUInt32, q.2.2.1, q.2.2.2, d⟩ := by
    simp only [Rd.bind_assoc]
    rfl
  rw [key, Rd.runA_bind, fr]
  simp only [e]
  unfold CodecConfig.writeDecoderConfig at hb
  simp only at hb
  unfold rDecoderConfig
  by_cases h1 : id = kCodecIdOpus
  · simp [h1] at hb
  by_cases h2 : id = kCodecIdLpcm
  · simp [h1, h2] at hb
  by_cases h3 : id = kCodecIdAacLc
  · simp [h1, h2, h3] at hb
  by_cases h4 : id = kCodecIdFlac
  · rw [if_neg h1, if_neg h2, if_neg h3, if_pos h4] at hb ⊢
    unfold FlacConfig.write at hb
    simp only [Wr.bind_eq] at hb
    obtain ⟨hr, hb⟩ := Wr.check_bind_ok hb
    obtain ⟨_, hb⟩ := Wr.status_bind_ok hb
    have := flacBlocks_unreadable g f.blocks 128 h128 (ht f rfl) c4 hb
      (by simp only [List.length_append] at hl; omega) _ hl2 hr2
    unfold FlacConfig.read
    simp only [Rd.bind_eq, Rd.bind_assoc, hr, Rd.check, ↓reduceIte, Rd.ret_bind]
    rw [Rd.runA_bind]
    revert this
    generalize (rFlacBlocks 128).runA _ = z
    obtain ⟨z1, z2⟩ := z
    intro h
    simp only at h
    subst h
    rfl
  · rw [if_neg h1, if_neg h2, if_neg h3, if_neg h4] at hb
    simp at hb

/-! ### Safety and stability -/

theorem LpcmConfig.validate_err {c : LpcmConfig} {r : Int16} {e : Err} (h : c.validate r = .error e) : e.fatal = false := by
  unfold LpcmConfig.validate at h
  repeat' split at h
  all_goals first | (simp only [Except.error.injEq] at h; subst h; rfl) | simp at h
theorem opusRollDistance_err {n : UInt32} {e : Err} (h : opusRollDistance n = .error e) : e = .invalidArgument := by
  unfold opusRollDistance at h
  by_cases hn : n = 0
  · rw [if_pos hn] at h; simp only [Except.error.injEq] at h; exact h.symm
  · rw [if_neg hn] at h; simp at h
theorem opusValidateRoll_err {n : UInt32} {r : Int16} {e : Err} (h : opusValidateRoll n r = .error e) : e.fatal = false := by
  unfold opusValidateRoll at h
  split at h
  next e' he => simp only [Except.error.injEq] at h; subst h; rw [opusRollDistance_err he]; rfl
  next r' hr =>
    split at h
    · simp at h
    · simp only [Except.error.injEq] at h; subst h; rfl
theorem OpusConfig.validate_err {c : OpusConfig} {e : Err} (h : c.validate = .error e) : e.fatal = false := by
  unfold OpusConfig.validate at h
  repeat' split at h
  all_goals first | (simp only [Except.error.injEq] at h; subst h; rfl) | simp at h


/-- What a codec config that was read always satisfies: a legal frame size, a supported non-zero output
sample rate and bit depth, and the roll distance the codec requires. -/
def CodecConfig.Sound (c : CodecConfig) : Prop :=
  numSamplesPerFrameOk c.numSamplesPerFrame = true ∧ (∃ v, c.rates = .ok v) ∧
  requiredRollDistance c.codecId c.numSamplesPerFrame = .ok c.audioRollDistance

theorem LpcmConfig.validate_ok {c : LpcmConfig} {r : Int16} (h : c.validate r = .ok ()) :
    r = 0 ∧ lpcmSampleSizeOk c.sampleSize = true ∧ lpcmSampleRateOk c.sampleRate = true := by
  unfold LpcmConfig.validate at h
  repeat' split at h
  all_goals first | simp at h; done | simp_all

theorem opusValidateRoll_ok {n : UInt32} {r : Int16} (h : opusValidateRoll n r = .ok ()) : opusRollDistance n = .ok r := by
  unfold opusValidateRoll at h
  split at h
  · simp at h
  next r' hr =>
    split at h
    next he => rw [hr, he]
    · simp at h

theorem LpcmConfig.sf (roll : Int16) : Sf (LpcmConfig.read roll) (fun c => c.validate roll = .ok ()) := by
  unfold LpcmConfig.read
  simp only [Rd.bind_eq, Rd.pure_eq]
  exact Sf.bindT (by sf_auto) fun _ => Sf.bindT (by sf_auto) fun _ => Sf.bindT (by sf_auto) fun _ =>
    (Sf.status fun e he => LpcmConfig.validate_err he).bind fun _ h => Sf.ret h

theorem OpusConfig.sf (n : UInt32) (roll : Int16) :
    Sf (OpusConfig.read n roll) (fun _ => opusRollDistance n = .ok roll) := by
  unfold OpusConfig.read
  simp only [Rd.bind_eq, Rd.pure_eq]
  refine (Sf.status fun e he => opusValidateRoll_err he).bind fun _ h => ?_
  exact Sf.bindT (by sf_auto) fun _ => Sf.bindT (by sf_auto) fun _ => Sf.bindT (by sf_auto) fun _ =>
    Sf.bindT (by sf_auto) fun _ => Sf.bindT (by sf_auto) fun _ => Sf.bindT (by sf_auto) fun _ =>
    (Sf.statusT fun e he => OpusConfig.validate_err he).bind fun _ _ => Sf.ret (opusValidateRoll_ok h)

theorem FlacStreamInfo.sf : Sf FlacStreamInfo.read (fun s => s.md5.length = 16) := by
  unfold FlacStreamInfo.read
  simp only [Rd.bind_eq, Rd.pure_eq]
  exact Sf.bindT (by sf_auto) fun _ => Sf.bindT (by sf_auto) fun _ => Sf.bindT (by sf_auto) fun _ =>
    Sf.bindT (by sf_auto) fun _ => Sf.bindT (by sf_auto) fun _ => Sf.bindT (by sf_auto) fun _ =>
    Sf.bindT (by sf_auto) fun _ => Sf.bindT (by sf_auto) fun _ => (Sf.bytes 16).bind fun _ h => Sf.ret h

/-- Blocks whose contents match their type, as every reader produces them. -/
def FlacBlock.Ok (b : FlacBlock) : Prop :=
  if b.blockType = 0 then ∃ s, b.payload = .streamInfo s ∧ s.md5.length = 16 else ∃ l, b.payload = .bytes l

theorem FlacBlock.sf : Sf FlacBlock.read FlacBlock.Ok := by
  unfold FlacBlock.read
  simp only [Rd.bind_eq, Rd.pure_eq]
  refine Sf.bindT (by sf_auto) fun t => Sf.bindT (by sf_auto) fun len => Sf.ite (fun h => ?_) (fun h => ?_)
  · refine FlacStreamInfo.sf.bind fun s hs => Sf.ret ?_
    unfold FlacBlock.Ok
    rw [if_pos h]
    exact ⟨s, rfl, hs⟩
  · refine Sf.bindT (by sf_auto) fun _ => Sf.bindT (by sf_auto) fun l => Sf.ret ?_
    unfold FlacBlock.Ok
    rw [if_neg h]
    exact ⟨l, rfl⟩

theorem flacBlocks_sf (n : Nat) : Sf (rFlacBlocks n) (fun l => l ≠ [] ∧ l.length ≤ n ∧ ∀ b ∈ l, b.Ok) := by
  induction n with
  | zero => exact Sf.fail rfl
  | succ n ih =>
    unfold rFlacBlocks
    refine Sf.bindT (by sf_auto) fun last => FlacBlock.sf.bind fun b hb => Sf.ite (fun _ => ?_) (fun _ => ?_)
    · exact Sf.ret ⟨by simp, by simp, by simpa using hb⟩
    · refine ih.bind fun bs h => Sf.ret ⟨by simp, by simp only [List.length_cons]; omega, ?_⟩
      intro x hx
      rcases List.mem_cons.mp hx with rfl | hx
      · exact hb
      · exact h.2.2 x hx

theorem FlacConfig.getStreamInfo_err {c : FlacConfig} {e : Err} (hb : ∀ b ∈ c.blocks, b.Ok)
    (h : c.getStreamInfo = .error e) : e.fatal = false := by
  obtain ⟨l⟩ := c
  unfold FlacConfig.getStreamInfo at h
  match l, hb with
  | [], _ => simp only [Except.error.injEq] at h; subst h; rfl
  | b :: bs, hb =>
    simp only at h
    have := hb b (by simp)
    unfold FlacBlock.Ok at this
    by_cases h0 : b.blockType = 0
    · rw [if_pos h0] at this
      obtain ⟨s, hs, -⟩ := this
      simp [h0, hs] at h
    · simp only [ne_eq, h0, not_false_eq_true, ↓reduceIte, Except.error.injEq] at h
      subst h; rfl

theorem FlacConfig.validateDecoding_err {c : FlacConfig} {n : UInt32} {e : Err} (hb : ∀ b ∈ c.blocks, b.Ok)
    (h : c.validateDecoding n = .error e) : e.fatal = false := by
  unfold FlacConfig.validateDecoding at h
  split at h
  next e' he => simp only [Except.error.injEq] at h; subst h; exact FlacConfig.getStreamInfo_err hb he
  · split at h
    · simp at h
    · simp only [Except.error.injEq] at h; subst h; rfl

theorem FlacConfig.sf (n : UInt32) (roll : Int16) :
    Sf (FlacConfig.read n roll) (fun c => roll = 0 ∧ c.validateDecoding n = .ok () ∧ c.blocks.length ≤ 128 ∧
      ∀ b ∈ c.blocks, b.Ok) := by
  unfold FlacConfig.read
  simp only [Rd.bind_eq, Rd.pure_eq]
  refine (Sf.check rfl).bind fun _ hr => (flacBlocks_sf 128).bind fun bs hbs => ?_
  exact (Sf.status fun e he => FlacConfig.validateDecoding_err hbs.2.2 he).bind fun _ h =>
    Sf.ret ⟨by simpa using hr, h, hbs.2.1, hbs.2.2⟩

theorem aacSampleFrequencyStatus_err {i : UInt32} {e : Err} (h : aacSampleFrequencyStatus i = .error e) :
    e.fatal = false := by
  unfold aacSampleFrequencyStatus at h
  split at h
  · simp at h
  next e' he =>
    simp only [Except.error.injEq] at h
    subst h
    unfold aacSampleFrequency at he
    split at he
    · simp only [Except.error.injEq] at he; subst he; rfl
    · split at he
      · simp at he
      · simp only [Except.error.injEq] at he; subst he; rfl

theorem section_sf {α : Type} {r : Rd α} (h : Sf r (fun _ => True)) : Sf (rSection r) (fun _ => True) := by
  unfold rSection
  simp only [Rd.bind_eq, Rd.pure_eq]
  refine Sf.bindT (by sf_auto) fun _ => Sf.tell fun _ => h.bind fun _ _ => Sf.tell fun _ => ?_
  sf_auto

theorem AudioSpecificConfig.sf : Sf AudioSpecificConfig.read (fun _ => True) := by
  unfold AudioSpecificConfig.read
  simp only [Rd.bind_eq, Rd.pure_eq]
  refine Sf.bindT (by sf_auto) fun _ => Sf.bindT (by sf_auto) fun i =>
    Sf.bindT (Sf.statusT fun e he => aacSampleFrequencyStatus_err he) fun _ => ?_
  sf_auto

theorem AacConfig.validate_err {c : AacConfig} {e : Err} (h : c.validate = .error e) : e.fatal = false := by
  unfold AacConfig.validate at h
  split at h
  · exact aacSampleFrequencyStatus_err h
  · simp only [Except.error.injEq] at h; subst h; rfl

theorem AacConfig.sf (roll : Int16) :
    Sf (AacConfig.read roll) (fun c => roll = -1 ∧ c.validate = .ok ()) := by
  unfold AacConfig.read
  simp only [Rd.bind_eq, Rd.pure_eq]
  refine Sf.bindT (by sf_auto) fun tag => Sf.bindT (section_sf ?_) fun p => (Sf.check rfl).bind fun _ hr =>
    (Sf.status fun e he => AacConfig.validate_err he).bind fun _ h => Sf.ret ⟨by simpa using hr, h⟩
  refine Sf.bindT (by sf_auto) fun _ => Sf.bindT (by sf_auto) fun _ => Sf.bindT (by sf_auto) fun _ =>
    Sf.bindT (by sf_auto) fun _ => Sf.bindT (by sf_auto) fun _ => Sf.bindT (by sf_auto) fun _ =>
    Sf.bindT (by sf_auto) fun _ => Sf.bindT (by sf_auto) fun _ => Sf.bindT (section_sf AudioSpecificConfig.sf) fun _ => ?_
  sf_auto

theorem lpcmSampleRateOk_ne {n : UInt32} (h : lpcmSampleRateOk n = true) : n ≠ 0 := by
  rintro rfl; exact absurd h (by decide)
theorem flacSampleRateOk_ne {n : UInt32} (h : flacSampleRateOk n = true) : n ≠ 0 := by
  rintro rfl; exact absurd h (by decide)
theorem aacSampleFrequency_ne {i f : UInt32} (h : aacSampleFrequency i = .ok f) : f ≠ 0 := by
  unfold aacSampleFrequency at h
  split at h
  · simp at h
  · split at h
    next g hg =>
      simp only [Except.ok.injEq] at h
      subst h
      have := List.mem_of_getElem? hg
      intro h0
      rw [h0] at this
      revert this
      decide
    · simp at h

theorem CodecConfig.sf (n : Int) : Sf (CodecConfig.read n) CodecConfig.Sound := by
  unfold CodecConfig.read
  simp only [Rd.bind_eq, Rd.pure_eq]
  refine Sf.bindT (by sf_auto) fun id => Sf.bindT (by sf_auto) fun codec => Sf.bindT (by sf_auto) fun nspf =>
    (Sf.check rfl).bind fun _ hn => Sf.bindT (by sf_auto) fun roll => ?_
  suffices h : Sf (rDecoderConfig codec.toUInt32 nspf roll)
      (fun d => (∃ v, CodecConfig.rates ⟨id, codec.toUInt32, nspf, roll, d⟩ = .ok v) ∧
        requiredRollDistance codec.toUInt32 nspf = .ok roll) from
    h.bind fun d hd => Sf.ret ⟨hn, hd.1, hd.2⟩
  generalize codec.toUInt32 = cid
  unfold rDecoderConfig
  refine Sf.ite (fun h1 => ?_) (fun h1 => Sf.ite (fun h2 => ?_) (fun h2 => Sf.ite (fun h3 => ?_) (fun h3 => Sf.ite (fun h4 => ?_)
    (fun h4 => Sf.fail rfl))))
  · refine (OpusConfig.sf nspf roll).bind fun d hd => Sf.ret ⟨⟨(48000, d.inputSampleRate, 32), ?_⟩, ?_⟩
    · simp only [CodecConfig.rates, if_pos h1]; rfl
    · simp only [requiredRollDistance, if_pos h1]; exact hd
  · refine (LpcmConfig.sf roll).bind fun d hd => ?_
    obtain ⟨r0, hs, hr⟩ := LpcmConfig.validate_ok hd
    refine Sf.ret ⟨⟨(d.sampleRate, d.sampleRate, d.sampleSize), ?_⟩, ?_⟩
    · simp only [CodecConfig.rates, if_neg h1, if_pos h2, hs, hr, Bool.not_true, Bool.false_eq_true, if_false]
      rw [if_neg (lpcmSampleRateOk_ne hr)]
    · simp only [requiredRollDistance, if_neg h1, if_pos h2, r0]
  · refine (AacConfig.sf roll).bind fun d hd => ?_
    have hf := AacConfig.validate_ok hd.2
    unfold aacSampleFrequencyStatus at hf
    split at hf
    next f hf' =>
      refine Sf.ret ⟨⟨(f, f, 16), ?_⟩, ?_⟩
      · simp only [CodecConfig.rates, if_neg h1, if_neg h2, if_pos h3, hf']
        rw [if_neg (aacSampleFrequency_ne hf')]
      · have h4 : ¬ cid = kCodecIdFlac := by rw [h3]; decide
        simp only [requiredRollDistance, if_neg h1, if_neg h2, if_neg h4, if_pos h3, hd.1]
    · simp at hf
  · refine (FlacConfig.sf nspf roll).bind fun d hd => ?_
    obtain ⟨s, hs, hr, hb⟩ := FlacConfig.validateDecoding_ok hd.2.1
    refine Sf.ret ⟨⟨(s.sampleRate, s.sampleRate, s.bitsPerSample + 1), ?_⟩, ?_⟩
    · simp only [CodecConfig.rates, if_neg h1, if_neg h2, if_neg h3, if_pos h4, hs, hr, hb, Bool.not_true,
        Bool.false_eq_true, if_false]
      rw [if_neg (flacSampleRateOk_ne hr)]
    · simp only [requiredRollDistance, if_neg h1, if_neg h2, if_pos h4, hd.1]

theorem flacBlocks_stable (n : Nat) : Stable (rFlacBlocks n) := by
  induction n with
  | zero => exact Stable.fail _
  | succ n ih =>
    unfold rFlacBlocks
    refine Stable.bool.bind fun _ => Stable.bind ?_ fun _ => ?_
    · unfold FlacBlock.read FlacStreamInfo.read; stable_auto
    · split
      · exact Stable.ret _
      · exact ih.bind fun _ => Stable.ret _

theorem section_stable {α : Type} {r : Rd α} (h : Stable r) : Stable (rSection r) := by
  unfold rSection
  simp only [Rd.bind_eq, Rd.pure_eq]
  refine Stable.bind (by stable_auto) fun _ => Stable.tell fun _ => h.bind fun _ => Stable.tell fun _ => ?_
  stable_auto

theorem CodecConfig.stable (n : Int) : Stable (CodecConfig.read n) := by
  unfold CodecConfig.read
  simp only [Rd.bind_eq, Rd.pure_eq]
  refine Stable.bind (by stable_auto) fun id => Stable.bind (by stable_auto) fun codec =>
    Stable.bind (by stable_auto) fun nspf => Stable.bind (by stable_auto) fun _ => Stable.bind (by stable_auto) fun roll => ?_
  refine Stable.bind ?_ fun _ => Stable.ret _
  unfold rDecoderConfig
  refine Stable.ite (fun _ => ?_) fun _ => Stable.ite (fun _ => ?_) fun _ => Stable.ite (fun _ => ?_) fun _ =>
    Stable.ite (fun _ => ?_) fun _ => Stable.fail _
  · refine Stable.bind ?_ fun _ => Stable.ret _
    unfold OpusConfig.read; stable_auto
  · refine Stable.bind ?_ fun _ => Stable.ret _
    unfold LpcmConfig.read; stable_auto
  · refine Stable.bind ?_ fun _ => Stable.ret _
    unfold AacConfig.read
    simp only [Rd.bind_eq, Rd.pure_eq]
    refine Stable.bind (by stable_auto) fun _ => Stable.bind (section_stable ?_) fun _ => by stable_auto
    have : Stable (rSection AudioSpecificConfig.read) := section_stable (by unfold AudioSpecificConfig.read; stable_auto)
    refine Stable.bind (by stable_auto) fun _ => Stable.bind (by stable_auto) fun _ => Stable.bind (by stable_auto) fun _ =>
      Stable.bind (by stable_auto) fun _ => Stable.bind (by stable_auto) fun _ => Stable.bind (by stable_auto) fun _ =>
      Stable.bind (by stable_auto) fun _ => Stable.bind (by stable_auto) fun _ => this.bind fun _ => Stable.ret _
  · refine Stable.bind ?_ fun _ => Stable.ret _
    unfold FlacConfig.read
    simp only [Rd.bind_eq, Rd.pure_eq]
    exact Stable.check.bind fun _ => (flacBlocks_stable 128).bind fun _ => Stable.status.bind fun _ => Stable.ret _

end Iamf
