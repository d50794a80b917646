import Verif.Obu.Simple
import Verif.Props.Obu
/-
  Properties of the small OBU classes: C08 (IA Sequence Header) and C13 (Audio Frame, Temporal
  Delimiter, Arbitrary, Metadata).
-/
namespace Iamf.Props
open Iamf

/-- Round trip of a whole OBU, from the round trip of its payload: reading returns the written payload and
footer, and a header that differs from the written one only in trimming counts that have no flag. -/
theorem ReadsBack.obu {α : Type} {g : LebGen} {h : ObuHeader} {payload : Wr Unit} {footer bytes : List UInt8}
    {derived : ObuHeader → Int → Rd α} {a : α} (hrt : RTPayload g payload (derived h.normalized) footer a)
    (hw : Writes g (wObu h payload footer) bytes) :
    ReadsBack (rObu derived) bytes
      (⟨h.obuType, h.redundantCopy, h.typeSpecificFlag,
        if isAudioFrameType h.obuType && h.typeSpecificFlag then h.trimEnd else 0,
        if isAudioFrameType h.obuType && h.typeSpecificFlag then h.trimStart else 0, h.ext⟩, a, footer) := by
  have := ReadsBack.of_rt (rt_obu g h payload footer derived a hrt) hw
  have e : h.normalized = ⟨h.obuType, h.redundantCopy, h.typeSpecificFlag,
        if isAudioFrameType h.obuType && h.typeSpecificFlag then h.trimEnd else 0,
        if isAudioFrameType h.obuType && h.typeSpecificFlag then h.trimStart else 0, h.ext⟩ := by
    obtain ⟨t, rc, ts, te, tst, x⟩ := h
    simp only [ObuHeader.normalized, ObuHeader.trimFlag]
    cases isAudioFrameType t <;> cases ts <;> rfl
  rw [e] at this
  exact this

/-- `ReadsBack.obu` for an OBU that is not an audio frame, whose trimming counts were left at zero: the
header is recovered too. -/
theorem ReadsBack.obu' {α : Type} {g : LebGen} {h : ObuHeader} {payload : Wr Unit} {footer bytes : List UInt8}
    {derived : ObuHeader → Int → Rd α} {a : α} (hte : h.trimEnd = 0) (hts : h.trimStart = 0)
    (hrt : RTPayload g payload (derived h) footer a)
    (hw : Writes g (wObu h payload footer) bytes) : ReadsBack (rObu derived) bytes (h, a, footer) := by
  have e : h.normalized = h := by
    obtain ⟨t, rc, ts, te, tst, x⟩ := h
    simp only at hte hts
    subst hte; subst hts
    unfold ObuHeader.normalized; split <;> rfl
  have := ReadsBack.of_rt (rt_obu g h payload footer derived a (e.symm ▸ hrt)) hw
  rw [e] at this
  exact this

/-! ## C08: IA Sequence Header -/

/-- **C08 (round trip).** Any IA Sequence Header OBU (any header flags, profiles, footer, leb generator)
that is written successfully is read back with the same header, profiles and footer. -/
theorem C08_ia_sequence_header_round_trip (g : LebGen) (h : ObuHeader) (o : IaSequenceHeader)
    (footer bytes : List UInt8) (hte : h.trimEnd = 0) (hts : h.trimStart = 0)
    (hw : Writes g (wObu h o.write footer) bytes) :
    ReadsBack (rObu fun _ => IaSequenceHeader.read) bytes (h, o, footer) :=
  ReadsBack.obu' hte hts (IaSequenceHeader.rt g o footer) hw

/-- Not vacuous. -/
example : Writes .minimum (wObu ⟨31, true, false, 0, 0, none⟩ (IaSequenceHeader.write ⟨1, 200⟩) [7])
    [0xfc, 7, 0x69, 0x61, 0x6d, 0x66, 1, 200, 7] :=
  ⟨⟨.minimum, [0xfc, 7, 0x69, 0x61, 0x6d, 0x66, 1, 200, 7], 72⟩, by decide +kernel, rfl, rfl⟩

/-- **C08 (validation).** Whatever four or more bytes the payload consists of: if they do not start with
the ASCII bytes `iamf`, the reader returns InvalidArgument; if it accepts, the primary profile is one of
the six defined ones. -/
theorem C08_ia_sequence_header_rejects (b0 b1 b2 b3 : UInt8) (rest : List UInt8) (cap : Nat) (pv : Bool)
    (hc : 0 < cap) (n : Int) :
    ([b0, b1, b2, b3] ≠ [0x69, 0x61, 0x6d, 0x66] →
      ((IaSequenceHeader.read n).run (RBuf.create cap (b0 :: b1 :: b2 :: b3 :: rest) pv)).1 =
        .error .invalidArgument) ∧
    (∀ o, ((IaSequenceHeader.read n).run (RBuf.create cap (b0 :: b1 :: b2 :: b3 :: rest) pv)).1 = .ok o →
      o.primaryProfile.toNat ≤ 5) := by
  have href := C03_read_buffer_is_cursor (IaSequenceHeader.read n) (b0 :: b1 :: b2 :: b3 :: rest) cap pv (.inl hc)
  constructor
  · intro hne
    rw [href.1]
    have h4 : bytesBits [b0, b1, b2, b3] = natBits 32 (bitsNat (bytesBits [b0, b1, b2, b3])) := by
      have := natBits_bitsNat (bytesBits [b0, b1, b2, b3])
      rw [bytesBits_length] at this
      exact this.symm
    have hlt : bitsNat (bytesBits [b0, b1, b2, b3]) < 2 ^ 32 := by
      have := bitsNat_lt (bytesBits [b0, b1, b2, b3])
      rw [bytesBits_length] at this
      exact this
    have hrd := reads_U32 32 (bitsNat (bytesBits [b0, b1, b2, b3])) (by omega) hlt
    rw [← h4] at hrd
    obtain ⟨v, e, -⟩ := hrd ⟨bytesBits (b0 :: b1 :: b2 :: b3 :: rest), 0, pv⟩ (by simp) (by
      simp only [RS.rest, List.drop_zero]
      have : bytesBits (b0 :: b1 :: b2 :: b3 :: rest) = bytesBits [b0, b1, b2, b3] ++ bytesBits rest := by
        rw [← bytesBits_append]; rfl
      rw [this]; exact List.prefix_append _ _)
    unfold IaSequenceHeader.read
    simp only [Rd.bind_eq]
    rw [Rd.runA_bind]
    have e' : (rU32 32).runA ⟨bytesBits (b0 :: b1 :: b2 :: b3 :: rest), 0, pv⟩ = _ := e
    rw [e']
    have hne' : (UInt32.ofNat (bitsNat (bytesBits [b0, b1, b2, b3])) == kIaCode) = false := by
      rw [beq_eq_false_iff_ne]
      intro heq
      apply hne
      have := congrArg UInt32.toNat heq
      rw [UInt32.toNat_ofNat', Nat.mod_eq_of_lt hlt] at this
      have hk : kIaCode.toNat = bitsNat (bytesBits [0x69, 0x61, 0x6d, 0x66]) := by decide +kernel
      rw [hk] at this
      apply bytesBits_inj
      rw [h4, this]
      decide +kernel
    simp only [hne', Rd.check, Bool.false_eq_true, ↓reduceIte, Rd.bind, Rd.runA_fail]
  · intro o ho
    rw [href.1] at ho
    have := IaSequenceHeader.sf n ⟨bytesBits (b0 :: b1 :: b2 :: b3 :: rest), 0, pv⟩
    rw [ho] at this
    simp only [IaSequenceHeader.valid, decide_eq_true_eq] at this
    exact UInt8.le_iff_toNat_le.mp this

/-- **C08 (finding).** The additional profile is not validated: profile 255 is accepted. -/
theorem C08_additional_profile_unchecked :
    ((IaSequenceHeader.read 6).run (RBuf.create 6 [0x69, 0x61, 0x6d, 0x66, 0, 255] true)).1 = .ok ⟨0, 255⟩ := by
  decide +kernel

/-! ## C13: Audio Frame, Temporal Delimiter, Arbitrary, Metadata -/

/-- **C13 (audio frame).** Any audio frame OBU, for any of the 2^32 substream ids, any frame bytes and any
trimming, that is written successfully is read back with the same substream id, bytes and trimming
counts — whether the id was sent implicitly by the OBU type (ids 0 to 17) or explicitly. -/
theorem C13_audio_frame_round_trip (g : LebGen) (h : ObuHeader) (o : AudioFrame) (bytes : List UInt8)
    (hw : Writes g (wObu (o.header h) (o.write (o.header h).obuType) []) bytes) :
    ReadsBack (rObu AudioFrame.read) bytes
      (⟨if o.substreamId.toNat ≤ 17 then UInt8.ofNat (6 + o.substreamId.toNat) else 5,
        h.redundantCopy, h.typeSpecificFlag,
        if h.typeSpecificFlag then h.trimEnd else 0, if h.typeSpecificFlag then h.trimStart else 0, h.ext⟩,
       o, []) := by
  have := ReadsBack.obu (h := o.header h) (AudioFrame.rt g h o) hw
  have ht : (o.header h).obuType = if o.substreamId.toNat ≤ 17 then UInt8.ofNat (6 + o.substreamId.toNat) else 5 := by
    show audioFrameObuType o.substreamId = _
    unfold audioFrameObuType
    by_cases h17 : o.substreamId.toNat ≤ 17
    · rw [if_pos h17, if_neg (by omega)]
    · rw [if_neg h17, if_pos (by omega)]; rfl
  have ha : isAudioFrameType (o.header h).obuType = true := by
    rw [ht]
    by_cases h17 : o.substreamId.toNat ≤ 17
    · rw [if_pos h17]
      have : ∀ k : Fin 18, isAudioFrameType (UInt8.ofNat (6 + k.val)) = true := by decide
      exact this ⟨o.substreamId.toNat, by omega⟩
    · rw [if_neg h17]; rfl
  rw [ha] at this
  simp only [Bool.true_and] at this
  rw [ht] at this
  exact this

example : Writes .minimum (wObu (AudioFrame.header ⟨0, false, true, 300, 7, none⟩ ⟨18, [1, 2]⟩)
    (AudioFrame.write 5 ⟨18, [1, 2]⟩) []) [0x2a, 6, 0xac, 0x02, 7, 18, 1, 2] :=
  ⟨⟨.minimum, [0x2a, 6, 0xac, 0x02, 7, 18, 1, 2], 64⟩, by decide +kernel, rfl, rfl⟩
example : Writes .minimum (wObu (AudioFrame.header ⟨0, false, false, 0, 0, none⟩ ⟨17, [1, 2]⟩)
    (AudioFrame.write 23 ⟨17, [1, 2]⟩) []) [0xb8, 2, 1, 2] :=
  ⟨⟨.minimum, [0xb8, 2, 1, 2], 32⟩, by decide +kernel, rfl, rfl⟩

/-- **C13 (temporal delimiter).** -/
theorem C13_temporal_delimiter_round_trip (g : LebGen) (h : ObuHeader) (footer bytes : List UInt8)
    (hte : h.trimEnd = 0) (hts : h.trimStart = 0) (hw : Writes g (wObu h wTemporalDelimiter footer) bytes) :
    ReadsBack (rObu fun _ => rTemporalDelimiter) bytes (h, (), footer) :=
  ReadsBack.obu' hte hts (temporalDelimiter_rt g footer) hw

example : Writes .minimum (wObu ⟨4, false, true, 0, 0, none⟩ wTemporalDelimiter []) [0x22, 0] :=
  ⟨⟨.minimum, [0x22, 0], 16⟩, by decide +kernel, rfl, rfl⟩

/-- **C13 (metadata).** Any metadata OBU that is written successfully is read back: IAMF tags with any
names and values; ITU-T T.35 metadata, except that an extension byte exists in the bitstream only with
country code `0xff`; an unknown metadata type keeps its type, and its content as the footer. -/
theorem C13_metadata_round_trip (g : LebGen) (h : ObuHeader) (o : Metadata) (footer bytes : List UInt8)
    (hte : h.trimEnd = 0) (hts : h.trimStart = 0)
    (hl : ∀ tags, o = .iamfTags tags → tags.length < 2 ^ 32)
    (hu : ∀ t, o = .unknown t → t ≠ 1 ∧ t ≠ 2)
    (hf : ∀ cc e p, o = .ituT35 cc e p → footer = [] ∧ (cc ≠ 0xff → e = none))
    (hw : Writes g (wObu h o.write footer) bytes) :
    ReadsBack (rObu fun _ => Metadata.read) bytes (h, o, footer) := by
  have hn : o.normalized = o := by
    cases o with
    | ituT35 cc e p =>
      obtain ⟨-, h2⟩ := hf cc e p rfl
      simp only [Metadata.normalized]
      split
      · rfl
      next hcc => rw [h2 hcc]
    | iamfTags tags => rfl
    | unknown t => rfl
  have := Metadata.rt g o footer hl hu (fun cc e p he => (hf cc e p he).1)
  rw [hn] at this
  exact ReadsBack.obu' hte hts this hw

example : Writes .minimum (wObu ⟨24, false, false, 0, 0, none⟩ (Metadata.write (.ituT35 0xff (some 3) [9, 8])) [])
    [0xc0, 5, 1, 0xff, 3, 9, 8] :=
  ⟨⟨.minimum, [0xc0, 5, 1, 0xff, 3, 9, 8], 56⟩, by decide +kernel, rfl, rfl⟩
example : Writes .minimum (wObu ⟨24, false, false, 0, 0, none⟩ (Metadata.write (.iamfTags [([65], [66]), ([], [67])])) [])
    [0xc0, 9, 2, 2, 65, 0, 66, 0, 0, 67, 0] :=
  ⟨⟨.minimum, [0xc0, 9, 2, 2, 65, 0, 66, 0, 0, 67, 0], 88⟩, by decide +kernel, rfl, rfl⟩

/-- **C13 (finding).** With another country code a present extension byte is silently dropped: two
different metadata OBUs are written as the same bytes. -/
theorem C13_itu_t35_extension_byte_dropped (g : LebGen) (cc b : UInt8) (p : List UInt8) (hcc : cc ≠ 0xff) :
    (Metadata.write (.ituT35 cc (some b) p)).eval g = (Metadata.write (.ituT35 cc none p)).eval g := by
  simp only [Metadata.write, wItuT35, hcc, ↓reduceIte]

/-- **C13 (arbitrary).** Whatever `WriteObusWithHook` writes successfully is exactly the concatenation of
the OBUs with that hook, in list order, each being its header followed by its payload bytes; no OBU that
invalidates the bitstream is among them. -/
theorem C13_arbitrary_obus_with_hook (g : LebGen) (hook : Nat) (obus : List ArbitraryObu) (bs : Bits)
    (hw : (writeObusWithHook hook obus).eval g = (.ok (), bs)) :
    ∃ hdrs : List Bits,
      hdrs.length = (obus.filter (fun o => o.insertionHook = hook)).length ∧
      bs = ((hdrs.zip (obus.filter (fun o => o.insertionHook = hook))).map
        fun p => p.1 ++ bytesBits p.2.payload).flatten ∧
      (∀ p ∈ hdrs.zip (obus.filter (fun o => o.insertionHook = hook)),
        (p.2.header.write p.2.payload.length).eval g = (.ok (), p.1) ∧ p.2.invalidatesBitstream = false) := by
  induction obus generalizing bs with
  | nil =>
    simp only [writeObusWithHook, Wr.eval_ret, Prod.mk.injEq, true_and] at hw
    exact ⟨[], rfl, hw.symm, by simp⟩
  | cons o os ih =>
    simp only [writeObusWithHook] at hw
    by_cases hh : o.insertionHook = hook
    · rw [if_pos hh, Wr.eval_bind_ok] at hw
      obtain ⟨_, b1, b2, h1, h2, rfl⟩ := hw
      obtain ⟨hdrs, i1, i2, i3⟩ := ih b2 h2
      unfold ArbitraryObu.write wObu at h1
      obtain ⟨tmp, htmp, h1⟩ := Wr.sub_bind_ok h1
      obtain ⟨hal, h1⟩ := Wr.check_bind_ok h1
      have hev := htmp.eval
      rw [Wr.eval_bind_ok] at hev
      obtain ⟨_, p1, p2, q1, q2, q3⟩ := hev
      have e2 := wBytes_ok q2
      simp only [ArbitraryObu.writePayload, Wr.bind_eq] at q1
      rw [Wr.eval_bind_ok] at q1
      obtain ⟨_, r1, r2, t1, t2, rfl⟩ := q1
      have e1 := wBytes_ok t1
      have hinv : o.invalidatesBitstream = false := by
        cases hi : o.invalidatesBitstream with
        | false => rfl
        | true => rw [hi] at t2; simp [Wr.check] at t2
      rw [hinv] at t2
      simp only [Wr.check, Bool.not_false, ↓reduceIte, Wr.eval_ret, Prod.mk.injEq, true_and] at t2
      rw [WBuf.isByteAligned_iff] at hal
      have hb := htmp.bytes_of_aligned hal
      have htb : tmp.bytes = o.payload := by
        apply bytesBits_inj
        rw [hb, q3, e1, e2, ← t2]; simp
      rw [htb, Wr.bind_eq, Wr.eval_bind_ok] at h1
      obtain ⟨_, c1, c2, d1, d2, rfl⟩ := h1
      have e3 := wBytes_ok d2
      subst e3
      have hf : (o :: os).filter (fun o => o.insertionHook = hook) =
          o :: os.filter (fun o => o.insertionHook = hook) := by simp [hh]
      refine ⟨c1 :: hdrs, by rw [hf]; simp [i1], by rw [hf, i2]; simp, ?_⟩
      rw [hf]
      intro p hp
      simp only [List.zip_cons_cons, List.mem_cons] at hp
      rcases hp with rfl | hp
      · exact ⟨d1, hinv⟩
      · exact i3 p hp
    · rw [if_neg hh] at hw
      obtain ⟨hdrs, i1, i2, i3⟩ := ih bs hw
      have hf : (o :: os).filter (fun o => o.insertionHook = hook) =
          os.filter (fun o => o.insertionHook = hook) := by simp [hh]
      exact ⟨hdrs, by rw [hf]; exact i1, by rw [hf]; exact i2, by rw [hf]; exact i3⟩

example : (writeObusWithHook 1 [⟨⟨24, false, false, 0, 0, none⟩, [5], 1, none, false⟩,
    ⟨⟨25, false, false, 0, 0, none⟩, [6], 2, none, true⟩, ⟨⟨26, false, false, 0, 0, none⟩, [7], 1, none, false⟩]).eval .minimum =
    (.ok (), bytesBits [0xc0, 1, 5, 0xd0, 1, 7]) := by decide +kernel

end Iamf.Props
