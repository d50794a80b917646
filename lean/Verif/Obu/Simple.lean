import Verif.Obu.Auto
/-
  The small OBU classes: IA Sequence Header, Temporal Delimiter, Arbitrary, Audio Frame, Metadata.
-/
namespace Iamf

/-! ### IA Sequence Header (iamf/obu/ia_sequence_header.{h,cc}) -/

/-- Payload of `IASequenceHeaderObu` (ia_sequence_header.h:92-93); `ProfileVersion` is its number. -/
structure IaSequenceHeader where
  primaryProfile : UInt8
  additionalProfile : UInt8
  deriving DecidableEq, Repr

/-- `kIaCode` (ia_sequence_header.cc:35). -/
def kIaCode : UInt32 := 0x69616d66

/-- `IASequenceHeaderObu::Validate` (ia_sequence_header.cc:37-57): only the primary profile is checked. -/
def IaSequenceHeader.valid (o : IaSequenceHeader) : Bool := o.primaryProfile ≤ 5

/-- `IASequenceHeaderObu::ValidateAndWritePayload` (ia_sequence_header.cc:75-85). -/
def IaSequenceHeader.write (o : IaSequenceHeader) : Wr Unit := do
  Wr.check o.valid
  wU32 kIaCode 32
  wU8 o.primaryProfile 8
  wU8 o.additionalProfile 8

/-- `IASequenceHeaderObu::ReadAndValidatePayloadDerived` (ia_sequence_header.cc:87-102). -/
def IaSequenceHeader.read (_payloadSize : Int) : Rd IaSequenceHeader := do
  let code ← rU32 32
  Rd.check (code == kIaCode)
  let p ← rU8 8
  let a ← rU8 8
  let o : IaSequenceHeader := ⟨p, a⟩
  Rd.check o.valid
  pure o

theorem IaSequenceHeader.rt (g : LebGen) (o : IaSequenceHeader) (footer : List UInt8) :
    RTPayload g o.write IaSequenceHeader.read footer o := by
  intro bs hb _ _
  suffices h : ∀ n, RT g o.write (IaSequenceHeader.read n) o from h _ bs hb
  intro n
  unfold IaSequenceHeader.write IaSequenceHeader.read
  refine RT.checkW fun hv => ?_
  refine (rt_U32 g kIaCode 32 (by omega) (by omega)).seq ?_
  refine RT.checkR (by simp) ?_
  refine (rt_U8 g o.primaryProfile 8 (by omega) (by omega)).seq ?_
  refine (rt_U8 g o.additionalProfile 8 (by omega) (by omega)).map ?_
  simp only [Rd.bind_eq, hv, Rd.check]
  rfl

theorem IaSequenceHeader.sf (n : Int) : Sf (IaSequenceHeader.read n) (fun o => o.valid = true) := by
  unfold IaSequenceHeader.read
  exact (Sf.u32 32).bind fun _ _ => (Sf.check rfl).bind fun _ _ => (Sf.u8 8).bind fun _ _ =>
    (Sf.u8 8).bind fun _ _ => (Sf.check rfl).bind fun _ h => Sf.ret h

theorem IaSequenceHeader.stable (n : Int) : Stable (IaSequenceHeader.read n) := by
  unfold IaSequenceHeader.read; stable_auto

/-! ### Temporal Delimiter (iamf/obu/temporal_delimiter.h) -/

/-- `TemporalDelimiterObu::ValidateAndWritePayload` (temporal_delimiter.h:68-71). -/
def wTemporalDelimiter : Wr Unit := .ret ()
/-- `TemporalDelimiterObu::ReadAndValidatePayloadDerived` (temporal_delimiter.h:78-81). -/
def rTemporalDelimiter (_payloadSize : Int) : Rd Unit := .ret ()

theorem temporalDelimiter_rt (g : LebGen) (footer : List UInt8) :
    RTPayload g wTemporalDelimiter rTemporalDelimiter footer () := fun bs hb _ _ => RT.ret g () bs hb

/-! ### Arbitrary OBU (iamf/obu/arbitrary_obu.{h,cc}) -/

/-- `ArbitraryObu` (arbitrary_obu.h:95-100); the insertion tick is only used by the sequencers. -/
structure ArbitraryObu where
  header : ObuHeader
  payload : List UInt8
  insertionHook : Nat
  insertionTick : Option Int
  invalidatesBitstream : Bool
  deriving DecidableEq, Repr

/-- `ArbitraryObu::ValidateAndWritePayload` (arbitrary_obu.cc:40-49). -/
def ArbitraryObu.writePayload (o : ArbitraryObu) : Wr Unit := do
  wBytes o.payload
  Wr.check (!o.invalidatesBitstream)

/-- `ArbitraryObu::ReadAndValidatePayloadDerived` (arbitrary_obu.cc:51-56). -/
def ArbitraryObu.read (_payloadSize : Int) : Rd Unit := .fail .unimplemented

/-- `ArbitraryObu::ValidateAndWriteObu`; nothing sets the footer. -/
def ArbitraryObu.write (o : ArbitraryObu) : Wr Unit := wObu o.header o.writePayload []

/-- `ArbitraryObu::WriteObusWithHook` (arbitrary_obu.cc:29-38). -/
def writeObusWithHook (hook : Nat) (obus : List ArbitraryObu) : Wr Unit :=
  match obus with
  | [] => .ret ()
  | o :: os => if o.insertionHook = hook then (o.write).bind fun _ => writeObusWithHook hook os
    else writeObusWithHook hook os

/-! ### Audio Frame (iamf/obu/audio_frame.{h,cc}) -/

/-- Payload of `AudioFrameObu` (audio_frame.h:81-85). -/
structure AudioFrame where
  substreamId : UInt32
  audioFrame : List UInt8
  deriving DecidableEq, Repr

/-- `GetObuType` (audio_frame.cc:33-42). -/
def audioFrameObuType (substreamId : UInt32) : ObuType :=
  if substreamId.toNat > 17 then ObuType.audioFrame else UInt8.ofNat (6 + substreamId.toNat)

/-- `AudioFrameObu::ValidateAndWritePayload` (audio_frame.cc:60-69). -/
def AudioFrame.write (t : ObuType) (o : AudioFrame) : Wr Unit := do
  (if t = ObuType.audioFrame then wUleb o.substreamId else pure ())
  wBytes o.audioFrame

/-- `AudioFrameObu::ReadAndValidatePayloadDerived` (audio_frame.cc:71-88); the implicit id is the `int`
difference stored into a `uint32_t`. -/
def AudioFrame.read (h : ObuHeader) (payloadSize : Int) : Rd AudioFrame := do
  let id ← (if h.obuType = ObuType.audioFrame then rUlebSize
    else pure (UInt32.ofNat h.obuType.toNat - 6, 0))
  Rd.check (!(decide (payloadSize < 0) || decide (payloadSize < id.2)))
  let bytes ← rBytes (payloadSize - id.2).toNat
  pure ⟨id.1, bytes⟩

/-- The constructor `AudioFrameObu(header, substream_id, audio_frame)` (audio_frame.cc:46-51) chooses the
OBU type. -/
def AudioFrame.header (h : ObuHeader) (o : AudioFrame) : ObuHeader :=
  { h with obuType := audioFrameObuType o.substreamId }

theorem audioFrameObuType_explicit (id : UInt32) : audioFrameObuType id = ObuType.audioFrame ↔ 17 < id.toNat := by
  unfold audioFrameObuType
  split
  · simp; assumption
  next h =>
    constructor
    · intro he
      have := congrArg UInt8.toNat he
      simp only [UInt8.toNat_ofNat', ObuType.audioFrame] at this
      have h5 : (5 : UInt8).toNat = 5 := rfl
      rw [h5] at this
      omega
    · intro h'; omega

theorem audioFrameObuType_implicit (id : UInt32) (h : ¬ 17 < id.toNat) :
    UInt32.ofNat (UInt8.toNat (audioFrameObuType id)) - 6 = id := by
  unfold audioFrameObuType
  rw [if_neg h]
  have e : (UInt8.ofNat (6 + id.toNat)).toNat = 6 + id.toNat := by
    rw [UInt8.toNat_ofNat']; omega
  rw [e]
  apply UInt32.toNat_inj.mp
  rw [UInt32.toNat_sub, UInt32.toNat_ofNat', show (6 : UInt32).toNat = 6 from rfl]
  have := id.toNat_lt
  omega

/-- An audio frame takes the whole payload, so it has no footer. -/
theorem AudioFrame.rt (g : LebGen) (h : ObuHeader) (o : AudioFrame) :
    RTPayload g (o.write (o.header h).obuType) (AudioFrame.read (o.header h).normalized) [] o := by
  intro bs hb hal _
  have ht : (o.header h).normalized.obuType = audioFrameObuType o.substreamId := by
    unfold ObuHeader.normalized; split <;> rfl
  unfold AudioFrame.write at hb
  unfold AudioFrame.read
  rw [ht]
  have ht2 : (o.header h).obuType = audioFrameObuType o.substreamId := rfl
  rw [ht2] at hb
  simp only [Wr.bind_eq, Rd.bind_eq, Wr.pure_eq, Rd.pure_eq] at hb ⊢
  rw [Wr.eval_bind_ok] at hb
  obtain ⟨_, b1, b2, h1, h2, rfl⟩ := hb
  have hb2 := wBytes_ok h2
  subst hb2
  have hfin : ∀ (n : Int) (k : Nat), n = (k : Int) + o.audioFrame.length →
      Reads ((Rd.check (!(decide (n < 0) || decide (n < (k : Int))))).bind fun _ =>
        (rBytes (n - (k : Int)).toNat).bind fun bytes => Rd.ret (⟨o.substreamId, bytes⟩ : AudioFrame))
        (bytesBits o.audioFrame) o := by
    intro n k hn
    subst hn
    have hc : (!(decide ((k : Int) + o.audioFrame.length < 0) || decide ((k : Int) + o.audioFrame.length < (k : Int)))) = true := by
      simp only [Bool.not_eq_true', Bool.or_eq_false_iff, decide_eq_false_iff_not]; omega
    rw [hc]
    have e : ((k : Int) + o.audioFrame.length - (k : Int)).toNat = o.audioFrame.length := by omega
    rw [e]
    have := (reads_bytes o.audioFrame).bind (f := fun bytes => Rd.ret (⟨o.substreamId, bytes⟩ : AudioFrame)) (Reads.ret o)
    rw [List.append_nil] at this
    exact this
  by_cases hx : audioFrameObuType o.substreamId = ObuType.audioFrame
  · rw [if_pos hx] at h1 ⊢
    have hl := (wUleb_ok h1).2
    refine (rt_UlebSize g o.substreamId b1 h1).bind ?_
    simp only
    apply hfin
    rw [List.length_append, bytesBits_length, hl, bytesBits_length, LebGen.enc_length]
    simp only [List.length_nil]
    omega
  · rw [if_neg hx] at h1 ⊢
    simp only [Wr.eval_ret, Prod.mk.injEq, true_and] at h1
    subst h1
    simp only [Rd.bind, List.nil_append]
    rw [audioFrameObuType_implicit _ (by rw [audioFrameObuType_explicit] at hx; exact hx)]
    have := hfin ((((bytesBits o.audioFrame).length / 8 + ([] : List UInt8).length : Nat)) : Int) 0
      (by rw [bytesBits_length, List.length_nil]; omega)
    exact this

theorem AudioFrame.sf (h : ObuHeader) (n : Int) : Sf (AudioFrame.read h n) (fun _ => True) := by
  unfold AudioFrame.read; sf_auto

theorem AudioFrame.stable (h : ObuHeader) (n : Int) : Stable (AudioFrame.read h n) := by
  unfold AudioFrame.read; stable_auto

/-! ### Metadata (iamf/obu/metadata_obu.{h,cc}) -/

/-- State of a `MetadataObu` (metadata_obu.h:101-102) as its factories leave it: `Create` makes type and
variant agree, `CreateFromBuffer` leaves the variant unspecified for an unknown type. -/
inductive Metadata where
  | ituT35 (countryCode : UInt8) (extByte : Option UInt8) (payload : List UInt8)
  | iamfTags (tags : List (List UInt8 × List UInt8))
  | unknown (type : UInt32)
  deriving DecidableEq, Repr

/-- `WriteMetadataITUTT35` (metadata_obu.cc:78-94). -/
def wItuT35 (cc : UInt8) (ext : Option UInt8) (payload : List UInt8) : Wr Unit := do
  wU8 cc 8
  (if cc = 0xff then
    match ext with
    | none => .fail .invalidArgument
    | some b => wU8 b 8
  else pure ())
  wBytes payload

/-- One tag (metadata_obu.cc:100-101). -/
def wTag (t : List UInt8 × List UInt8) : Wr Unit := do
  wString t.1
  wString t.2

/-- `WriteMetadataIamfTags` (metadata_obu.cc:96-104). -/
def wIamfTags (tags : List (List UInt8 × List UInt8)) : Wr Unit := do
  wU32 (UInt32.ofNat tags.length) 8
  wAll wTag tags

/-- `MetadataObu::ValidateAndWritePayload` (metadata_obu.cc:130-140). -/
def Metadata.write : Metadata → Wr Unit
  | .ituT35 cc ext payload => do
    wUleb 1
    wItuT35 cc ext payload
  | .iamfTags tags => do
    wUleb 2
    wIamfTags tags
  | .unknown t => wUleb t

/-- `ReadAndValidateMetadataITUTT35` with `InferItuT35PayloadSize` (metadata_obu.cc:23-63). -/
def rItuT35 (payloadSize : Int) (typeSize : Nat) : Rd Metadata := do
  let cc ← rU8 8
  let ext ← (if cc = 0xff then do
      let b ← rU8 8
      pure (some b)
    else pure none)
  let overhead : Int := typeSize + (if cc = 0xff then 2 else 1)
  Rd.check (!decide (payloadSize < overhead))
  let bytes ← rBytes (payloadSize - overhead).toNat
  pure (.ituT35 cc ext bytes)

/-- One tag (metadata_obu.cc:70-73). -/
def rTag : Rd (List UInt8 × List UInt8) := do
  let n ← rString
  let v ← rString
  pure (n, v)

/-- `ReadAndValidateMetadataIamfTags` (metadata_obu.cc:65-76). -/
def rIamfTags : Rd (List (List UInt8 × List UInt8)) := do
  let n ← rU8 8
  rRep rTag n.toNat

/-- `MetadataObu::ReadAndValidatePayloadDerived` (metadata_obu.cc:142-164). -/
def Metadata.read (payloadSize : Int) : Rd Metadata := do
  let t ← rUlebSize
  if t.1 = 1 then do
    Rd.check (!decide (payloadSize < t.2))
    rItuT35 payloadSize t.2
  else if t.1 = 2 then do
    let tags ← rIamfTags
    pure (.iamfTags tags)
  else pure (.unknown t.1)

/-- What a reader can recover: the extension byte is only transmitted with country code `0xff`. -/
def Metadata.normalized : Metadata → Metadata
  | .ituT35 cc ext payload => .ituT35 cc (if cc = 0xff then ext else none) payload
  | m => m

theorem rt_tag (g : LebGen) (t : List UInt8 × List UInt8) : RT g (wTag t) rTag t :=
  (rt_String g t.1).seq ((rt_String g t.2).map rfl)

theorem rt_U32_U8 (g : LebGen) (d : UInt32) (n : Nat) (hn : 0 < n) (h : n ≤ 8) :
    RT g (wU32 d n) (rU8 n) (UInt8.ofNat d.toNat) := by
  intro bs hb
  rw [eval_wU32 g d n hn (by omega)] at hb
  split at hb
  next hd =>
    simp only [Prod.mk.injEq, true_and] at hb
    subst hb
    exact reads_lit_ret 8 n d.toNat UInt8.ofNat h hd
  next => simp at hb

theorem wU32_ok {g : LebGen} {d : UInt32} {n : Nat} {bs : Bits} (hn : 0 < n) (h : n ≤ 32)
    (hb : (wU32 d n).eval g = (.ok (), bs)) : d.toNat < 2 ^ n ∧ bs = natBits n d.toNat := by
  rw [eval_wU32 g d n hn h] at hb
  split at hb
  next hd => simp only [Prod.mk.injEq, true_and] at hb; exact ⟨hd, hb.symm⟩
  next => simp at hb

theorem rt_iamfTags (g : LebGen) (tags : List (List UInt8 × List UInt8)) (hl : tags.length < 4294967296) :
    RT g (wIamfTags tags) rIamfTags tags := by
  intro bs hb
  have hb0 := hb
  unfold wIamfTags at hb0
  rw [Wr.bind_eq, Wr.eval_bind_ok] at hb0
  obtain ⟨_, b1, b2, h1, h2, rfl⟩ := hb0
  have hlt := (wU32_ok (n := 8) (by omega) (by omega) h1).1
  have e : (UInt8.ofNat (UInt32.ofNat tags.length).toNat).toNat = tags.length := by
    rw [UInt32.toNat_ofNat', UInt8.toNat_ofNat'] at *
    omega
  refine (rt_U32_U8 g (UInt32.ofNat tags.length) 8 (by omega) (by omega) b1 h1).bind ?_
  rw [e]
  exact rt_rep g wTag rTag tags (fun t _ => rt_tag g t) b2 h2

/-- Metadata round trip.  ITU-T T.35 metadata takes the whole payload, hence has no footer. -/
theorem Metadata.rt (g : LebGen) (o : Metadata) (footer : List UInt8)
    (hl : ∀ tags, o = .iamfTags tags → tags.length < 4294967296)
    (hu : ∀ t, o = .unknown t → t ≠ 1 ∧ t ≠ 2)
    (hf : ∀ cc e p, o = .ituT35 cc e p → footer = []) :
    RTPayload g o.write Metadata.read footer o.normalized := by
  intro bs hb hal _
  cases o with
  | unknown t =>
    obtain ⟨h1, h2⟩ := hu t rfl
    unfold Metadata.write at hb
    unfold Metadata.read
    have := (rt_UlebSize g t bs hb).bind (f := fun t : UInt32 × Nat =>
      if t.1 = 1 then (do
        Rd.check (!decide ((((bs.length / 8 + footer.length : Nat)) : Int) < t.2))
        rItuT35 (((bs.length / 8 + footer.length : Nat)) : Int) t.2)
      else if t.1 = 2 then (do
        let tags ← rIamfTags
        pure (.iamfTags tags))
      else pure (Metadata.unknown t.1)) (b2 := []) (b := .unknown t) (by
        simp only [h1, h2, ↓reduceIte]; exact Reads.ret _)
    rw [List.append_nil] at this
    exact this
  | iamfTags tags =>
    have hb : ((wUleb 2).bind fun _ => wIamfTags tags).eval g = (.ok (), bs) := hb
    unfold Metadata.read
    refine (RT.seq (rt_UlebSize g 2) ?_) bs hb
    rw [if_neg (show ¬ (2 : UInt32) = 1 by decide), if_pos rfl]
    exact (rt_iamfTags g tags (hl tags rfl)).map rfl
  | ituT35 cc ext payload =>
    have hf' := hf cc ext payload rfl
    subst hf'
    have hb : ((wUleb 1).bind fun _ => wItuT35 cc ext payload).eval g = (.ok (), bs) := hb
    rw [Wr.eval_bind_ok] at hb
    obtain ⟨_, b1, b2, h1, h2, rfl⟩ := hb
    unfold wItuT35 at h2
    simp only [Wr.bind_eq, Wr.pure_eq] at h2
    rw [Wr.eval_bind_ok] at h2
    obtain ⟨_, c1, c2, k1, k2, rfl⟩ := h2
    rw [Wr.eval_bind_ok] at k2
    obtain ⟨_, c3, c4, k3, k4, rfl⟩ := k2
    have e4 := wBytes_ok k4
    subst e4
    have hl1 : b1.length = 8 * g.len 1 := by rw [(wUleb_ok h1).2]; simp
    have hc1 : c1 = byteBits cc := by
      rw [eval_wU8_8] at k1; simp only [Prod.mk.injEq, true_and] at k1; exact k1.symm
    unfold Metadata.read
    refine (rt_UlebSize g 1 b1 h1).bind ?_
    rw [if_pos rfl]
    simp only
    generalize hn : (((b1 ++ (c1 ++ (c3 ++ bytesBits payload))).length / 8 + ([] : List UInt8).length : Nat) : Int) = n
    have hlen : (n : Int) = g.len 1 + 1 + c3.length / 8 + payload.length := by
      rw [← hn]
      have hc38 : c3.length % 8 = 0 := by
        simp only [List.length_append, hl1, hc1, byteBits_length, bytesBits_length] at hal
        omega
      simp only [List.length_append, hl1, hc1, byteBits_length, bytesBits_length, List.length_nil]
      omega
    have hck : (!decide (n < (g.len 1 : Int))) = true := by
      simp only [Bool.not_eq_true', decide_eq_false_iff_not]; omega
    rw [hck]
    show Reads (rItuT35 n (g.len 1)) _ _
    unfold rItuT35
    refine (rt_U8 g cc 8 (by omega) (by omega) c1 k1).bind ?_
    by_cases hcc : cc = 0xff
    · rw [if_pos hcc] at k3
      cases hext : ext with
      | none => rw [hext] at k3; simp at k3
      | some b =>
        rw [hext] at k3
        simp only at k3
        have hc3 : c3 = byteBits b := by
          rw [eval_wU8_8] at k3; simp only [Prod.mk.injEq, true_and] at k3; exact k3.symm
        have hr3 := (rt_U8 g b 8 (by omega) (by omega)).map (f := fun b => Rd.ret (some b)) rfl c3 k3
        rw [if_pos hcc, if_pos hcc]
        refine hr3.bind ?_
        have h3 : c3.length = 8 := by rw [hc3]; simp
        have hck2 : (!decide (n < (g.len 1 : Int) + 2)) = true := by
          simp only [Bool.not_eq_true', decide_eq_false_iff_not]; omega
        simp only [hck2]
        have e : (n - ((g.len 1 : Int) + 2)).toNat = payload.length := by omega
        rw [e]
        simp only [Metadata.normalized, hcc, ↓reduceIte]
        have := (reads_bytes payload).bind (f := fun bytes => Rd.ret (Metadata.ituT35 0xff (some b) bytes)) (Reads.ret _)
        rw [List.append_nil] at this
        exact this
    · rw [if_neg hcc] at k3
      simp only [Wr.eval_ret, Prod.mk.injEq, true_and] at k3
      subst k3
      rw [if_neg hcc, if_neg hcc]
      have hck2 : (!decide (n < (g.len 1 : Int) + 1)) = true := by
        simp only [Bool.not_eq_true', decide_eq_false_iff_not]
        simp only [List.length_nil] at hlen
        omega
      simp only [Rd.bind_eq, Rd.pure_eq, Rd.bind, hck2, List.nil_append]
      have e : (n - ((g.len 1 : Int) + 1)).toNat = payload.length := by
        simp only [List.length_nil] at hlen
        omega
      rw [e]
      simp only [Metadata.normalized, hcc, ↓reduceIte]
      have := (reads_bytes payload).bind (f := fun bytes => Rd.ret (Metadata.ituT35 cc none bytes)) (Reads.ret _)
      rw [List.append_nil] at this
      exact this

theorem Metadata.sf (n : Int) : Sf (Metadata.read n) (fun _ => True) := by
  unfold Metadata.read rItuT35 rIamfTags rTag; sf_auto

theorem Metadata.stable (n : Int) : Stable (Metadata.read n) := by
  unfold Metadata.read rItuT35 rIamfTags rTag; stable_auto

end Iamf
