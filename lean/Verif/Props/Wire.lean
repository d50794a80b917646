import Verif.Obu.Wire
import Verif.Props.Codec
/-
  C30: the exact bytes of every OBU, and exactly which OBUs can be written.

  Each `…Table` below transcribes a syntax table of the IAMF specification (field widths, order, conditions); each `…Ok`
  lists the semantic constraints.  The theorems say: an OBU is written if and only if its constraints hold and every value
  fits its field, and then the bytes are exactly the table.  The language of tables is `Iamf.Field` in `Verif.Obu.Wire`.
-/
namespace Iamf.Props
open Iamf

/-! ### Whole OBUs -/

/-- The rows of a whole OBU: header, payload, footer. -/
def obuTable (g : LebGen) (h : ObuHeader) (payload : List Field) (footer : List UInt8) : List Field :=
  headerTable h ((encode g (headerTail h)).length / 8 + ((encode g payload).length / 8 + footer.length)) ++
    (payload ++ [.bytes footer])

/-- `bytes` is the OBU with header `h`, payload rows `t` and footer: the header flags are allowed, the OBU is not larger than
two megabytes, every value fits its field, and the bytes are those of the table. -/
structure IsObu (g : LebGen) (h : ObuHeader) (t : List Field) (footer bytes : List UInt8) : Prop where
  flags : HeaderOk h
  small : bytes.length ≤ 2097152
  fits : Fits g (obuTable g h t footer)
  bits : bytesBits bytes = encode g (obuTable g h t footer)

theorem obuTable_length (g : LebGen) (h : ObuHeader) (t : List Field) (footer : List UInt8) :
    (encode g (obuTable g h t footer)).length = 8 * (1 + g.len (UInt32.ofNat
      ((encode g (headerTail h)).length / 8 + ((encode g t).length / 8 + footer.length)))) +
      (encode g (headerTail h)).length + ((encode g t).length + 8 * footer.length) := by
  unfold obuTable headerTable
  simp only [encode_append, encode_cons, encode_nil, Field.bits, List.length_append, bytesBits_length, natBits_length,
    ulebFixed_length, List.length_nil]
  omega

theorem writes_obu {g : LebGen} {h : ObuHeader} {payload : Wr Unit} {P : Prop} {t : List Field} (footer bytes : List UInt8)
    (hp : Emits g payload P t) : Writes g (wObu h payload footer) bytes ↔ P ∧ IsObu g h t footer bytes := by
  have hw : Writes g (wObu h payload footer) bytes ↔ (wObu h payload footer).eval g = (.ok (), bytesBits bytes) :=
    ⟨Writes.eval, Writes.of_eval⟩
  rw [hw, emits_obu hp]
  have hl := obuTable_length g h t footer
  have ht := headerTail_aligned g h
  constructor
  · rintro ⟨⟨hP, ha, hh, hs⟩, hF, hb⟩
    refine ⟨hP, hh, ?_, hF, hb⟩
    have := congrArg List.length hb
    rw [bytesBits_length] at this
    unfold SizeOk Emits.size at hs
    have e : (encode g (obuTable g h t footer)).length = 8 * bytes.length := this.symm
    omega
  · rintro ⟨hP, hh, hs, hF, hb⟩
    have e := congrArg List.length hb
    rw [bytesBits_length] at e
    refine ⟨⟨hP, by omega, hh, ?_⟩, hF, hb⟩
    unfold SizeOk Emits.size
    omega

/-! ### Rules for literal widths, and a tactic for straight-line writers -/

section rules
variable {g : LebGen}
theorem em8_8 {d : UInt8} : Emits g (wU8 d 8) True [.u 8 d.toNat] := Emits.u8 (n := 8) (by omega) (by omega)
theorem em8_7 {d : UInt8} : Emits g (wU8 d 7) True [.u 7 d.toNat] := Emits.u8 (n := 7) (by omega) (by omega)
theorem em8_6 {d : UInt8} : Emits g (wU8 d 6) True [.u 6 d.toNat] := Emits.u8 (n := 6) (by omega) (by omega)
theorem em8_5 {d : UInt8} : Emits g (wU8 d 5) True [.u 5 d.toNat] := Emits.u8 (n := 5) (by omega) (by omega)
theorem em8_4 {d : UInt8} : Emits g (wU8 d 4) True [.u 4 d.toNat] := Emits.u8 (n := 4) (by omega) (by omega)
theorem em8_3 {d : UInt8} : Emits g (wU8 d 3) True [.u 3 d.toNat] := Emits.u8 (n := 3) (by omega) (by omega)
theorem em8_2 {d : UInt8} : Emits g (wU8 d 2) True [.u 2 d.toNat] := Emits.u8 (n := 2) (by omega) (by omega)
theorem em8_1 {d : UInt8} : Emits g (wU8 d 1) True [.u 1 d.toNat] := Emits.u8 (n := 1) (by omega) (by omega)
theorem em16_16 {d : UInt16} : Emits g (wU16 d 16) True [.u 16 d.toNat] := Emits.u16 (n := 16) (by omega) (by omega)
theorem em32_32 {d : UInt32} : Emits g (wU32 d 32) True [.u 32 d.toNat] := Emits.u32 (n := 32) (by omega) (by omega)
theorem em32_24 {d : UInt32} : Emits g (wU32 d 24) True [.u 24 d.toNat] := Emits.u32 (n := 24) (by omega) (by omega)
theorem em32_20 {d : UInt32} : Emits g (wU32 d 20) True [.u 20 d.toNat] := Emits.u32 (n := 20) (by omega) (by omega)
theorem em32_8 {d : UInt32} : Emits g (wU32 d 8) True [.u 8 d.toNat] := Emits.u32 (n := 8) (by omega) (by omega)
theorem em32_4 {d : UInt32} : Emits g (wU32 d 4) True [.u 4 d.toNat] := Emits.u32 (n := 4) (by omega) (by omega)
theorem em64_36 {d : UInt64} : Emits g (wU64 d 36) True [.u 36 d.toNat] := Emits.u64 (n := 36) (by omega) (by omega)
end rules

syntax "em_more" : tactic
macro_rules | `(tactic| em_more) => `(tactic| fail)
macro "em_step" : tactic => `(tactic| first
  | with_reducible exact Emits.ret | with_reducible exact Emits.check | with_reducible exact Emits.status
  | with_reducible exact Emits.uleb | with_reducible exact Emits.bool | with_reducible exact Emits.bytes
  | with_reducible exact Emits.string | with_reducible exact Emits.s16 | with_reducible exact Emits.s8
  | with_reducible exact Emits.s9
  | with_reducible exact em8_8 | with_reducible exact em8_7 | with_reducible exact em8_6 | with_reducible exact em8_5
  | with_reducible exact em8_4 | with_reducible exact em8_3 | with_reducible exact em8_2 | with_reducible exact em8_1
  | with_reducible exact em16_16 | with_reducible exact em32_32 | with_reducible exact em32_24
  | with_reducible exact em32_20 | with_reducible exact em32_8 | with_reducible exact em32_4
  | with_reducible exact em64_36 | with_reducible exact Emits.fail
  | em_more
  | with_reducible apply Emits.bind)
/-- Prove `Emits` for straight-line code, computing the condition and the table. -/
macro "em_auto" : tactic => `(tactic| ((try simp only [Wr.bind_eq, Wr.pure_eq]); repeat em_step))

/-! ### IA sequence header, temporal delimiter, audio frame, metadata -/

/-- ia_sequence_header_obu() -/
def iaSequenceHeaderTable (o : IaSequenceHeader) : List Field :=
  [.u 32 0x69616d66, .u 8 o.primaryProfile.toNat, .u 8 o.additionalProfile.toNat]

theorem emits_iaSequenceHeader {g : LebGen} (o : IaSequenceHeader) :
    Emits g o.write (o.primaryProfile.toNat ≤ 5) (iaSequenceHeaderTable o) := by
  unfold IaSequenceHeader.write
  refine Emits.cast (by em_auto) ?_ ?_
  · simp only [IaSequenceHeader.valid, decide_eq_true_eq, UInt8.le_iff_toNat_le, and_true]; rfl
  · exact fun _ => rfl

/-- **C30 (IA sequence header).** OBU type 31; "iamf" and the two profiles; the primary profile is one of the six known. -/
theorem C30_ia_sequence_header (g : LebGen) (h : ObuHeader) (o : IaSequenceHeader) (footer bytes : List UInt8) :
    Writes g (wObu { h with obuType := ObuType.sequenceHeader } o.write footer) bytes ↔
      o.primaryProfile.toNat ≤ 5 ∧ IsObu g { h with obuType := 31 } (iaSequenceHeaderTable o) footer bytes :=
  writes_obu footer bytes (emits_iaSequenceHeader o)

example : IsObu .minimum ⟨31, true, false, 0, 0, some [5, 6]⟩ (iaSequenceHeaderTable ⟨0, 1⟩) [7]
    [0xfd, 10, 2, 5, 6, 0x69, 0x61, 0x6d, 0x66, 0, 1, 7] := ⟨by decide, by decide, by decide +kernel, by decide +kernel⟩

/-- **C30 (temporal delimiter).** OBU type 4, no payload. -/
theorem C30_temporal_delimiter (g : LebGen) (h : ObuHeader) (footer bytes : List UInt8) :
    Writes g (wObu { h with obuType := ObuType.temporalDelimiter } wTemporalDelimiter footer) bytes ↔
      IsObu g { h with obuType := 4 } [] footer bytes := by
  have := writes_obu (g := g) (h := { h with obuType := ObuType.temporalDelimiter }) footer bytes
    (Emits.ret (g := g))
  rw [true_and] at this
  exact this

/-- audio_frame_obu(): the substream id is in the OBU type for ids 0 to 17, and explicit otherwise. -/
def audioFrameTable (o : AudioFrame) : List Field :=
  (if 17 < o.substreamId.toNat then [.leb o.substreamId] else []) ++ [.bytes o.audioFrame]

/-- The OBU type of an audio frame. -/
def audioFrameType (o : AudioFrame) : UInt8 := if 17 < o.substreamId.toNat then 5 else UInt8.ofNat (6 + o.substreamId.toNat)

/-- **C30 (audio frame).** -/
theorem C30_audio_frame (g : LebGen) (h : ObuHeader) (o : AudioFrame) (footer bytes : List UInt8) :
    Writes g (wObu (o.header h) (o.write (o.header h).obuType) footer) bytes ↔
      IsObu g { h with obuType := audioFrameType o } (audioFrameTable o) footer bytes := by
  have e : (o.header h) = { h with obuType := audioFrameType o } := rfl
  have hp : Emits g (o.write (o.header h).obuType) True (audioFrameTable o) := by
    unfold AudioFrame.write audioFrameTable
    simp only [Wr.bind_eq, Wr.pure_eq]
    refine ((Emits.ite (fun _ => Emits.uleb) (fun _ => Emits.ret)).bind Emits.bytes).cast (by simp) (fun _ => ?_)
    have : (o.header h).obuType = ObuType.audioFrame ↔ 17 < o.substreamId.toNat := audioFrameObuType_explicit _
    simp only [this]
  have := writes_obu (h := o.header h) footer bytes hp
  rw [true_and] at this
  rw [this, e]

example : IsObu .minimum ⟨audioFrameType ⟨3, [1, 2, 3]⟩, false, true, 8, 200, none⟩ (audioFrameTable ⟨3, [1, 2, 3]⟩) []
    [0x4a, 6, 8, 0xc8, 1, 1, 2, 3] := ⟨by decide, by decide, by decide +kernel, by decide +kernel⟩
example : IsObu .minimum ⟨audioFrameType ⟨200, [1]⟩, false, false, 0, 0, none⟩ (audioFrameTable ⟨200, [1]⟩) []
    [0x28, 3, 0xc8, 1, 1] := ⟨by decide, by decide, by decide +kernel, by decide +kernel⟩

/-- metadata_obu() -/
def metadataTable : Metadata → List Field
  | .ituT35 cc ext payload =>
    [.leb 1, .u 8 cc.toNat] ++ (match cc.toNat, ext with
      | 255, some e => [.u 8 e.toNat]
      | _, _ => []) ++ [.bytes payload]
  | .iamfTags tags => [.leb 2, .u 8 tags.length] ++ tags.flatMap fun t => [.str t.1, .str t.2]
  | .unknown t => [.leb t]

/-- Country code 0xff needs an extension byte. -/
def MetadataOk : Metadata → Prop
  | .ituT35 cc ext _ => cc = 0xff → ext.isSome = true
  | _ => True

theorem emits_tag {g : LebGen} (t : List UInt8 × List UInt8) : Emits g (wTag t) True [.str t.1, .str t.2] := by
  unfold wTag
  refine Emits.cast (by em_auto) ?_ ?_
  · simp
  · exact fun _ => rfl

theorem emits_metadata {g : LebGen} (o : Metadata) (hl : ∀ tags, o = .iamfTags tags → tags.length < 4294967296) :
    Emits g o.write (MetadataOk o) (metadataTable o) := by
  cases o with
  | unknown t => exact Emits.uleb
  | iamfTags tags =>
    unfold Metadata.write wIamfTags
    simp only [Wr.bind_eq]
    refine (Emits.uleb.bind (em32_8.bind (Emits.each fun t _ => emits_tag t))).cast (by simp [MetadataOk]) (fun _ => ?_)
    unfold metadataTable
    have : (UInt32.ofNat tags.length).toNat = tags.length := by
      rw [UInt32.toNat_ofNat']; have := hl tags rfl; omega
    rw [this]; rfl
  | ituT35 cc ext payload =>
    unfold Metadata.write wItuT35
    simp only [Wr.bind_eq, Wr.pure_eq]
    by_cases hc : cc = 0xff
    · rw [if_pos hc]
      subst hc
      cases ext with
      | none => exact Emits.cast (t := metadataTable (.ituT35 255 none payload))
                  (Emits.cast (t := [.leb 1] ++ ([.u 8 255] ++ ([] ++ [.bytes payload])))
                    (Emits.uleb.bind (em8_8.bind (Emits.fail.bind Emits.bytes))) Iff.rfl (by simp)) (by simp [MetadataOk]) (fun _ => rfl)
      | some e => exact Emits.cast (Emits.uleb.bind (em8_8.bind (em8_8.bind Emits.bytes))) (by simp [MetadataOk]) (fun _ => rfl)
    · rw [if_neg hc]
      refine Emits.cast (Emits.uleb.bind (em8_8.bind (Emits.ret.bind Emits.bytes))) (by simp [MetadataOk, hc]) (fun _ => ?_)
      have : cc.toNat ≠ 255 := fun h => hc (UInt8.toNat_inj.mp h)
      clear hl
      show _ = [Field.leb 1, .u 8 cc.toNat] ++ (match cc.toNat, ext with
        | 255, some e => [.u 8 e.toNat]
        | _, _ => []) ++ [.bytes payload]
      split
      next h1 => exact absurd h1 this
      next => rfl

/-- **C30 (metadata).** OBU type 24. -/
theorem C30_metadata (g : LebGen) (h : ObuHeader) (o : Metadata) (footer bytes : List UInt8)
    (hl : ∀ tags, o = .iamfTags tags → tags.length < 4294967296) :
    Writes g (wObu { h with obuType := ObuType.metadata } o.write footer) bytes ↔
      MetadataOk o ∧ IsObu g { h with obuType := 24 } (metadataTable o) footer bytes :=
  writes_obu footer bytes (emits_metadata o hl)

example : IsObu .minimum ⟨24, false, false, 0, 0, none⟩ (metadataTable (.iamfTags [([0x61], [0x62, 0x63])])) []
    [0xc0, 7, 2, 1, 0x61, 0, 0x62, 0x63, 0] := ⟨by decide, by decide, by decide +kernel, by decide +kernel⟩

end Iamf.Props
