import Verif.Props.Mix
/-
  Properties of parsing arbitrary bytes: C15, C16.
-/
namespace Iamf.Props
open Iamf

/-- The readers this project applies to untrusted data: one per OBU type (`CreateFromBuffer` of each class), and the
peek at the next OBU.  Parameter blocks are read under whatever definition the caller has. -/
inductive ObuReader : (α : Type) → Rd α → Prop
  | peek : ObuReader _ ObuHeader.peek
  | header : ObuReader _ ObuHeader.read
  | iaSequenceHeader : ObuReader _ (rObu fun _ => IaSequenceHeader.read)
  | codecConfig : ObuReader _ (rObu fun _ => CodecConfig.read)
  | audioElement : ObuReader _ (rObu fun _ => AudioElement.read)
  | mixPresentation : ObuReader _ (rObu fun hd => MixPresentation.read hd.optionalFieldsFlag)
  | parameterBlock (definition : ParamDef) : ObuReader _ (rObu fun _ => ParameterBlock.read definition)
  | audioFrame : ObuReader _ (rObu AudioFrame.read)
  | temporalDelimiter : ObuReader _ (rObu fun _ => rTemporalDelimiter)
  | metadata : ObuReader _ (rObu fun _ => Metadata.read)

/-- **C15.** Whatever the bytes, the internal capacity of the buffer and the OBU type: reading ends, either with a
value or with an error status; it does not abort, has no undefined behaviour and does not loop forever; and the read
position stays inside the data. -/
theorem C15_parsing_never_crashes {α : Type} (r : Rd α) (h : ObuReader α r) (src : List UInt8) (cap : Nat) (pv : Bool)
    (hc : 0 < cap) :
    ((∃ a, (r.run (RBuf.create cap src pv)).1 = .ok a) ∨
      ∃ e, (r.run (RBuf.create cap src pv)).1 = .error e ∧ e ≠ .abort ∧ e ≠ .ub ∧ e ≠ .diverge) ∧
    0 ≤ (r.run (RBuf.create cap src pv)).2.tell ∧ (r.run (RBuf.create cap src pv)).2.tell ≤ 8 * src.length := by
  obtain ⟨h1, h2, -⟩ := C03_read_buffer_is_cursor r src cap pv (.inl hc)
  have hsf : ∃ Q, Sf r Q := by
    cases h
    · exact ⟨_, sf_peek⟩
    · exact ⟨_, sf_header⟩
    · exact ⟨_, sf_obu fun _ n _ => IaSequenceHeader.sf n⟩
    · exact ⟨_, sf_obu fun _ n _ => CodecConfig.sf n⟩
    · exact ⟨_, sf_obu fun _ n _ => AudioElement.sf n⟩
    · exact ⟨_, sf_obuH fun hd n _ => MixPresentation.sf _ n⟩
    · exact ⟨_, sf_obu fun _ n _ => ParameterBlock.sf _ n⟩
    · exact ⟨_, sf_obu fun hd n _ => AudioFrame.sf hd n⟩
    · exact ⟨_, sf_obu (Q := fun _ => True) fun _ n _ => Sf.ret trivial⟩
    · exact ⟨_, sf_obu fun _ n _ => Metadata.sf n⟩
  obtain ⟨Q, hQ⟩ := hsf
  refine ⟨?_, ?_, ?_⟩
  · rw [h1]
    have := hQ ⟨bytesBits src, 0, pv⟩
    match hx : (r.runA ⟨bytesBits src, 0, pv⟩).1 with
    | .ok a => exact .inl ⟨a, rfl⟩
    | .error e =>
      rw [hx] at this
      refine .inr ⟨e, rfl, ?_, ?_, ?_⟩ <;> rintro rfl <;> simp [Err.fatal] at this
  · rw [h2]; exact Int.natCast_nonneg _
  · rw [h2]
    have := r.runA_inside ⟨bytesBits src, 0, pv⟩ (by simp)
    rw [this.2] at this
    simp only [bytesBits_length] at this
    omega

/-- The readers for which C16 holds: all but the one for mix presentations. -/
inductive StableReader : (α : Type) → Rd α → Prop
  | peek : StableReader _ ObuHeader.peek
  | header : StableReader _ ObuHeader.read
  | iaSequenceHeader : StableReader _ (rObu fun _ => IaSequenceHeader.read)
  | codecConfig : StableReader _ (rObu fun _ => CodecConfig.read)
  | audioElement : StableReader _ (rObu fun _ => AudioElement.read)
  | parameterBlock (definition : ParamDef) : StableReader _ (rObu fun _ => ParameterBlock.read definition)
  | audioFrame : StableReader _ (rObu AudioFrame.read)
  | temporalDelimiter : StableReader _ (rObu fun _ => rTemporalDelimiter)
  | metadata : StableReader _ (rObu fun _ => Metadata.read)

/-- **C16.** If more data is appended to the input of such a reader, a successful result stays the same, with the same
end position; so does every error except "resource exhausted", which therefore is the only answer that may mean
that more data is needed. -/
theorem C16_more_data_changes_nothing {α : Type} (r : Rd α) (h : StableReader α r) (src more : List UInt8) (cap cap' : Nat)
    (pv : Bool) (hc : 0 < cap) (hc' : 0 < cap') :
    (r.run (RBuf.create cap src pv)).1 = .error .resourceExhausted ∨
    ((r.run (RBuf.create cap' (src ++ more) pv)).1 = (r.run (RBuf.create cap src pv)).1 ∧
      (r.run (RBuf.create cap' (src ++ more) pv)).2.tell = (r.run (RBuf.create cap src pv)).2.tell) := by
  obtain ⟨h1, h2, -⟩ := C03_read_buffer_is_cursor r src cap pv (.inl hc)
  obtain ⟨g1, g2, -⟩ := C03_read_buffer_is_cursor r (src ++ more) cap' pv (.inl hc')
  rw [h1, h2, g1, g2]
  have hst : Stable r := by
    cases h
    · exact stable_peek
    · exact stable_header
    · exact stable_obu fun _ n => IaSequenceHeader.stable n
    · exact stable_obu fun _ n => CodecConfig.stable n
    · exact stable_obu fun _ n => AudioElement.stable n
    · exact stable_obu fun _ n => ParameterBlock.stable _ n
    · exact stable_obu fun hd n => AudioFrame.stable hd n
    · exact stable_obu fun _ n => Stable.ret _
    · exact stable_obu fun _ n => Metadata.stable n
  have := hst ⟨bytesBits src, 0, pv⟩ (bytesBits more) (by simp)
  have hext : RS.ext ⟨bytesBits src, 0, pv⟩ (bytesBits more) = ⟨bytesBits (src ++ more), 0, pv⟩ := by
    simp [RS.ext, bytesBits_append]
  rw [hext] at this
  match hx : r.runA ⟨bytesBits src, 0, pv⟩ with
  | (.ok a, s') => rw [hx] at this; simp only at this; rw [this]; exact .inr ⟨rfl, rfl⟩
  | (.error e, s') =>
    rw [hx] at this
    simp only at this
    rcases this with rfl | h
    · exact .inl rfl
    · rw [h]; exact .inr ⟨rfl, rfl⟩

/-- Not vacuous: an IA sequence header is read from exactly its bytes; with one byte less, more data is asked for. -/
example : ((rObu fun _ => IaSequenceHeader.read).run (RBuf.create 4 [0xf8, 6, 0x69, 0x61, 0x6d, 0x66, 0, 1] true)).1 =
    .ok (⟨31, false, false, 0, 0, none⟩, ⟨0, 1⟩, []) := by decide +kernel
example : ((rObu fun _ => IaSequenceHeader.read).run (RBuf.create 4 [0xf8, 6, 0x69, 0x61, 0x6d, 0x66, 0] true)).1 =
    .error .resourceExhausted := by decide +kernel

/-- A complete mix presentation OBU: its rendering config claims a gain offset that is longer than the extension. -/
def strangeMix : List UInt8 :=
  [0x10, 31, 0, 0, 1, 1, 0, 0x20, 3, 0, 2, 24, 1, 0x80, 0xf7, 2, 0x80, 0, 0, 1, 0x80, 0xf7, 2, 0x80, 0, 0, 1, 0x80,
    0, 0, 0, 0, 0]

/-- **C16 (finding: false for mix presentations).** Whether a complete mix presentation OBU is accepted may depend on
the data behind it: this one is accepted at the end of the data and rejected when a temporal delimiter follows.
(What the writer produces is always read back independently of the data behind it:
`C11_mix_presentation_round_trip`.) -/
theorem C16_mix_presentation_depends_on_following_obu :
    ((rObu fun hd => MixPresentation.read hd.optionalFieldsFlag).run (RBuf.create 64 strangeMix true)).1.isOk = true ∧
    ((rObu fun hd => MixPresentation.read hd.optionalFieldsFlag).run (RBuf.create 64 (strangeMix ++ [0x20, 0]) true)).1.isOk =
      true ∧
    ((rObu fun hd => MixPresentation.read hd.optionalFieldsFlag).run
      (RBuf.create 64 (strangeMix ++ [0x20, 0, 0x20, 0]) true)).1 = .error .invalidArgument :=
  ⟨by decide +kernel, by decide +kernel, by decide +kernel⟩

end Iamf.Props
