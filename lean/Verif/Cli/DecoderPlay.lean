import Verif.Cli.DecoderEnd
import Verif.Cli.DecoderTool
/-
  The calls of the decoder program (Cli/DecoderTool), of a decoder whose data can all be decoded.
-/
namespace Iamf

variable {B : Backend}

/-- A decoder that has read its descriptors and has given out `taken`; `Q` is still to come. -/
def Going (p0 : Processor B) (T Q : Bits) (taken : List Rendered) (d : Decoder B) : Prop :=
  ∃ p, Running p0 p T Q taken d ∧ p.layout = p0.layout ∧ p.rate = p0.rate ∧ p.mixId = p0.mixId

theorem Going.feed {p0 : Processor B} {T Q : Bits} {taken outs : List Rendered} {d : Decoder B} {bytes : List UInt8}
    (h : Going p0 T (bytesBits bytes ++ Q) taken d) (hg0 : p0.state.Good) (hT : T.length < 8 * 4294967295) (hP : Prompt p0 T outs)
    (hne : d.ended = false) (hpe : d.pending = []) (hsmall : d.buffer.src.length + bytes.length ≤ 4194304) :
    ∃ d', d.decode bytes = (.ok (), d') ∧ Going p0 T Q taken d' ∧ d'.ended = false ∧ d'.settings = d.settings ∧
      (d'.pending = [] → Waits p0 T taken d') := by
  obtain ⟨p, h, e1, e2, e3⟩ := h
  obtain ⟨b, h1, h2, h3, h4, h5⟩ := push_refines bytes d.buffer h.fit.wf h.fit.cap
    (by simp only [kEntireObuSizeMaxTwoMegabytes]; omega)
  simp only [Decoder.decode, hne, Bool.false_eq_true, ↓reduceIte, h1, h.processor, hpe, List.isEmpty_nil]
  have key : ∀ ro, ∃ d', Decoder.decodeOne d.fromDescriptors
      { d with buffer := b, processor := some p, pending := [], ended := false, reorderer := ro } = (.ok (), d') ∧
      Going p0 T Q taken d' ∧ d'.ended = false ∧ d'.settings = d.settings ∧ (d'.pending = [] → Waits p0 T taken d') := by
    intro ro
    have hr := h.pushed hne h1 ro
    obtain ⟨d', hd⟩ := hr.decodeOne_ok hg0 hT hP.complete (eos := d.fromDescriptors) (by rw [h.settings.2]; simp)
    obtain ⟨p', g1, g2, g3, g4, g5⟩ := hr.decodeOne_prompt hg0 hT hP hpe (by rw [h.settings.2, hne]) hd
    simp only [hne, hpe] at hd g2
    exact ⟨d', hd, ⟨p', g1, g4.1.trans e1, g4.2.1.trans e2, g4.2.2.trans e3⟩, g2, g3, g5⟩
  exact key _

theorem Going.signalEnd {p0 : Processor B} {T : Bits} {taken outs : List Rendered} {d : Decoder B}
    (h : Going p0 T [] taken d) (hg0 : p0.state.Good) (hT : T.length < 8 * 4294967295) (hP : Prompt p0 T outs) :
    ∃ d', d.signalEnd = (.ok (), d') ∧ Going p0 T [] taken d' ∧ d'.ended = true ∧ d'.settings = d.settings ∧
      (d'.pending = [] → Waits p0 T taken d') := by
  obtain ⟨p, h, e1, e2, e3⟩ := h
  have hr := h.atEnd
  simp only [Decoder.signalEnd, h.settings.2, h.processor]
  by_cases hpe : d.pending = []
  · have hc : (!false && d.pending.isEmpty && (some p).isSome) = true := by rw [hpe]; rfl
    rw [if_pos hc]
    obtain ⟨d', hd⟩ := hr.decodeOne_ok hg0 hT hP.complete (eos := true) (fun _ => rfl)
    obtain ⟨p', g1, g2, g3, g4, g5⟩ := hr.decodeOne_prompt hg0 hT hP hpe rfl hd
    simp only [h.settings.2, h.processor] at hd
    exact ⟨d', hd, ⟨p', g1, g4.1.trans e1, g4.2.1.trans e2, g4.2.2.trans e3⟩, g2, g3, g5⟩
  · have hc : ¬ (!false && d.pending.isEmpty && (some p).isSome) = true := by
      cases hx : d.pending with
      | nil => exact absurd hx hpe
      | cons a l => simp
    rw [if_neg hc]
    exact ⟨_, rfl, ⟨p, by simpa only [h.settings.2, h.processor] using hr, e1, e2, e3⟩, rfl, rfl, fun he => absurd he hpe⟩

theorem Going.getOutput {p0 : Processor B} {T Q : Bits} {taken outs : List Rendered} {d : Decoder B} {size : Nat}
    (h : Going p0 T Q taken d) (hg0 : p0.state.Good) (hT : T.length < 8 * 4294967295) (hP : Prompt p0 T outs)
    (hpe : d.pending ≠ [])
    (hw : writeFrameToSpan d.pending d.settings.sampleType size = .ok (pcmOf d.settings.sampleType d.pending)) :
    ∃ d', d.getOutput size = (.ok (pcmOf d.settings.sampleType d.pending), d') ∧ Going p0 T Q (taken ++ [d.pending]) d' ∧
      d'.ended = d.ended ∧ d'.settings = d.settings ∧ (d'.pending = [] → Waits p0 T (taken ++ [d.pending]) d') := by
  obtain ⟨p, h, e1, e2, e3⟩ := h
  have hpe2 : d.pending.isEmpty = false := by
    cases hx : d.pending with
    | nil => exact absurd hx hpe
    | cons a l => rfl
  simp only [Decoder.getOutput, hpe2, Bool.false_eq_true, ↓reduceIte, hw]
  have hr := h.take hpe2
  obtain ⟨d', hd⟩ := hr.decodeOne_ok hg0 hT hP.complete (eos := d.fromDescriptors || d.ended) (by rw [h.settings.2]; simp)
  obtain ⟨p', g1, g2, g3, g4, g5⟩ := hr.decodeOne_prompt hg0 hT hP rfl (by rw [h.settings.2]; simp) hd
  simp only [hd]
  exact ⟨d', rfl, ⟨p', g1, g4.1.trans e1, g4.2.1.trans e2, g4.2.2.trans e3⟩, g2, g3, g5⟩

end Iamf
