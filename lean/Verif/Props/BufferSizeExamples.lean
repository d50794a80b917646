import Verif.Props.BufferSize
import Verif.Props.PipelineExamples
/-
  C51, for an example: stereo, two samples per frame, 16 bits per sample; the size the documentation gives is exactly what is needed.
-/
namespace Iamf.Props
open Iamf

private abbrev backend : Backend := standardBackend exampleDecibels exampleEnv exampleCodecs ⟨true, true⟩

private theorem honest : HonestEnv exampleEnv := by
  intro c r h
  cases h

private def played : Decoder backend :=
  afterCalls (Decoder.create exampleSettings true) [.call (.decode exampleSpeechFile), .call (.decode [])]

private theorem after_file :
    (played.getFrameSize.toOption, played.getNumberOfOutputChannels.toOption, played.isUnitAvailable,
      (played.getOutput 8).1.toOption, (played.getOutput 7).1.toOption) =
    (some 2, some 2, true, some [1, 0, 3, 0, 2, 0, 255, 255], none) := by decide +kernel

private theorem of_toOption {α : Type} {x : Except Err α} {a : α} (h : x.toOption = some a) : x = .ok a := by
  cases x with
  | error e => cases h
  | ok b => cases h; rfl

/-- A unit is available, the documented size is `2 * 2 * 2` bytes, which is all of it; with a byte less `GetOutputTemporalUnit` fails. -/
example : NewDecoder exampleSettings (Decoder.create exampleSettings true : Decoder backend) ∧
    played.getFrameSize = .ok 2 ∧ played.getNumberOfOutputChannels = .ok 2 ∧ played.isUnitAvailable = true ∧
    (∃ bytes ticks, OutputBytes exampleSettings.sampleType played.pending bytes ∧ ticks ≤ 2 ∧ bytes.length = 2 * ticks * 2 ∧
      ∀ size, 8 ≤ size → ∀ b, (played.getOutput size).1 = .ok b → b = bytes) ∧
    (played.getOutput 8).1 = .ok [1, 0, 3, 0, 2, 0, 255, 255] ∧ ∃ e, (played.getOutput 7).1 = .error e := by
  have h := after_file
  simp only [Prod.mk.injEq] at h
  obtain ⟨h1, h2, h3, h4, h5⟩ := h
  have hn : NewDecoder exampleSettings (Decoder.create exampleSettings true : Decoder backend) := .inl ⟨true, rfl⟩
  have g1 := of_toOption h1
  have g2 := of_toOption h2
  obtain ⟨bytes, ticks, b1, b2, b3, b4⟩ := C51_documented_size_is_enough honest exampleSettings (.inl rfl) _ hn _ played rfl 2 2 g1 g2 h3
  refine ⟨hn, g1, g2, h3, ⟨bytes, ticks, b1, b2, b3, fun size hs => (b4 size hs).1⟩, of_toOption h4, ?_⟩
  cases hx : (played.getOutput 7).1 with
  | error e => exact ⟨e, rfl⟩
  | ok b => rw [hx] at h5; cases h5

end Iamf.Props
