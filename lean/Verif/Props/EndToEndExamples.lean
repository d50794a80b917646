import Verif.Props.EndToEnd
import Verif.Props.ProcessorExamples
/-
  C36: a concrete sequence that meets the hypotheses.
-/
namespace Iamf.Props
open Iamf

theorem example_built : BuiltSequence exampleSequence := by
  constructor
  · exact ⟨rfl, rfl, rfl⟩
  · simp [exampleSequence]
  · decide
  · intro c hc
    simp only [exampleSequence, List.mem_singleton] at hc
    subst hc
    exact ⟨⟨rfl, rfl, rfl⟩, rfl, by simp [CodecConfig.Typed, exampleCodec], by simp [exampleCodec], by decide +kernel⟩
  · decide
  · intro e he
    simp only [exampleSequence, List.mem_singleton] at he
    subst he
    refine ⟨⟨rfl, rfl, rfl⟩, rfl, ?_, by decide +kernel⟩
    exact .scalable 3 0 7 [5] ⟨0, [⟨1, false, false, 0, 1, 1, 0, 0, 0, none⟩]⟩ exampleElement [] (by decide +kernel) (by decide) (by simp)
  · intro m hm
    simp only [exampleSequence, List.mem_singleton] at hm
    subst hm
    refine ⟨⟨rfl, rfl, rfl⟩, ?_, by decide, by decide, by simp, ?_⟩
    · intro s hs
      simp only [exampleStereoMix, List.mem_singleton] at hs
      subst hs
      refine ⟨⟨by simp, _, rfl⟩, fun e he => ?_⟩
      simp only [List.mem_singleton] at he
      subst he
      exact ⟨⟨by simp, _, rfl⟩, fun p hp => by simp at hp, fun x hx => by simp at hx⟩
    · intro s hs e he
      simp only [exampleStereoMix, List.mem_singleton] at hs
      subst hs
      simp only [List.mem_singleton] at he
      subst he
      decide
  · simp [exampleSequence]

/-- Two units, with parameter blocks, an OBU of a reserved type and temporal delimiters. -/
def exampleWritten : List TemporalUnitView := [exampleGained [8, 9] 0, exampleGained [8, 9] 1]

theorem example_transmitted : Transmitted exampleSequence examplePlayable 2 exampleWritten true := by
  refine ⟨example_built, ⟨rfl, .refl _, .refl _, rfl, by simp [examplePlayable], by simp [examplePlayable]⟩, by decide, example_playable, ?_,
    by simp [exampleWritten], .inl rfl⟩
  intro k hk
  have : k = 0 ∨ k = 1 := by simp only [exampleWritten, List.length_cons, List.length_nil] at hk; omega
  rcases this with rfl | rfl
  · exact example_unit [8, 9] (by simp) (by decide) 0
  · exact example_unit [8, 9] (by simp) (by decide) 1

/-- The file. -/
def exampleEncoded : List UInt8 :=
  exampleBytes ++ [32, 0, 192, 2, 1, 2, 24, 6, 8, 2, 2, 0, 0, 5, 24, 6, 9, 2, 2, 0, 0, 5, 88, 4, 1, 2, 3, 4] ++
    [32, 0, 192, 2, 1, 2, 24, 6, 8, 2, 2, 0, 0, 5, 24, 6, 9, 2, 2, 0, 0, 5, 88, 4, 1, 2, 3, 4]

private theorem example_writing :
    (writing .minimum true exampleFile (.pushDescriptors exampleSequence :: exampleWritten.map .pushUnit ++ [.close])).1 =
      [.ok (), .ok (), .ok (), .ok ()] ∧
    fileAfter .minimum true exampleFile (.pushDescriptors exampleSequence :: exampleWritten.map .pushUnit ++ [.close]) =
      some exampleEncoded := by decide +kernel

/-- What the frames are rendered to. -/
def exampleRendered : Rendered := [[1 / 256, 2 / 256, 3 / 256, 4 / 256]]

/-- **C36**, for the example: byte by byte, with calls for output after every byte, and signalling the end afterwards. -/
example (pv : Bool) : AllOk (decoding exampleBackend exampleSettings pv
      ((exampleEncoded.flatMap fun b => [.decode [b], .getOutput 1000]) ++ finish 200 8)).1 ∧
    given (decoding exampleBackend exampleSettings pv
      ((exampleEncoded.flatMap fun b => [.decode [b], .getOutput 1000]) ++ finish 200 8)).1 =
      [[128, 0, 0, 1, 128, 1, 0, 2], [128, 0, 0, 1, 128, 1, 0, 2]] := by
  obtain ⟨p0, hi, h0⟩ : ∃ p0 : Processor exampleBackend, initAll exampleSettings examplePlayable = .ok p0 ∧ p0.renderer = (0 : Nat) :=
    ⟨_, rfl, rfl⟩
  have hsteps : ∀ c ∈ exampleEncoded.flatMap fun b => [DecoderCall.decode [b], .getOutput 1000],
      (∃ b, c = .decode [b]) ∨ c = .getOutput 1000 := by
    intro c hc
    simp only [List.mem_flatMap, List.mem_cons, List.not_mem_nil, or_false] at hc
    obtain ⟨b, -, rfl | rfl⟩ := hc
    · exact .inl ⟨b, rfl⟩
    · exact .inr rfl
  refine C36_every_way_of_decoding_works exampleBackend exampleSettings rfl exampleSequence examplePlayable 2 exampleWritten true
    example_transmitted .minimum exampleFile rfl rfl [.close] (.inr rfl) ?_ exampleEncoded example_writing.2 (by decide +kernel) p0 hi
    [exampleRendered, exampleRendered] ?_ [[128, 0, 0, 1, 128, 1, 0, 2], [128, 0, 0, 1, 128, 1, 0, 2]] ?_ _ pv (by decide +kernel) ?_ ?_ 200 8
    (by decide +kernel) ?_
  · rw [example_writing.1]
    intro r hr
    simpa using hr
  · rw [h0]
    exact .cons (s' := (1 : Nat)) (by rfl) (.cons (s' := (2 : Nat)) (by rfl) (.nil _))
  · exact .cons (by unfold OutputBytes; decide +kernel) (.cons (by unfold OutputBytes; decide +kernel) .nil)
  · intro before after e
    exfalso
    have := hsteps .signalEnd (by rw [e]; simp)
    simp at this
  · intro size hs
    have := hsteps _ hs
    simp only [DecoderCall.getOutput.injEq, reduceCtorEq, exists_false, false_or] at this
    subst this
    simp
  · simp

end Iamf.Props
