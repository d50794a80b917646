import Verif.Props.RoundTrip
import Verif.Props.EncoderExamples
import Verif.Props.PipelineExamples
/-
  C48: a concrete encoder and its use that meet the hypotheses.
-/
namespace Iamf.Props
open Iamf

/-- The first and the last sample are to be trimmed. -/
def exampleRecorder : EncoderSetup lpcmEncoders exampleParts FileOutput :=
  { exampleSetup [] with metadata := [⟨3, [.l2, .r2], 1, 1, false, true⟩] }

/-- A block of three samples, and one of two; a frame has two samples. -/
def exampleTurns : List Turn :=
  [⟨fun l => if l = .l2 then [1 / 32768, 2 / 32768, 3 / 32768] else [-1 / 32768, -2 / 32768, -3 / 32768], exampleRank, [1, 2, 3]⟩]

def exampleEnd : Label → Samples := fun l => if l = .l2 then [4 / 32768, 5 / 32768] else [-4 / 32768, -5 / 32768]

/-- What the file holds after the descriptors: three temporal units, of which the first is trimmed at its start, and the last at its end, by the sample that
fills it up, and the last one given. -/
def exampleRecorded : List UInt8 :=
  [32, 0, 90, 10, 0, 1, 1, 0, 255, 255, 2, 0, 254, 255, 32, 0, 88, 8, 3, 0, 253, 255, 4, 0, 252, 255, 32, 0, 90, 10, 2, 0, 5, 0, 251, 255, 0, 0, 0, 0]

theorem example_final : BuiltSequence (withMixes exampleRecorder.descriptors exampleUpdated.mixes) := by
  obtain ⟨h1, h2, h3, h4, h5, h6, -, h8⟩ := example_built
  refine ⟨h1, h2, h3, h4, h5, h6, ?_, h8⟩
  intro m hm
  replace hm : m ∈ exampleUpdated.mixes := hm
  simp only [exampleUpdated, List.mem_singleton] at hm
  subst hm
  refine ⟨⟨rfl, rfl, rfl⟩, ?_, by decide, by decide, by simp, ?_⟩
  · intro s hs
    simp only [List.mem_singleton] at hs
    subst hs
    refine ⟨⟨by simp, _, rfl⟩, fun e he => ?_⟩
    simp only [List.mem_singleton] at he
    subst he
    exact ⟨⟨by simp, _, rfl⟩, fun p hp => by simp at hp, fun x hx => by simp at hx⟩
  · intro s hs e he
    simp only [List.mem_singleton] at hs
    subst hs
    simp only [List.mem_singleton] at he
    subst he
    show (3 : UInt32) ∈ exampleRecorder.descriptors.elements.map Prod.fst
    decide

/-- What is in the file. -/
def exampleFinished : Descriptors := { examplePlayable with mixes := exampleUpdated.mixes.map (·.body) }

private theorem example_outcome : (exampleOutcome exampleRecorder (encoderLoop 3 [.l2, .r2] exampleTurns (some exampleEnd) [(exampleRank, []), (exampleRank, [])])).map
    (fun x => (x.files, x.generating)) = some ([some (exampleFinal ++ exampleRecorded)], false) := by decide +kernel

/-- **C48**, for the example: the second to the fourth sample of both channels come out, of 16 bits. -/
example : ∃ file, file = exampleFinal ++ exampleRecorded ∧ ∀ (cs : List DecoderCall) (pv : Bool), fedBytes cs = file → EndsLast cs →
    (∀ size, .getOutput size ∈ cs → 8 ≤ size) → ∀ rounds size : Nat, file.length + 2 ≤ rounds → 8 ≤ size →
    AllOk (decoding (standardBackend exampleDecibels exampleEnv exampleCodecs ⟨true, true⟩) exampleSettings pv (cs ++ finish rounds size)).1 ∧
    DeliveredUnit 16 1 [.l2, .r2] (fun l => (soundIn exampleTurns (some exampleEnd) l).map normalizedToInt32) 1 3
      (given (decoding (standardBackend exampleDecibels exampleEnv exampleCodecs ⟨true, true⟩) exampleSettings pv (cs ++ finish rounds size)).1).flatten := by
  obtain ⟨e0, e, answers, h0, h1, h2, h3⟩ : ∃ e0 e answers, exampleRecorder.create fileSink = .ok e0 ∧
      e0.calls fileSink (fun _ => 1) (encoderLoop 3 [.l2, .r2] exampleTurns (some exampleEnd) [(exampleRank, []), (exampleRank, [])]) = .ok (answers, e) ∧
      e.generating = false ∧ e.others.map (fun q => q.sink.disk) = [some (exampleFinal ++ exampleRecorded)] := by
    have h := example_outcome
    unfold exampleOutcome at h
    obtain ⟨c0, hc0⟩ : ∃ x, exampleRecorder.create fileSink = x := ⟨_, rfl⟩
    rw [hc0] at h
    cases c0 with
    | error _ => cases h
    | ok e0 =>
      simp only at h
      obtain ⟨c1, hc1⟩ : ∃ x, e0.calls fileSink (fun _ => 1) (encoderLoop 3 [.l2, .r2] exampleTurns (some exampleEnd) [(exampleRank, []), (exampleRank, [])]) = x := ⟨_, rfl⟩
      rw [hc1] at h
      cases c1 with
      | error _ => cases h
      | ok y =>
        obtain ⟨answers, e⟩ := y
        simp only [Option.map_some, Option.some.injEq, Prod.mk.injEq] at h
        exact ⟨e0, e, answers, hc0, hc1, h.2, h.1⟩
  obtain ⟨p0, hi, hlay⟩ : ∃ p0 : Processor (standardBackend exampleDecibels exampleEnv exampleCodecs ⟨true, true⟩),
      initAll exampleSettings exampleFinished = .ok p0 ∧ p0.layout = ⟨2, .soundSystem 0 0⟩ := ⟨_, rfl, rfl⟩
  obtain ⟨file, k1, k2⟩ := C48_what_goes_in_comes_out exampleDecibels (by decide +kernel) exampleEnv example_env exampleCodecs (fun _ => 1) exampleRecorder 3
    ⟨⟨1, false, false, 0, 0, none⟩, ⟨exampleElement, some exampleCodec, ⟨[(5, [.l2, .r2])], [], [⟨2, 0, 0, 0⟩]⟩⟩, []⟩ [.l2, .r2] 1 1 true exampleFile
    ⟨rfl, rfl, rfl, ⟨by simp, by decide⟩, rfl, fun a ha => (by cases ha), rfl, rfl, rfl⟩ exampleTurns (some exampleEnd) [(exampleRank, []), (exampleRank, [])] (by simp)
    e0 e answers h0 h1 h2 exampleUpdated.mixes rfl example_final exampleFinished
    ⟨rfl, .refl _, .refl _, rfl, by simp [exampleFinished, examplePlayable], by simp [exampleFinished, examplePlayable]⟩ 2 (by decide)
    ⟨example_playable.streams, example_playable.frameSize, example_playable.labels, example_playable.layers, example_playable.defaults⟩ _ rfl exampleCodec
    ⟨1, 16, 48000⟩ [.l2, .r2] ⟨rfl, rfl, rfl, 0, _, rfl, rfl⟩ ⟨.inr rfl, .inl rfl, by decide⟩ (by
      intro m hm s hs
      simp only [exampleFinished, exampleUpdated, List.map_cons, List.map_nil, List.mem_singleton] at hm
      subst hm
      simp only [List.mem_singleton] at hs
      subst hs
      exact ⟨_, rfl, rfl, ⟨rfl, rfl⟩, rfl, rfl⟩) ⟨by
        intro t ht
        simp only [exampleTurns, List.mem_singleton] at ht
        subst ht
        exact ⟨3, by decide, by decide +kernel⟩, by
        intro b hb
        cases hb
        exact ⟨2, by decide, by decide +kernel⟩, nofun, by simp⟩ nofun (by decide) 5 (by decide +kernel) exampleSettings rfl (.inl rfl) p0 hi 0 0 hlay
    (by decide +kernel)
  rw [h3] at k1
  simp only [List.cons.injEq, Option.some.injEq, and_true] at k1
  subst k1
  exact ⟨_, rfl, fun cs pv a1 a2 a3 rounds size a4 a5 => k2 (by decide +kernel) cs pv a1 a2 a3 rounds size a4 a5⟩

end Iamf.Props
