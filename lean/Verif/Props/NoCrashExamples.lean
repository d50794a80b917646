import Verif.Props.NoCrash
import Verif.Props.PipelineExamples
import Verif.Props.ContainedExamples
/-
  C52, for examples: a file that is cut and continued with garbage; and why the order of the channels matters (F49).
-/
namespace Iamf.Props
open Iamf

private abbrev backend : Backend := standardBackend exampleDecibels exampleEnv exampleCodecs ⟨true, true⟩

private def failure {α : Type} : Except Err α → Option Err
  | .error e => some e
  | .ok _ => none

private theorem mild : MildCodecs exampleCodecs := by
  constructor
  all_goals intros
  all_goals simp_all [exampleCodecs]
  all_goals (subst_vars; rfl)

/-- The hypotheses are met, and the theorem covers histories with garbage, ends, resets and other mixes; here the decoder has read the
descriptors and a unit is available before the garbage comes. -/
example (garbage : List UInt8) : PlainSettings exampleSettings ∧
    (afterCalls (Decoder.create exampleSettings true : Decoder backend) [.call (.decode exampleSpeechFile), .call (.decode [])]).isUnitAvailable = true ∧
    AllReturn (afterCalls (Decoder.create exampleSettings true : Decoder backend)
      [.call (.decode exampleSpeechFile), .call (.decode []), .call (.decode garbage), .call (.getOutput 3), .call .signalEnd, .reset true,
        .newMix false (some 7) (some (.soundSystem 9))]) := by
  have hs : PlainSettings exampleSettings := ⟨by decide, ⟨none, rfl⟩, rfl⟩
  exact ⟨hs, by decide +kernel, C52_the_decoder_never_crashes example_env mild exampleSettings hs _ (.inl ⟨true, rfl⟩) _⟩

/-- Settings that ask for 7.1.4 in the order that Android has. -/
def exampleAndroidTop : DecoderSettings := ⟨[0], none, some ⟨2, .soundSystem 9 0⟩, true, 1⟩

/-- **C52 (why the order is excluded, F49).** With the order of Android a file of a delimiter, a parameter block and another delimiter after the
descriptors makes the decoder abort. -/
theorem C52_android_order_can_crash :
    ∃ bytes, ¬ AllReturn (afterCalls (Decoder.create exampleAndroidTop true : Decoder backend) [.call (.decode bytes)]) := by
  refine ⟨exampleBytes ++ [32, 0] ++ [24, 6, 8, 2, 2, 0, 0, 5] ++ [32, 0], fun h => ?_⟩
  have hk : failure ((afterCalls (Decoder.create exampleAndroidTop true : Decoder backend)
    [.call (.decode (exampleBytes ++ [32, 0] ++ [24, 6, 8, 2, 2, 0, 0, 5] ++ [32, 0]))]).decode []).1 = some .abort := by decide +kernel
  have := h.decode []
  generalize ((afterCalls (Decoder.create exampleAndroidTop true : Decoder backend)
    [.call (.decode (exampleBytes ++ [32, 0] ++ [24, 6, 8, 2, 2, 0, 0, 5] ++ [32, 0]))]).decode []).1 = x at hk this
  cases x with
  | ok a => cases hk
  | error e => cases hk; exact (this _ rfl).1 rfl

/-- Without that order the same file does no harm. -/
example : failure ((afterCalls (Decoder.create { exampleAndroidTop with android := false } true : Decoder backend)
    [.call (.decode (exampleBytes ++ [32, 0] ++ [24, 6, 8, 2, 2, 0, 0, 5] ++ [32, 0]))]).decode []).1 = none := by decide +kernel

end Iamf.Props
